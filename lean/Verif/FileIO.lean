import Verif.Ops
/-!
# File descriptors and binary file handles

`FakeFileWrapper` in binary mode, the table of open files, `FakeFileOpen` and the descriptor functions
of `FakeOsModule`.  Not modelled: text mode, pipes, `O_TMPFILE`, side effects.
-/

namespace Verif
open Py

/-! ## `io.BytesIO` (standard library) -/

namespace Bio

/-- `write(b)` at a position: a gap is filled with zero bytes; writing nothing does nothing. -/
def write (buf : Bytes) (pos : Nat) (b : Bytes) : Bytes :=
  if b = [] then buf
  else (buf ++ List.replicate (pos - buf.length) 0).take pos ++ b ++ buf.drop (pos + b.length)

/-- `read(n)`; `none` (or a negative number) reads everything. -/
def read (buf : Bytes) (pos : Nat) (n : Option Nat) : Bytes :=
  match n with
  | none => buf.drop pos
  | some n => (buf.drop pos).take n

/-- `seek(offset, whence)`: the new position, or `none` for ValueError. -/
def seek (buf : Bytes) (pos : Nat) (off : Int) (whence : Nat) : Option Nat :=
  match whence with
  | 0 => if off < 0 then none else some off.toNat
  | 1 => some (pos + off).toNat
  | 2 => some (buf.length + off).toNat
  | _ => none

end Bio

/-! ## The table of open files -/

/-- The smallest element of a non-empty list (`heap[0]`). -/
def minFd : List Nat → Option Nat
  | [] => none
  | x :: xs => match minFd xs with | none => some x | some y => some (if x ≤ y then x else y)

/-- `_add_open_file` (fake_filesystem.py 1302-1320): the smallest free descriptor, else a new one.
`heapq` is modelled by its contract: `heappop` removes the smallest element. -/
def addOpenFile (h : Nat) : M Nat := fun s =>
  match minFd s.freeFds with
  | some fd => (.ok fd, { s with freeFds := s.freeFds.erase fd, openFiles := s.openFiles.set fd (some [h]) })
  | none => (.ok s.openFiles.length, { s with openFiles := s.openFiles ++ [some [h]] })

/-- `_close_open_file` (fake_filesystem.py 1322-1333). -/
def closeOpenFile (fd : Nat) : M Unit := M.modify fun s =>
  { s with openFiles := s.openFiles.set fd none, freeFds := fd :: s.freeFds }

/-- `get_open_file` (fake_filesystem.py 1335-1353): Python indexes from the end for negative numbers,
which the test `file_des >= len(open_files)` lets through. -/
def FS.getOpen (s : FS) (fd : Int) : Except Err Nat :=
  if fd ≥ s.openFiles.length then .error (.os .EBADF)
  else
    let i := if fd < 0 then fd + s.openFiles.length else fd
    if i < 0 then .error .indexError
    else match s.openFiles[i.toNat]? with
      | some (some (h :: _)) => .ok h
      | some (some []) => .error .indexError
      | some none => .error (.os .EBADF)
      | none => .error .indexError

/-! ## FakeFileWrapper -/

/-- change one handle -/
def FS.setH (s : FS) (h : Nat) (f : Handle → Handle) : FS := { s with handles := upd s.handles h (f (s.handles h)) }

def hget (h : Nat) : M Handle := fun s => (.ok (s.handles h), s)
def hmod (h : Nat) (f : Handle → Handle) : M Unit := M.modify fun s => s.setH h f

/-- `byte_contents` of a file object (fake_filesystem.py 302-305, 561-563). -/
def FS.byteContents (s : FS) (r : Ref) : Option Bytes :=
  if r = devNullRef then some []
  else match (s.heap r).content with | .file b => b | .dir _ => none

/-- `is_large_file` (fake_filesystem.py 374-377). -/
def FS.isLarge (s : FS) (r : Ref) : Bool := match (s.heap r).content with | .file none => true | _ => false

/-- `_is_open` (fake_filesystem.py 5053-5056). -/
def FS.isOpen (s : FS) (h : Nat) : Bool :=
  match s.openFiles[(s.handles h).fd]? with
  | some (some l) => l.contains h
  | _ => false

/-- `_check_open_file` (fake_filesystem.py 5058-5060). -/
def checkOpen (h : Nat) : M Unit := fun s => if s.isOpen h then (.ok (), s) else (.error .valueError, s)

/-- `_set_stream_contents` (fake_filesystem.py 4827-4833); `None` cannot be written (TypeError). -/
def setStream (h : Nat) (b : Option Bytes) : M Unit :=
  match b with
  | none => do
    hmod h fun H => { H with buf := [], pos := 0 }
    M.throw .typeError
  | some b => hmod h fun H => { H with buf := b, pos := if H.append then b.length else H.pos }

/-- `_sync_io` (fake_filesystem.py 4818-4825). -/
def syncIo (h : Nat) : M Unit := do
  let s ← M.get
  let H := s.handles h
  if H.fileEpoch = (s.heap H.obj).epoch then M.pure ()
  else do
    setStream h (s.byteContents H.obj)
    M.modify fun s => s.setH h fun H => { H with fileEpoch := (s.heap H.obj).epoch }

/-- The wrappers of descriptors ≥ 3, in the order of the table. -/
def FS.openHandles (s : FS) : List Nat := (s.openFiles.drop 3).flatMap fun e => e.getD []

/-- the loop of `_flush_related_files` -/
def syncAll (h : Nat) (r : Ref) : List Nat → M Unit
  | [] => M.pure ()
  | g :: gs => do
    let G ← hget g
    if g ≠ h ∧ G.kind = .file ∧ G.obj = r ∧ G.append = false then syncIo g
    syncAll h r gs

/-- `_flush_related_files` (fake_filesystem.py 4778-4785). -/
def flushRelated (h : Nat) : M Unit := do
  let s ← M.get
  syncAll h (s.handles h).obj s.openHandles

/-- the contents written by `flush` (fake_filesystem.py 4754-4761) -/
def flushContents (h : Nat) : M Bytes := do
  let H ← hget h
  if H.append then do
    syncIo h
    let s ← M.get
    match s.byteContents H.obj with
    | none => M.throw .typeError
    | some old => do
      let c := old ++ H.buf.drop H.flushPos
      setStream h (some c)
      M.pure c
  else M.pure H.buf

/-- the part of `flush` after the contents are known (fake_filesystem.py 4762-4773) -/
def flushStore (h : Nat) (c : Bytes) : M Unit := do
  hmod h fun H => { H with flushPos := H.pos }
  let H ← hget h
  let changed ← setContents H.obj c
  let s ← M.get
  if changed then
    if s.cfg.isWin then hmod h fun H => { H with changed := true }
    else M.modify fun s => s.setObj H.obj fun o => { o with ctime := s.clock, mtime := s.clock }
  M.modify fun s => s.setH h fun H => { H with fileEpoch := (s.heap H.obj).epoch }
  flushRelated h

/-- `flush` (fake_filesystem.py 4750-4773). -/
def flush (h : Nat) : M Unit := do
  checkOpen h
  let H ← hget h
  if H.update then do
    let c ← flushContents h
    flushStore h c
  else M.pure ()

/-- `seek` (fake_filesystem.py 4787-4796). -/
def seek (h : Nat) (off : Int) (whence : Nat := 0) : M Unit := do
  checkOpen h
  let H ← hget h
  if H.append then hmod h fun H => { H with readSeek := off, readWhence := whence }
  else match Bio.seek H.buf H.pos off whence with
    | none => M.throw .valueError
    | some p => hmod h fun H => { H with pos := p }
  flush h

/-- `tell` (fake_filesystem.py 4798-4816). -/
def tell (h : Nat) : M Int := do
  checkOpen h
  flush h
  let H ← hget h
  if H.append = false then M.pure H.pos
  else if H.readWhence = 0 then M.pure H.readSeek
  else match Bio.seek H.buf H.pos H.readSeek H.readWhence with
    | none => M.throw .valueError
    | some p => do
      hmod h fun H => { H with readSeek := p, readWhence := 0 }
      M.pure p

/-- `_raise` (fake_filesystem.py 4701-4704). -/
def hRaise {α : Type} (h : Nat) : M α := do
  let H ← hget h
  if H.rawIo then M.raise .EBADF else M.throw .unsupported

/-- `read(n)`: attribute lookup (fake_filesystem.py 4999-5030) and call of the stream method or of the
read wrapper (4849-4867); `_read_error` (5032-5040). -/
def read (h : Nat) (n : Option Nat) : M Bytes := do
  let s ← M.get
  let H := s.handles h
  if s.isLarge H.obj then M.throw .largeFile
  checkOpen h
  if H.read = false then
    if n = some 0 ∧ s.cfg.isWin ∧ H.rawIo then M.pure [] else hRaise h
  else do
    syncIo h
    flush h
    if !s.cfg.isWin then M.modify fun s => s.setObj H.obj fun o => { o with atime := s.clock }
    let H ← hget h
    if H.append then
      match Bio.seek H.buf H.pos H.readSeek H.readWhence with
      | none => M.throw .valueError
      | some p => do
        let r := Bio.read H.buf p n
        hmod h fun H => { H with readSeek := (p + r.length : Nat), readWhence := 0, pos := H.buf.length }
        M.pure r
    else do
      let r := Bio.read H.buf H.pos n
      hmod h fun H => { H with pos := H.pos + r.length }
      M.pure r

/-- the stream's own `write` -/
def rawWrite (h : Nat) (b : Bytes) : M Unit :=
  hmod h fun H => { H with buf := Bio.write H.buf H.pos b, pos := H.pos + b.length }

/-- `_try_flush` (fake_filesystem.py 4738-4748). -/
def tryFlush (h : Nat) (oldPos : Nat) : M Unit := do
  let H ← hget h
  catchOS (flush h) fun e => do
    hmod h fun G => { G with buf := G.buf.take oldPos, pos := oldPos, flushPos := H.flushPos }
    M.throw e

/-- The write wrapper (fake_filesystem.py 4917-4952). -/
def writeWrapper (h : Nat) (b : Bytes) : M Nat := do
  let H ← hget h
  let oldPos := H.pos
  rawWrite h b
  let newPos := oldPos + b.length
  if (newPos : Int) - H.flushPos > H.bufferSize then
    let flushAll := decide (b.length > H.bufferSize)
    if !flushAll then hmod h fun H => { H with buf := H.buf.take oldPos, pos := oldPos }
    tryFlush h oldPos
    if !flushAll then rawWrite h b
  if H.append then hmod h fun H => { H with readSeek := H.pos, readWhence := 0 }
  M.pure b.length

/-- `write(b)`: attribute lookup (fake_filesystem.py 4999-5030), `_write_error` (5042-5051) and the write
wrapper. -/
def write (h : Nat) (b : Bytes) : M Nat := do
  let s ← M.get
  let H := s.handles h
  if s.isLarge H.obj then M.throw .largeFile
  checkOpen h
  if H.update = false then
    if H.rawIo ∧ s.cfg.isWin ∧ b = [] then M.pure 0 else hRaise h
  else writeWrapper h b

/-- `_adapt_size_for_related_files` (fake_filesystem.py 4956-4963). -/
def adaptSize (h : Nat) (n : Nat) : M Unit := M.modify fun s =>
  s.openHandles.foldl (fun s' g =>
    if g ≠ h ∧ (s'.handles g).kind = .file ∧ (s'.handles g).obj = (s'.handles h).obj ∧ (s'.handles g).append then
      s'.setH g fun G => { G with readSeek := G.readSeek + n }
    else s') s

/-- The truncate wrapper (fake_filesystem.py 4973-4991). -/
def truncateWrapper (h : Nat) (size : Option Nat) : M Nat := do
  let H ← hget h
  if H.append then
    match Bio.seek H.buf H.pos H.readSeek H.readWhence with
    | none => M.throw .valueError
    | some p => hmod h fun H => { H with pos := p }
  let H ← hget h
  let n := size.getD H.pos
  hmod h fun H => { H with buf := H.buf.take n }
  flush h
  setSize H.obj n
  let H ← hget h
  let len := H.buf.length
  if len < n then do
    let b := H.buf ++ List.replicate (n - len) 0
    hmod h fun H => { H with buf := b, pos := n }
    let _ ← setContents H.obj b
    hmod h fun H => { H with flushPos := n }
    adaptSize h (n - len)
  flush h
  M.pure n

/-- `truncate(size)` of a handle (fake_filesystem.py 4999-5030). With an integer argument `_write_error`
on a raw Windows handle fails in `len(args[0])` (TypeError). -/
def hTruncate (h : Nat) (size : Option Nat) : M Nat := do
  let s ← M.get
  let H := s.handles h
  if s.isLarge H.obj then M.throw .largeFile
  checkOpen h
  if H.update = false then
    if H.rawIo ∧ s.cfg.isWin ∧ size.isSome then M.throw .typeError else hRaise h
  else truncateWrapper h size

/-- `close` (fake_filesystem.py 4715-4731; 5088-5090 for standard streams; 5115-5117 for directories). -/
def hClose (h : Nat) : M Unit := do
  let s ← M.get
  let H := s.handles h
  match H.kind with
  | .std => M.pure ()
  | .dir => closeOpenFile H.fd
  | .file =>
    if !s.isOpen h then M.pure () else do
    if H.update ∧ H.rawIo = false then
      flush h
      let s ← M.get
      if s.cfg.isWin ∧ (s.handles h).changed then
        M.modify fun s => s.setObj H.obj fun o => { o with mtime := s.clock }
    if H.closefd then closeOpenFile H.fd
    else M.modify fun s => { s with openFiles := s.openFiles.modify H.fd fun e => e.map fun l => l.erase h }
    if H.deleteOnClose then do
      let s ← M.get
      removeObject (s.objPath H.obj)

/-! ## Opening -/

/-- `_OpenModes` (fake_filesystem.py 130-133). -/
structure OpenModes where
  mustExist : Bool
  canRead : Bool
  canWrite : Bool
  truncate : Bool
  append : Bool
  mustNotExist : Bool
  deriving DecidableEq, Repr

/-- `_OPEN_MODE_MAP` (fake_filesystem.py 135-146). -/
def openModeMap : Str → Option OpenModes
  | ['r'] => some ⟨true, true, false, false, false, false⟩
  | ['w'] => some ⟨false, false, true, true, false, false⟩
  | ['a'] => some ⟨false, false, true, false, true, false⟩
  | ['r', '+'] => some ⟨true, true, true, false, false, false⟩
  | ['w', '+'] => some ⟨false, true, true, true, false, false⟩
  | ['a', '+'] => some ⟨false, true, true, false, true, false⟩
  | ['x'] => some ⟨false, false, true, false, false, true⟩
  | ['x', '+'] => some ⟨false, true, true, false, false, true⟩
  | _ => none

/-- `mode.replace('rU', 'r')`. -/
def replaceRU : Str → Str
  | 'r' :: 'U' :: r => 'r' :: replaceRU r
  | c :: r => c :: replaceRU r
  | [] => []

/-- `_handle_file_mode` (fake_filesystem.py 5348-5359) for a binary mode string; `none`: ValueError. -/
def parseMode (m : Str) : Option OpenModes :=
  if 'b' ∈ m ∧ 't' ∈ m then none
  else openModeMap (replaceC 'U' 'r' (replaceRU (m.filter fun c => c ≠ 't' ∧ c ≠ 'b')))

/-- allocate a handle -/
def newHandle (H : Handle) : M Nat := fun s =>
  (.ok s.hnext, { s with handles := upd s.handles s.hnext H, hnext := s.hnext + 1 })

/-- `FakeFileWrapper.__init__` (fake_filesystem.py 4642-4691), binary mode; `bufferSize` is
`io.DEFAULT_BUFFER_SIZE` (8192) or the `buffering` argument. -/
def mkHandle (s : FS) (r : Ref) (md : OpenModes) (buffering : Option Nat) (closefd rawIo del : Bool)
    (fd : Nat) : Handle :=
  let c := (s.byteContents r).getD []
  let atEnd := md.canWrite && md.append
  { kind := .file, obj := r, append := md.append, read := md.canRead, update := md.canWrite,
    rawIo := rawIo, closefd := closefd, deleteOnClose := del, bufferSize := buffering.getD 8192,
    buf := c, pos := if atEnd then c.length else 0, flushPos := c.length,
    readSeek := if atEnd then c.length else 0, readWhence := 0,
    fileEpoch := (s.heap r).epoch, changed := false, fd := fd }

/-- `_init_file_object` (fake_filesystem.py 5290-5319). -/
def initFileObject (obj : Option Ref) (p real : Str) (md : OpenModes) : M Ref :=
  match obj with
  | some r => do
    let s ← M.get
    if !s.isRoot && ((md.canRead && (s.heap r).mode &&& PERM_READ == 0) ||
        (md.canWrite && (s.heap r).mode &&& PERM_WRITE == 0)) then M.raise .EACCES
    if md.canWrite && md.truncate then
      let _ ← setContents r []
    M.pure r
  | none => do
    if md.mustExist then M.raise .ENOENT
    let target ← if ← rd (·.isLink p) then do
        let l ← rd (·.resolve p false)
        let s ← M.get
        M.pure (s.linkTarget (s.heap l))
      else M.pure p
    let s ← M.get
    if s.cfg.endsWithSep target then
      M.raise (if s.cfg.isWin then .EINVAL else if s.cfg.isMac then .ENOENT else .EISDIR)
    createFileI real (S_IFREG ||| PERM_DEF_FILE) (some []) none false true

/-- The part of `FakeFileOpen.call` after `_handle_file_arg` and up to the wrapper
(fake_filesystem.py 5244-5265). -/
def openObject (obj : Option Ref) (p real : Str) (md : OpenModes) : M Ref := do
  if md.mustNotExist then
    let ex ← if obj.isSome then M.pure true else do
      let s ← M.get
      let l ← rd (·.isLink p)
      M.pure (l && !s.cfg.isWin)
    if ex then M.raise .EEXIST
  let r ← initFileObject obj p real md
  let s ← M.get
  if (s.heap r).isDirMode then M.raise (if s.cfg.isWin then .EACCES else .EISDIR)
  if md.truncate then
    M.modify fun s => s.setObj r fun o =>
      { o with mtime := s.clock, ctime := if s.cfg.isWin then o.ctime else s.clock }
  M.pure r

/-- `_handle_file_arg` for a path (fake_filesystem.py 5334-5346): the existing object, if any, and the
resolved path. -/
def FS.fileArg (s : FS) (p : Str) : Except Err (Option Ref × Str) :=
  if p = s.devName then .ok (some devNullRef, p) else do
    let real ← s.resolvePath p
    if ← s.exists_ p then do
      let r ← s.getObjNormG s.rc real false
      .ok (some r, real)
    else .ok (none, real)

/-- `open(path, mode, buffering)` in binary mode: `FakeFileOpen.call` with a path
(fake_filesystem.py 5190-5288); returns the handle. -/
def openPath (p : Str) (md : OpenModes) (buffering : Option Nat) (rawIo del : Bool) : M Nat := do
  let a ← rd (·.fileArg p)
  let r ← openObject a.1 p a.2 md
  let s ← M.get
  if (s.heap r).isDir then M.throw .typeError
  let h ← newHandle (mkHandle s r md buffering true rawIo del 0)
  let fd ← addOpenFile h
  hmod h fun H => { H with fd := fd }
  M.pure h

/-- `open(fd, mode, buffering, closefd=…)`/`os.fdopen` in binary mode (fake_filesystem.py 5190-5288,
5321-5333; 3580-3596) for a non-negative descriptor. -/
def openFd (fd : Nat) (md : OpenModes) (buffering : Option Nat) (closefd : Bool) : M Nat := do
  let w ← rd (·.getOpen fd)
  let W ← hget w
  if W.kind ≠ .file then M.throw .attributeError
  let s ← M.get
  let nm := (s.heap W.obj).name
  let r ← openObject (some W.obj) nm nm md
  let s ← M.get
  let h ← newHandle (mkHandle s r md buffering (closefd || fd == 0) false W.deleteOnClose fd)
  M.modify fun s => { s with openFiles := s.openFiles.modify fd fun e => e.map fun l => l ++ [h] }
  M.pure h

/-- The modelled `os.open` flags. -/
structure OFlags where
  wronly : Bool
  rdwr : Bool
  creat : Bool
  excl : Bool
  trunc : Bool
  append : Bool

/-- `_OpenModes` for `os.open` flags (fake_filesystem.py 3643-3650). -/
def OFlags.modes (f : OFlags) : OpenModes :=
  { mustExist := !f.creat, canRead := !f.wronly, canWrite := f.rdwr || f.wronly, truncate := f.trunc,
    append := f.append, mustNotExist := f.excl }

/-- the directory opened by `os.open`, if the path is one (fake_filesystem.py 3661-3665) -/
def FS.openDirArg (s : FS) (p : Str) : Except Err (Option Ref) :=
  if s.cfg.isWin then .ok none
  else do
    if ← s.exists_ p then do
      let r ← s.resolve p
      .ok (if (s.heap r).isDir then some r else none)
    else .ok none

/-- `os.open` (fake_filesystem.py 3614-3686) with an explicit mode; returns the descriptor. -/
def osOpen (p : Str) (f : OFlags) (mode : Nat) : M Nat := do
  let md := f.modes
  if md.mustNotExist && md.mustExist then M.throw .notImplemented
  let s ← M.get
  match ← rd (·.openDirArg p) with
  | some r => do
    if (!md.mustExist && !s.cfg.isMac) || md.canWrite then M.raise .EISDIR
    let h ← newHandle { mkHandle s r md none true true false 0 with kind := .dir, buf := [], pos := 0 }
    let fd ← addOpenFile h
    hmod h fun H => { H with fd := fd }
    M.pure fd
  | none => do
    let h ← openPath p md none true false
    let H ← hget h
    if H.obj ≠ devNullRef then chmod p mode
    M.pure H.fd

/-- `os.close` (fake_filesystem.py 3688-3699). -/
def osClose (fd : Int) : M Unit := do
  let h ← rd (·.getOpen fd)
  hClose h

/-- `os.read` (fake_filesystem.py 3701-3717). Standard streams and directories have no `read`. -/
def osRead (fd : Int) (n : Nat) : M Bytes := do
  let h ← rd (·.getOpen fd)
  let H ← hget h
  if H.kind ≠ .file then M.throw .attributeError
  hmod h fun H => { H with rawIo := true }
  read h (some n)

/-- `os.write` (fake_filesystem.py 3719-3745). -/
def osWrite (fd : Int) (b : Bytes) : M Nat := do
  let h ← rd (·.getOpen fd)
  let H ← hget h
  if H.kind = .dir then M.raise .EBADF
  if H.kind = .std then M.throw .attributeError
  hmod h fun H => { H with rawIo := true }
  syncIo h
  hmod h fun H => { H with flushPos := H.pos }
  let _ ← write h b
  flush h
  M.pure b.length

/-- `os.fstat` (fake_filesystem.py 3771-3785). Standard streams have no `stat_result`. -/
def FS.fstat (s : FS) (fd : Int) : Except Err Stat := do
  let h ← s.getOpen fd
  if (s.handles h).kind = .std then .error .attributeError else .ok (s.statOf (s.handles h).obj)

/-- `os.ftruncate` (fake_filesystem.py 4270-4283). Standard streams are real objects (their `size`
attribute is not modelled: AttributeError). -/
def ftruncate (fd : Int) (n : Nat) : M Unit := do
  let h ← rd (·.getOpen fd)
  let H ← hget h
  if H.kind = .std then M.throw .attributeError
  setSize H.obj n

end Verif
