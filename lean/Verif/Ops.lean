import Verif.Lookup
/-!
# Operations of FakeFilesystem and FakeOsModule that change the tree

`M.ofRead` evaluates a lookup in the current state.  Only `str` paths (no descriptors) here.
-/

namespace Verif
open Py

/-- Lookup in the current state. -/
abbrev rd {α : Type} (f : FS → Except Err α) : M α := M.ofRead f

/-- Handler for `except OSError`. -/
def catchOS {α : Type} (m : M α) (h : Err → M α) : M α :=
  M.tryCatch m fun e => if e.isOS then h e else M.throw e

/-! ## Mount points -/

/-- The search in `_mount_point_for_path` (fake_filesystem.py 1070-1083) for an absolute path;
returns the device number of the mount point. Prefixes are compared as strings. -/
def FS.findMount (s : FS) (p : Str) : Option Nat :=
  match s.mounts.find? (fun m => m.path == p) with
  | some m => some m.idev
  | none =>
    let drive := (s.cfg.splitdrive p).1
    let best := s.mounts.foldl (fun (acc : Str × Option Nat) m =>
      if drive.isPrefixOf m.path && m.path.isPrefixOf p && decide (acc.1.length < m.path.length) then
        (m.path, some m.idev) else acc) ([], none)
    best.2

/-- The component loop of `create_dir` (fake_filesystem.py 2338-2351).
Returns the last directory and the directories created. -/
def createDirLoop : Ref → List Str → List Ref → M (Ref × List Ref)
  | cur, [], news => M.pure (cur, news)
  | cur, c :: cs, news => do
    let s ← M.get
    match s.dirContent cur c with
    | none => do
      let d ← newObj (mkDirObj c PERM_DEF)
      addEntry cur d
      createDirLoop d cs (news ++ [d])
    | some (_, r) => do
      let r ← if (s.heap r).isLnk then rd (fun s => s.resolve (s.linkTarget (s.heap r))) else M.pure r
      let s ← M.get
      if (s.heap r).mode &&& S_IFDIR ≠ S_IFDIR then M.raise .ENOTDIR
      else createDirLoop r cs news

/-- `create_dir` (fake_filesystem.py 2315-2358); `auto` is `_auto_mount_drive_if_needed`. -/
def createDirG (auto : Str → M Unit) (p : Str) (perm : Nat) : M Ref := do
  let s ← M.get
  let p := s.absnorm (s.cfg.makeStringPath p)
  auto p
  if ← rd (·.existsL p) then M.raise .EEXIST
  let (cur, news) ← createDirLoop rootRef (s.cfg.pathComponents p) []
  M.modify fun s => news.foldl (fun s d => s.setObj d fun o => { o with mode := S_IFDIR ||| perm }) s
  M.pure cur

/-- `add_mount_point` (fake_filesystem.py 1023-1054); returns the device number. -/
def addMountG (auto : Str → M Unit) (p : Str) (total : Option Int) : M Nat := do
  let s ← M.get
  let p := s.absnorm p
  if s.mounts.any (fun m => m.path == p) then M.raise .EEXIST
  let dev := s.lastDev + 1
  M.modify fun s => { s with
    lastDev := dev
    mounts := s.mounts ++ [{ path := p, idev := dev, total := total, used := 0 }] }
  if p = s.cfg.root then
    M.modify fun s => { s with lastIno := s.lastIno + 1 }.setObj rootRef fun o =>
      { o with ino := some (s.lastIno + 1) }
    M.modify fun s => s.setObj rootRef fun o => { o with dev := some dev }
  else
    let r ← createDirG auto p PERM_DEF
    M.modify fun s => s.setObj r fun o => { o with dev := some dev }
  M.pure dev

/-- `_mount_point_for_path` (fake_filesystem.py 1063-1086) with auto-mounting of Windows drives
(1056-1061); fuel: nesting of auto-mounts. -/
def mountForPathF : Nat → Str → M Nat
  | 0, _ => M.throw .recursion
  | n + 1, p => do
    let s ← M.get
    let p := s.absnorm (s.originalPath p)
    match s.findMount p with
    | some dev => M.pure dev
    | none =>
      let drive := (s.cfg.splitdrive p).1
      if s.cfg.isWin && drive ≠ [] then
        addMountG (fun q => if s.cfg.isWin then do let _ ← mountForPathF n q; M.pure () else M.pure ())
          drive none
      else M.throw .assertion

def mountForPath (p : Str) : M Nat := fun s => mountForPathF s.limit p s

/-- `_auto_mount_drive_if_needed(path)` (fake_filesystem.py 1056-1061): `_mount_point_for_path` never
returns a false value, so this only has the effect of that call, on Windows filesystems. -/
def autoMount (p : Str) : M Unit := do
  let s ← M.get
  if s.cfg.isWin then
    let _ ← mountForPath p
    M.pure ()
  else M.pure ()

/-- `create_dir` (fake_filesystem.py 2315-2358). -/
def createDir (p : Str) (perm : Nat := PERM_DEF) : M Ref := createDirG autoMount p perm

/-- `add_mount_point` (fake_filesystem.py 1023-1054). -/
def addMountPoint (p : Str) (total : Option Int) : M Nat := addMountG autoMount p total

/-- `set_disk_usage` (fake_filesystem.py 1117-1137). -/
def setDiskUsage (total : Int) (p : Str) : M Unit := do
  let dev ← mountForPath p
  let s ← M.get
  match s.mounts.find? (fun m => m.idev == dev) with
  | none => M.throw .assertion
  | some m =>
    if m.total.isSome && decide (m.used > total) then M.raise .ENOSPC
    M.modify fun s => { s with mounts := s.mounts.map fun m =>
      if m.idev = dev then { m with total := some total } else m }

/-! ## Creating, removing and linking objects -/

/-- `add_object` (fake_filesystem.py 2098-2116). -/
def addObject (p : Str) (c : Ref) : M Unit := do
  let d ← if p = [] then M.pure rootRef else do
    let d ← rd (·.resolve p)
    let s ← M.get
    if !(s.heap d).isDirMode then M.raise (if s.cfg.isWin then .ENOENT else .ENOTDIR)
    M.pure d
  addEntry d c

/-- `remove_object` (fake_filesystem.py 2286-2307). -/
def removeObject (p : Str) : M Unit := do
  let s ← M.get
  let p := s.absnorm (s.originalPath p)
  if s.cfg.isRootPath p then M.raise .EBUSY
  M.tryCatch (do
    let (dir, base) := s.cfg.splitpath p
    let d ← rd (·.resolve dir true false)
    removeEntry d base true) fun e =>
      match e with
      | .keyError => M.raise .ENOENT
      | .attributeError => M.raise .ENOTDIR
      | e => M.throw e

/-- The second half of `create_file_internally` (fake_filesystem.py 2609-2633): the object `nm` is made, added
to the directory `parent` and gets its contents; if that fails with an OSError the path `p` is removed. -/
def createFileTail (parent nm p : Str) (mode : Nat) (contents : Option Bytes) (size : Option Nat) (applyUmask : Bool) :
    M Ref := do
  let s ← M.get
  let r ← newObj (mkFileObj nm (if applyUmask then andNot mode s.umask else mode) none)
  addObject parent r
  let contents := if size = none ∧ contents = none then some [] else contents
  if contents ≠ none ∨ size ≠ none then
    catchOS (match size with
      | some n => setLargeFileSize r n
      | none => do let _ ← setInitialContents r (contents.getD []); M.pure ())
      fun e => do removeObject p; M.throw e
  M.pure r

/-- The parent directory of a new file (fake_filesystem.py 2593-2607): created if missing and allowed. -/
def fileParent (parent : Str) (createMissing : Bool) : M Str := do
  if !(← rd (·.exists_ parent)) then do
    if !createMissing then M.raise .ENOENT
    let _ ← createDir parent
    M.pure parent
  else do
    let s ← M.get
    M.pure (s.originalPath parent)

/-- `create_file_internally` (fake_filesystem.py 2560-2633) without `read_from_real_fs`.
`contents` are the encoded contents, `size` is `st_size`. -/
def createFileI (p : Str) (mode : Nat) (contents : Option Bytes) (size : Option Nat)
    (createMissing applyUmask : Bool) : M Ref := do
  let s ← M.get
  let p := s.absnorm (s.cfg.makeStringPath p)
  if ← rd (·.existsL p) then M.raise .EEXIST
  let pn := s.cfg.splitpath p
  let parent := if pn.1 = [] then s.cwd else pn.1
  autoMount parent
  let parent ← fileParent parent createMissing
  createFileTail parent pn.2 p mode contents size applyUmask

/-- `create_file` (fake_filesystem.py 2360-2395). -/
def createFile (p : Str) (mode : Nat := S_IFREG ||| PERM_DEF_FILE) (contents : Option Bytes := some [])
    (size : Option Nat := none) (createMissing : Bool := true) (applyUmask : Bool := false) : M Ref :=
  createFileI p mode contents size createMissing applyUmask

/-- `create_symlink` (fake_filesystem.py 2635-2684); `os.symlink(target, p)` is this with
`create_missing_dirs=False` (4437-4451). -/
def createSymlink (p target : Str) (createMissing : Bool := true) : M Ref := do
  let s ← M.get
  let k := s.cfg
  let p := k.normcase (k.makeStringPath p)
  let target := k.makeStringPath target
  if k.endsWithSep p then
    if ← rd (·.exists_ p) then M.raise .EEXIST
    if ← rd (·.exists_ target) then
      if !k.isWin then M.raise .ENOENT
    else
      if k.isWin then M.raise .EINVAL
      if !(← rd (·.existsL (k.stripTrailing p))) then M.raise .ENOENT
      if k.isMac then
        if ← rd (·.existsL p) then removeObject p
      else M.raise .EEXIST
  let p ← if !(← rd (·.isLink p)) then rd (·.resolvePath p) else M.pure p
  createFileI p (S_IFLNK ||| PERM_DEF) (some (k.enc target)) none createMissing false

/-- `create_link` from the tests of the arguments on (fake_filesystem.py 2719-2742). -/
def linkTail (old new parent base : Str) (follow : Bool) : M Ref := do
  let s ← M.get
  let k := s.cfg
  if k.endsWithSep old then M.raise (if k.isWin then .EINVAL else .ENOTDIR)
  if !k.isWin && k.endsWithSep new then M.raise .ENOENT
  let r ← catchOS (rd (·.resolve old follow)) fun _ => M.raise .ENOENT
  let s ← M.get
  if (s.heap r).mode &&& S_IFDIR ≠ 0 then M.raise (if k.isWin then .EACCES else .EPERM)
  M.modify fun s => s.setObj r fun o => { o with name := base }
  addObject parent r
  M.pure r

/-- The parent directory of a new link (fake_filesystem.py 2709-2718). -/
def linkParent (parent : Str) (createMissing : Bool) : M Unit := do
  if !(← rd (·.exists_ parent)) then
    if createMissing then
      let _ ← createDir parent
    else M.raise .ENOENT

/-- `create_link` (fake_filesystem.py 2686-2742). -/
def createLink (old new : Str) (follow : Bool := true) (createMissing : Bool := true) : M Ref := do
  let s ← M.get
  let newN := s.absnorm new
  if ← rd (·.existsL newN) then M.raise .EEXIST
  let pb := s.cfg.splitpath newN
  let parent := if pb.1 = [] then s.cwd else pb.1
  linkParent parent createMissing
  linkTail old new parent pb.2 follow

/-- `link` (fake_filesystem.py 2744-2762), `os.link` (4453-4473). -/
def link (old new : Str) (follow : Bool := true) : M Ref := createLink old new follow false

/-- `_is_circular_link` (fake_filesystem.py 2764-2769). -/
def FS.isCircular (s : FS) (r : Ref) : Except Err Bool :=
  match s.resolvePath (s.linkTarget (s.heap r)) with
  | .ok _ => .ok false
  | .error e => if e.isOS then .ok (e == .os .ELOOP) else .error e

/-- `readlink` (fake_filesystem.py 2771-2806). -/
def FS.readlink (s : FS) (p : Str) : Except Err Str := do
  let r ← s.lresolve p
  if ifmt (s.heap r).mode ≠ S_IFLNK then .error (.os .EINVAL)
  else if s.cfg.endsWithSep p then
    let ex ← if s.cfg.isWin then .ok false else s.exists_ p
    if ex then .error (.os .EINVAL)
    else if !(← s.exists_ (s.objPath r)) then
      if s.cfg.isWin then .error (.os .EINVAL)
      else if ← s.isCircular r then
        if s.cfg.isMac then .ok (s.objPath r) else .error (.os .ELOOP)
      else .error (.os .ENOENT)
    else .ok (s.linkTarget (s.heap r))
  else .ok (s.linkTarget (s.heap r))

/-- The test of the parent directory in `makedir` (fake_filesystem.py 2825-2834). -/
def FS.mkdirParent (s : FS) (p : Str) : Except Err Unit :=
  let k := s.cfg
  let parent := (k.splitpath p).1
  if parent ≠ [] then
    let base := k.normpath parent
    let ell := k.sep :: Cfg.dotdot
    let base := if ell.isSuffixOf parent && !k.isWin then (cutAtFirst ell parent).getD parent else base
    do if !(← s.exists_ base) then .error (.os .ENOENT)
  else .ok ()

/-- The end of `makedir` (fake_filesystem.py 2849-2852). -/
def mkdirTail (p : Str) (mode : Nat) : M Unit := do
  let s ← M.get
  let ht := s.cfg.splitpath p
  let d ← newObj (mkDirObj ht.2 (andNot mode s.umask))
  addObject ht.1 d

/-- The test for a broken link in `makedir` (fake_filesystem.py 2836-2841). -/
def FS.mkdirBroken (s : FS) (p : Str) (endsSep : Bool) : Except Err Bool :=
  if endsSep && s.cfg.isMac then (s.exists_ p).map (!·) else .ok false

/-- `makedir` (fake_filesystem.py 2808-2852), `os.mkdir` (4193-4214, which only rewrites the error
message). -/
def mkdir (p : Str) (mode : Nat := PERM_DEF) : M Unit := do
  let s ← M.get
  let k := s.cfg
  let endsSep := k.endsWithSep p
  let p := k.stripTrailing p
  if p = [] then M.raise .ENOENT
  let p := if k.isWin then s.absnorm p else p
  rd (·.mkdirParent p)
  let p := s.absnorm p
  if ← rd (·.existsL p) then
    if ← rd (·.mkdirBroken p endsSep) then
      removeObject p
      mkdirTail p mode
    else M.raise (if k.isWin ∧ p = [k.sep] then .EACCES else .EEXIST)
  else mkdirTail p mode

/-- The test of `makedirs`' exception handler (fake_filesystem.py 2900-2903):
`not exist_ok or not isinstance(self.resolve(dir_name), FakeDirectory)`. -/
def FS.makedirsBad (s : FS) (p : Str) (existOk : Bool) : Except Err Bool :=
  if !existOk then .ok true else do
    let r ← s.resolve p
    .ok (!(s.heap r).isDir)

/-- The creation part of `makedirs` (fake_filesystem.py 2894-2907). -/
def makedirsTail (p : Str) (mode : Nat) (existOk : Bool) : M Unit := do
  let s ← M.get
  catchOS (do let _ ← createDir p (andNot mode s.umask); M.pure ()) fun e =>
    if e = .os .EACCES then M.throw e
    else do
      let bad ← rd (·.makedirsBad p existOk)
      if bad then
        M.throw (if s.cfg.isWin ∧ e = .os .ENOTDIR then .os .ENOENT else e)

/-- `makedirs` (fake_filesystem.py 2859-2907), `os.makedirs` (4216-4233).  The loop 2887-2893 computes a
value which is never used and is omitted (it could only raise TypeError for a path through a large file
without contents). -/
def makedirs (p : Str) (mode : Nat := PERM_DEF) (existOk : Bool := false) : M Unit := do
  if p = [] then M.raise .ENOENT
  let s ← M.get
  let q := s.absnorm p
  if s.cfg.endsWithSep p && s.cfg.isMac then
    if ← rd (·.existsL q) then
      if !(← rd (·.exists_ q)) then removeObject q
  makedirsTail q mode existOk

/-- `_handle_broken_link_with_trailing_sep` (fake_filesystem.py 2188-2194). -/
def FS.brokenLinkSep (s : FS) (p : Str) : Except Err Unit := do
  if ← s.isLink p then
    if !(← s.exists_ p) then
      .error (.os (if s.cfg.isMac then .ENOENT else if s.cfg.isWin then .EINVAL else .ENOTDIR))

/-- The checks of `remove` before `remove_object` (fake_filesystem.py 3009-3036). -/
def FS.removeCheckPath (s : FS) (p : Str) : Except Err Unit := do
  let q := s.absnorm p
  if s.cfg.endsWithSep p then s.brokenLinkSep q
  if ← s.exists_ q then
    let r ← s.resolve q true false
    if ifmt (s.heap r).mode = S_IFDIR then
      let l ← s.lresolve q
      if ifmt (s.heap l).mode ≠ S_IFLNK then
        .error (.os (if s.cfg.isWin then .EACCES else if s.cfg.isMac then .EPERM else .EISDIR))
      if endsWithC s.cfg.sep p then
        .error (.os (if s.cfg.isWin then .EACCES else if s.cfg.isMac then .EPERM else .ENOTDIR))
    else s.raiseForSep p r true false

/-- `remove` (fake_filesystem.py 2998-3037), `os.remove`/`os.unlink` (4062-4092). -/
def remove (p : Str) : M Unit := do
  rd (·.removeCheckPath p)
  let s ← M.get
  removeObject (s.absnorm p)

/-- The checks of `rmdir` (fake_filesystem.py 3052-3067); `false` means: return without removing. -/
def FS.rmdirCheck (s : FS) (p : Str) (allowSymlink : Bool) : Except Err Bool := do
  if p = Cfg.dot then .error (.os (if s.cfg.isWin then .EACCES else .EINVAL))
  else
    let endsSep := s.cfg.endsWithSep p
    let q := s.absnorm p
    let _ ← s.confirmdir q
    let lnk ← if !s.cfg.isWin then s.isLink q else .ok false
    if lnk && allowSymlink then .ok false
    else if lnk && (!endsSep || !s.cfg.isMac) then .error (.os .ENOTDIR)
    else
      let r ← s.resolve q
      if (s.heap r).hasContents then .error (.os .ENOTEMPTY) else .ok true

/-- `rmdir` (fake_filesystem.py 3039-3068), `os.rmdir` (4150-4163). -/
def rmdir (p : Str) (allowSymlink : Bool := false) : M Unit := do
  let go ← rd (·.rmdirCheck p allowSymlink)
  let s ← M.get
  if go then removeObject (s.absnorm p) else M.pure ()

/-- `listdir` (fake_filesystem.py 3070-3087). -/
def FS.listdir (s : FS) (p : Str) : Except Err (List Str) := do
  let q ← s.resolvePath p
  let r ← s.confirmdir q
  match (s.heap r).content with
  | .dir es => .ok (es.map (·.1))
  | .file _ => .error .attributeError

/-! ## rename -/

/-- `_handle_posix_dir_link_errors` (fake_filesystem.py 2196-2209). -/
def FS.posixDirLinkErrors (s : FS) (new old : Str) (endsSep : Bool) : Except Err Unit := do
  let a ← s.isDir old false
  let b ← if a then s.isLink new else .ok false
  if b then .error (.os .ENOTDIR)
  else
    let c ← s.isDir new false
    let d ← if c then s.isLink old else .ok false
    if d then
      if endsSep && s.cfg.isMac then .ok ()
      else .error (.os (if endsSep then .ENOTDIR else .EISDIR))
    else
      let e ← if endsSep then s.isLink old else .ok false
      if e && old == new && !s.cfg.isWin then .error (.os .ENOTDIR) else .ok ()

/-- `_rename_same_object` (fake_filesystem.py 2252-2284); `none` = nothing to do. -/
def FS.renameSame (s : FS) (new old : Str) : Except Err (Option Str) :=
  let low := s.cfg.lower
  if low old = low new then .ok (some new)
  else
    let r : Except Err (Option Str) := do
      let realOld ← s.resolvePath old
      let origOld := s.originalPath realOld
      let realNew ← s.resolvePath new
      let doIt ← if realNew = origOld ∧ ((new = realOld) ↔ (low new = low realOld)) then do
          let o ← s.resolve old false
          .ok ((split '/' old).getLastD [] == (s.heap o).name || !s.cfg.isMac)
        else .ok (low realNew == low realOld)
      if doIt then
        let (parent, nm) := s.cfg.splitpath new
        .ok (some (s.cfg.joinpaths [s.originalPath parent, nm]))
      else .ok none
    match r with
    | .ok x => .ok x
    | .error e => if e.isOS then .ok none else .error e

/-- `_handle_rename_error_for_dir_or_link` (fake_filesystem.py 2236-2250). -/
def FS.renameDirLinkErr (s : FS) (force : Bool) (newO oldO : Ref) (endsSep : Bool) : Except Err Unit :=
  if s.cfg.isWin then .error (.os (if force then .EACCES else .EEXIST))
  else if (s.heap newO).isLnk then .ok ()
  else if (s.heap newO).hasContents && (!(s.heap oldO).isLnk || !endsSep || !s.cfg.isMac) then
    .error (.os .ENOTEMPTY)
  else if (s.heap oldO).isRegMode then .error (.os .EISDIR)
  else .ok ()

/-- `_rename_to_existing_path` (fake_filesystem.py 2211-2234); `none` = nothing to do. -/
def renameToExisting (force : Bool) (new old : Str) (oldO : Ref) (endsSep : Bool) :
    M (Option Str) := do
  let newO ← rd (·.getObject new)
  let s ← M.get
  if old = new then
    if !(s.heap newO).isLnk && endsSep then M.raise (if s.cfg.isWin then .EINVAL else .ENOTDIR)
    else M.pure none
  else if oldO = newO then rd (·.renameSame new old)
  else if (s.heap newO).isDirMode || (s.heap newO).isLnk then do
    rd (·.renameDirLinkErr force newO oldO endsSep)
    M.pure (some new)
  else if (s.heap oldO).isDirMode then M.raise (if s.cfg.isWin then .EEXIST else .ENOTDIR)
  else if s.cfg.isWin && !force then M.raise .EEXIST
  else do
    removeObject new
    M.pure (some new)

/-- The last part of `rename`: the object changes (fake_filesystem.py 2178-2186). -/
def renameCommit (oldDir newDir : Ref) (oldNm newNm : Str) : M Unit := do
  let s ← M.get
  if !(s.heap oldDir).isDir then M.throw .attributeError
  let r ← rd (fun s => s.getEntry (s.heap oldDir).entries oldNm)
  removeEntry oldDir oldNm false
  M.modify fun s => s.setObj r fun o => { o with name := newNm }
  let s ← M.get
  let nm := s.normEntry (s.heap newDir).entries newNm
  if (alookup nm (s.heap newDir).entries).isSome then removeEntry newDir nm true
  addEntry newDir r

/-- The part of `rename` after the handling of an existing target (fake_filesystem.py 2153-2186). -/
def renameTail (old new : Str) (oldO : Ref) : M Unit := do
  let s ← M.get
  let k := s.cfg
  if new = [] then M.pure () else do
  if !(← rd (·.exists_ (k.splitpath new).1)) then M.raise .ENOENT
  let od ← rd (·.resolve (k.splitpath old).1)
  let nd ← rd (·.resolve (k.splitpath new).1)
  if (s.heap od).dev ≠ (s.heap nd).dev then M.raise .EXDEV
  if !(s.heap nd).isDirMode then M.raise (if k.isWin then .EACCES else .ENOTDIR)
  if !(s.heap nd).isDir then M.throw .attributeError
  if s.hasParent nd oldO then M.raise .EINVAL
  renameCommit od nd (k.splitpath old).2 (k.splitpath new).2

/-- `rename` (fake_filesystem.py 2118-2186); `os.rename` (4094-4121) and `os.replace` (4123-4148, with
`force`). -/
def rename (old new : Str) (force : Bool := false) : M Unit := do
  let s ← M.get
  let k := s.cfg
  let endsSep := k.endsWithSep old
  let old := s.absnorm old
  let new := s.absnorm new
  if !(← rd (·.existsL old)) then M.raise .ENOENT
  if endsSep then rd (·.brokenLinkSep old)
  let oldO ← rd (·.lresolve old)
  if !k.isWin then rd (·.posixDirLinkErrors new old endsSep)
  if ← rd (·.existsL new) then
    match ← renameToExisting force new old oldO endsSep with
    | none => M.pure ()
    | some new => renameTail old new oldO
  else renameTail old new oldO

/-! ## Attributes -/

/-- The part of `os.stat_result` that is modelled. -/
structure Stat where
  mode : Nat
  ino : Option Nat
  dev : Option Nat
  nlink : Int
  uid : Int
  gid : Int
  size : Nat
  atime : Int
  mtime : Int
  ctime : Int
  deriving DecidableEq, Repr

/-- the stat record of an object (helpers.py 78-93, 193-197) -/
def FS.statOf (s : FS) (r : Ref) : Stat :=
  let o := s.heap r
  { mode := o.mode, ino := o.ino, dev := o.dev, nlink := o.nlink, uid := o.uid, gid := o.gid,
    size := s.stSize o, atime := o.atime, mtime := o.mtime, ctime := o.ctime }

/-- `stat` (fake_filesystem.py 1161-1188) -/
def FS.stat (s : FS) (p : Str) (follow : Bool := true) : Except Err Stat := do
  let r ← s.resolve p follow false
  if !s.isRoot then
    match (s.heap r).parent with
    | none => pure ()
    | some d => let _ ← s.getObject (s.objPath d)
  s.raiseForSep p r follow false
  pure (s.statOf r)

/-- `chmod` (fake_filesystem.py 1217-1235). -/
def chmod (p : Str) (mode : Nat) (follow : Bool := true) : M Unit := do
  let r ← rd (·.resolve p follow)
  M.modify fun s => s.setObj r fun o =>
    { o with
      mode :=
        if s.cfg.isWin then (if mode &&& PERM_WRITE ≠ 0 then o.mode ||| 0o222 else o.mode &&& 0o777555)
        else andNot o.mode PERM_ALL ||| (mode &&& PERM_ALL)
      ctime := s.clock }

/-- `utime` (fake_filesystem.py 1237-1277) with `ns=(a, m)` (`some`) or neither argument (`none`).
The `times` argument goes through floating point and is not modelled. -/
def utime (p : Str) (ns : Option (Int × Int)) (follow : Bool := true) : M Unit := do
  let r ← rd (·.resolve p follow)
  M.modify fun s => s.setObj r fun o =>
    match ns with
    | some (a, m) => { o with atime := a, mtime := m }
    | none => { o with atime := s.clock, mtime := s.clock }

/-- `os.chown` (fake_filesystem.py 4364-4392). -/
def chown (p : Str) (uid gid : Int) (follow : Bool := true) : M Unit := do
  let r ← rd (·.resolve p follow)
  M.modify fun s => s.setObj r fun o =>
    { o with uid := if uid = -1 then o.uid else uid, gid := if gid = -1 then o.gid else gid }

/-- `os.truncate` (fake_filesystem.py 4253-4268) for a non-negative length. -/
def truncate (p : Str) (n : Nat) : M Unit := do
  let r ← rd (·.resolve p)
  setSize r n

/-- `os.umask` (fake_filesystem.py 3787-3803). -/
def umask (m : Nat) : M Nat := fun s => (.ok s.umask, { s with umask := m })

/-- `os.access` (fake_filesystem.py 4285-4309); W_OK = 2. -/
def FS.access (s : FS) (p : Str) (mode : Nat) (follow : Bool := true) : Except Err Bool :=
  match s.stat p follow with
  | .error (.os .ENOENT) => .ok false
  | .error e => .error e
  | .ok st =>
    let mode := if s.isRoot then andNot mode 2 else mode
    .ok (mode &&& ((st.mode >>> 6) &&& 7) == mode)

/-- `os.chdir` (fake_filesystem.py 3805-3828). The permission test
`not directory.st_mode | PERM_EXE` is never true. -/
def chdir (p : Str) : M Unit := do
  let q ← rd (·.resolvePath p)
  let _ ← rd (·.confirmdir q)
  let _ ← rd (·.resolve q)
  M.modify fun s => { s with cwd := q }

/-- `os.mknod` (fake_filesystem.py 4394-4435) with device 0; `mode` defaults to S_IFREG|0o600. The new
object has no contents (`FakeFile(..., contents=None)`). -/
def mknod (p : Str) (mode : Nat := S_IFREG ||| 0o600) : M Unit := do
  let s ← M.get
  if s.cfg.isWin then M.throw .typeError
  if mode &&& S_IFREG = 0 ∧ !s.isRoot then M.raise .EPERM
  let (head, tail) := s.cfg.splitpath p
  if tail = [] then
    if ← rd (·.existsL head) then M.raise .EEXIST
    M.raise .ENOENT
  if tail = Cfg.dot ∨ tail = Cfg.dotdot then M.raise .ENOENT
  if ← rd (·.existsL p) then M.raise .EEXIST
  let r ← newObj (mkFileObj tail (andNot mode s.umask) none)
  addObject head r

/-- The loop of `os.removedirs` (fake_filesystem.py 4184-4191); the path gets shorter each turn. -/
def removedirsLoop : Nat → Str → Str → M Unit
  | 0, _, _ => M.pure ()
  | n + 1, head, tail =>
    if head = [] ∨ tail = [] then M.pure () else do
      let d ← rd (·.confirmdir head)
      let s ← M.get
      if (s.heap d).hasContents then M.pure () else do
        rmdir head true
        let (h, t) := s.cfg.splitpath head
        removedirsLoop n h t

/-- `os.removedirs` (fake_filesystem.py 4165-4191). -/
def removedirs (p : Str) : M Unit := do
  let s ← M.get
  let p := s.absnorm p
  let d ← rd (·.confirmdir p)
  let s ← M.get
  if (s.heap d).hasContents then M.raise .ENOTEMPTY
  rmdir p
  let (h, t) := s.cfg.splitpath p
  let (h, t) := if t = [] then s.cfg.splitpath h else (h, t)
  removedirsLoop p.length h t

/-! ## Extended attributes (Linux only) -/

/-- `os.getxattr` (fake_filesystem.py 3858-3884). -/
def FS.getxattr (s : FS) (p attr : Str) (follow : Bool := true) : Except Err (Option Bytes) :=
  if s.cfg.isWin || s.cfg.isMac then .error .attributeError
  else do let r ← s.resolve p follow; .ok (alookup attr (s.heap r).xattr)

/-- `os.listxattr` (fake_filesystem.py 3886-3909). -/
def FS.listxattr (s : FS) (p : Str) (follow : Bool := true) : Except Err (List Str) :=
  if s.cfg.isWin || s.cfg.isMac then .error .attributeError
  else do let r ← s.resolve p follow; .ok ((s.heap r).xattr.map (·.1))

/-- `os.removexattr` (fake_filesystem.py 3911-3933). -/
def removexattr (p attr : Str) (follow : Bool := true) : M Unit := do
  let s ← M.get
  if s.cfg.isWin || s.cfg.isMac then M.throw .attributeError
  let r ← rd (·.resolve p follow)
  M.modify fun s => s.setObj r fun o => { o with xattr := aerase attr o.xattr }

/-- `os.setxattr` (fake_filesystem.py 3935-3968); flags: XATTR_CREATE = 1, XATTR_REPLACE = 2. -/
def setxattr (p attr : Str) (value : Bytes) (flags : Nat := 0) (follow : Bool := true) : M Unit := do
  let s ← M.get
  if s.cfg.isWin || s.cfg.isMac then M.throw .attributeError
  let r ← rd (·.resolve p follow)
  let ex := (alookup attr (s.heap r).xattr).isSome
  if ex ∧ flags = 1 then M.raise .ENODATA
  if !ex ∧ flags = 2 then M.raise .EEXIST
  M.modify fun s => s.setObj r fun o => { o with xattr := ainsert attr value o.xattr }

/-! ## A fresh filesystem -/

/-- `FakeFilesystem.__init__` (fake_filesystem.py 856-911) for a configuration: the root directory,
its mount point, the null device and the three standard streams. -/
def initFS (k : Cfg) (limit uid gid umask : Nat) (clock : Int) (total : Option Int) : FS :=
  let s0 : FS :=
    { cfg := k, limit := limit, heap := fun _ =>
        { name := [], mode := 0, nlink := 0, ino := none, dev := none, size := 0, uid := 0, gid := 0,
          atime := 0, mtime := 0, ctime := 0, content := .file none, epoch := 0, parent := none,
          xattr := [] },
      next := 2, cwd := k.root, umask := umask, lastIno := 1, lastDev := 1,
      mounts := [{ path := k.root, idev := 1, total := total, used := 0 }],
      openFiles := [some [0], some [1], some [2]], freeFds := [],
      handles := fun i =>
        { kind := .std, obj := 0, append := false, read := false, update := false, rawIo := false,
          closefd := true, deleteOnClose := false, bufferSize := 0, buf := [], pos := 0, flushPos := 0,
          readSeek := 0, readWhence := 0, fileEpoch := 0, changed := false, fd := i },
      hnext := 3, uid := uid, gid := gid, clock := clock }
  let s1 := s0.setObj rootRef fun _ =>
    { mkDirObj k.root PERM_DEF s0 with ino := some 1, dev := some 1 }
  s1.setObj devNullRef fun _ => mkFileObj k.devNull (S_IFREG ||| PERM_DEF_FILE) (some []) s0

end Verif
