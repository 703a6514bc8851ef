import Verif.State
/-!
# Primitive operations on FakeFile and FakeDirectory objects
-/

namespace Verif
open Py

/-- `_mount_point_for_device` and the update of its `used_size`: in `change_disk_usage`
(fake_filesystem.py 1088-1091, 1139-1159). -/
def changeUsed (idev : Nat) (d : Int) : List Mount → List Mount
  | [] => []
  | m :: ms => if m.idev = idev then { m with used := m.used + d } :: ms else m :: changeUsed idev d ms

/-- the mount point with a device number -/
def mountForDev (dev : Option Nat) (ms : List Mount) : Option Mount :=
  match dev with
  | none => none
  | some i => ms.find? (fun m => m.idev == i)

/-- `change_disk_usage` (fake_filesystem.py 1139-1159). -/
def changeDiskUsage (change : Int) (dev : Option Nat) : M Unit := fun s =>
  match dev, mountForDev dev s.mounts with
  | some i, some m =>
    match m.total with
    | some t =>
      if t - m.used < change then (.error (.os .ENOSPC), s)
      else (.ok (), { s with mounts := changeUsed i change s.mounts })
    | none => (.ok (), { s with mounts := changeUsed i change s.mounts })
  | _, _ => (.ok (), s)

/-- `size` getter: `st_size` for files (fake_filesystem.py 435-439), the sum over the entries for
directories (739-743).  Fuel: nesting depth. -/
def FS.sizeOf (s : FS) : Nat → Ref → Nat
  | 0, _ => 0
  | n + 1, r =>
    match (s.heap r).content with
    | .file _ => s.stSize (s.heap r)
    | .dir es => (es.map fun e => s.sizeOf n e.2).sum

/-- `_normalized_entryname` (fake_filesystem.py 692-698). -/
def FS.normEntry (s : FS) (es : List (Str × Ref)) (nm : Str) : Str :=
  if s.cfg.caseSens then nm
  else match es.find? (fun e => s.cfg.lower e.1 == s.cfg.lower nm) with
    | some e => e.1
    | none => nm

/-- `get_entry` (fake_filesystem.py 677-690): KeyError if missing. -/
def FS.getEntry (s : FS) (es : List (Str × Ref)) (nm : Str) : Except Err Ref :=
  match alookup (s.normEntry es nm) es with
  | some r => .ok r
  | none => .error .keyError

/-- The object changes made by `add_entry` after its checks and before charging the disk space
(fake_filesystem.py 665-673). -/
def FS.attach (s : FS) (d c : Ref) : FS :=
  let s := s.setObj d fun o => { o with content := .dir (o.entries ++ [((s.heap c).name, c)]) }
  let s := s.setObj c fun o => { o with parent := some d }
  let s := if (s.heap c).ino = none then
      { s with lastIno := s.lastIno + 1 }.setObj c fun o => { o with ino := some (s.lastIno + 1) }
    else s
  let s := s.setObj d fun o => { o with nlink := o.nlink + 1 }
  let s := s.setObj c fun o => { o with nlink := o.nlink + 1 }
  s.setObj c fun o => { o with dev := (s.heap d).dev }

/-- `FakeDirectory.add_entry` (fake_filesystem.py 647-675).  A `FakeFile` has no such method
(AttributeError). -/
def addEntry (d c : Ref) : M Unit := fun s =>
  if (s.heap d).isDir = false then (.error .attributeError, s)
  else if s.isRoot = false ∧ (s.heap d).mode &&& PERM_WRITE = 0 ∧ s.cfg.isWin = false then
    (.error (.os .EACCES), s)
  else if (alookup (s.heap c).name (s.heap d).entries).isSome then (.error (.os .EEXIST), s)
  else
    let s' := s.attach d c
    if (s'.heap c).nlink = 1 then
      changeDiskUsage (s'.sizeOf (s'.next + 1) c) (s'.heap d).dev s'
    else (.ok (), s')

/-- `has_open_file` (fake_filesystem.py 1355-1365). Standard streams are not FakeFile objects. -/
def FS.hasOpenFile (s : FS) (r : Ref) : Bool :=
  s.openFiles.any fun e => match e with
    | some (h :: _) => (s.handles h).kind != .std && (s.handles h).obj == r
    | _ => false

/-- The bookkeeping at the end of `remove_entry` (fake_filesystem.py 733-737):
link counts, the assertion, deletion of the entry. -/
def detach (d : Ref) (nm : Str) (e : Ref) : M Unit := fun s =>
  let s := s.setObj d fun o => { o with nlink := o.nlink - 1 }
  let s := s.setObj e fun o => { o with nlink := o.nlink - 1 }
  if (s.heap e).nlink < 0 then (.error .assertion, s)
  else if (alookup nm (s.heap d).entries).isNone then (.error .keyError, s)
  else (.ok (), s.setObj d fun o => { o with content := .dir (aerase nm o.entries) })

/-- the permission and open-file checks of `remove_entry` (fake_filesystem.py 716-725) -/
def removeCheck (s : FS) (d e : Ref) : Except Err Unit :=
  if s.cfg.isWin then
    if (s.heap e).mode &&& PERM_WRITE = 0 then .error (.os .EACCES)
    else if s.hasOpenFile e then .error (.os .EACCES)
    else .ok ()
  else if s.isRoot = false ∧ (s.heap d).mode &&& (PERM_WRITE ||| PERM_EXE) ≠ PERM_WRITE ||| PERM_EXE then
    .error (.os .EACCES)
  else .ok ()

/-- the `while entry.contents` loop of `remove_entry` (fake_filesystem.py 727-729);
`rm` is the recursive call. Each turn removes one entry, so the initial number of entries is enough. -/
def removeLoop (rm : Ref → Str → M Unit) (e : Ref) : Nat → M Unit
  | 0 => M.pure ()
  | n + 1 => fun s =>
    match (s.heap e).entries with
    | [] => (.ok (), s)
    | (nm, _) :: _ => M.bind (rm e nm) (fun _ => removeLoop rm e n) s

/-- `FakeDirectory.remove_entry` (fake_filesystem.py 700-737).  Fuel: nesting depth. -/
def removeEntryF : Nat → Ref → Str → Bool → M Unit
  | 0, _, _, _ => M.throw .recursion
  | n + 1, d, nm, recursive => fun s =>
    if (s.heap d).isDir = false then (.error .attributeError, s)
    else
      let nm := s.normEntry (s.heap d).entries nm
      match s.getEntry (s.heap d).entries nm with
      | .error e => (.error e, s)
      | .ok e =>
        match removeCheck s d e with
        | .error x => (.error x, s)
        | .ok () =>
          if recursive && (s.heap e).isDir then
            M.bind (removeLoop (fun d' nm' => removeEntryF n d' nm' true) e (s.heap e).entries.length)
              (fun _ => detach d nm e) s
          else if (s.heap e).nlink = 1 then
            M.bind (changeDiskUsage (-(s.sizeOf (s.next + 1) e : Int)) (s.heap e).dev)
              (fun _ => detach d nm e) s
          else detach d nm e s

/-- `remove_entry` with enough fuel for any tree of the current objects. -/
def removeEntry (d : Ref) (nm : Str) (recursive : Bool) : M Unit := fun s =>
  removeEntryF (s.next + 1) d nm recursive s

/-- Allocate an object (`FakeFile(...)`). -/
def newObj (f : FS → Obj) : M Ref := fun s =>
  (.ok s.next, { s with heap := upd s.heap s.next (f s), next := s.next + 1 })

/-- `FakeFile.__init__` with the given `_byte_contents` (fake_filesystem.py 265-300). -/
def mkFileObj (nm : Str) (mode : Nat) (b : Option Bytes) (s : FS) : Obj :=
  { name := nm, mode := mode, nlink := 0, ino := none, dev := none, size := (b.getD []).length,
    uid := s.uid, gid := s.gid, atime := s.clock, mtime := s.clock, ctime := s.clock,
    content := .file b, epoch := 0, parent := none, xattr := [] }

/-- `FakeDirectory.__init__` (fake_filesystem.py 617-629). -/
def mkDirObj (nm : Str) (perm : Nat) (s : FS) : Obj :=
  { name := nm, mode := S_IFDIR ||| perm, nlink := 1, ino := none, dev := none, size := 0,
    uid := s.uid, gid := s.gid, atime := s.clock, mtime := s.clock, ctime := s.clock,
    content := .dir [], epoch := 0, parent := none, xattr := [] }

/-- `size` setter (fake_filesystem.py 471-494) for a size that is a non-negative integer; a directory's
`size` property has no setter (AttributeError). Note `if self._byte_contents:` — empty contents are not
padded. -/
def setSize (r : Ref) (n : Nat) : M Unit := fun s =>
  match (s.heap r).content with
  | .dir _ => (.error .attributeError, s)
  | .file b =>
    let cur := s.stSize (s.heap r)
    M.bind (changeDiskUsage ((n : Int) - cur) (s.heap r).dev) (fun _ => M.modify fun s =>
      s.setObj r fun o =>
        { o with
          content := .file (b.map fun b =>
            if b = [] then b else if n < cur then b.take n else b ++ List.replicate (n - cur) 0)
          size := n, epoch := o.epoch + 1 }) s

/-- `_set_initial_contents` (fake_filesystem.py 387-413; 565-566 for the null device) with encoded
contents; returns whether the contents changed.  For the null device it returns `None` (false). -/
def setInitialContents (r : Ref) (b : Bytes) : M Bool := fun s =>
  if r = devNullRef then (.ok false, s)
  else match (s.heap r).content with
  | .dir _ => (.error .attributeError, s)
  | .file old =>
    let cur := s.stSize (s.heap r)
    M.bind (changeDiskUsage ((b.length : Int) - cur) (s.heap r).dev) (fun _ =>
      M.bind (if old.getD [] ≠ [] then setSize r 0 else M.pure ()) (fun _ =>
        M.bind (M.modify fun s => s.setObj r fun o =>
          { o with content := .file (some b), size := b.length, epoch := o.epoch + 1 })
          (fun _ => M.pure (decide (old ≠ some b))))) s

/-- `set_contents` (fake_filesystem.py 415-433; 631-632 for directories). -/
def setContents (r : Ref) (b : Bytes) : M Bool := fun s =>
  if (s.heap r).isDir then (.error (.os .EISDIR), s) else setInitialContents r b s

/-- `set_large_file_size` (fake_filesystem.py 346-367) for a non-negative size. -/
def setLargeFileSize (r : Ref) (n : Nat) : M Unit := fun s =>
  match (s.heap r).content with
  | .dir _ => (.error .attributeError, s)
  | .file _ =>
    M.bind (if s.stSize (s.heap r) ≠ 0 then setSize r 0 else M.pure ()) (fun _ =>
      M.bind (M.get) (fun s1 => M.bind (changeDiskUsage n (s1.heap r).dev) (fun _ =>
        M.modify fun s => s.setObj r fun o => { o with content := .file none, size := n }))) s

end Verif
