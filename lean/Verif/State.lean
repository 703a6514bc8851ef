import Verif.Path
/-!
# State of the fake filesystem and the monad of its operations

Objects live in a heap because hard links and open files share them.
-/

namespace Verif
open Py

/-- The `errno` values raised by the modelled code. -/
inductive Errno
  | ENOENT | EEXIST | EACCES | ENOTDIR | EISDIR | EINVAL | ENOTEMPTY | EPERM | ELOOP | EBUSY
  | ENOSPC | EBADF | EXDEV | ENODATA
  deriving DecidableEq, Repr

/-- Python exceptions.  `recursion` is `RecursionError` (a `RuntimeError`). -/
inductive Err
  | os (e : Errno)
  | keyError | indexError | attributeError | typeError | valueError | recursion | assertion
  | unsupported | largeFile | notImplemented | runtimeError
  deriving DecidableEq, Repr

/-- `except OSError` catches exactly these. (`io.UnsupportedOperation` is an OSError too.) -/
def Err.isOS : Err → Bool
  | .os _ => true
  | .unsupported => true
  | _ => false

/-- Identity of a FakeFile object (Python `is`; FakeFile defines no `__eq__`). -/
abbrev Ref := Nat

/-- What an object holds: a `FakeFile` its `_byte_contents` (`none` = large file without contents), a
`FakeDirectory` its insertion-ordered dict name → object
(fake_filesystem.py 294-297, 625-626). -/
inductive Content
  | file (b : Option Bytes)
  | dir (es : List (Str × Ref))
  deriving DecidableEq, Repr

/-- `FakeFile`/`FakeDirectory` with its `FakeStatResult` (fake_filesystem.py 265-300; FakeStatResult.__init__, helpers.py 78-93).
`side_effect`, `encoding` and `errors` are not modelled. Times are nanoseconds. -/
structure Obj where
  name : Str
  mode : Nat
  nlink : Int
  ino : Option Nat
  dev : Option Nat
  size : Nat
  uid : Int
  gid : Int
  atime : Int
  mtime : Int
  ctime : Int
  content : Content
  epoch : Nat
  parent : Option Ref
  xattr : List (Str × Bytes)

/-- One entry of `mount_points` (fake_filesystem.py 1043-1045). -/
structure Mount where
  path : Str
  idev : Nat
  total : Option Int
  used : Int

/-- Kinds of wrappers in `open_files` (pipes are not modelled). -/
inductive HKind
  | std | file | dir
  deriving DecidableEq, Repr

/-- `FakeFileWrapper` (binary mode), `StandardStreamWrapper`, `FakeDirWrapper`
(fake_filesystem.py 4642-4691, 5077-5079, 5100-5104).  `buf`/`pos` are the `BytesIO` stream. -/
structure Handle where
  kind : HKind
  obj : Ref
  append : Bool
  read : Bool
  update : Bool
  rawIo : Bool
  closefd : Bool
  deleteOnClose : Bool
  bufferSize : Nat
  buf : Bytes
  pos : Nat
  flushPos : Nat
  readSeek : Int
  readWhence : Nat
  fileEpoch : Nat
  changed : Bool
  fd : Nat

/-- `FakeFilesystem` plus the module globals it uses (fake_filesystem.py 872-911; USER_ID, GROUP_ID
157-158). `limit` bounds the nesting of lookups (the interpreter's recursion limit; one unit is one
nested `exists`/`resolve` call). `clock` is the value of `time.time()` in nanoseconds. -/
structure FS where
  cfg : Cfg
  limit : Nat
  heap : Ref → Obj
  next : Nat
  cwd : Str
  umask : Nat
  lastIno : Nat
  lastDev : Nat
  mounts : List Mount
  openFiles : List (Option (List Nat))
  freeFds : List Nat
  handles : Nat → Handle
  hnext : Nat
  uid : Nat
  gid : Nat
  clock : Int

/-- The root directory object. -/
def rootRef : Ref := 0
/-- The null device object (`dev_null`, fake_filesystem.py 907); it is in no directory. -/
def devNullRef : Ref := 1

/-- `dev_null.name` (fake_filesystem.py 1785, 1856, 1982): the name of the null device object; it is
changed by `link`. -/
def FS.devName (s : FS) : Str := (s.heap devNullRef).name

/-- Function update. -/
def upd {α : Type} (f : Nat → α) (i : Nat) (x : α) : Nat → α := fun j => if j = i then x else f j

@[simp] theorem upd_same {α : Type} (f : Nat → α) (i : Nat) (x : α) : upd f i x i = x := by simp [upd]
theorem upd_ne {α : Type} (f : Nat → α) {i j : Nat} (x : α) (h : j ≠ i) : upd f i x j = f j := by
  simp [upd, h]
theorem upd_apply {α : Type} (f : Nat → α) (i : Nat) (x : α) (j : Nat) :
    upd f i x j = if j = i then x else f j := rfl

/-! ## Dictionary helpers (Python `dict`: insertion ordered, unique keys) -/

/-- `d.get(k)`. -/
def alookup {α : Type} (k : Str) : List (Str × α) → Option α
  | [] => none
  | (a, x) :: r => if a = k then some x else alookup k r

/-- `del d[k]`. -/
def aerase {α : Type} (k : Str) (l : List (Str × α)) : List (Str × α) := l.filter (fun e => e.1 ≠ k)

/-- `d[k] = v`: replaces in place or appends. -/
def ainsert {α : Type} (k : Str) (v : α) : List (Str × α) → List (Str × α)
  | [] => [(k, v)]
  | (a, x) :: r => if a = k then (a, v) :: r else (a, x) :: ainsert k v r

/-! ## Monad: state is kept when an exception is raised -/

/-- A Python call: consumes a state, raises or returns, leaves a state. -/
def M (α : Type) := FS → Except Err α × FS

namespace M
def pure {α : Type} (a : α) : M α := fun s => (.ok a, s)
def bind {α β : Type} (m : M α) (f : α → M β) : M β := fun s =>
  match m s with
  | (.ok a, s') => f a s'
  | (.error e, s') => (.error e, s')
instance : Monad M where
  pure := M.pure
  bind := M.bind
/-- `raise e`. -/
def throw {α : Type} (e : Err) : M α := fun s => (.error e, s)
/-- `try: m except: h` (the handler re-raises what it does not handle). -/
def tryCatch {α : Type} (m : M α) (h : Err → M α) : M α := fun s =>
  match m s with
  | (.ok a, s') => (.ok a, s')
  | (.error e, s') => h e s'
/-- read the state -/
def get : M FS := fun s => (.ok s, s)
/-- change the state -/
def modify (f : FS → FS) : M Unit := fun s => (.ok (), f s)
/-- a computation that only reads the state -/
def ofRead {α : Type} (f : FS → Except Err α) : M α := fun s => (f s, s)
/-- `raise OSError(e)`. -/
def raise {α : Type} (e : Errno) : M α := throw (.os e)
end M

/-! ## Mode bits (stat module) and accessors -/

def S_IFMT : Nat := 0o170000
def S_IFDIR : Nat := 0o040000
def S_IFREG : Nat := 0o100000
def S_IFLNK : Nat := 0o120000
/-- fake_filesystem.py 123-128. -/
def PERM_READ : Nat := 0o400
def PERM_WRITE : Nat := 0o200
def PERM_EXE : Nat := 0o100
def PERM_DEF : Nat := 0o777
def PERM_DEF_FILE : Nat := 0o666
def PERM_ALL : Nat := 0o7777

/-- `a & ~b` on non-negative integers. -/
def andNot (a b : Nat) : Nat := Nat.bitwise (fun x y => x && !y) a b

/-- `stat.S_IFMT`, `S_ISDIR`, `S_ISREG`, `S_ISLNK`. -/
def ifmt (mode : Nat) : Nat := mode &&& S_IFMT
def Obj.isDirMode (o : Obj) : Bool := ifmt o.mode == S_IFDIR
def Obj.isRegMode (o : Obj) : Bool := ifmt o.mode == S_IFREG
def Obj.isLnk (o : Obj) : Bool := ifmt o.mode == S_IFLNK

/-- `isinstance(o, FakeDirectory)`. -/
def Obj.isDir (o : Obj) : Bool := match o.content with | .dir _ => true | .file _ => false
/-- the entries of a directory (no entries for a file) -/
def Obj.entries (o : Obj) : List (Str × Ref) := match o.content with | .dir es => es | .file _ => []

/-- `contents` of a symlink object: the decoded bytes (fake_filesystem.py 307-314).
Simplification: a symlink object without contents (never made by the API) reads as the empty string. -/
def FS.linkTarget (s : FS) (o : Obj) : Str :=
  match o.content with | .file (some b) => s.cfg.dec b | _ => []

/-- truthiness of `contents`: non-empty dict, non-empty bytes. -/
def Obj.hasContents (o : Obj) : Bool :=
  match o.content with
  | .dir es => !es.isEmpty
  | .file (some b) => !b.isEmpty
  | .file none => false

/-- `st_size` property (helpers.py 193-197): a Windows symlink reports 0. -/
def FS.stSize (s : FS) (o : Obj) : Nat :=
  if o.mode &&& S_IFLNK = S_IFLNK ∧ s.cfg.isWin = true then 0 else o.size

/-- `is_root()` (fake_filesystem.py 206-208). -/
def FS.isRoot (s : FS) : Bool := s.uid == 0

/-- change one heap object -/
def FS.setObj (s : FS) (r : Ref) (f : Obj → Obj) : FS := { s with heap := upd s.heap r (f (s.heap r)) }

end Verif
