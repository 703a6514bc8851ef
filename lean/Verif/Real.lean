import Verif.Ops
/-!
# Files and directories mapped from the real filesystem

A model of its own: the real filesystem is an environment that may change at any time between two calls, and that the
code only reads.  Of a mapped object it has the part that differs from other fake files: where the contents come from.
Not modelled here: the access time (it follows the real file), the disk usage charged for mapped files, and the place
of the mapped object in the fake tree.
-/

namespace Verif
open Py

namespace Real

/-- What `os.stat` and reading tell about a real file. -/
structure RFile where
  bytes : Bytes
  mode : Nat
  uid : Nat
  gid : Nat
  mtime : Int
  ctime : Int
  deriving DecidableEq

/-- The files of the real filesystem. -/
abbrev World := Str → Option RFile

/-- `FakeFileFromRealFile` (fake_filesystem.py 574-611). -/
structure Mapped where
  /-- `file_path` -/
  src : Str
  /-- `_byte_contents` -/
  contents : Option Bytes
  /-- `contents_read` -/
  loaded : Bool
  size : Nat
  mode : Nat
  uid : Nat
  gid : Nat
  mtime : Int
  ctime : Int
  deriving DecidableEq

/-- `add_real_file` (fake_filesystem.py 2397-2436) and `set_from_stat_result` (helpers.py 131-142): the object made,
without the part that adds it to the fake tree. -/
def addFile (w : World) (src : Str) (readOnly : Bool) : Except Err Mapped :=
  match w src with
  | none => .error (.os .ENOENT)
  | some f => .ok
    { src := src, contents := none, loaded := false, size := f.bytes.length,
      mode := (if readOnly then f.mode &&& 0o777444 else f.mode), uid := f.uid, gid := f.gid,
      mtime := f.mtime, ctime := f.ctime }

/-- `byte_contents` of a mapped file (fake_filesystem.py 595-603).  The flag is set before the file is opened; the last
line needs the real file in any case. -/
def access (w : World) (m : Mapped) : Except Err (Option Bytes) × Mapped :=
  match m.loaded, w m.src with
  | true, none => (.error (.os .ENOENT), m)
  | true, some _ => (.ok m.contents, m)
  | false, none => (.error (.os .ENOENT), { m with loaded := true })
  | false, some f => (.ok (some f.bytes), { m with loaded := true, contents := some f.bytes })

/-- `set_contents` of a mapped file (fake_filesystem.py 605-607, 415-433, 387-413) on a device with enough space. -/
def setContents (m : Mapped) (b : Bytes) : Mapped :=
  { m with loaded := true, contents := some b, size := b.length }

/-- the `size` setter (fake_filesystem.py 471-494) on a device with enough space; it works on `_byte_contents`, which
is `None` for a file not read yet. -/
def setSize (m : Mapped) (n : Nat) : Mapped :=
  { m with
    contents := m.contents.map fun b => if b = [] then b else if n < m.size then b.take n else b ++ List.replicate (n - m.size) 0
    size := n }

/-- What may happen to a mapped file: the real filesystem changes, the contents are asked for (by opening, reading, ...),
a fake file handle writes its contents back, `os.truncate`. -/
inductive Ev
  | world (w : World)
  | access
  | write (b : Bytes)
  | resize (n : Nat)

/-- one event; the result is what an access gave -/
def step (w : World) (m : Mapped) : Ev → Option (Except Err (Option Bytes)) × World × Mapped
  | .world w' => (none, w', m)
  | .access => (some (access w m).1, w, (access w m).2)
  | .write b => (none, w, setContents m b)
  | .resize n => (none, w, setSize m n)

/-- a history: the results of the accesses and the final situation -/
def run (w : World) (m : Mapped) : List Ev → List (Except Err (Option Bytes)) × World × Mapped
  | [] => ([], w, m)
  | e :: es =>
    let r := step w m e
    let rest := run r.2.1 r.2.2 es
    (r.1.toList ++ rest.1, rest.2)

/-! ## Directories -/

/-- A real directory tree. -/
inductive RNode
  | file (f : RFile)
  | link (target : Str)
  | dir (mode : Nat) (entries : List (Str × RNode))

/-- The fake image of a real tree: a directory is loaded when it is first looked into. -/
inductive LNode
  | file (f : RFile) (readOnly : Bool)
  | link (target : Str)
  /-- `FakeDirectoryFromRealDirectory` before (fake_filesystem.py 781-811) -/
  | lazy (mode : Nat) (src : List (Str × RNode)) (readOnly : Bool)
  /-- and after its contents were asked for -/
  | dir (mode : Nat) (entries : List (Str × LNode))

/-- What `add_real_symlink`, `add_real_directory` (lazy) and `add_real_file` make of an entry (fake_filesystem.py 821-831). -/
def mapNode (readOnly : Bool) : RNode → LNode
  | .link t => .link t
  | .dir mode es => .lazy mode es readOnly
  | .file f => .file f readOnly

/-- `contents` (fake_filesystem.py 813-832): one level is loaded. -/
def load : LNode → LNode
  | .lazy mode src ro => .dir mode (src.map fun e => (e.1, mapNode ro e.2))
  | n => n

/-- the entries of a node whose contents were asked for -/
def LNode.entries : LNode → List (Str × LNode)
  | .dir _ es => es
  | _ => []

/-- replace the first entry with a key -/
def replaceEntry (nm : Str) (v : LNode) : List (Str × LNode) → List (Str × LNode)
  | [] => []
  | e :: es => if e.1 = nm then (nm, v) :: es else e :: replaceEntry nm v es

/-- Looking up a path below a node: the directories on the way are loaded; the node found, if any, and the image
afterwards. Links are not followed here. -/
def find : List Str → LNode → Option LNode × LNode
  | [], n => (some n, n)
  | c :: cs, n =>
    match load n with
    | .dir mode es =>
      match alookup c es with
      | none => (none, .dir mode es)
      | some x => ((find cs x).1, .dir mode (replaceEntry c (find cs x).2 es))
    | n' => (none, n')

/-- Listing the directory at a path: the node is found and then loaded itself. -/
def list (p : List Str) (n : LNode) : Option (List Str) × LNode :=
  match p with
  | [] => (match load n with | .dir _ es => some (es.map Prod.fst) | _ => none, load n)
  | c :: cs =>
    match load n with
    | .dir mode es =>
      match alookup c es with
      | none => (none, .dir mode es)
      | some x => ((list cs x).1, .dir mode (replaceEntry c (list cs x).2 es))
    | n' => (none, n')

/-- One of the calls that look at the image. -/
inductive Look
  | stat (p : List Str)
  | list (p : List Str)

/-- What a look at a node tells: a file's contents and mode, a link's target, a directory's mode, and the names in a
directory that was listed. -/
inductive Seen
  | nothing
  | file (b : Bytes) (mode : Nat)
  | link (target : Str)
  | dir (mode : Nat)
  | names (l : List Str)
  deriving DecidableEq

/-- `st_mode` of a file mapped read-only or not (fake_filesystem.py 2431-2432) -/
def roMode (readOnly : Bool) (m : Nat) : Nat := if readOnly then m &&& 0o777444 else m

def LNode.seen : LNode → Seen
  | .file f ro => .file f.bytes (roMode ro f.mode)
  | .link t => .link t
  | .lazy mode _ _ => .dir mode
  | .dir mode _ => .dir mode

/-- One look: the answer and the image afterwards. -/
def look (n : LNode) : Look → Seen × LNode
  | .stat p => (match (find p n).1 with | none => .nothing | some x => x.seen, (find p n).2)
  | .list p => (match (list p n).1 with | none => .nothing | some l => .names l, (list p n).2)

/-- A sequence of looks. -/
def looks (n : LNode) : List Look → List Seen × LNode
  | [] => ([], n)
  | l :: ls => ((look n l).1 :: (looks (look n l).2 ls).1, (looks (look n l).2 ls).2)

mutual
/-- `add_real_directory` with `lazy_read=False` (fake_filesystem.py 2511-2530): the links and files met by `os.walk`, each with
its path; they are added one by one, with the parent directories that are missing.  (The order is not modelled.) -/
def eager : RNode → List (List Str × RNode)
  | .dir _ es => eagerL es
  | .file f => [([], .file f)]
  | .link t => [([], .link t)]
def eagerL : List (Str × RNode) → List (List Str × RNode)
  | [] => []
  | (nm, n) :: es => (eager n).map (fun x => (nm :: x.1, x.2)) ++ eagerL es
end

/-- What is at a path of the eagerly made image. -/
inductive Placed
  | nothing
  | leaf (n : RNode)
  | directory

/-- The eagerly made image at a path: a leaf that was added, or a directory if something was added below (fake_filesystem.py
2511-2530: `create_dir` of the target, then `create_file`/`create_symlink` with the missing parents). -/
def eagerAt (leaves : List (List Str × RNode)) (p : List Str) : Placed :=
  match leaves.find? (fun x => x.1 = p) with
  | some x => .leaf x.2
  | none => if p = [] ∨ leaves.any (fun x => decide (p <+: x.1)) then .directory else .nothing

end Real
end Verif
