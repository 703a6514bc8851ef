import Verif.Ops
/-!
# Disk usage queries
-/

namespace Verif
open Py

/-- The result of `get_disk_usage` for a mount point (fake_filesystem.py 1110-1115): total, used and free space; an unlimited
device reports 1 TB of free space. -/
def Mount.usage (m : Mount) : Int × Int × Int :=
  match m.total with
  | some t => (t, m.used, t - m.used)
  | none => (1024 * 1024 * 1024 * 1024, 0, 1024 * 1024 * 1024 * 1024)

/-- `get_disk_usage` (fake_filesystem.py 1093-1115), `shutil.disk_usage` (fake_filesystem_shutil.py 53-60); without a path it
is that of the root directory. -/
def getDiskUsage (p : Option Str) : M (Int × Int × Int) := do
  let s ← M.get
  match p with
  | none => do
    match s.mounts.find? (fun m => m.path == (s.heap rootRef).name) with
    | some m => M.pure m.usage
    | none => M.throw .keyError
  | some p => do
    let dev ← mountForPath p
    let s ← M.get
    match s.mounts.find? (fun m => m.idev == dev) with
    | some m => M.pure m.usage
    | none => M.throw .assertion

end Verif
