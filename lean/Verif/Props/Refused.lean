import Verif.Props.Modes
import Verif.IoFlush
/-!
# C33, continued: the exception of a call in the wrong direction

Reading from a file opened for writing only, and writing to or truncating a file opened for reading only, raise
`io.UnsupportedOperation`, or OSError(EBADF) if the file was opened with `os.open` (or once used with `os.read` or `os.write`).
-/

namespace Verif
open Py Spec Cfg

/-- the exception of a call in the wrong direction -/
def Spec.wrongWay (raw : Bool) : Err := if raw then .os .EBADF else .unsupported

theorem hRaise_eq {α : Type} (h : Nat) (s : FS) : (hRaise h : M α) s = (.error (wrongWay (s.handles h).rawIo), s) := by
  unfold hRaise wrongWay
  rw [M.bind_eq]
  show (if (s.handles h).rawIo = true then M.raise .EBADF else M.throw .unsupported : M α) s = _
  cases (s.handles h).rawIo <;> rfl

section
variable {s : FS} {h : Nat} (ho : s.isOpen h = true) (hl : s.isLarge (s.handles h).obj = false) (hw : s.cfg.isWin = false)
include ho hl hw

/-- C33: `read` of a file opened for writing only. -/
theorem read_refused (hr : (s.handles h).read = false) (n : Option Nat) : read h n s = (.error (wrongWay (s.handles h).rawIo), s) := by
  unfold read
  rw [M.bind_eq]
  dsimp only [M.get]
  rw [if_neg (by rw [hl]; simp)]
  have e : checkOpen h s = (.ok (), s) := by unfold checkOpen; rw [if_pos ho]
  rw [M.bind_eq, e]
  dsimp only
  rw [if_pos hr, if_neg (by rw [hw]; simp), hRaise_eq]

/-- C33: `write` to a file opened for reading only. -/
theorem write_refused (hr : (s.handles h).update = false) (b : Bytes) : write h b s = (.error (wrongWay (s.handles h).rawIo), s) := by
  unfold write
  rw [M.bind_eq]
  dsimp only [M.get]
  rw [if_neg (by rw [hl]; simp)]
  have e : checkOpen h s = (.ok (), s) := by unfold checkOpen; rw [if_pos ho]
  rw [M.bind_eq, e]
  dsimp only
  rw [if_pos hr, if_neg (by rw [hw]; simp), hRaise_eq]

/-- C33: `truncate` of a file opened for reading only. -/
theorem truncate_refused (hr : (s.handles h).update = false) (n : Option Nat) : hTruncate h n s = (.error (wrongWay (s.handles h).rawIo), s) := by
  unfold hTruncate
  rw [M.bind_eq]
  dsimp only [M.get]
  rw [if_neg (by rw [hl]; simp)]
  have e : checkOpen h s = (.ok (), s) := by unfold checkOpen; rw [if_pos ho]
  rw [M.bind_eq, e]
  dsimp only
  rw [if_pos hr, if_neg (by rw [hw]; simp), hRaise_eq]

/-- C33: `os.read` of a descriptor opened for writing only. -/
theorem osRead_refused {fd : Int} (hf : s.getOpen fd = .ok h) (hk : (s.handles h).kind = .file) (hr : (s.handles h).read = false) (n : Nat) :
    osRead fd n s = (.error (.os .EBADF), s.setH h fun H => { H with rawIo := true }) := by
  unfold osRead
  rw [M.bind_eq, rd_eq (f := fun x => x.getOpen fd) hf]
  dsimp only
  have e : hget h s = (.ok (s.handles h), s) := rfl
  rw [M.bind_eq, e]
  dsimp only
  rw [if_neg (by rw [hk]; simp)]
  have e2 : (hmod h fun H => { H with rawIo := true }) s = (.ok (), s.setH h fun H => { H with rawIo := true }) := rfl
  rw [M.bind_eq, e2]
  dsimp only
  have h1 : ((s.setH h fun H => { H with rawIo := true }).handles h) = { s.handles h with rawIo := true } := by unfold FS.setH; simp
  have h2 : (s.setH h fun H => { H with rawIo := true }).isOpen h = true := by
    refine Eq.trans (b := s.isOpen h) ?_ ho
    unfold FS.isOpen; rw [h1]; rfl
  rw [read_refused (s := s.setH h fun H => { H with rawIo := true }) h2 (by rw [h1]; exact hl) hw (by rw [h1]; exact hr), h1]
  rfl

/-- C33: `os.write` to a descriptor opened for reading only, of a file that is not the null device. -/
theorem osWrite_refused {fd : Int} (hf : s.getOpen fd = .ok h) (hk : (s.handles h).kind = .file) (hr : (s.handles h).update = false) {D : Bytes}
    (hn : (s.handles h).obj ≠ devNullRef) (hc : (s.heap (s.handles h).obj).content = .file (some D)) (b : Bytes) :
    (osWrite fd b s).1 = .error (.os .EBADF) ∧ (osWrite fd b s).2.heap = s.heap := by
  unfold osWrite
  rw [M.bind_eq, rd_eq (f := fun x => x.getOpen fd) hf]
  dsimp only
  have e : hget h s = (.ok (s.handles h), s) := rfl
  rw [M.bind_eq, e]
  dsimp only
  rw [if_neg (by rw [hk]; simp), if_neg (by rw [hk]; simp)]
  have e2 : (hmod h fun H => { H with rawIo := true }) s = (.ok (), s.setH h fun H => { H with rawIo := true }) := rfl
  rw [M.bind_eq, e2]
  dsimp only
  have h1 : ((s.setH h fun H => { H with rawIo := true }).handles h) = { s.handles h with rawIo := true } := by unfold FS.setH; simp
  generalize hs1 : (s.setH h fun H => { H with rawIo := true }) = s1 at h1
  have g1 : s1.heap = s.heap := by rw [← hs1]; rfl
  have g2 : s1.isOpen h = true := by
    refine Eq.trans (b := s.isOpen h) ?_ ho
    unfold FS.isOpen; rw [h1, ← hs1]; rfl
  have g3 : s1.cfg.isWin = false := by rw [← hs1]; exact hw
  have e3 := syncIo_eq (s := s1) (g := h) (r := (s.handles h).obj) (D := D) (by rw [h1]) hn (by rw [g1]; exact hc)
  rw [M.bind_eq, e3]
  dsimp only
  generalize hs2 : (s1.setH h fun H => H.synced D (s1.heap (s.handles h).obj).epoch) = s2
  have e4 : (hmod h fun H => { H with flushPos := H.pos }) s2 = (.ok (), s2.setH h fun H => { H with flushPos := H.pos }) := rfl
  rw [M.bind_eq, e4]
  dsimp only
  generalize hs3 : (s2.setH h fun H => { H with flushPos := H.pos }) = s3
  have k1 : s3.heap = s.heap := by rw [← hs3, ← hs2]; exact g1
  have k2 : s3.isOpen h = true := by
    refine Eq.trans (b := s1.isOpen h) ?_ g2
    have f1 : (s3.handles h).fd = (s1.handles h).fd := by
      rw [← hs3, ← hs2]
      unfold FS.setH Handle.synced
      simp only [upd_same]
      split <;> rfl
    have f2 : s3.openFiles = s1.openFiles := by rw [← hs3, ← hs2]; rfl
    unfold FS.isOpen; rw [f1, f2]
  have k3 : s3.cfg.isWin = false := by rw [← hs3, ← hs2]; exact g3
  have k4 : (s3.handles h).rawIo = true ∧ (s3.handles h).obj = (s.handles h).obj ∧ (s3.handles h).update = false := by
    rw [← hs3, ← hs2]
    unfold FS.setH Handle.synced
    simp only [upd_same, h1]
    split
    · exact ⟨rfl, rfl, hr⟩
    · exact ⟨rfl, rfl, hr⟩
  have hlarge : s3.isLarge (s3.handles h).obj = false := by
    unfold FS.isLarge; rw [k4.2.1, k1, hc]
  rw [M.bind_eq, write_refused k2 hlarge k3 k4.2.2, k4.1]
  exact ⟨rfl, k1⟩

end

/-- On the demo filesystem: `/a/f` opened for reading only refuses `write` and `truncate`, opened for writing only it refuses `read`; with
`os.write` the error is EBADF. -/
example :
    let s1 := (openPath ['/', 'a', '/', 'f'] rbMode none false false demo).2
    let s2 := (openPath ['/', 'a', '/', 'f'] wbMode none false false demo).2
    (s1.isOpen 3 = true ∧ s1.isLarge (s1.handles 3).obj = false ∧ s1.cfg.isWin = false ∧ (s1.handles 3).update = false ∧ s1.getOpen 3 = .ok 3 ∧
      (s1.handles 3).kind = .file ∧ (s1.handles 3).obj ≠ devNullRef ∧ (s1.heap (s1.handles 3).obj).content = .file (some [104, 105])) ∧
    (s2.isOpen 3 = true ∧ s2.isLarge (s2.handles 3).obj = false ∧ s2.cfg.isWin = false ∧ (s2.handles 3).read = false) ∧
    (write 3 [1] s1).1 = .error .unsupported ∧ (hTruncate 3 none s1).1 = .error .unsupported ∧ (read 3 none s2).1 = .error .unsupported ∧
    (osWrite 3 [1] s1).1 = .error (.os .EBADF) ∧ (osRead 3 1 s2).1 = .error (.os .EBADF) := by decide +kernel

end Verif
