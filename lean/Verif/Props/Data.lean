import Verif.EffData
import Verif.DemoFacts
import Verif.FileIO
/-!
# C34, C35: truncate; replacing contents is atomic
-/

namespace Verif
open Py Spec Cfg

/-! ## C34 -/

theorem sized_resized {b : Bytes} {n : Nat} (h : b ≠ [] ∨ n = 0) : sized (some b) b.length n = some (resized b n) := by
  unfold sized resized
  simp only [Option.map_some, Option.some.injEq]
  by_cases hb : b = []
  · subst hb
    rcases h with h | h
    · exact absurd rfl h
    · subst h; simp
  · rw [if_neg hb]
    by_cases hn : n < b.length
    · rw [if_pos hn]
      have : n - b.length = 0 := by omega
      rw [this]; simp
    · rw [if_neg hn, List.take_of_length_le (by omega)]

/-- C34: `os.truncate(p, n)` of a file with contents `b` (whose reported size is their length, and which is not
empty unless it stays so): if the device has room for the difference the file then has size `n` and contents `b`
cut or zero-padded to `n`, the used space changes by the difference and nothing else changes; otherwise ENOSPC
and nothing at all changes. -/
theorem truncate_effect {s : FS} {p : Str} {r : Ref} {b : Bytes} (hr : s.resolve p = .ok r) (hb : (s.heap r).content = .file (some b))
    (hl : (s.heap r).isLnk = false) (hsz : (s.statOf r).size = b.length) (n : Nat) (hne : b ≠ [] ∨ n = 0) :
    (fits (s.heap r).dev ((n : Int) - b.length) s.mounts = true → ∃ s', truncate p n s = (.ok (), s') ∧
      (s'.heap r).content = .file (some (resized b n)) ∧ (s'.heap r).size = n ∧
      s'.mounts = charge (s.heap r).dev ((n : Int) - b.length) s.mounts ∧
      s'.heap r = { s.heap r with content := (s'.heap r).content, size := n, epoch := (s.heap r).epoch + 1 } ∧
      (∀ x, x ≠ r → s'.heap x = s.heap x) ∧ (∀ q f c, s'.resolve q f c = s.resolve q f c) ∧
      s' = { s with heap := s'.heap, mounts := s'.mounts }) ∧
    (fits (s.heap r).dev ((n : Int) - b.length) s.mounts = false → truncate p n s = (.error (.os .ENOSPC), s)) := by
  have hst : s.stSize (s.heap r) = b.length := hsz
  have hrun : truncate p n s = setSize r n s := by
    unfold truncate
    show M.bind (rd fun s => s.resolve p) _ s = _
    simp only [M.bind, rd, M.ofRead, hr]
  have hf : (s.heap r).isDir = false := by unfold Obj.isDir; rw [hb]
  rw [hrun, setSize_eq hb, hst]
  refine ⟨fun h => ?_, fun h => ?_⟩
  · rw [if_pos h, sized_resized hne]
    refine ⟨_, rfl, ?_⟩
    have hd := withSize_data (s := s) (r := r) hf n (some (resized b n))
    refine ⟨by simp [FS.withSize], by simp [FS.withSize], by simp [FS.withSize, hst], by simp [FS.withSize],
      hd.others, hd.resolve hl, hd.env⟩
  · rw [if_neg (by simp [h])]

/-- `os.ftruncate(fd, n)` is the same on the file object of the descriptor. -/
theorem ftruncate_effect {s : FS} {fd : Int} {h : Nat} {r : Ref} {b : Bytes} (hh : s.getOpen fd = .ok h)
    (hk : (s.handles h).kind ≠ .std) (hr : (s.handles h).obj = r) (hb : (s.heap r).content = .file (some b))
    (hl : (s.heap r).isLnk = false) (hsz : (s.statOf r).size = b.length) (n : Nat) (hne : b ≠ [] ∨ n = 0) :
    (fits (s.heap r).dev ((n : Int) - b.length) s.mounts = true → ∃ s', ftruncate fd n s = (.ok (), s') ∧
      (s'.heap r).content = .file (some (resized b n)) ∧ (s'.heap r).size = n ∧
      s'.mounts = charge (s.heap r).dev ((n : Int) - b.length) s.mounts ∧
      (∀ x, x ≠ r → s'.heap x = s.heap x) ∧ (∀ q f c, s'.resolve q f c = s.resolve q f c) ∧
      s' = { s with heap := s'.heap, mounts := s'.mounts }) ∧
    (fits (s.heap r).dev ((n : Int) - b.length) s.mounts = false → ftruncate fd n s = (.error (.os .ENOSPC), s)) := by
  have hst : s.stSize (s.heap r) = b.length := hsz
  have hrun : ftruncate fd n s = setSize r n s := by
    unfold ftruncate
    show M.bind (rd fun s => s.getOpen fd) _ s = _
    simp only [M.bind, rd, M.ofRead, hh]
    show M.bind (hget h) _ s = _
    simp only [M.bind, hget]
    rw [← hr]
    cases hkk : (s.handles h).kind with
    | std => exact absurd hkk hk
    | file => rfl
    | dir => rfl
  have hf : (s.heap r).isDir = false := by unfold Obj.isDir; rw [hb]
  rw [hrun, setSize_eq hb, hst]
  refine ⟨fun h => ?_, fun h => ?_⟩
  · rw [if_pos h, sized_resized hne]
    refine ⟨_, rfl, ?_⟩
    have hd := withSize_data (s := s) (r := r) hf n (some (resized b n))
    exact ⟨by simp [FS.withSize], by simp [FS.withSize], by simp [FS.withSize, hst], hd.others, hd.resolve hl, hd.env⟩
  · rw [if_neg (by simp [h])]

/-- The hypotheses are met by `/a/f` of the demo filesystem (contents `hi`), for a smaller and a larger size. -/
example : demo.resolve ['/', 'a', '/', 'f'] = .ok 3 ∧ (demo.heap 3).content = .file (some [104, 105]) ∧
    (demo.heap 3).isLnk = false ∧ (demo.statOf 3).size = 2 ∧ fits (demo.heap 3).dev ((5 : Int) - 2) demo.mounts = true ∧
    fits (demo.heap 3).dev ((5000 : Int) - 2) demo.mounts = false ∧ resized [104, 105] 1 = [104] ∧ resized [104, 105] 4 = [104, 105, 0, 0] := by
  decide +kernel

/-- An empty file in the demo filesystem. -/
def emptyFS : FS := runs [.createFile ['/', 'e'] (S_IFREG ||| 0o666) (some []) none true false] demo

/-- C34 is false for empty files: after `truncate("/e", 3)` the size is 3 but the contents are still empty. -/
theorem truncate_empty_counterexample : Reachable emptyFS ∧ (truncate ['/', 'e'] 3 emptyFS).1 = .ok () ∧
    emptyFS.resolve ['/', 'e'] = .ok 6 ∧ (emptyFS.heap 6).content = .file (some []) ∧
    ((truncate ['/', 'e'] 3 emptyFS).2.heap 6).size = 3 ∧
    ((truncate ['/', 'e'] 3 emptyFS).2.heap 6).content = .file (some []) :=
  ⟨reachable_runs demo_reachable _, by decide +kernel, by decide +kernel, by decide +kernel, by decide +kernel, by decide +kernel⟩

/-! ## C35 -/

/-- C35: replacing the contents of a file is atomic: if it raises, nothing at all has changed. -/
theorem setContents_atomic {s s' : FS} {r : Ref} {b : Bytes} {e : Err} (h : setContents r b s = (.error e, s')) : s' = s := by
  by_cases hd : r = devNullRef
  · unfold setContents setInitialContents at h
    rw [if_pos hd] at h
    split at h
    · injection h with _ h2; exact h2.symm
    · simp at h
  · cases hc : (s.heap r).content with
    | dir es =>
      unfold setContents at h
      rw [if_pos (by unfold Obj.isDir; rw [hc])] at h
      injection h with _ h2; exact h2.symm
    | file old =>
      rw [setContents_eq hc hd] at h
      split at h
      · simp at h
      · injection h with _ h2; exact h2.symm

/-- and it raises ENOSPC exactly if the file does not fit, given the reported size of the old contents. -/
theorem setContents_enospc {s : FS} {r : Ref} {old : Option Bytes} (hc : (s.heap r).content = .file old) (hd : r ≠ devNullRef) (b : Bytes) :
    (setContents r b s).1 = .error (.os .ENOSPC) ↔
      fits (s.heap r).dev ((b.length : Int) - (s.statOf r).size) s.mounts = false := by
  rw [setContents_eq hc hd]
  show _ ↔ fits (s.heap r).dev ((b.length : Int) - s.stSize (s.heap r)) s.mounts = false
  split
  · rename_i h; simp [h]
  · rename_i h; simp [h]

theorem setSize_atomic {s s' : FS} {r : Ref} {n : Nat} {e : Err} (h : setSize r n s = (.error e, s')) : s' = s := by
  cases hc : (s.heap r).content with
  | dir es =>
    unfold setSize at h
    rw [hc] at h
    injection h with _ h2; exact h2.symm
  | file old =>
    rw [setSize_eq hc] at h
    split at h
    · simp at h
    · injection h with _ h2; exact h2.symm

/-- C22 and C35 for `os.truncate`: if it raises, nothing has changed. -/
theorem truncate_atomic {s s' : FS} {p : Str} {n : Nat} {e : Err} (h : truncate p n s = (.error e, s')) : s' = s := by
  unfold truncate at h
  change M.bind (rd fun s => s.resolve p) _ s = _ at h
  simp only [M.bind, rd, M.ofRead] at h
  cases hr : s.resolve p with
  | error x => rw [hr] at h; injection h with _ h2; exact h2.symm
  | ok r => rw [hr] at h; exact setSize_atomic h

example : (setContents 3 (List.replicate 2000 0) demo).1 = .error (.os .ENOSPC) ∧
    (truncate ['/', 'g'] 2000 demo).1 = .error (.os .ENOSPC) := by decide +kernel

end Verif
