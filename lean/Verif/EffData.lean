import Verif.EffRemove
/-!
# Changing the contents and the size of a file: exact effects
-/

namespace Verif
open Py Spec Cfg

namespace Spec
/-- There is room for `c` more bytes on the device: it has no limit or at least `c` bytes are left. -/
def fits (dev : Option Nat) (c : Int) (ms : List Mount) : Bool :=
  match dev with
  | none => true
  | some i => match ms.find? (fun m => m.idev == i) with
    | none => true
    | some m => match m.total with
      | none => true
      | some t => decide (m.used + c ≤ t)

/-- The bytes `b` cut off or filled up with zeros to the length `n`. -/
def resized (b : Bytes) (n : Nat) : Bytes := b.take n ++ List.replicate (n - b.length) 0
end Spec

theorem changeDiskUsage_eq (c : Int) (dev : Option Nat) (s : FS) :
    changeDiskUsage c dev s =
      if fits dev c s.mounts then (.ok (), { s with mounts := charge dev c s.mounts }) else (.error (.os .ENOSPC), s) := by
  unfold changeDiskUsage charge fits
  cases dev with
  | none => rfl
  | some i =>
    cases h : s.mounts.find? (fun m => m.idev == i) with
    | none =>
      have hm : mountForDev (some i) s.mounts = none := h
      simp only [hm, h, changeUsed_none h, if_true]
    | some m =>
      have hm : mountForDev (some i) s.mounts = some m := h
      cases ht : m.total with
      | none => simp only [hm, h, ht, if_true]
      | some t =>
        by_cases hlt : t - m.used < c
        · have : ¬ (m.used + c ≤ t) := by omega
          simp only [hm, h, ht, if_pos hlt, this, decide_false, Bool.false_eq_true, if_false]
        · have : m.used + c ≤ t := by omega
          simp only [hm, h, ht, if_neg hlt, this, decide_true, if_true]

theorem find_changeUsed (i : Nat) (c : Int) : ∀ ms : List Mount, (changeUsed i c ms).find? (fun m => m.idev == i) =
    (ms.find? (fun m => m.idev == i)).map fun m => { m with used := m.used + c } := by
  intro ms
  induction ms with
  | nil => rfl
  | cons m ms ih =>
    unfold changeUsed
    by_cases h : m.idev = i
    · rw [if_pos h]; simp [h]
    · rw [if_neg h]
      have h' : (m.idev == i) = false := by simpa using h
      simp [h', ih]

/-- Giving back space after a successful change always succeeds. -/
theorem fits_back {dev : Option Nat} {c d : Int} {ms : List Mount} (h : fits dev c ms = true) (hd : d ≤ 0) :
    fits dev d (charge dev c ms) = true := by
  unfold fits charge at *
  cases dev with
  | none => rfl
  | some i =>
    simp only [find_changeUsed] at *
    cases hf : ms.find? (fun m => m.idev == i) with
    | none => simp
    | some m =>
      rw [hf] at h
      simp only [Option.map_some] at *
      cases ht : m.total with
      | none => simp
      | some t =>
        rw [ht] at h
        simp only [decide_eq_true_eq] at *
        omega

/-- the contents part of the `size` setter -/
def sized (b : Option Bytes) (cur n : Nat) : Option Bytes :=
  b.map fun b => if b = [] then b else if n < cur then b.take n else b ++ List.replicate (n - cur) 0

/-- the state after the `size` setter -/
def FS.withSize (s : FS) (r : Ref) (n : Nat) (c : Option Bytes) : FS :=
  { s with
    mounts := charge (s.heap r).dev ((n : Int) - s.stSize (s.heap r)) s.mounts
    heap := upd s.heap r { s.heap r with content := .file c, size := n, epoch := (s.heap r).epoch + 1 } }

theorem setSize_eq {s : FS} {r : Ref} {b : Option Bytes} (hb : (s.heap r).content = .file b) (n : Nat) :
    setSize r n s =
      if fits (s.heap r).dev ((n : Int) - s.stSize (s.heap r)) s.mounts then
        (.ok (), s.withSize r n (sized b (s.stSize (s.heap r)) n))
      else (.error (.os .ENOSPC), s) := by
  unfold setSize
  rw [hb]
  simp only [M.bind, changeDiskUsage_eq]
  by_cases hf : fits (s.heap r).dev ((n : Int) - s.stSize (s.heap r)) s.mounts = true
  · simp only [if_pos hf, M.modify, FS.setObj, FS.withSize, sized]
  · simp only [if_neg hf]

/-- the state after replacing the contents -/
def FS.withContents (s : FS) (r : Ref) (b : Bytes) : FS :=
  let o := s.heap r
  let old : Bool := match o.content with | .file (some (_ :: _)) => true | _ => false
  let c := charge o.dev ((b.length : Int) - s.stSize o) s.mounts
  { s with
    mounts := if old then charge o.dev (0 - (s.stSize o : Int)) c else c
    heap := upd s.heap r { o with content := .file (some b), size := b.length, epoch := o.epoch + (if old then 2 else 1) } }

theorem setInitialContents_eq {s : FS} {r : Ref} {old : Option Bytes} (hb : (s.heap r).content = .file old) (hr : r ≠ devNullRef) (b : Bytes) :
    setInitialContents r b s =
      if fits (s.heap r).dev ((b.length : Int) - s.stSize (s.heap r)) s.mounts then
        (.ok (decide (old ≠ some b)), s.withContents r b)
      else (.error (.os .ENOSPC), s) := by
  unfold setInitialContents
  rw [if_neg hr, hb]
  simp only [M.bind, changeDiskUsage_eq]
  by_cases hf : fits (s.heap r).dev ((b.length : Int) - s.stSize (s.heap r)) s.mounts = true
  · rw [if_pos hf, if_pos hf]
    simp only
    rcases old with _ | _ | ⟨x, l⟩
    · simp only [Option.getD_none, ne_eq, not_true_eq_false, if_false, M.pure, M.modify, FS.setObj, FS.withContents, hb]
      rfl
    · simp only [Option.getD_some, ne_eq, not_true_eq_false, if_false, M.pure, M.modify, FS.setObj, FS.withContents, hb]
      rfl
    · simp only [Option.getD_some, ne_eq, reduceCtorEq, not_false_eq_true, if_true]
      rw [setSize_eq (s := { s with mounts := charge (s.heap r).dev ((b.length : Int) - s.stSize (s.heap r)) s.mounts }) hb]
      rw [if_pos (fits_back hf (by have : (0 : Int) ≤ s.stSize (s.heap r) := Int.natCast_nonneg _
                                   show ((0 : Nat) : Int) - s.stSize (s.heap r) ≤ 0
                                   omega))]
      simp only [M.modify, M.pure, FS.setObj, FS.withSize, FS.withContents, hb, FS.stSize, upd_same, if_true]
      congr 2
      funext x
      simp only [upd_apply]
      split <;> rfl
  · rw [if_neg hf, if_neg hf]

theorem setContents_eq {s : FS} {r : Ref} {old : Option Bytes} (hb : (s.heap r).content = .file old) (hr : r ≠ devNullRef) (b : Bytes) :
    setContents r b s =
      if fits (s.heap r).dev ((b.length : Int) - s.stSize (s.heap r)) s.mounts then
        (.ok (decide (old ≠ some b)), s.withContents r b)
      else (.error (.os .ENOSPC), s) := by
  unfold setContents
  rw [if_neg (by unfold Obj.isDir; rw [hb]; simp), setInitialContents_eq hb hr]

/-- `s'` differs from `s` only in the contents, size and epoch of the file `r` and in the disk usage. -/
structure DataOnly (s s' : FS) (r : Ref) : Prop where
  env : s' = { s with heap := s'.heap, mounts := s'.mounts }
  others : ∀ x, x ≠ r → s'.heap x = s.heap x
  keep : s'.heap r = { s.heap r with content := (s'.heap r).content, size := (s'.heap r).size, epoch := (s'.heap r).epoch }
  file : (s.heap r).isDir = false ∧ (s'.heap r).isDir = false

theorem DataOnly.agree {s s' : FS} {r : Ref} (h : DataOnly s s' r) (hl : (s.heap r).isLnk = false) : Agree (fun _ => True) s s' := by
  have e := h.env
  have hm : ∀ x, (s'.heap x).mode = (s.heap x).mode := fun x => by
    by_cases hx : x = r
    · subst hx; rw [h.keep]
    · rw [h.others x hx]
  refine ⟨by rw [e], by rw [e], by rw [e], by rw [e], ?_, fun x _ => hm x, ?_, ?_, ?_⟩
  · unfold FS.devName
    by_cases hx : devNullRef = r
    · subst hx; rw [h.keep]
    · rw [h.others _ hx]
  · intro x _
    by_cases hx : x = r
    · subst hx; rw [h.file.1, h.file.2]
    · rw [h.others x hx]
  · intro x _
    by_cases hx : x = r
    · subst hx; rw [mem_entries_nil h.file.1, mem_entries_nil h.file.2]
    · rw [h.others x hx]
  · intro x _ hxl
    by_cases hx : x = r
    · subst hx; rw [hl] at hxl; simp at hxl
    · rw [h.others x hx]; unfold FS.linkTarget; rw [e]

theorem DataOnly.resolve {s s' : FS} {r : Ref} (h : DataOnly s s' r) (hl : (s.heap r).isLnk = false) (p : Str) (f c : Bool) :
    s'.resolve p f c = s.resolve p f c := (h.agree hl).resolve (closed_true s) p f c

theorem withSize_data {s : FS} {r : Ref} (hf : (s.heap r).isDir = false) (n : Nat) (c : Option Bytes) : DataOnly s (s.withSize r n c) r :=
  ⟨rfl, fun x hx => by simp [FS.withSize, upd_apply, hx], by simp [FS.withSize],
    hf, by simp [FS.withSize, Obj.isDir]⟩

theorem withContents_data {s : FS} {r : Ref} (hf : (s.heap r).isDir = false) (b : Bytes) : DataOnly s (s.withContents r b) r :=
  ⟨rfl, fun x hx => by simp [FS.withContents, upd_apply, hx], by simp [FS.withContents],
    hf, by simp [FS.withContents, Obj.isDir]⟩

end Verif
