import Verif.Fd
import Verif.EffCreate
/-!
# The invariant of the table of open files
-/

namespace Verif
open Py Spec Cfg

/-- Invariant of the table of open files. -/
structure FdInv (s : FS) : Prop where
  std : ∀ i < 3, s.openFiles[i]? = some (some [i]) ∧ (s.handles i).kind = .std
  notStd : ∀ h : Nat, 3 ≤ h → h < s.hnext → (s.handles h).kind ≠ .std
  three : 3 ≤ s.hnext
  free : ∀ fd : Nat, fd ∈ s.freeFds ↔ s.openFiles[fd]? = some none
  nodup : s.freeFds.Nodup
  head : ∀ (fd : Nat) (l : List Nat), s.openFiles[fd]? = some (some l) → ∃ h l', l = h :: l' ∧ (s.handles h).closefd = true
  dist : ∀ (fd : Nat) (l : List Nat), s.openFiles[fd]? = some (some l) → l.Nodup
  mem : ∀ (fd : Nat) (l : List Nat), s.openFiles[fd]? = some (some l) → ∀ h ∈ l, h < s.hnext ∧ (s.handles h).fd = fd

theorem FdInv.quiet {s s' : FS} (h : FdInv s) (q : Quiet s s') : FdInv s' := by
  refine ⟨?_, ?_, by rw [q.hnext]; exact h.three, ?_, by rw [q.freeFds]; exact h.nodup, ?_, ?_, ?_⟩
  · intro i hi; rw [q.openFiles, q.kind]; exact h.std i hi
  · intro i hi; rw [q.hnext, q.kind]; exact h.notStd i hi
  · intro fd; rw [q.freeFds, q.openFiles]; exact h.free fd
  · intro fd l; rw [q.openFiles]
    intro hl
    obtain ⟨a, b, c, d⟩ := h.head fd l hl
    exact ⟨a, b, c, by rw [q.closefd]; exact d⟩
  · intro fd l; rw [q.openFiles]; exact h.dist fd l
  · intro fd l; rw [q.openFiles]
    intro hl a ha
    rw [q.hnext, q.fd]; exact h.mem fd l hl a ha

theorem FdInv.len {s : FS} (h : FdInv s) : 3 ≤ s.openFiles.length := by
  have := (h.std 2 (by omega)).1
  have := (List.getElem?_eq_some_iff.mp this).1
  omega

theorem minFd_some : ∀ {l : List Nat} {m : Nat}, minFd l = some m → m ∈ l ∧ ∀ x ∈ l, m ≤ x := by
  intro l
  induction l with
  | nil => intro m h; simp [minFd] at h
  | cons a l ih =>
    intro m h
    unfold minFd at h
    cases hm : minFd l with
    | none =>
      rw [hm] at h
      simp only [Option.some.injEq] at h
      have : l = [] := by
        cases l with
        | nil => rfl
        | cons b l => unfold minFd at hm; split at hm <;> simp at hm
      subst this; subst h
      simp
    | some y =>
      rw [hm] at h
      simp only [Option.some.injEq] at h
      obtain ⟨h1, h2⟩ := ih hm
      subst h
      split
      · rename_i hle
        refine ⟨by simp, ?_⟩
        intro x hx
        rcases List.mem_cons.mp hx with rfl | hx
        · exact Nat.le_refl _
        · exact Nat.le_trans hle (h2 x hx)
      · rename_i hle
        refine ⟨by simp [h1], ?_⟩
        intro x hx
        rcases List.mem_cons.mp hx with rfl | hx
        · omega
        · exact h2 x hx

theorem minFd_none : ∀ {l : List Nat}, minFd l = none → l = [] := by
  intro l h
  cases l with
  | nil => rfl
  | cons b l => unfold minFd at h; split at h <;> simp at h

namespace Spec
/-- the descriptor is in use -/
def InUse (s : FS) (fd : Nat) : Prop := ∃ l, s.openFiles[fd]? = some (some l)

/-- The table of open files `t'` is `t` with the slot `fd` set to `e`. -/
structure SlotSet (t t' : List (Option (List Nat))) (fd : Nat) (e : Option (List Nat)) : Prop where
  here : t'[fd]? = some e
  others : ∀ i, i ≠ fd → t'[i]? = t[i]?
end Spec

/-- `_add_open_file`: the new descriptor is the smallest one not in use. -/
theorem addOpenFile_spec {s : FS} (hi : FdInv s) (h : Nat) : ∃ fd s', addOpenFile h s = (.ok fd, s') ∧ ¬ InUse s fd ∧ (∀ i < fd, InUse s i) ∧
    3 ≤ fd ∧ SlotSet s.openFiles s'.openFiles fd (some [h]) ∧
    s' = { s with openFiles := s'.openFiles, freeFds := s'.freeFds } ∧
    (∀ i, i ∈ s'.freeFds ↔ i ∈ s.freeFds ∧ i ≠ fd) ∧ s'.freeFds.Nodup := by
  have huse : ∀ i < s.openFiles.length, i ∉ s.freeFds → InUse s i := by
    intro i hl hn
    have hx := List.getElem?_eq_getElem hl
    cases he : s.openFiles[i] with
    | none => rw [he] at hx; exact absurd ((hi.free i).mpr hx) hn
    | some l => rw [he] at hx; exact ⟨l, hx⟩
  unfold addOpenFile
  cases hm : minFd s.freeFds with
  | some fd =>
    obtain ⟨h1, h2⟩ := minFd_some hm
    have hslot := (hi.free fd).mp h1
    have hlt := (List.getElem?_eq_some_iff.mp hslot).1
    refine ⟨fd, _, rfl, ?_, ?_, ?_, ⟨by simp [hlt], fun i hne => by simp [Ne.symm hne]⟩, rfl, ?_, ?_⟩
    · rintro ⟨l, hl⟩; rw [hslot] at hl; simp at hl
    · intro i hlt'
      apply huse i (by omega)
      intro hmem; have := h2 i hmem; omega
    · rcases Nat.lt_or_ge fd 3 with h3 | h3
      · have := (hi.std fd h3).1; rw [hslot] at this; simp at this
      · exact h3
    · intro i
      simp only
      rw [hi.nodup.mem_erase_iff]
      exact and_comm
    · exact hi.nodup.erase _
  | none =>
    have he := minFd_none hm
    refine ⟨s.openFiles.length, _, rfl, ?_, ?_, hi.len, ⟨by simp, ?_⟩, rfl, ?_, hi.nodup⟩
    · rintro ⟨l, hl⟩; simp at hl
    · intro i hlt; exact huse i hlt (by rw [he]; simp)
    · intro i hne
      rcases Nat.lt_or_ge i s.openFiles.length with h | h
      · simp [List.getElem?_append_left h]
      · rw [List.getElem?_append_right h]
        have : i - s.openFiles.length ≠ 0 := by omega
        obtain ⟨k, hk⟩ := Nat.exists_eq_succ_of_ne_zero this
        rw [hk]; simp; omega
    · intro i
      simp only [he]
      simp

/-- A new handle in a slot of its own. -/
theorem fdInv_new {s s' : FS} (hi : FdInv s) {fd : Nat} {H : Handle} (hslot : SlotSet s.openFiles s'.openFiles fd (some [s.hnext])) (h3 : 3 ≤ fd)
    (hfree : ∀ i, i ∈ s'.freeFds ↔ i ∈ s.freeFds ∧ i ≠ fd) (hnd : s'.freeFds.Nodup)
    (hhn : s'.hnext = s.hnext + 1) (hh : s'.handles = upd s.handles s.hnext H) (hfd : H.fd = fd) (hk : H.kind ≠ .std) (hc : H.closefd = true) :
    FdInv s' := by
  have hold : ∀ i < s.hnext, s'.handles i = s.handles i := fun i hi => by rw [hh, upd_ne _ _ (Nat.ne_of_lt hi)]
  have hnew : s'.handles s.hnext = H := by rw [hh, upd_same]
  refine ⟨?_, ?_, by rw [hhn]; have := hi.three; omega, ?_, hnd, ?_, ?_, ?_⟩
  · intro i hlt
    rw [hslot.others i (by omega), hold i (by have := hi.three; omega)]
    exact hi.std i hlt
  · intro i h1 h2
    rcases Nat.lt_or_ge i s.hnext with h | h
    · rw [hold i h]; exact hi.notStd i h1 h
    · have : i = s.hnext := by omega
      subst this; rw [hnew]; exact hk
  · intro i
    rw [hfree]
    by_cases he : i = fd
    · subst he; rw [hslot.here]; simp
    · rw [hslot.others i he, hi.free]; simp [he]
  · intro i l hl
    by_cases he : i = fd
    · subst he; rw [hslot.here] at hl
      injection hl with hl; injection hl with hl
      exact ⟨s.hnext, [], hl.symm, by rw [hnew]; exact hc⟩
    · rw [hslot.others i he] at hl
      obtain ⟨a, b, c, d⟩ := hi.head i l hl
      refine ⟨a, b, c, ?_⟩
      rw [hold a ((hi.mem i l hl a (by rw [c]; simp)).1)]; exact d
  · intro i l hl
    by_cases he : i = fd
    · subst he; rw [hslot.here] at hl
      injection hl with hl; injection hl with hl
      rw [← hl]; simp
    · rw [hslot.others i he] at hl; exact hi.dist i l hl
  · intro i l hl a ha
    by_cases he : i = fd
    · subst he; rw [hslot.here] at hl
      injection hl with hl; injection hl with hl
      rw [← hl] at ha
      simp only [List.mem_singleton] at ha
      subst ha
      exact ⟨by rw [hhn]; omega, by rw [hnew]; exact hfd⟩
    · rw [hslot.others i he] at hl
      obtain ⟨h1, h2⟩ := hi.mem i l hl a ha
      exact ⟨by rw [hhn]; omega, by rw [hold a h1]; exact h2⟩

/-- Freeing a slot that is in use. -/
theorem fdInv_close {s : FS} (hi : FdInv s) {fd : Nat} (h3 : 3 ≤ fd) (hu : InUse s fd) :
    FdInv { s with openFiles := s.openFiles.set fd none, freeFds := fd :: s.freeFds } := by
  obtain ⟨l0, hl0⟩ := hu
  have hlt := (List.getElem?_eq_some_iff.mp hl0).1
  have hnf : fd ∉ s.freeFds := by rw [hi.free, hl0]; simp
  have hset : ∀ i, i ≠ fd → (s.openFiles.set fd none)[i]? = s.openFiles[i]? := fun i hne => by simp [Ne.symm hne]
  have hhere : (s.openFiles.set fd none)[fd]? = some none := by simp [hlt]
  refine ⟨?_, hi.notStd, hi.three, ?_, ?_, ?_, ?_, ?_⟩
  · intro i hlt'
    show (s.openFiles.set fd none)[i]? = _ ∧ _
    rw [hset i (by omega)]; exact hi.std i hlt'
  · intro i
    show i ∈ fd :: s.freeFds ↔ (s.openFiles.set fd none)[i]? = _
    by_cases he : i = fd
    · subst he; rw [hhere]; simp
    · rw [hset i he, ← hi.free]; simp [he]
  · exact List.nodup_cons.mpr ⟨hnf, hi.nodup⟩
  · intro i l hl
    change (s.openFiles.set fd none)[i]? = _ at hl
    by_cases he : i = fd
    · subst he; rw [hhere] at hl; simp at hl
    · rw [hset i he] at hl; exact hi.head i l hl
  · intro i l hl
    change (s.openFiles.set fd none)[i]? = _ at hl
    by_cases he : i = fd
    · subst he; rw [hhere] at hl; simp at hl
    · rw [hset i he] at hl; exact hi.dist i l hl
  · intro i l hl
    change (s.openFiles.set fd none)[i]? = _ at hl
    by_cases he : i = fd
    · subst he; rw [hhere] at hl; simp at hl
    · rw [hset i he] at hl; exact hi.mem i l hl

/-- Adding or removing a further handle of a slot. -/
theorem fdInv_modify {s s' : FS} (hi : FdInv s) {fd : Nat} {l0 l1 : List Nat} (h3 : 3 ≤ fd) (hu : s.openFiles[fd]? = some (some l0))
    (hof : s'.openFiles = s.openFiles.modify fd fun e => e.map fun _ => l1) (hff : s'.freeFds = s.freeFds)
    (hhn : s.hnext ≤ s'.hnext) (hold : ∀ i < s.hnext, s'.handles i = s.handles i)
    (hks : ∀ i, s.hnext ≤ i → i < s'.hnext → (s'.handles i).kind ≠ .std)
    (hhead : ∃ h a b, l0 = h :: a ∧ l1 = h :: b) (hnd : l1.Nodup)
    (hmem : ∀ h ∈ l1, h < s'.hnext ∧ (s'.handles h).fd = fd) : FdInv s' := by
  have hlt := (List.getElem?_eq_some_iff.mp hu).1
  have hset : ∀ i, i ≠ fd → s'.openFiles[i]? = s.openFiles[i]? := fun i hne => by
    rw [hof, List.getElem?_modify]
    simp [Ne.symm hne]
  have hhere : s'.openFiles[fd]? = some (some l1) := by
    rw [hof, List.getElem?_modify]
    simp [hu]
  refine ⟨?_, ?_, by have := hi.three; omega, ?_, by rw [hff]; exact hi.nodup, ?_, ?_, ?_⟩
  · intro i hlt'
    rw [hset i (by omega), hold i (by have := hi.three; omega)]; exact hi.std i hlt'
  · intro i h1 h2
    rcases Nat.lt_or_ge i s.hnext with h | h
    · rw [hold i h]; exact hi.notStd i h1 h
    · exact hks i h h2
  · intro i
    rw [hff]
    by_cases he : i = fd
    · subst he; rw [hhere, hi.free, hu]; simp
    · rw [hset i he]; exact hi.free i
  · intro i l hl
    by_cases he : i = fd
    · subst he; rw [hhere] at hl
      injection hl with hl; injection hl with hl
      obtain ⟨h, a, b, e1, e2⟩ := hhead
      obtain ⟨h', a', e3, e4⟩ := hi.head i l0 hu
      rw [e1] at e3
      injection e3 with e3 _
      refine ⟨h, b, by rw [← hl, e2], ?_⟩
      rw [hold h ((hi.mem i l0 hu h (by rw [e1]; simp)).1), e3]; exact e4
    · rw [hset i he] at hl
      obtain ⟨a, b, c, d⟩ := hi.head i l hl
      exact ⟨a, b, c, by rw [hold a ((hi.mem i l hl a (by rw [c]; simp)).1)]; exact d⟩
  · intro i l hl
    by_cases he : i = fd
    · subst he; rw [hhere] at hl
      injection hl with hl; injection hl with hl
      rw [← hl]; exact hnd
    · rw [hset i he] at hl; exact hi.dist i l hl
  · intro i l hl a ha
    by_cases he : i = fd
    · subst he; rw [hhere] at hl
      injection hl with hl; injection hl with hl
      rw [← hl] at ha; exact hmem a ha
    · rw [hset i he] at hl
      obtain ⟨h1, h2⟩ := hi.mem i l hl a ha
      exact ⟨by omega, by rw [hold a h1]; exact h2⟩

/-- `get_open_file` for a descriptor number. -/
theorem getOpen_spec {s : FS} (hi : FdInv s) (fd : Nat) :
    (s.getOpen fd = .error (.os .EBADF) ∧ ¬ InUse s fd) ∨
    ∃ h l, s.getOpen fd = .ok h ∧ s.openFiles[fd]? = some (some (h :: l)) := by
  unfold FS.getOpen
  by_cases hl : (fd : Int) ≥ s.openFiles.length
  · rw [if_pos hl]
    left
    refine ⟨rfl, ?_⟩
    rintro ⟨l, h⟩
    have := (List.getElem?_eq_some_iff.mp h).1
    omega
  · rw [if_neg hl]
    have hlt : fd < s.openFiles.length := by omega
    have h0 : ¬ ((fd : Int) < 0) := by omega
    simp only [if_neg h0, Int.toNat_natCast]
    have hx := List.getElem?_eq_getElem hlt
    cases he : s.openFiles[fd] with
    | none =>
      rw [he] at hx
      rw [hx]
      left
      exact ⟨rfl, by rintro ⟨l, h⟩; rw [hx] at h; simp at h⟩
    | some l =>
      rw [he] at hx
      obtain ⟨h, l', e, _⟩ := hi.head fd l hx
      subst e
      rw [hx]
      right
      exact ⟨h, l', rfl, rfl⟩

/-- A handle found through any number is the first one of its slot. -/
theorem getOpen_slot {s : FS} {fd : Int} {h : Nat} (hg : s.getOpen fd = .ok h) :
    ∃ (i : Nat) (l : List Nat), s.openFiles[i]? = some (some (h :: l)) ∧ (0 ≤ fd → fd = i) := by
  unfold FS.getOpen at hg
  by_cases h1 : fd ≥ s.openFiles.length
  · rw [if_pos h1] at hg; simp at hg
  · rw [if_neg h1] at hg
    generalize hx : (if fd < 0 then fd + (s.openFiles.length : Int) else fd) = x at hg
    by_cases h2 : x < 0
    · rw [if_pos h2] at hg; simp at hg
    · rw [if_neg h2] at hg
      split at hg
      · rename_i l heq
        injection hg with hg
        subst hg
        refine ⟨_, _, heq, ?_⟩
        intro h0
        have : ¬ fd < 0 := by omega
        rw [if_neg this] at hx
        omega
      · simp at hg
      · simp at hg
      · simp at hg

/-! ## Every call keeps the invariant -/

/-- A call keeps the invariant of the table of open files. -/
def FdKeep {α : Type} (m : M α) : Prop := ∀ s, FdInv s → FdInv (m s).2

theorem fk_quiet {α : Type} {m : M α} (h : Fr Quiet m) : FdKeep m := fun s hi => hi.quiet (h s)

theorem fk_bind {α β : Type} {m : M α} {f : α → M β} (h1 : FdKeep m) (h2 : ∀ a, FdKeep (f a)) : FdKeep (m >>= f) := by
  intro s hi
  have h := h1 s hi
  show FdInv (M.bind m f s).2
  unfold M.bind
  cases he : m s with
  | mk r s' =>
    rw [he] at h
    cases r with
    | ok a => exact h2 a s' h
    | error e => exact h

theorem wp_fr {α : Type} {R : FS → FS → Prop} {m : M α} (h : Fr R m) {Q : Except Err α → FS → Prop} {s : FS}
    (hq : ∀ r s', R s s' → Q r s') : wp m Q s := hq _ _ (h s)

theorem fk_closeOpen {s : FS} (hi : FdInv s) {h fd : Nat} {l : List Nat} (hs : s.openFiles[fd]? = some (some l)) (hm : h ∈ l)
    (hk : (s.handles h).kind ≠ .std) : FdInv (closeOpenFile (s.handles h).fd s).2 := by
  rw [(hi.mem fd l hs h hm).2]
  have h3 : 3 ≤ fd := by
    rcases Nat.lt_or_ge fd 3 with h3 | h3
    · obtain ⟨e1, e2⟩ := hi.std fd h3
      rw [hs] at e1
      injection e1 with e1; injection e1 with e1
      rw [e1, List.mem_singleton] at hm
      rw [hm] at hk
      exact absurd e2 hk
    · exact h3
  exact fdInv_close hi h3 ⟨l, hs⟩

theorem isOpen_slot {s : FS} {h : Nat} (ho : s.isOpen h = true) : ∃ l, s.openFiles[(s.handles h).fd]? = some (some l) ∧ h ∈ l := by
  unfold FS.isOpen at ho
  split at ho
  · rename_i l heq
    exact ⟨l, heq, by simpa using ho⟩
  · simp at ho

theorem isOpen_iff {s : FS} {h : Nat} : s.isOpen h = true ↔ ∃ l, s.openFiles[(s.handles h).fd]? = some (some l) ∧ h ∈ l := by
  refine ⟨isOpen_slot, ?_⟩
  rintro ⟨l, h1, h2⟩
  unfold FS.isOpen
  rw [h1]; simpa using h2

theorem Quiet.isOpen {s s' : FS} (q : Quiet s s') (h : Nat) : s'.isOpen h = s.isOpen h := by
  unfold FS.isOpen
  rw [q.openFiles, q.fd]

theorem slot_three {s : FS} (hi : FdInv s) {fd h : Nat} {l : List Nat} (hs : s.openFiles[fd]? = some (some l)) (hm : h ∈ l)
    (hk : (s.handles h).kind ≠ .std) : 3 ≤ fd := by
  rcases Nat.lt_or_ge fd 3 with h3 | h3
  · obtain ⟨e1, e2⟩ := hi.std fd h3
    rw [hs] at e1
    injection e1 with e1; injection e1 with e1
    rw [e1, List.mem_singleton] at hm
    rw [hm] at hk
    exact absurd e2 hk
  · exact h3

/-- Removing a handle that does not own its descriptor. -/
theorem fdInv_erase {s : FS} (hi : FdInv s) {h : Nat} (ho : s.isOpen h = true) (hk : (s.handles h).kind ≠ .std) (hc : (s.handles h).closefd = false) :
    FdInv { s with openFiles := s.openFiles.modify (s.handles h).fd fun e => e.map fun l => l.erase h } := by
  obtain ⟨l, h1, h2⟩ := isOpen_slot ho
  obtain ⟨a, l', e, hc'⟩ := hi.head _ _ h1
  have hne : a ≠ h := by intro e; subst e; rw [hc] at hc'; simp at hc'
  have hnd := hi.dist _ _ h1
  refine fdInv_modify hi (fd := (s.handles h).fd) (l0 := l) (l1 := l.erase h) (slot_three hi h1 h2 hk) h1 ?_ rfl (Nat.le_refl _) (fun _ _ => rfl)
    (fun i h1 h2 => absurd (Nat.lt_of_lt_of_le h2 h1) (Nat.lt_irrefl _)) ⟨a, l', l'.erase h, e, ?_⟩ (hnd.erase _) ?_
  · show s.openFiles.modify _ _ = s.openFiles.modify _ _
    apply List.ext_getElem?
    intro i
    rw [List.getElem?_modify, List.getElem?_modify]
    by_cases hi' : (s.handles h).fd = i
    · rw [← hi', h1]; simp
    · simp [hi']
  · rw [e, List.erase_cons_tail (by simpa using hne)]
  · intro b hb
    exact hi.mem _ _ h1 b (List.mem_of_mem_erase hb)

/-- What closing a handle does to the table. -/
def Closed1 (s : FS) (h : Nat) (r : Except Err Unit) (s' : FS) : Prop :=
  (s'.openFiles = s.openFiles ∧ ((∃ e, r = .error e) ∨ (s.handles h).kind = .std ∨ ((s.handles h).kind = .file ∧ s.isOpen h = false))) ∨
  (((s.handles h).kind = .dir ∨ (s.handles h).closefd = true) ∧ SlotSet s.openFiles s'.openFiles (s.handles h).fd none) ∨
  ((s.handles h).closefd = false ∧ ∃ l, s.openFiles[(s.handles h).fd]? = some (some l) ∧
    SlotSet s.openFiles s'.openFiles (s.handles h).fd (some (l.erase h)))

theorem slot_none {t : List (Option (List Nat))} {fd : Nat} {l : List Nat} (h : t[fd]? = some (some l)) : SlotSet t (t.set fd none) fd none := by
  have hlt := (List.getElem?_eq_some_iff.mp h).1
  exact ⟨by simp [hlt], fun i hne => by simp [Ne.symm hne]⟩

theorem fk_hClose (h : Nat) (s : FS) (hi : FdInv s) (hd : (s.handles h).kind = .dir → ∃ l, s.openFiles[(s.handles h).fd]? = some (some l) ∧ h ∈ l) :
    wp (hClose h) (fun r s' => FdInv s' ∧ Closed1 s h r s') s := by
  unfold hClose
  apply wp_getBind
  dsimp only
  cases hk : (s.handles h).kind with
  | std => exact ⟨hi, Or.inl ⟨rfl, Or.inr (Or.inl hk)⟩⟩
  | dir =>
    obtain ⟨l, h1, h2⟩ := hd hk
    exact ⟨fk_closeOpen hi h1 h2 (by rw [hk]; simp), Or.inr (Or.inl ⟨Or.inl hk, slot_none h1⟩)⟩
  | file =>
    dsimp only
    cases ho : s.isOpen h with
    | false => exact ⟨hi, Or.inl ⟨rfl, Or.inr (Or.inr ⟨hk, ho⟩)⟩⟩
    | true =>
      have tail : ∀ s', FdInv s' → Quiet s s' → wp (if (s.handles h).closefd = true then do
            closeOpenFile (s.handles h).fd
            if (s.handles h).deleteOnClose = true then do
              let s1 ← M.get
              removeObject (s1.objPath (s.handles h).obj)
            else pure ()
          else do
            M.modify fun s' => { s' with openFiles := s'.openFiles.modify (s.handles h).fd fun e => e.map fun l => l.erase h }
            if (s.handles h).deleteOnClose = true then do
              let s1 ← M.get
              removeObject (s1.objPath (s.handles h).obj)
            else pure ()) (fun r s' => FdInv s' ∧ Closed1 s h r s') s' := by
        intro s' hi' q
        have hrest : ∀ s1, FdInv s1 → (∀ r s2, s2.openFiles = s1.openFiles → Closed1 s h r s2) → wp (if (s.handles h).deleteOnClose = true then do
            let s1 ← M.get
            removeObject (s1.objPath (s.handles h).obj) else pure ()) (fun r s' => FdInv s' ∧ Closed1 s h r s') s1 := by
          intro s1 h1 hc
          refine wp_fr (R := Quiet) ?_ (fun _ _ q => ⟨h1.quiet q, hc _ _ q.openFiles⟩)
          apply fr_ite
          · intro _; exact fr_bind fr_get fun _ => fr_removeObject _
          · intro _; exact fr_pure' _
        have ho' : s'.isOpen h = true := by rw [q.isOpen]; exact ho
        have hk' : (s'.handles h).kind ≠ .std := by rw [q.kind, hk]; simp
        obtain ⟨l, h1, h2⟩ := isOpen_slot ho'
        by_cases hc : (s.handles h).closefd = true
        · rw [if_pos hc]
          have := fk_closeOpen hi' h1 h2 hk'
          rw [q.fd] at this h1
          refine wp_bind (hrest _ this ?_)
          intro r s2 e
          refine Or.inr (Or.inl ⟨Or.inr hc, ?_⟩)
          rw [e, ← q.openFiles]
          exact slot_none h1
        · rw [if_neg hc]
          have := fdInv_erase hi' ho' hk' (by rw [q.closefd]; simpa using hc)
          rw [q.fd] at this h1
          refine wp_bind (hrest _ this ?_)
          intro r s2 e
          refine Or.inr (Or.inr ⟨by simpa using hc, l, ?_, ?_⟩)
          · rw [← q.openFiles]; exact h1
          · rw [e, ← q.openFiles]
            refine ⟨?_, ?_⟩
            · show (s'.openFiles.modify _ _)[_]? = _
              rw [List.getElem?_modify, h1]; simp
            · intro i hne
              show (s'.openFiles.modify _ _)[_]? = _
              rw [List.getElem?_modify]; simp [Ne.symm hne]
      have ht := tail s hi (TreeRel.refl s)
      by_cases hu : (s.handles h).update = true ∧ (s.handles h).rawIo = false
      · simp only [hu, and_self, if_true, Bool.not_true, Bool.false_eq_true, if_false]
        refine wp_seq (fun _ s' => Quiet s s') (fq_flush h s) (fun _ _ q => ⟨hi.quiet q, Or.inl ⟨q.openFiles, Or.inl ⟨_, rfl⟩⟩⟩) ?_
        intro _ s1 q1
        apply wp_getBind
        split
        · apply wp_modifyBind
          have q2 : Quiet s1 (s1.setObj (s.handles h).obj fun o => { o with mtime := s1.clock }) :=
            TreeRel.tree s1 _ s1.next s1.lastIno s1.mounts s1.lastDev
          exact tail _ ((hi.quiet q1).quiet q2) (TreeRel.trans q1 q2)
        · exact tail s1 (hi.quiet q1) q1
      · simp only [hu, if_false, Bool.not_true, Bool.false_eq_true]
        exact ht

/-- What opening a file does to the table: the new handle gets the smallest descriptor not in use. -/
structure Spec.Opened (s s' : FS) (fd h : Nat) : Prop where
  fresh : ¬ InUse s fd
  lowest : ∀ i < fd, InUse s i
  slot : SlotSet s.openFiles s'.openFiles fd (some [h])
  handle : h = s.hnext
  hfd : (s'.handles h).fd = fd
  old : ∀ i < h, s'.handles i = s.handles i
  hnext : s'.hnext = h + 1

/-- Registering a new handle. -/
theorem register_spec {s : FS} (hi : FdInv s) (H : Handle) (hk : H.kind ≠ .std) (hc : H.closefd = true) {β : Type} {f : Nat → Nat → M β}
    {Q : Except Err β → FS → Prop}
    (hq : ∀ fd s', Opened s s' fd s.hnext → FdInv s' → s'.handles s.hnext = { H with fd := fd } →
      s' = { s with openFiles := s'.openFiles, freeFds := s'.freeFds, handles := s'.handles, hnext := s'.hnext } → wp (f s.hnext fd) Q s') :
    wp (do
      let h ← newHandle H
      let fd ← addOpenFile h
      hmod h fun H => { H with fd := fd }
      f h fd) Q s := by
  let s1 : FS := { s with handles := upd s.handles s.hnext H, hnext := s.hnext + 1 }
  -- the table does not depend on the handles
  have hadd : addOpenFile s.hnext s1 = ((addOpenFile s.hnext s).1, { (addOpenFile s.hnext s).2 with handles := s1.handles, hnext := s1.hnext }) := by
    unfold addOpenFile
    show (match minFd s.freeFds with | some fd => _ | none => _) = _
    cases minFd s.freeFds <;> rfl
  obtain ⟨fd, s2, e1, e2, e3, e4, e5, e6, e7, e8⟩ := addOpenFile_spec hi s.hnext
  apply wp_bind
  show wp (addOpenFile s.hnext >>= _) Q s1
  apply wp_bind
  unfold wp
  rw [hadd, e1]
  show wp (hmod s.hnext (fun H => { H with fd := fd }) >>= _) Q _
  apply wp_bind
  show wp (f s.hnext fd) Q _
  have hh : upd s1.handles s.hnext { s1.handles s.hnext with fd := fd } = upd s.handles s.hnext { H with fd := fd } := by
    funext i
    show upd (upd s.handles s.hnext H) s.hnext { (upd s.handles s.hnext H) s.hnext with fd := fd } i = _
    by_cases he : i = s.hnext
    · subst he; simp only [upd_same]
    · simp only [upd_ne _ _ he]
  refine hq fd _ ⟨e2, e3, e5, rfl, ?_, ?_, rfl⟩ ?_ ?_ ?_
  · show (upd s1.handles s.hnext { s1.handles s.hnext with fd := fd } s.hnext).fd = fd
    rw [upd_same]
  · intro i hi
    show upd s1.handles s.hnext { s1.handles s.hnext with fd := fd } i = _
    rw [hh, upd_ne _ _ (Nat.ne_of_lt hi)]
  · exact fdInv_new hi e5 e4 e7 e8 rfl hh rfl hk hc
  · show upd s1.handles s.hnext { s1.handles s.hnext with fd := fd } s.hnext = _
    rw [hh, upd_same]
  · rw [e6]
    rfl

/-- `open(path, mode)`: success registers one handle with the smallest free descriptor; failure leaves the
table alone. -/
theorem openPath_table {s : FS} (hi : FdInv s) (p : Str) (md : OpenModes) (bf : Option Nat) (raw del : Bool) :
    wp (openPath p md bf raw del) (fun r s' => FdInv s' ∧ match r with
      | .ok h => ∃ fd s0, Quiet s s0 ∧ Opened s0 s' fd h ∧ ∃ o, s'.handles h = { mkHandle s0 o md bf true raw del 0 with fd := fd } ∧
          s' = { s0 with openFiles := s'.openFiles, freeFds := s'.freeFds, handles := s'.handles, hnext := s'.hnext }
      | .error _ => Quiet s s') s := by
  unfold openPath
  refine wp_seq (fun _ s' => Quiet s s') (fr_rd _ s) (fun _ _ q => ⟨hi.quiet q, q⟩) ?_
  intro a s1 q1
  refine wp_seq (fun _ s' => Quiet s s') (TreeRel.trans q1 (fq_openObject a.1 p a.2 md s1)) (fun _ _ q => ⟨hi.quiet q, q⟩) ?_
  intro r s2 q2
  apply wp_getBind
  dsimp only
  split
  · exact ⟨hi.quiet q2, q2⟩
  · refine register_spec (hi.quiet q2) _ (by simp [mkHandle]) (by simp [mkHandle]) ?_
    intro fd s' ho hf hh hs
    exact ⟨hf, fd, s2, q2, ho, r, hh, hs⟩

theorem openFd_table {s : FS} (hi : FdInv s) (fd : Nat) (md : OpenModes) (bf : Option Nat) (cf : Bool) :
    wp (openFd fd md bf cf) (fun r s' => FdInv s' ∧ match r with
      | .ok h => h = s.hnext ∧ ∃ l, s.openFiles[fd]? = some (some l) ∧ SlotSet s.openFiles s'.openFiles fd (some (l ++ [h])) ∧
          (s'.handles h).fd = fd ∧ s'.hnext = h + 1
      | .error _ => Quiet s s') s := by
  unfold openFd
  rcases getOpen_spec hi fd with ⟨h1, h2⟩ | ⟨w, l, h1, h2⟩
  · refine wp_bindErr (e := .os .EBADF) (s' := s) ?_ ?_
    · exact rd_eq (f := fun s => s.getOpen fd) h1
    · exact ⟨hi, TreeRel.refl s⟩
  · refine wp_bindOk (rd_eq (f := fun s => s.getOpen fd) h1) ?_
    refine wp_bindOk (a := s.handles w) (s' := s) rfl ?_
    split
    · exact ⟨hi, TreeRel.refl s⟩
    · rename_i hk
      apply wp_getBind
      dsimp only
      refine wp_seq (fun _ s' => Quiet s s') (fq_openObject _ _ _ _ s) (fun _ _ q => ⟨hi.quiet q, q⟩) ?_
      intro r s1 q1
      apply wp_getBind
      apply wp_bind
      dsimp only [newHandle, wp]
      have hn : s1.hnext = s.hnext := q1.hnext
      have hk' : (s.handles w).kind = .file := by simpa using hk
      have h3 : 3 ≤ fd := slot_three hi h2 (h := w) (by simp) (by rw [hk']; simp)
      have hi1 := hi.quiet q1
      have h2' : s1.openFiles[fd]? = some (some (w :: l)) := by rw [q1.openFiles]; exact h2
      have hnew : s1.hnext ∉ w :: l := fun hm => Nat.lt_irrefl _ (hi1.mem _ _ h2' _ hm).1
      refine ⟨?_, hn, w :: l, h2, ⟨?_, ?_⟩, ?_, ?_⟩
      · refine fdInv_modify hi1 h3 h2' (l1 := w :: l ++ [s1.hnext]) ?_ rfl (Nat.le_succ _) ?_ ?_ ⟨w, l, l ++ [s1.hnext], rfl, rfl⟩ ?_ ?_
        · apply List.ext_getElem?
          intro i
          rw [List.getElem?_modify]
          show (s1.openFiles.modify _ _)[i]? = _
          rw [List.getElem?_modify]
          by_cases hi' : fd = i
          · rw [← hi', h2']; simp
          · simp [hi']
        · intro i hlt; exact upd_ne _ _ (Nat.ne_of_lt hlt)
        · intro i h1 h2
          have : i = s1.hnext := by
            have : i < s1.hnext + 1 := h2
            omega
          subst this
          show (upd s1.handles s1.hnext _ s1.hnext).kind ≠ _
          rw [upd_same]; simp [mkHandle]
        · rw [List.nodup_append]
          refine ⟨hi1.dist _ _ h2', by simp, ?_⟩
          intro a ha b hb
          rw [List.mem_singleton] at hb
          subst hb
          exact fun e => hnew (e ▸ ha)
        · intro a ha
          show a < s1.hnext + 1 ∧ (upd s1.handles s1.hnext _ a).fd = fd
          rcases List.mem_append.mp ha with ha | ha
          · have := hi1.mem _ _ h2' _ ha
            refine ⟨by omega, ?_⟩
            rw [upd_ne _ _ (Nat.ne_of_lt this.1)]; exact this.2
          · rw [List.mem_singleton] at ha
            subst ha
            refine ⟨by omega, ?_⟩
            rw [upd_same]; rfl
      · show (s1.openFiles.modify _ _)[fd]? = _
        rw [List.getElem?_modify, h2']; simp
      · intro i hne
        show (s1.openFiles.modify _ _)[i]? = _
        rw [List.getElem?_modify, q1.openFiles]; simp [Ne.symm hne]
      · show (upd s1.handles s1.hnext _ s1.hnext).fd = fd
        rw [upd_same]; rfl
      · rfl

/-- `os.open`: success yields the smallest free descriptor; if the file was opened but the final `chmod` fails,
the handle stays open (the caller never sees it). -/
theorem osOpen_table {s : FS} (hi : FdInv s) (p : Str) (f : OFlags) (mode : Nat) :
    wp (osOpen p f mode) (fun r s' => FdInv s' ∧ match r with
      | .ok fd => ∃ h s0 s1, Quiet s s0 ∧ Opened s0 s1 fd h ∧ Quiet s1 s'
      | .error _ => Quiet s s' ∨ ∃ h fd s0 s1, Quiet s s0 ∧ Opened s0 s1 fd h ∧ Quiet s1 s') s := by
  unfold osOpen
  dsimp only
  split
  · exact ⟨hi, Or.inl (TreeRel.refl s)⟩
  apply wp_getBind
  cases he : s.openDirArg p with
  | error e => exact wp_bindErr (rd_eq (f := fun s => s.openDirArg p) he) ⟨hi, Or.inl (TreeRel.refl s)⟩
  | ok d =>
    refine wp_bindOk (rd_eq (f := fun s => s.openDirArg p) he) ?_
    cases d with
    | some r =>
      dsimp only
      split
      · exact ⟨hi, Or.inl (TreeRel.refl s)⟩
      · refine register_spec hi _ (by simp) (by simp [mkHandle]) ?_
        intro fd s' ho hf hh hs
        exact ⟨hf, s.hnext, s, s', TreeRel.refl s, ho, TreeRel.refl s'⟩
    | none =>
      dsimp only
      refine wp_seq _ (openPath_table hi p _ _ _ _) (fun _ _ h => ⟨h.1, Or.inl h.2⟩) ?_
      rintro h s1 ⟨hf, fd, s0, q0, ho, o, hh, hs⟩
      refine wp_bindOk (a := s1.handles h) (s' := s1) rfl ?_
      have hfd := ho.hfd
      rw [hfd]
      split
      · refine wp_seq (fun _ s' => Quiet s1 s') (fr_chmod _ _ _ s1) (fun _ _ q => ⟨hf.quiet q, Or.inr ⟨h, fd, s0, s1, q0, ho, q⟩⟩) ?_
        intro _ s2 q2
        exact ⟨hf.quiet q2, h, s0, s1, q0, ho, q2⟩
      · exact ⟨hf, h, s0, s1, q0, ho, TreeRel.refl s1⟩

theorem osClose_table {s : FS} (hi : FdInv s) (fd : Int) :
    wp (osClose fd) (fun r s' => FdInv s' ∧ ((s' = s ∧ ∃ e, s.getOpen fd = .error e ∧ r = .error e) ∨
      ∃ h, s.getOpen fd = .ok h ∧ Closed1 s h r s')) s := by
  unfold osClose
  cases he : s.getOpen fd with
  | error e => exact wp_bindErr (rd_eq (f := fun s => s.getOpen fd) he) ⟨hi, Or.inl ⟨rfl, e, rfl, rfl⟩⟩
  | ok h =>
    refine wp_bindOk (rd_eq (f := fun s => s.getOpen fd) he) ?_
    obtain ⟨i, l, h1, _⟩ := getOpen_slot he
    have hm := hi.mem i _ h1 h (by simp)
    exact wp_mono (fk_hClose h s hi fun _ => ⟨h :: l, by rw [hm.2]; exact h1, by simp⟩)
      (fun r s' hh => ⟨hh.1, Or.inr ⟨h, rfl, hh.2⟩⟩)

/-- One call changes a slot of the table only by dropping handles other than the first, by putting one new handle alone into it, or - with
`open(fd)` for that very descriptor - by adding one new handle. -/
def SlotStep (o : Op) (s s' : FS) : Prop :=
  ∀ (i : Nat) (l' : List Nat), s'.openFiles[i]? = some (some l') →
    (∃ l, s.openFiles[i]? = some (some l) ∧ l' ⊆ l ∧ l'.head? = l.head?) ∨ (l' = [s.hnext] ∧ ¬ InUse s i) ∨
    ∃ md bf c l, o = .openFd i md bf c ∧ s.openFiles[i]? = some (some l) ∧ l' = l ++ [s.hnext]

theorem slotStep_same {o : Op} {s s' : FS} (h : s'.openFiles = s.openFiles) : SlotStep o s s' := by
  intro i l' hl
  rw [h] at hl
  exact Or.inl ⟨l', hl, fun _ h => h, rfl⟩

theorem slotStep_closed {o : Op} {s s' : FS} (hi : FdInv s) {g : Nat} {r : Except Err Unit} (hc : Closed1 s g r s') : SlotStep o s s' := by
  intro i l' hl
  rcases hc with ⟨h, _⟩ | ⟨_, h⟩ | ⟨hcf, l, h1, h⟩
  · exact slotStep_same (o := o) h i l' hl
  · by_cases he : i = (s.handles g).fd
    · rw [he, h.here] at hl; simp at hl
    · rw [h.others i he] at hl; exact Or.inl ⟨l', hl, fun _ h => h, rfl⟩
  · by_cases he : i = (s.handles g).fd
    · rw [he, h.here] at hl
      injection hl with hl; injection hl with hl
      refine Or.inl ⟨l, by rw [he]; exact h1, ?_, ?_⟩
      · rw [← hl]; exact List.erase_subset
      · obtain ⟨a, l0, rfl, ha⟩ := hi.head _ _ h1
        have hne : a ≠ g := by rintro rfl; rw [hcf] at ha; cases ha
        rw [← hl, List.erase_cons_tail (by simpa using hne)]; rfl
    · rw [h.others i he] at hl; exact Or.inl ⟨l', hl, fun _ h => h, rfl⟩

theorem slotStep_opened {o : Op} {s s0 s1 s' : FS} {fd h : Nat} (q0 : Quiet s s0) (ho : Opened s0 s1 fd h) (q1 : s'.openFiles = s1.openFiles) :
    SlotStep o s s' := by
  intro i l' hl
  rw [q1] at hl
  by_cases he : i = fd
  · subst he
    rw [ho.slot.here] at hl
    injection hl with hl; injection hl with hl
    refine Or.inr (Or.inl ⟨?_, ?_⟩)
    · rw [← hl, ho.handle, q0.hnext]
    · intro hu; apply ho.fresh; unfold InUse at hu ⊢; rw [q0.openFiles]; exact hu
  · rw [ho.slot.others i he, q0.openFiles] at hl; exact Or.inl ⟨l', hl, fun _ h => h, rfl⟩

/-- Every call keeps the invariant of the table. -/
theorem fdInv_step (o : Op) (s : FS) (hi : FdInv s) : FdInv (o.next s) ∧ SlotStep o s (o.next s) := by
  have quiet : ∀ {α : Type} {m : M α}, Fr Quiet m → (m s).2 = o.next s → FdInv (o.next s) ∧ SlotStep o s (o.next s) := by
    intro α m hm e
    have q := hm s
    rw [e] at q
    exact ⟨hi.quiet q, slotStep_same q.openFiles⟩
  have hvoid : ∀ {α : Type} {m : M α}, (m.void s).2 = (m s).2 := by
    intro α m
    show (M.bind m _ s).2 = _
    unfold M.bind
    cases m s with
    | mk r s' => cases r <;> rfl
  have onf : ∀ {α : Type} {h : Nat} {m : M α}, Fr Quiet m → Fr Quiet (onFile h m) := by
    intro α h m hm
    unfold onFile
    refine fr_bind fr_get ?_
    intro s
    apply fr_ite
    · intro _; exact fr_void hm
    · intro _; exact fr_throw _
  have table : ∀ {s' : FS}, s'.openFiles = s.openFiles → s'.freeFds = s.freeFds → s'.handles = s.handles → s'.hnext = s.hnext →
      FdInv s' ∧ SlotStep o s s' := by
    intro s' e1 e2 e3 e4
    refine ⟨?_, slotStep_same e1⟩
    refine ⟨?_, ?_, by rw [e4]; exact hi.three, ?_, by rw [e2]; exact hi.nodup, ?_, ?_, ?_⟩
    · rw [e1, e3]; exact hi.std
    · rw [e3, e4]; exact hi.notStd
    · rw [e1, e2]; exact hi.free
    · rw [e1, e3]; exact hi.head
    · rw [e1]; exact hi.dist
    · rw [e1, e3, e4]; exact hi.mem
  cases o with
  | mkdir p m => exact quiet (fr_mkdir p m) rfl
  | makedirs p m e => exact quiet (fr_makedirs p m e) rfl
  | createDir p m => exact quiet (fr_void (fr_createDir p m)) rfl
  | createFile p m c z cm um => exact quiet (fr_void (fr_createFile p m c z cm um)) rfl
  | createSymlink p t cm => exact quiet (fr_void (fr_createSymlink p t cm)) rfl
  | createLink o n f cm => exact quiet (fr_void (fr_createLink o n f cm)) rfl
  | remove p => exact quiet (fr_remove p) rfl
  | removeObject p => exact quiet (fr_removeObject p) rfl
  | rmdir p => exact quiet (fr_rmdir p _) rfl
  | removedirs p => exact quiet (fr_removedirs p) rfl
  | rename o n f => exact quiet (fr_rename o n f) rfl
  | chmod p m f => exact quiet (fr_chmod p m f) rfl
  | utime p ns f => exact quiet (fr_utime p ns f) rfl
  | chown p u g f => exact quiet (fr_chown p u g f) rfl
  | truncate p n => exact quiet (fr_truncate p n) rfl
  | mknod p m => exact quiet (fr_mknod p m) rfl
  | setxattr p a v fl f => exact quiet (fr_setxattr p a v fl f) rfl
  | removexattr p a f => exact quiet (fr_removexattr p a f) rfl
  | addMountPoint p t => exact quiet (fr_void (fr_addMountPoint p t)) rfl
  | setDiskUsage t p => exact quiet (fr_setDiskUsage t p) rfl
  | umask m => exact table rfl rfl rfl rfl
  | chdir p =>
    refine (show wp (chdir p) (fun _ s' => FdInv s' ∧ SlotStep _ s s') s from ?_)
    unfold chdir
    refine wp_seq (fun _ s' => s' = s) rfl (fun _ _ e => by subst e; exact table rfl rfl rfl rfl) ?_
    intro q s1 e1
    subst e1
    refine wp_seq (fun _ s' => s' = s1) rfl (fun _ _ e => by subst e; exact table rfl rfl rfl rfl) ?_
    intro _ s2 e2
    subst e2
    refine wp_seq (fun _ s' => s' = s2) rfl (fun _ _ e => by subst e; exact table rfl rfl rfl rfl) ?_
    intro _ s3 e3
    subst e3
    exact table rfl rfl rfl rfl
  | openPath p md b r d =>
    show FdInv ((Verif.openPath p md b r d).void s).2 ∧ SlotStep _ s ((Verif.openPath p md b r d).void s).2
    rw [hvoid]
    refine (show wp (Verif.openPath p md b r d) (fun _ s' => FdInv s' ∧ SlotStep _ s s') s from ?_)
    refine wp_mono (openPath_table hi p md b r d) ?_
    rintro r s' ⟨h1, h2⟩
    refine ⟨h1, ?_⟩
    cases r with
    | ok h =>
      obtain ⟨fd, s0, q0, ho, _⟩ := h2
      exact slotStep_opened q0 ho rfl
    | error e => exact slotStep_same h2.openFiles
  | openFd fd md b c =>
    show FdInv ((Verif.openFd fd md b c).void s).2 ∧ SlotStep _ s ((Verif.openFd fd md b c).void s).2
    rw [hvoid]
    refine (show wp (Verif.openFd fd md b c) (fun _ s' => FdInv s' ∧ SlotStep _ s s') s from ?_)
    refine wp_mono (openFd_table hi fd md b c) ?_
    rintro r s' ⟨h1, h2⟩
    refine ⟨h1, ?_⟩
    cases r with
    | ok h =>
      obtain ⟨rfl, l, e1, e2, _⟩ := h2
      intro i l' hl
      by_cases he : i = fd
      · subst he
        rw [e2.here] at hl
        injection hl with hl; injection hl with hl
        exact Or.inr (Or.inr ⟨md, b, c, l, rfl, e1, hl.symm⟩)
      · rw [e2.others i he] at hl; exact Or.inl ⟨l', hl, fun _ h => h, rfl⟩
    | error e => exact slotStep_same h2.openFiles
  | osOpen p f m =>
    show FdInv ((Verif.osOpen p f m).void s).2 ∧ SlotStep _ s ((Verif.osOpen p f m).void s).2
    rw [hvoid]
    refine (show wp (Verif.osOpen p f m) (fun _ s' => FdInv s' ∧ SlotStep _ s s') s from ?_)
    refine wp_mono (osOpen_table hi p f m) ?_
    rintro r s' ⟨h1, h2⟩
    refine ⟨h1, ?_⟩
    cases r with
    | ok fd =>
      obtain ⟨h, s0, s1, q0, ho, q1⟩ := h2
      exact slotStep_opened q0 ho q1.openFiles
    | error e =>
      rcases h2 with h2 | ⟨h, fd, s0, s1, q0, ho, q1⟩
      · exact slotStep_same h2.openFiles
      · exact slotStep_opened q0 ho q1.openFiles
  | osClose fd =>
    refine (show wp (Verif.osClose fd) (fun _ s' => FdInv s' ∧ SlotStep _ s s') s from ?_)
    refine wp_mono (osClose_table hi fd) ?_
    rintro r s' ⟨h1, h2⟩
    refine ⟨h1, ?_⟩
    rcases h2 with ⟨rfl, _⟩ | ⟨h, _, h2⟩
    · exact slotStep_same rfl
    · exact slotStep_closed hi h2
  | osRead fd n => exact quiet (fr_void (fq_osRead fd n)) rfl
  | osWrite fd b => exact quiet (fr_void (fq_osWrite fd b)) rfl
  | ftruncate fd n => exact quiet (fq_ftruncate fd n) rfl
  | hRead h n => exact quiet (onf (h := h) (fq_read h n)) rfl
  | hWrite h b => exact quiet (onf (h := h) (fq_write h b)) rfl
  | hSeek h o w => exact quiet (onf (h := h) (fq_seek h o w)) rfl
  | hTell h => exact quiet (onf (h := h) (fq_tell h)) rfl
  | hTruncate h n => exact quiet (onf (h := h) (fq_hTruncate h n)) rfl
  | hFlush h => exact quiet (onf (h := h) (fq_flush h)) rfl
  | hClose h =>
    refine (show wp (onFile h (Verif.hClose h)) (fun _ s' => FdInv s' ∧ SlotStep _ s s') s from ?_)
    unfold onFile
    apply wp_getBind
    split
    · rename_i hk
      have := fk_hClose h s hi (fun e => by rw [hk.2] at e; simp at e)
      exact wp_seq (fun _ s' => FdInv s' ∧ SlotStep _ s s') (wp_mono this fun r s' h => ⟨h.1, slotStep_closed hi h.2⟩) (fun _ _ h => h) (fun _ _ h => h)
    · exact table rfl rfl rfl rfl
  | setUser u g => exact table rfl rfl rfl rfl
  | setClock t => exact table rfl rfl rfl rfl

theorem fdInv_runs {s : FS} (hi : FdInv s) (ops : List Op) : FdInv (runs ops s) := by
  induction ops generalizing s with
  | nil => exact hi
  | cons o ops ih => exact ih (fdInv_step o s hi).1

theorem fdInv_init (k : Cfg) (limit uid gid umask : Nat) (clock : Int) (total : Option Int) :
    FdInv (initFS k limit uid gid umask clock total) := by
  have key : ∀ (i : Nat) (l : List Nat), ([some [0], some [1], some [2]] : List (Option (List Nat)))[i]? = some (some l) → l = [i] ∧ i < 3 := by
    intro i l h
    have hlt : i < 3 := (List.getElem?_eq_some_iff.mp h).1
    have : i = 0 ∨ i = 1 ∨ i = 2 := by omega
    rcases this with rfl | rfl | rfl <;> simp_all
  refine ⟨?_, ?_, ?_, ?_, ?_, ?_, ?_, ?_⟩
  · intro i hi
    have : i = 0 ∨ i = 1 ∨ i = 2 := by omega
    rcases this with rfl | rfl | rfl <;> exact ⟨rfl, rfl⟩
  · intro h h1 h2
    exact absurd (Nat.lt_of_lt_of_le h2 h1) (Nat.lt_irrefl _)
  · exact Nat.le_refl _
  · intro fd
    refine ⟨fun h => by simp [initFS, FS.setObj] at h, ?_⟩
    intro h
    change ([some [0], some [1], some [2]] : List (Option (List Nat)))[fd]? = some none at h
    have hlt : fd < 3 := (List.getElem?_eq_some_iff.mp h).1
    have : fd = 0 ∨ fd = 1 ∨ fd = 2 := by omega
    rcases this with rfl | rfl | rfl <;> simp at h
  · exact List.nodup_nil
  · intro fd l h
    obtain ⟨e, hlt⟩ := key fd l h
    exact ⟨fd, [], e, rfl⟩
  · intro fd l h
    obtain ⟨e, hlt⟩ := key fd l h
    rw [e]; simp
  · intro fd l h a ha
    obtain ⟨e, hlt⟩ := key fd l h
    rw [e, List.mem_singleton] at ha
    subst ha
    exact ⟨hlt, rfl⟩

/-- The invariant holds after every history. -/
theorem reachable_fdInv {s : FS} (h : Reachable s) : FdInv s := by
  obtain ⟨k, l, u, g, um, c, t, ops, rfl⟩ := h
  exact fdInv_runs (fdInv_init k l u g um c t) ops

end Verif
