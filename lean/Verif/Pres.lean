import Verif.LookupInv
/-!
# Compositional preservation of the invariant
-/

namespace Verif
open Py

/-- Running `m` in a state satisfying the invariant gives a state satisfying it, also after an
exception. -/
def Pres {α : Type} (m : M α) : Prop := ∀ s, Inv s → wp m (fun _ s' => Good s s') s

theorem pres_pure {α : Type} (a : α) : Pres (M.pure a) := fun _ h => Good.refl h
theorem pres_pure' {α : Type} (a : α) : Pres (pure a : M α) := fun _ h => Good.refl h
theorem pres_throw {α : Type} (e : Err) : Pres (M.throw e : M α) := fun _ h => Good.refl h
theorem pres_raise {α : Type} (e : Errno) : Pres (M.raise e : M α) := fun _ h => Good.refl h
theorem pres_get : Pres M.get := fun _ h => Good.refl h
theorem pres_read {α : Type} (f : FS → Except Err α) : Pres (M.ofRead f) := fun _ h => Good.refl h
theorem pres_rd {α : Type} (f : FS → Except Err α) : Pres (rd f) := fun _ h => Good.refl h
theorem pres_hget (h : Nat) : Pres (hget h) := fun _ h => Good.refl h

theorem pres_bind {α β : Type} {m : M α} {f : α → M β} (hm : Pres m) (hf : ∀ a, Pres (f a)) :
    Pres (m >>= f) := by
  intro s h
  apply wp_seq _ (hm s h)
  · intro e s' hg; exact hg
  · intro a s' hg
    apply wp_mono (hf a s' hg.inv)
    intro r s'' hg'
    exact Good.trans hg.ext hg'

theorem pres_ite {α : Type} {c : Prop} [Decidable c] {a b : M α} (ha : c → Pres a) (hb : ¬ c → Pres b) :
    Pres (if c then a else b) := by
  split
  · exact ha ‹_›
  · exact hb ‹_›

theorem pres_modify {f : FS → FS} (hf : ∀ s, Inv s → Good s (f s)) : Pres (M.modify f) := fun s h => hf s h

theorem pres_tryCatch {α : Type} {m : M α} {k : Err → M α} (hm : Pres m) (hk : ∀ e, Pres (k e)) :
    Pres (M.tryCatch m k) := by
  intro s h
  apply wp_tryCatch
  apply wp_mono (hm s h)
  intro r s' hg
  cases r with
  | ok a => exact hg
  | error e =>
    apply wp_mono (hk e s' hg.inv)
    intro r s'' hg'
    exact Good.trans hg.ext hg'

theorem pres_catchOS {α : Type} {m : M α} {k : Err → M α} (hm : Pres m) (hk : ∀ e, Pres (k e)) :
    Pres (catchOS m k) := pres_tryCatch hm fun e => pres_ite (fun _ => hk e) fun _ => pres_throw e

/-- attribute changes -/
theorem pres_setObj (r : Ref) {f : FS → Obj → Obj} (hf : ∀ s o, SameS o (f s o)) :
    Pres (M.modify fun s => s.setObj r (f s)) := pres_modify fun s h => good_setObj h r _ (hf s _)

theorem pres_hmod (h : Nat) (f : Handle → Handle) : Pres (hmod h f) :=
  pres_modify fun _ hi => good_misc hi rfl rfl rfl rfl rfl rfl rfl rfl rfl rfl rfl rfl

/-- Compositional steps. -/
macro "pres" : tactic => `(tactic|
  repeat' first
    | assumption
    | exact pres_pure _
    | exact pres_pure' _
    | exact pres_throw _
    | exact pres_raise _
    | exact pres_get
    | exact pres_rd _
    | exact pres_read _
    | exact pres_hget _
    | exact pres_hmod _ _
    | apply pres_bind
    | apply pres_ite
    | apply pres_catchOS
    | apply pres_tryCatch
    | split
    | intro _)

/-! ## File contents -/

theorem changeDiskUsage_pres (c : Int) (dev : Option Nat) : Pres (changeDiskUsage c dev) :=
  fun _ h => (changeDiskUsage_good c dev h).1

theorem sameS_file {o o' : Obj} (hd : o.isDir = false) (hd' : o'.isDir = false) (h1 : o'.nlink = o.nlink)
    (h2 : o'.ino = o.ino) (h3 : o'.parent = o.parent) (h4 : ifmt o'.mode = ifmt o.mode) : SameS o o' := by
  have he : ∀ x : Obj, x.isDir = false → x.entries = [] := by
    intro x hx
    unfold Obj.isDir at hx; unfold Obj.entries
    split at hx <;> simp_all
  exact ⟨by rw [hd, hd'], by rw [he o hd, he o' hd'], h1, h2, h3, fun h => by simp [hd] at h, h4⟩

theorem isDir_file {o : Obj} {b : Option Bytes} (h : o.content = .file b) : o.isDir = false := by
  simp [Obj.isDir, h]

theorem setSize_good {s : FS} (r : Ref) (n : Nat) (h : Inv s) :
    wp (setSize r n) (fun _ s' => Good s s') s := by
  unfold wp setSize
  split
  · exact Good.refl h
  · rename_i b hb
    simp only
    show wp (changeDiskUsage _ _ >>= fun _ => M.modify _) (fun _ s' => Good s s') s
    apply wp_seq _ (changeDiskUsage_good _ _ h)
    · intro e s' hg; exact hg.1
    · intro _ s' ⟨hg, hh, _⟩
      apply wp_modify
      apply Good.trans hg.ext
      apply good_setObj hg.inv
      exact sameS_file (isDir_file (by rw [hh]; exact hb)) rfl rfl rfl rfl rfl

theorem setSize_pres (r : Ref) (n : Nat) : Pres (setSize r n) := fun _ h => setSize_good r n h

theorem setInitialContents_pres (r : Ref) (b : Bytes) : Pres (setInitialContents r b) := by
  intro s h
  unfold wp setInitialContents
  split
  · exact Good.refl h
  · split
    · exact Good.refl h
    · rename_i old hold
      simp only
      show wp (M.bind _ _) (fun _ s' => Good s s') s
      apply wp_seqB _ (changeDiskUsage_good _ _ h)
      · intro e s' hg; exact hg.1
      · intro _ s1 ⟨hg, hh, hn⟩
        apply wp_seqB (fun _ s2 => Good s s2 ∧ (s2.heap r).isDir = false)
        · split
          · have := setSize_good r 0 hg.inv
            refine ⟨Good.trans hg.ext this, ?_⟩
            by_cases hr : r < s1.next
            · rw [this.ext.kind r hr, hh]; exact isDir_file hold
            · -- outside the heap: the setter only writes file contents
              unfold setSize
              rw [hh, hold]
              simp only
              show wp (changeDiskUsage _ _ >>= fun _ => M.modify _) (fun _ s' => (s'.heap r).isDir = false) s1
              apply wp_seq _ (changeDiskUsage_good _ _ hg.inv)
              · intro e s' hg'; rw [hg'.2.1, hh]; exact isDir_file hold
              · intro _ s' _
                apply wp_modify
                simp [FS.setObj, Obj.isDir]
          · refine ⟨hg, ?_⟩
            show (s1.heap r).isDir = false
            rw [hh]; exact isDir_file hold
        · intro e s' hg; exact hg.1
        · intro _ s2 ⟨hg2, hd⟩
          apply wp_modifyBind
          apply wp_pure
          apply Good.trans hg2.ext
          apply good_setObj hg2.inv
          exact sameS_file hd rfl rfl rfl rfl rfl

theorem setContents_pres (r : Ref) (b : Bytes) : Pres (setContents r b) := by
  intro s h
  unfold wp setContents
  split
  · exact Good.refl h
  · exact setInitialContents_pres r b s h

theorem setLargeFileSize_pres (r : Ref) (n : Nat) : Pres (setLargeFileSize r n) := by
  intro s h
  unfold wp setLargeFileSize
  split
  · exact Good.refl h
  · rename_i old hold
    show wp (M.bind _ _) (fun _ s' => Good s s') s
    apply wp_seqB (fun _ s2 => Good s s2 ∧ (s2.heap r).isDir = false)
    · split
      · have := setSize_good r 0 h
        refine ⟨this, ?_⟩
        by_cases hr : r < s.next
        · rw [this.ext.kind r hr]; exact isDir_file hold
        · unfold setSize
          rw [hold]
          simp only
          show wp (changeDiskUsage _ _ >>= fun _ => M.modify _) (fun _ s' => (s'.heap r).isDir = false) s
          apply wp_seq _ (changeDiskUsage_good _ _ h)
          · intro e s' hg'; rw [hg'.2.1]; exact isDir_file hold
          · intro _ s' _
            apply wp_modify
            simp [FS.setObj, Obj.isDir]
      · exact ⟨Good.refl h, isDir_file hold⟩
    · intro e s' hg; exact hg.1
    · intro _ s2 ⟨hg2, hd⟩
      apply wp_getBind
      apply wp_seq _ (changeDiskUsage_good _ _ hg2.inv)
      · intro e s' hg; exact Good.trans hg2.ext hg.1
      · intro _ s3 ⟨hg3, hh, _⟩
        apply wp_modify
        apply Good.trans hg2.ext
        apply Good.trans hg3.ext
        apply good_setObj hg3.inv
        exact sameS_file (by rw [hh]; exact hd) rfl rfl rfl rfl rfl

/-! ## Adding new objects -/

/-- `c` is an object nothing refers to. -/
structure Fresh (s : FS) (c : Ref) : Prop where
  lt : c < s.next
  two : 2 ≤ c
  noRef : ∀ x < s.next, ∀ e ∈ (s.heap x).entries, e.2 ≠ c
  noPar : ∀ x < s.next, (s.heap x).parent ≠ some c

/-- the name of the object is a proper file name -/
def NameOk (s : FS) (c : Ref) : Prop :=
  s.cfg.Posix → s.cfg.isMac = false → Spec.Proper s.cfg.sep (s.heap c).name

theorem Fresh.closed {s : FS} (h : Inv s) {c : Ref} (f : Fresh s c) : Closed s fun r => r < s.next ∧ r ≠ c := by
  have h2 := f.two
  refine ⟨⟨root_lt h, ?_⟩, ⟨devNull_lt h, ?_⟩, fun d hd e he => ⟨h.g.entLt d hd.1 e he, f.noRef d hd.1 e he⟩⟩
  · intro e; subst e; exact absurd h2 (by decide)
  · intro e; subst e; exact absurd h2 (by decide)

theorem Fresh.addPre {s : FS} (h : Inv s) {c d : Ref} (f : Fresh s c) (hd : d < s.next) (hne : d ≠ c)
    (hn : NameOk s c) : AddPre s d c := by
  refine ⟨hd, f.lt, ?_, fun _ => f.noRef, ?_, hn⟩
  · intro e; subst e; exact absurd f.two (by decide)
  · intro _ _ ha
    have key : ∀ r, Anc s.heap c r → r < s.next → r = c := by
      intro r hr
      induction hr with
      | refl => intro _; rfl
      | up h0 _ ih =>
        intro hl
        have := ih (h.g.parDir _ hl _ h0).1
        subst this
        exact absurd h0 (f.noPar _ hl)
    exact hne (key d ha hd)

theorem newObj_fresh {s : FS} (h : Inv s) (f : FS → Obj) (hent : (f s).entries = [])
    (hnl : (f s).nlink = if (f s).isDir then 1 else 0) (hino : (f s).ino = none)
    (hpar : (f s).parent = none) (hmode : (f s).isDir = true → (f s).mode &&& S_IFDIR ≠ 0) :
    wp (newObj f) (fun r s' => Good s s' ∧ r = .ok s.next ∧ Fresh s' s.next ∧
      s' = { s with heap := upd s.heap s.next (f s), next := s.next + 1 }) s := by
  have hne : ∀ x < s.next, upd s.heap s.next (f s) x = s.heap x := fun x hx => upd_ne _ _ (Nat.ne_of_lt hx)
  refine ⟨newObj_good h f hent hnl hino hpar hmode, rfl, ⟨Nat.lt_succ_self _, h.g.two, ?_, ?_⟩, rfl⟩
  · intro x (hx : x < s.next + 1) e (he : e ∈ (upd s.heap s.next (f s) x).entries)
    by_cases hx' : x = s.next
    · subst hx'
      simp only [upd_same, hent] at he
      simp at he
    · have hl : x < s.next := by omega
      simp only [hne x hl] at he
      exact Nat.ne_of_lt (h.g.entLt x hl e he)
  · intro x (hx : x < s.next + 1)
    show (upd s.heap s.next (f s) x).parent ≠ some s.next
    by_cases hx' : x = s.next
    · subst hx'; rw [upd_same, hpar]; simp
    · have hl : x < s.next := by omega
      rw [hne x hl]
      intro e
      exact absurd (h.g.parDir x hl _ e).1 (Nat.lt_irrefl _)

theorem mkDir_mode (p : Nat) : (S_IFDIR ||| p) &&& S_IFDIR ≠ 0 := by
  intro h
  have := congrArg (fun n => Nat.testBit n 14) h
  simp [Nat.testBit_and, Nat.testBit_or, S_IFDIR] at this
  have h14 : Nat.testBit 16384 14 = true := by decide
  simp [h14] at this

theorem newDir_fresh {s : FS} (h : Inv s) (nm : Str) (perm : Nat) :
    wp (newObj (mkDirObj nm perm)) (fun r s' => Good s s' ∧ r = .ok s.next ∧ Fresh s' s.next ∧
      s' = { s with heap := upd s.heap s.next (mkDirObj nm perm s), next := s.next + 1 }) s :=
  newObj_fresh h _ rfl rfl rfl rfl fun _ => mkDir_mode _

theorem newFile_fresh {s : FS} (h : Inv s) (nm : Str) (mode : Nat) (b : Option Bytes) :
    wp (newObj (mkFileObj nm mode b)) (fun r s' => Good s s' ∧ r = .ok s.next ∧ Fresh s' s.next ∧
      s' = { s with heap := upd s.heap s.next (mkFileObj nm mode b s), next := s.next + 1 }) s :=
  newObj_fresh h _ rfl rfl rfl rfl fun h => by simp [mkFileObj, Obj.isDir] at h

theorem rdBind_wp {α β : Type} {f : FS → Except Err α} {g : α → M β} {s : FS} (h : Inv s)
    (hg : ∀ a, f s = .ok a → wp (g a) (fun _ s' => Good s s') s) :
    wp (rd f >>= g) (fun _ s' => Good s s') s :=
  wp_readBind (fun _ _ => Good.refl h) hg

/-- adding a new object somewhere -/
theorem addObject_fresh {s : FS} (h : Inv s) (p : Str) {c : Ref} (f : Fresh s c) (hn : NameOk s c) :
    wp (addObject p c) (fun _ s' => Good s s') s := by
  unfold addObject
  split
  · exact addEntry_good h (f.addPre h (f.closed h).root.1 (f.closed h).root.2 hn)
  · apply rdBind_wp h
    intro d hd
    have := (f.closed h).resolve hd
    apply wp_getBind
    apply wp_ite
    · intro _; exact Good.refl h
    · intro _; exact addEntry_good h (f.addPre h this.1 this.2 hn)

/-- adding any object that is not a directory -/
theorem addObject_file {s : FS} (h : Inv s) (p : Str) {c : Ref} (hc : c < s.next) (hf : (s.heap c).isDir = false)
    (hn : NameOk s c) :
    wp (addObject p c) (fun _ s' => Good s s') s := by
  have pre : ∀ d < s.next, AddPre s d c := fun d hd =>
    ⟨hd, hc, fun e => by rw [e, h.g.rootDir] at hf; simp at hf, fun e => by simp [hf] at e,
      fun e => by simp [hf] at e, hn⟩
  unfold addObject
  split
  · exact addEntry_good h (pre _ (root_lt h))
  · apply rdBind_wp h
    intro d hd
    apply wp_getBind
    apply wp_ite
    · intro _; exact Good.refl h
    · intro _; exact addEntry_good h (pre _ (resolve_lt h hd))

end Verif
