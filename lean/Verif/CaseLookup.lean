import Verif.CaseFold
/-!
# Lookups on a case-insensitive filesystem
-/

namespace Verif
open Py Spec Cfg

namespace Spec
/-- No directory has two entries whose names differ only in case. -/
def NoTwins (s : FS) : Prop := ∀ d < s.next, ∀ e ∈ (s.heap d).entries, ∀ e' ∈ (s.heap d).entries, s.cfg.lower e.1 = s.cfg.lower e'.1 → e = e'
end Spec

/-- two results: the same error, or values in the relation -/
inductive Both {α β : Type} (R : α → β → Prop) : Except Err α → Except Err β → Prop
  | error (e : Err) : Both R (.error e) (.error e)
  | ok {a : α} {b : β} : R a b → Both R (.ok a) (.ok b)

/-- what is assumed of the state: case-insensitive, no two names differing only in case, nothing called `nul` in the targets of links and in the
current directory, where `nul` is the last component of the path of the null device -/
structure CaseOk (s : FS) (nul : Str) : Prop where
  inv : Inv s
  folds : Folds s.cfg
  twins : NoTwins s
  dev : ∃ l, split s.cfg.sep s.devName = l ++ [nul]
  hnul : nul ≠ [] ∧ nul ≠ ['.']
  names : ∀ d < s.next, ∀ e ∈ (s.heap d).entries, s.cfg.sep ∉ e.1
  cwd : RP s.cfg nul s.cwd s.cwd
  targets : ∀ x < s.next, (s.heap x).isLnk = true → RP s.cfg nul (s.linkTarget (s.heap x)) (s.linkTarget (s.heap x))

section
variable {s : FS} {nul : Str} (H : CaseOk s nul)
include H

local notation "rl" => RL s.cfg nul
local notation "rp" => RP s.cfg nul

theorem CaseOk.notDev {p q : Str} (h : rp p q) : p ≠ s.devName := by
  rintro rfl
  obtain ⟨l, e⟩ := H.dev
  unfold RP at h
  rw [e] at h
  obtain ⟨l', y, _, _, h4⟩ := forall₂_concat h
  exact h4.free rfl

theorem CaseOk.absCwd : isAbs s.cfg.sep s.cwd := H.inv.n.cwd H.folds.posix

theorem CaseOk.isRoot {p : Str} : s.cfg.isRootPath p = true ↔ p = [s.cfg.sep] := by
  unfold Cfg.isRootPath
  simp only [H.folds.cs, H.folds.posix.drive, Cfg.root, Bool.and_false, Bool.or_false, Bool.not_false, Bool.true_and, Bool.or_eq_true, beq_iff_eq]
  constructor
  · rintro (h | h)
    · exact h
    · exact H.folds.fixed _ (by simp) _ h
  · exact Or.inl

/-- the entry found by either spelling -/
theorem CaseOk.find {d : Ref} (hd : d < s.next) {c c' : Str} (h : s.cfg.lower c = s.cfg.lower c') :
    (s.heap d).entries.find? (fun e => s.cfg.lower e.1 == s.cfg.lower c) = (s.heap d).entries.find? (fun e => s.cfg.lower e.1 == s.cfg.lower c') := by
  rw [h]

theorem CaseOk.exact {d : Ref} (hd : d < s.next) {c c' : Str} (h : s.cfg.lower c = s.cfg.lower c') {x : Ref}
    (ha : alookup c (s.heap d).entries = some x) : (s.heap d).entries.find? (fun e => s.cfg.lower e.1 == s.cfg.lower c') = some (c, x) := by
  have hm := alookup_mem ha
  cases hf : (s.heap d).entries.find? (fun e => s.cfg.lower e.1 == s.cfg.lower c') with
  | none =>
    have := List.find?_eq_none.mp hf (c, x) hm
    simp [h] at this
  | some e =>
    have h1 := List.mem_of_find?_eq_some hf
    have h2 := List.find?_some hf
    have h2 : s.cfg.lower e.1 = s.cfg.lower c' := by simpa using h2
    rw [H.twins d hd e h1 (c, x) hm (by rw [h2, h])]

theorem CaseOk.dirContent {d : Ref} (hd : d < s.next) {c c' : Str} (h : s.cfg.lower c = s.cfg.lower c') : s.dirContent d c = s.dirContent d c' := by
  unfold FS.dirContent
  cases hc : (s.heap d).content with
  | file f => rfl
  | dir es =>
    have hes : (s.heap d).entries = es := by simp [Obj.entries, hc]
    have e1 := fun x => H.exact hd (c := c) (c' := c') h (x := x)
    have e2 := fun x => H.exact hd (c := c') (c' := c) h.symm (x := x)
    rw [hes] at e1 e2
    simp only [H.folds.cs, Bool.false_eq_true, if_false]
    cases h1 : alookup c es with
    | some x =>
      have f1 := e1 x h1
      cases h2 : alookup c' es with
      | some y =>
        have f2 := e2 y h2
        rw [h] at f2
        rw [f1] at f2
        injection f2 with f2
        simp only [f2]
      | none => simp only [f1]
    | none =>
      cases h2 : alookup c' es with
      | some y => simp only [e2 y h2]
      | none => simp only [h]

theorem CaseOk.dirContent_name {d : Ref} {c nm : Str} {x : Ref} (h : s.dirContent d c = some (nm, x)) : s.cfg.lower nm = s.cfg.lower c ∧ (nm, x) ∈ (s.heap d).entries := by
  unfold FS.dirContent at h
  cases hc : (s.heap d).content with
  | file f => rw [hc] at h; cases h
  | dir es =>
    have hes : (s.heap d).entries = es := by simp [Obj.entries, hc]
    rw [hc] at h
    simp only [H.folds.cs, Bool.false_eq_true, if_false] at h
    rw [hes]
    cases h1 : alookup c es with
    | some y =>
      rw [h1] at h
      simp only [Option.some.injEq, Prod.mk.injEq] at h
      obtain ⟨h2, h3⟩ := h
      subst h2; subst h3
      exact ⟨rfl, alookup_some h1⟩
    | none =>
      rw [h1] at h
      simp only at h
      exact ⟨by simpa using List.find?_some h, List.mem_of_find?_eq_some h⟩

theorem CaseOk.getEntry {d : Ref} (hd : d < s.next) {c c' : Str} (h : s.cfg.lower c = s.cfg.lower c') :
    s.getEntry (s.heap d).entries c = s.getEntry (s.heap d).entries c' := by
  unfold FS.getEntry FS.normEntry
  simp only [H.folds.cs, Bool.false_eq_true, if_false, h]
  cases hf : (s.heap d).entries.find? (fun e => s.cfg.lower e.1 == s.cfg.lower c') with
  | some e => rfl
  | none =>
    have h0 : ∀ c'', s.cfg.lower c'' = s.cfg.lower c' → alookup c'' (s.heap d).entries = none := by
      intro c'' hc
      cases ha : alookup c'' (s.heap d).entries with
      | none => rfl
      | some x =>
        have := List.find?_eq_none.mp hf (c'', x) (alookup_mem ha)
        simp [hc] at this
    simp only [h0 c h, h0 c' rfl]

theorem CaseOk.lt {d : Ref} (hd : d < s.next) {c nm : Str} {x : Ref} (h : s.dirContent d c = some (nm, x)) : x < s.next :=
  H.inv.g.entLt d hd _ (H.dirContent_name h).2

/-! ### loops -/

theorem CaseOk.origComps : ∀ {cs cs' : List Str} {r : Ref}, r < s.next → rl cs cs' → rl (s.origComps r cs) (s.origComps r cs')
  | [], _, r, hr, h => by cases h; exact .nil
  | c :: cs, _, r, hr, h => by
    cases h with
    | cons h1 h2 =>
      unfold FS.origComps
      rw [← H.dirContent hr h1.low]
      cases hd : s.dirContent r c with
      | none => exact .cons h1 h2
      | some e =>
        obtain ⟨nm, r'⟩ := e
        have hn := H.dirContent_name hd
        have hs := H.names r hr _ hn.2
        exact .cons ⟨rfl, hs, hs, by rw [hn.1]; exact h1.free⟩ (CaseOk.origComps (H.lt hr hd) h2)

theorem CaseOk.rootLt : rootRef < s.next := lt_of_lt_of_le (by decide) H.inv.g.two

theorem CaseOk.originalPath {p q : Str} (h : rp p q) : rp (s.originalPath p) (s.originalPath q) := by
  unfold FS.originalPath
  simp only [H.folds.cs, Bool.false_eq_true, false_or]
  by_cases h0 : p = []
  · rw [if_pos h0, if_pos ((h.nil H.folds).mp h0)]; exact h
  rw [if_neg h0, if_neg (fun e => h0 ((h.nil H.folds).mpr e))]
  have hj := RL.join H.folds H.hnul (H.origComps H.rootLt (h.components H.folds))
  have e1 : s.cfg.startsWithSep p = s.cfg.startsWithSep q := by
    unfold Cfg.startsWithSep
    simp only [H.folds.posix.altsep, startsWithC_eq, Bool.or_false, decide_eq_decide]
    exact h.abs H.folds
  have e2 : s.cfg.startsWithSep (Py.join s.cfg.sep (s.origComps rootRef (s.cfg.pathComponents p))) =
      s.cfg.startsWithSep (Py.join s.cfg.sep (s.origComps rootRef (s.cfg.pathComponents q))) := by
    unfold Cfg.startsWithSep
    simp only [H.folds.posix.altsep, startsWithC_eq, Bool.or_false, decide_eq_decide]
    exact hj.abs H.folds
  rw [e1, e2]
  split
  · exact hj.slash H.folds H.hnul
  · exact hj

theorem CaseOk.rootIff {p q : Str} (h : rp p q) : p = s.cfg.root ↔ q = s.cfg.root := h.root H.folds

theorem CaseOk.absnorm {p q : Str} (h : rp p q) : rp (s.absnorm p) (s.absnorm q) := RP.absnormpath H.folds H.hnul H.absCwd H.cwd h

omit H in
/-- the two scans end in the same way -/
inductive ScanR (k : Cfg) (nul : Str) : FS.Scan → FS.Scan → Prop
  | done {a b : List Str} : RL k nul a b → ScanR k nul (.done a) (.done b)
  | link {a b : List Str} {x : Ref} {c d : List Str} : RL k nul a b → RL k nul c d → ScanR k nul (.link a x c) (.link b x d)

theorem CaseOk.scan : ∀ {cs cs' acc acc' : List Str} {r : Ref}, r < s.next → rl acc acc' → rl cs cs' → ScanR s.cfg nul (s.scan r acc cs) (s.scan r acc' cs')
  | [], _, acc, acc', r, hr, ha, h => by cases h; exact .done ha.reverse
  | c :: cs, _, acc, acc', r, hr, ha, h => by
    cases h with
    | cons h1 h2 =>
      unfold FS.scan
      rw [← H.dirContent hr h1.low]
      cases hd : s.dirContent r c with
      | none => exact .done (ha.reverse.append (.cons h1 h2))
      | some e =>
        obtain ⟨nm, r'⟩ := e
        dsimp only
        split
        · exact .link (RL.reverse (.cons h1 ha)) h2
        · exact CaseOk.scan (H.lt hr hd) (.cons h1 ha) h2

theorem CaseOk.scan_link : ∀ {cs acc : List Str} {r : Ref}, r < s.next → ∀ {a x b}, s.scan r acc cs = .link a x b → x < s.next ∧ (s.heap x).isLnk = true
  | [], acc, r, hr, a, x, b, h => by cases h
  | c :: cs, acc, r, hr, a, x, b, h => by
    unfold FS.scan at h
    cases hd : s.dirContent r c with
    | none => rw [hd] at h; cases h
    | some e =>
      obtain ⟨nm, r'⟩ := e
      rw [hd] at h
      dsimp only at h
      by_cases hl : (s.heap r').isLnk = true
      · rw [if_pos hl] at h
        injection h with _ h2 _
        subst h2
        exact ⟨H.lt hr hd, hl⟩
      · rw [if_neg hl] at h
        exact CaseOk.scan_link (H.lt hr hd) h

theorem CaseOk.followLink {a b : List Str} {x : Ref} (h : rl a b) (hx : x < s.next) (hl : (s.heap x).isLnk = true) : rp (s.followLink a x) (s.followLink b x) := by
  have ht := H.targets x hx hl
  unfold FS.followLink
  simp only [H.folds.posix.win, Bool.false_and, Bool.false_eq_true, if_false]
  apply RP.normpath H.folds H.hnul
  split
  · have hd := h.dropLast
    generalize a.dropLast = a' at hd
    generalize b.dropLast = b' at hd
    cases hd with
    | nil => simpa [Py.join] using ht
    | cons h1 h2 =>
      rw [join_append _ (by simp) (by simp), join_append _ (by simp) (by simp)]
      apply RP.cat H.folds H.hnul (RL.join H.folds H.hnul (.cons h1 h2))
      simpa [Py.join] using ht
  · exact ht

theorem CaseOk.resolveComps : ∀ {n : Nat} {cs cs' : List Str}, rl cs cs' → Both (RL s.cfg nul) (s.resolveComps n cs) (s.resolveComps n cs') := by
  intro n
  induction n with
  | zero =>
    intro cs cs' h
    unfold FS.resolveComps
    have hs := H.scan H.rootLt .nil h
    generalize s.scan rootRef [] cs = a at hs
    generalize s.scan rootRef [] cs' = b at hs
    cases hs with
    | done h => exact .ok h
    | link _ _ => exact .error _
  | succ n ih =>
    intro cs cs' h
    unfold FS.resolveComps
    have hs := H.scan H.rootLt .nil h
    have hk := fun {a x b} => H.scan_link (cs := cs) (acc := []) H.rootLt (a := a) (x := x) (b := b)
    generalize s.scan rootRef [] cs = a at hs hk
    generalize s.scan rootRef [] cs' = b at hs
    cases hs with
    | done h => exact .ok h
    | link h1 h2 =>
      have hx := hk rfl
      exact ih (((H.followLink h1 hx.1 hx.2).components H.folds).append h2)

/-- the recursive entry point does not care about case -/
structure ExOk (s : FS) (nul : Str) (k : FS.Rec) : Prop where
  ex : ∀ p q, RP s.cfg nul p q → k.ex p = k.ex q
  lt : ∀ p r, k.res p = .ok r → r < s.next

section
variable {k : FS.Rec} (K : ExOk s nul k)
include K

theorem CaseOk.validLoop : ∀ {n n' : Nat} {p q : Str}, p.length ≤ n → q.length ≤ n' → rp p q → s.validLoop k n p = s.validLoop k n' q := by
  intro n
  induction n with
  | zero =>
    intro n' p q h1 h2 h
    have hp : p = [] := by simpa using h1
    have hq := (h.nil H.folds).mp hp
    subst hp; subst hq
    cases n' <;> simp [FS.validLoop, cutAtLast]
  | succ n ih =>
    intro n' p q h1 h2 h
    cases n' with
    | zero =>
      have hq : q = [] := by simpa using h2
      have hp := (h.nil H.folds).mpr hq
      subst hp; subst hq
      simp [FS.validLoop, cutAtLast]
    | succ n' =>
      unfold FS.validLoop
      rcases h.cut H.folds H.hnul with ⟨e1, e2⟩ | ⟨p', q', e1, e2, h'⟩
      · rw [e1, e2]
      · rw [e1, e2]
        dsimp only
        have l1 := cutAtLast_length (by simp) e1
        have l2 := cutAtLast_length (by simp) e2
        rw [K.ex _ _ (H.absnorm h'), ih (n' := n') (by omega) (by omega) h']

theorem CaseOk.validRel {p q : Str} (h : rp p q) : s.validRelG k p = s.validRelG k q := by
  unfold FS.validRelG
  rw [H.validLoop K (le_refl _) (le_refl _) h]

theorem CaseOk.resolvePath {p q : Str} (h : rp p q) : Both (RP s.cfg nul) (s.resolvePathG k p) (s.resolvePathG k q) := by
  unfold FS.resolvePathG
  by_cases h0 : p = []
  · rw [if_pos h0, if_pos ((h.nil H.folds).mp h0)]; exact .error _
  rw [if_neg h0, if_neg (fun e => h0 ((h.nil H.folds).mpr e)), ← H.validRel K h]
  cases s.validRelG k p with
  | error e => exact .error e
  | ok b =>
    cases b with
    | false => exact .error _
    | true =>
      have ha := H.absnorm (H.originalPath h)
      simp only [bind, Except.bind, Bool.not_true, Bool.false_eq_true, if_false]
      by_cases hr : s.absnorm (s.originalPath p) = [s.cfg.sep]
      · rw [if_pos (H.isRoot.mpr hr), if_pos (H.isRoot.mpr ((ha.root H.folds).mp hr))]
        exact .ok ha
      · rw [if_neg (fun e => hr (H.isRoot.mp e)), if_neg (fun e => hr ((ha.root H.folds).mpr (H.isRoot.mp e))),
          if_neg (H.notDev ha), if_neg (H.notDev ha.symm)]
        have hc := H.resolveComps (n := FS.maxLinks) (ha.components H.folds)
        generalize s.resolveComps FS.maxLinks (s.cfg.pathComponents (s.absnorm (s.originalPath p))) = a at hc
        generalize s.resolveComps FS.maxLinks (s.cfg.pathComponents (s.absnorm (s.originalPath q))) = b at hc
        cases hc with
        | error e => exact .error e
        | ok h => exact .ok (RL.toPath H.folds H.hnul h)

theorem CaseOk.objLoop {check : Bool} : ∀ {cs cs' : List Str} {r : Ref}, r < s.next → rl cs cs' → s.objLoop k check r cs = s.objLoop k check r cs'
  | [], _, r, hr, h => by cases h; rfl
  | c :: cs, _, r, hr, h => by
    cases h with
    | cons h1 h2 =>
      unfold FS.objLoop
      have hk : ∀ x, s.deref k r = .ok x → x < s.next := by
        intro x hx
        unfold FS.deref at hx
        split at hx
        · exact K.lt _ _ hx
        · injection hx with hx; exact hx ▸ hr
      cases hd : s.deref k r with
      | error e => rfl
      | ok x =>
        have hx := hk x hd
        simp only [bind, Except.bind]
        split
        · rfl
        · split
          · rfl
          · rename_i es hc
            have he : (s.heap x).entries = es := by simp [Obj.entries, hc]
            rw [← he, ← H.getEntry hx h1.low]
            cases hg : s.getEntry (s.heap x).entries c with
            | error e => rfl
            | ok y =>
              dsimp only
              split
              · rfl
              · refine CaseOk.objLoop ?_ h2
                unfold FS.getEntry at hg
                split at hg
                · rename_i z hz
                  injection hg with hg
                  subst hg
                  exact H.inv.g.entLt x hx _ (alookup_some hz)
                · cases hg

theorem CaseOk.getObjNorm {check : Bool} {p q : Str} (h : rp p q) : s.getObjNormG k p check = s.getObjNormG k q check := by
  unfold FS.getObjNormG
  by_cases h0 : p = s.cfg.root
  · rw [if_pos h0, if_pos ((H.rootIff h).mp h0)]
  · rw [if_neg h0, if_neg (fun e => h0 ((H.rootIff h).mpr e)), if_neg (H.notDev h), if_neg (H.notDev h.symm)]
    exact H.objLoop K H.rootLt ((H.originalPath h).components H.folds)

theorem CaseOk.resolveG {check : Bool} {p q : Str} (h : rp p q) : s.resolveG k p check = s.resolveG k q check := by
  unfold FS.resolveG
  have hr := H.resolvePath K h
  generalize s.resolvePathG k p = a at hr
  generalize s.resolvePathG k q = b at hr
  cases hr with
  | error e => rfl
  | ok h => exact H.getObjNorm K h

omit K in
theorem CaseOk.lparent {p q : Str} (h : rp p q) : rp (s.lparent p).1 (s.lparent q).1 ∧ RN s.cfg nul (s.lparent p).2 (s.lparent q).2 := by
  unfold FS.lparent
  have h1 := h.strip H.folds
  have h2 : rp (if s.cfg.stripTrailing p = Cfg.dot then s.cwd else s.cfg.stripTrailing p) (if s.cfg.stripTrailing q = Cfg.dot then s.cwd else s.cfg.stripTrailing q) := by
    by_cases hd : s.cfg.stripTrailing p = Cfg.dot
    · rw [if_pos hd, if_pos ((h1.dot H.folds).mp hd)]; exact H.cwd
    · rw [if_neg hd, if_neg (fun e => hd ((h1.dot H.folds).mpr e))]; exact h1
  have h3 := (H.originalPath h2).splitpath H.folds H.hnul
  dsimp only
  generalize s.cfg.splitpath (s.originalPath (if s.cfg.stripTrailing p = Cfg.dot then s.cwd else s.cfg.stripTrailing p)) = a at h3 ⊢
  generalize s.cfg.splitpath (s.originalPath (if s.cfg.stripTrailing q = Cfg.dot then s.cwd else s.cfg.stripTrailing q)) = b at h3 ⊢
  refine ⟨?_, h3.2⟩
  split
  · rename_i e; rw [if_pos ((h3.1.nil H.folds).mp e)]; exact H.cwd
  · rename_i e; rw [if_neg (fun e' => e ((h3.1.nil H.folds).mpr e'))]; exact h3.1

omit K in
theorem CaseOk.lentry {r : Ref} (hr : r < s.next) {c c' : Str} (h : RN s.cfg nul c c') : s.lentry r c = s.lentry r c' := by
  unfold FS.lentry
  split
  · rfl
  · rename_i es hc
    have he : (s.heap r).entries = es := by simp [Obj.entries, hc]
    rw [← he, ← H.getEntry hr h.low]
    by_cases h0 : c = []
    · simp only [if_pos h0, if_pos ((h.nil H.folds).mp h0)]
    · simp only [if_neg h0, if_neg (fun e => h0 ((h.nil H.folds).mpr e))]

theorem CaseOk.lresolveG {p q : Str} (h : rp p q) : s.lresolveG k p = s.lresolveG k q := by
  unfold FS.lresolveG
  by_cases h0 : p = []
  · rw [if_pos h0, if_pos ((h.nil H.folds).mp h0)]
  rw [if_neg h0, if_neg (fun e => h0 ((h.nil H.folds).mpr e))]
  by_cases h1 : p = s.cfg.root
  · rw [if_pos h1, if_pos ((H.rootIff h).mp h1)]
  rw [if_neg h1, if_neg (fun e => h1 ((H.rootIff h).mpr e))]
  have hl := H.lparent h
  rw [← H.resolveG K hl.1]
  cases hr : s.resolveG k (s.lparent p).1 true with
  | error e => rfl
  | ok r => exact H.lentry ((Closed.lt H.inv).resolveG K.lt hr) hl.2

theorem CaseOk.resolveFG {f check : Bool} {p q : Str} (h : rp p q) : s.resolveFG k p f check = s.resolveFG k q f check := by
  unfold FS.resolveFG
  rw [H.resolveG K h, H.lresolveG K h]

theorem CaseOk.raiseForSep {p q : Str} (h : rp p q) (r : Ref) (f m : Bool) : s.raiseForSepG k p r f m = s.raiseForSepG k q r f m := by
  unfold FS.raiseForSepG
  rw [h.endsSep H.folds, H.resolveG K h]

theorem CaseOk.isOfType {p q : Str} (h : rp p q) (flag : Nat) (f : Bool) : s.isOfTypeG k p flag f = s.isOfTypeG k q flag f := by
  unfold FS.isOfTypeG
  rw [H.resolveFG K h]
  simp only [H.raiseForSep K h]

omit K in
theorem CaseOk.existsLoop : ∀ {cs cs' : List Str} {r : Ref}, r < s.next → rl cs cs' → s.existsLoop r cs = s.existsLoop r cs'
  | [], _, r, hr, h => by cases h; rfl
  | c :: cs, _, r, hr, h => by
    cases h with
    | cons h1 h2 =>
      unfold FS.existsLoop
      rw [← H.dirContent hr h1.low]
      cases hd : s.dirContent r c with
      | none => rfl
      | some e =>
        obtain ⟨nm, r'⟩ := e
        exact CaseOk.existsLoop (H.lt hr hd) h2

theorem CaseOk.isFileSep {p q : Str} (h : rp p q) : s.isFileSepG k p = s.isFileSepG k q := by
  unfold FS.isFileSepG FS.isFileG
  rw [h.endsSep H.folds, H.isOfType K (h.strip H.folds)]

theorem CaseOk.existsG {p q : Str} (h : rp p q) : s.existsG k p = s.existsG k q := by
  unfold FS.existsG
  by_cases h0 : p = []
  · rw [if_pos h0, if_pos ((h.nil H.folds).mp h0)]
  rw [if_neg h0, if_neg (fun e => h0 ((h.nil H.folds).mpr e)), if_neg (H.notDev h), if_neg (H.notDev h.symm), ← H.isFileSep K h]
  have hr := H.resolvePath K h
  cases s.isFileSepG k p with
  | error e => rfl
  | ok b =>
    cases b with
    | true => rfl
    | false =>
      simp only [bind, Except.bind, Bool.false_eq_true, if_false]
      generalize s.resolvePathG k p = a at hr
      generalize s.resolvePathG k q = b at hr
      cases hr with
      | error e => rfl
      | @ok x y h =>
        simp only [pure, Except.pure]
        by_cases h1 : x = s.cfg.root
        · rw [if_pos h1, if_pos ((H.rootIff h).mp h1)]
        · rw [if_neg h1, if_neg (fun e => h1 ((H.rootIff h).mpr e)), H.existsLoop H.rootLt (h.components H.folds)]

theorem CaseOk.existsLG {p q : Str} (h : rp p q) : s.existsLG k p = s.existsLG k q := by
  unfold FS.existsLG FS.isLinkG
  rw [H.isOfType K h, H.existsG K h]
end

theorem CaseOk.recN : ∀ n, ExOk s nul (s.recN n)
  | 0 => ⟨fun _ _ _ => rfl, fun _ _ h => by cases h⟩
  | n + 1 => ⟨fun _ _ h => H.existsG (CaseOk.recN n) h, (Closed.lt H.inv).recN _⟩

end
end Verif
