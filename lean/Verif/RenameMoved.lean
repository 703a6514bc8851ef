import Verif.EffRename
import Verif.Keeps
/-!
# Renaming: where everything is afterwards
-/

namespace Verif
open Py Spec Cfg

namespace Spec
/-- Everything at and below the location `lo` is at and below `ln` now, nothing is left at `lo`, and every location
neither below `lo` nor below `ln` leads where it led before. -/
structure Moved (s s' : FS) (lo ln : List Str) : Prop where
  was : (walk s.heap rootRef lo).isSome
  here : ∀ rest, walk s'.heap rootRef (ln ++ rest) = walk s.heap rootRef (lo ++ rest)
  gone : ∀ rest, walk s'.heap rootRef (lo ++ rest) = none
  elsewhere : ∀ l, ¬ lo <+: l → ¬ ln <+: l → walk s'.heap rootRef l = walk s.heap rootRef l
end Spec

theorem Renamed.moved {s s' : FS} (hi : Inv s) (ht : s.cfg.Tree) {od nd r : Ref} {on nn : Str} {lo ln : List Str}
    (h : Renamed s s' od on nd nn r) (hdir : (s.heap nd).isDir = true) (hlo : walk s.heap rootRef lo = some od)
    (hln : walk s.heap rootRef ln = some nd) (hanc : ¬ Anc s.heap r nd)
    (htgt : ∀ t, alookup nn (s.heap nd).entries = some t → (s.heap t).entries = []) :
    Moved s s' (lo ++ [on]) (ln ++ [nn]) := by
  have hodir := isDir_of_entry (alookup_mem h.was)
  have hod := walk_lt hi _ (root_lt hi) hlo
  have hnd := walk_lt hi _ (root_lt hi) hln
  have hrlt := hi.g.entLt od hod _ (alookup_mem h.was)
  have anc : ∀ {x y l}, x < s.next → walk s.heap x l = some y → (s.heap y).isDir = true → Anc s.heap x y :=
    fun hx hl hd => walk_anc hi _ hx hl hd
  let hp1 : Ref → Obj := fun x => if x = od then { s.heap od with content := .dir (aerase on (s.heap od).entries) } else s.heap x
  have l1 : ∀ x n, alookup n (hp1 x).entries = if x = od ∧ n = on then none else alookup n (s.heap x).entries := by
    intro x n
    by_cases e : x = od
    · subst e
      have : (hp1 x).entries = aerase on (s.heap x).entries := by simp [hp1, Obj.entries]
      rw [this, alookup_aerase]; simp
    · simp [hp1, e]
  have key1 := walk_update (hp := s.heap) (hp' := hp1) (d := od) (ld := lo) (nm := on) (o := none) hlo
    (fun l hl => walk_dir_unique hi l lo hl hlo hodir)
    (fun x hx n => by rw [l1, if_neg (fun h => hx h.1)]) (fun n hn => by rw [l1, if_neg (fun h => hn h.2)])
    (by rw [l1, if_pos ⟨rfl, rfl⟩]) (by simp)
  have small : ∀ l x y, walk hp1 x l = some y → walk s.heap x l = some y := by
    intro l
    induction l with
    | nil => intro x y hh; exact hh
    | cons c l ih =>
      intro x y hh
      simp only [walk] at hh ⊢
      rw [l1] at hh
      split at hh
      · simp at hh
      · cases ha : alookup c (s.heap x).entries with
        | none => rw [ha] at hh; simp at hh
        | some z => rw [ha] at hh; exact ih z y hh
  have wnd : ∀ l, walk s.heap r l ≠ some nd := fun l hl => hanc (anc hrlt hl hdir)
  have wod : ∀ l, walk s.heap r l ≠ some od := by
    intro l hl
    have : walk s.heap rootRef (lo ++ on :: l) = some od := by rw [walk_append, hlo]; simpa [walk, h.was] using hl
    have := congrArg List.length (walk_dir_unique hi _ _ this hlo hodir)
    simp at this
  have hnot : ∀ rest, ln ≠ lo ++ on :: rest := by
    rintro rest rfl
    rw [walk_append, hlo] at hln
    simp only [Option.bind_some, walk, h.was] at hln
    exact wnd rest hln
  have hln1 : walk hp1 rootRef ln = some nd := by rw [(key1 ln).1 hnot]; exact hln
  have key2 := walk_update (hp := hp1) (hp' := s'.heap) (d := nd) (ld := ln) (nm := nn) (o := some r) hln1
    (fun l hl => walk_dir_unique hi l ln (small _ _ _ hl) hln hdir)
    (fun x hx n => by rw [h.look, if_neg (fun h => hx h.1), l1])
    (fun n hn => by rw [h.look, if_neg (fun h => hn h.2), l1])
    (by rw [h.look, if_pos ⟨rfl, rfl⟩])
    (by intro c hc l hl; injection hc with hc; subst hc; exact wnd l (small _ _ _ hl))
  have off : ∀ l, walk hp1 r l = walk s.heap r l :=
    walk_off (fun x hx n => by rw [l1, if_neg (fun h => hx h.1)]) wod
  refine ⟨?_, ?_, ?_, ?_⟩
  · rw [walk_append, hlo]; simp [walk, h.was]
  · intro rest
    rw [(key2 _).2 rest (by simp), walk_append, walk_append, hlo]
    simp [walk, h.was, off]
  · intro rest
    rw [(key2 _).1]
    · rw [(key1 _).2 rest (by simp)]; rfl
    · intro rest' e
      rw [List.append_assoc, List.singleton_append] at e
      have clash : lo = ln → on = nn → False := by
        rintro rfl rfl
        rw [hlo] at hln; injection hln with hln
        exact h.ne (by rw [hln])
      rcases List.append_eq_append_iff.mp e with ⟨a, h1, h2⟩ | ⟨a, h1, h2⟩
      · cases a with
        | nil =>
          simp at h1 h2
          exact clash h1.symm h2.1
        | cons c a =>
          simp at h2
          rw [← h2.1] at h1
          exact hnot a h1
      · cases a with
        | nil =>
          simp at h1 h2
          exact clash h1 h2.1.symm
        | cons c a =>
          simp at h2
          rw [← h2.1] at h1
          rw [h1, walk_append, hln] at hlo
          simp only [Option.bind_some, walk] at hlo
          cases hh : alookup nn (s.heap nd).entries with
          | none => rw [hh] at hlo; simp at hlo
          | some t =>
            rw [hh] at hlo
            simp only [Option.bind_some] at hlo
            have hte := htgt t hh
            cases a with
            | nil =>
              simp [walk] at hlo
              subst hlo
              have := h.was
              rw [hte] at this; simp [alookup] at this
            | cons c a => simp [walk, hte, alookup] at hlo
  · intro l h1 h2
    rw [(key2 l).1, (key1 l).1]
    · rintro rest rfl; exact h1 ⟨rest, by simp⟩
    · rintro rest rfl; exact h2 ⟨rest, by simp⟩

/-! ## The part of `rename` after the treatment of an existing target -/

/-- What `rename` checks before it moves the entry. -/
structure RenameOk (s : FS) (names names' : List Str) (oldO od nd : Ref) : Prop where
  there : s.exists_ (absPath s.cfg.sep names') = .ok true
  rod : s.resolve (absPath s.cfg.sep names) = .ok od
  rnd : s.resolve (absPath s.cfg.sep names') = .ok nd
  dev : (s.heap od).dev = (s.heap nd).dev
  mode : (s.heap nd).isDirMode = true
  dir : (s.heap nd).isDir = true
  below : s.hasParent nd oldO = false

theorem renameTail_ok {s : FS} (ht : s.cfg.Tree) {names names' : List Str} {on nn : Str} (hn : ∀ w ∈ names, Proper s.cfg.sep w)
    (hon : Proper s.cfg.sep on) (hn' : ∀ w ∈ names', Proper s.cfg.sep w) (hnn : Proper s.cfg.sep nn) {oldO od nd : Ref}
    (h : RenameOk s names names' oldO od nd) :
    renameTail (absPath s.cfg.sep (names ++ [on])) (absPath s.cfg.sep (names' ++ [nn])) oldO s = renameCommit od nd on nn s := by
  unfold renameTail
  rw [M.bind_eq]
  dsimp only [M.get]
  rw [if_neg absPath_ne_nil, splitpath_absPath ht.posix hn hon, splitpath_absPath ht.posix hn' hnn]
  dsimp only
  rw [M.bind_eq, rd_eq (f := fun x => x.exists_ (absPath s.cfg.sep names')) h.there]
  dsimp only
  rw [if_neg (by simp), M.bind_eq, rd_eq (f := fun x => x.resolve (absPath s.cfg.sep names)) h.rod]
  dsimp only
  rw [M.bind_eq, rd_eq (f := fun x => x.resolve (absPath s.cfg.sep names')) h.rnd]
  dsimp only
  rw [if_neg (by rw [h.dev]; simp), if_neg (by rw [h.mode]; simp), if_neg (by rw [h.dir]; simp), if_neg (by rw [h.below]; simp)]

theorem renameTail_cases {s : FS} (ht : s.cfg.Tree) {old : Str} {names names' : List Str} {on nn : Str}
    (hold : s.cfg.splitpath old = (absPath s.cfg.sep names, on)) (hn' : ∀ w ∈ names', Proper s.cfg.sep w) (hnn : Proper s.cfg.sep nn) {oldO : Ref}
    {Q : Except Err Unit → FS → Prop} (herr : ∀ x, Q (.error x) s)
    (hok : ∀ od nd, RenameOk s names names' oldO od nd → wp (renameCommit od nd on nn) Q s) :
    wp (renameTail old (absPath s.cfg.sep (names' ++ [nn])) oldO) Q s := by
  unfold renameTail
  apply wp_getBind
  rw [if_neg absPath_ne_nil, hold, splitpath_absPath ht.posix hn' hnn]
  apply wp_readBind
  · intro e _; exact herr e
  intro b hb
  apply wp_ite
  · intro _; exact herr _
  intro hb'
  have hb' : b = true := by simpa using hb'
  subst hb'
  apply wp_readBind
  · intro e _; exact herr e
  intro od hod
  apply wp_readBind
  · intro e _; exact herr e
  intro nd hnd
  apply wp_ite
  · intro _; exact herr _
  intro h1
  apply wp_ite
  · intro _; exact herr _
  intro h2
  apply wp_ite
  · intro _; exact herr _
  intro h3
  apply wp_ite
  · intro _; exact herr _
  intro h4
  exact hok od nd ⟨hb, hod, hnd, by simpa using h1, by simpa using h2, by simpa using h3, by simpa using h4⟩

/-! ## `rename` -/

namespace Spec
/-- No symbolic link is on the way to the last component of `p` (the last component itself may be a link). -/
def NoLinksTo (s : FS) (p : Str) : Prop :=
  ∃ names nm, (∀ w ∈ names, Proper s.cfg.sep w) ∧ Proper s.cfg.sep nm ∧ s.absnorm p = absPath s.cfg.sep (names ++ [nm]) ∧
    NoLink s.heap rootRef names

/-- A file lives on the device of each directory it has a name in. -/
def DevInDir (s : FS) : Prop :=
  ∀ ld d, walk s.heap rootRef ld = some d → ∀ e ∈ (s.heap d).entries, (s.heap e.2).isDir = false → (s.heap e.2).dev = (s.heap d).dev
end Spec

theorem objLoop_last {s : FS} (cs : s.cfg.caseSens = true) (k : FS.Rec) (check : Bool) {w : Str} :
    ∀ l r x, (s.heap r).isLnk = false → NoLink s.heap r l → s.objLoop k check r (l ++ [w]) = .ok x → walk s.heap r (l ++ [w]) = some x := by
  intro l
  induction l with
  | nil =>
    intro r x hr _ h
    simp only [List.nil_append, FS.objLoop, FS.deref, hr, Bool.false_eq_true, if_false, bind, Except.bind] at h
    split at h
    · simp at h
    cases hc : (s.heap r).content with
    | file b => rw [hc] at h; simp at h
    | dir es =>
      rw [hc] at h
      simp only [getEntry_tree cs] at h
      simp only [List.nil_append, walk, mem_entries hc]
      cases ha : alookup w es with
      | none => rw [ha] at h; simp at h
      | some y =>
        rw [ha] at h
        simp only at h
        split at h
        · simp at h
        · injection h with h; subst h; rfl
  | cons c l ih =>
    intro r x hr hn h
    simp only [List.cons_append, FS.objLoop, FS.deref, hr, Bool.false_eq_true, if_false, bind, Except.bind] at h
    split at h
    · simp at h
    cases hc : (s.heap r).content with
    | file b => rw [hc] at h; simp at h
    | dir es =>
      rw [hc] at h
      simp only [getEntry_tree cs] at h
      simp only [List.cons_append, walk, mem_entries hc]
      cases ha : alookup c es with
      | none => rw [ha] at h; simp at h
      | some y =>
        rw [ha] at h
        simp only at h
        split at h
        · simp at h
        · have hy := hn y (by rw [mem_entries hc]; exact ha)
          exact ih y x hy.1 hy.2 h

theorem renameOk_commit {s : FS} (hi : Inv s) (hw : Within s) (ht : s.cfg.Tree) {po pn : Str} {names names' : List Str} {on nn : Str}
    (hn : ∀ w ∈ names, Proper s.cfg.sep w) (hon : Proper s.cfg.sep on) (hn' : ∀ w ∈ names', Proper s.cfg.sep w) (hnn : Proper s.cfg.sep nn)
    (hpo : s.absnorm po = absPath s.cfg.sep (names ++ [on])) (hpn : s.absnorm pn = absPath s.cfg.sep (names' ++ [nn])) {oldO od nd : Ref}
    (hlr : s.lresolve (s.absnorm po) = .ok oldO) (h : RenameOk s names names' oldO od nd) (hmay : mayRemove s nd) (hdev : DevInDir s)
    (htgt : ∀ t, alookup nn (s.heap nd).entries = some t → t ≠ oldO ∧ (s.heap t).entries = []) :
    wp (renameCommit od nd on nn) (fun res s' => (∃ x, res = .error x ∧ s' = s ∧ ¬ mayRemove s od) ∨
      ∃ lo ln, res = .ok () ∧ Names s po lo on od ∧ Names s pn ln nn nd ∧ Renamed s s' od on nd nn oldO ∧
        Moved s s' (lo ++ [on]) (ln ++ [nn]) ∧ mayRemove s od) s := by
  rw [hpo] at hlr
  obtain ⟨od', k1, k2, _, k3⟩ := (lresolve_tree ht s.rc hn hon).mp hlr
  have ke : od' = od := by
    have := h.rod
    rw [FS.resolve, FS.resolveFG, if_pos rfl] at this
    rw [this] at k1; injection k1 with k1; exact k1.symm
  subst ke
  have hod := resolve_lt hi h.rod
  have hnd := resolve_lt hi h.rnd
  obtain ⟨lo, hlo⟩ := resolve_loc hi ht h.rod (isDir_ne_devNull hi k2)
  obtain ⟨ln, hln⟩ := resolve_loc hi ht h.rnd (isDir_ne_devNull hi h.dir)
  have hanc : ¬ Anc s.heap oldO nd := fun ha => by
    have := hasParent_of_anc hi ht hnd ha
    rw [h.below] at this; simp at this
  apply wp_mono (renameCommit_spec hi hw ht (on := on) (nn := nn) hod hnd h.dir ?_ hmay ?_ ?_)
  · rintro res s' (⟨x, h1, h2, h3⟩ | ⟨r, h1, h2, h3⟩)
    · refine Or.inl ⟨x, h1, h2, fun hm => h3 hm oldO k3⟩
    · have : r = oldO := by have := h2.was; rw [k3] at this; injection this with this; exact this.symm
      subst this
      refine Or.inr ⟨lo, ln, h1, ⟨⟨names, hn, hon, hpo, resolve_weaken hi ht h.rod⟩, k2, hlo⟩,
        ⟨⟨names', hn', hnn, hpn, resolve_weaken hi ht h.rnd⟩, h.dir, hln⟩, h2, ?_, h3⟩
      exact h2.moved hi ht h.dir hlo hln hanc (fun t htt => (htgt t htt).2)
  · intro r hr; rw [k3] at hr; injection hr with hr; subst hr; exact hanc
  · intro r hr hf; rw [k3] at hr; injection hr with hr; subst hr
    rw [hdev lo _ hlo _ (alookup_mem k3) hf, h.dev]
  · intro r t hr htt; rw [k3] at hr; injection hr with hr; subst hr; exact htgt t htt

/-- the pure checks at the beginning of `rename` -/
theorem rename_cases {s : FS} {po pn : Str} {force : Bool} {Q : Except Err Unit → FS → Prop} (herr : ∀ x, Q (.error x) s)
    (hold : ∀ oldO, s.existsL (s.absnorm po) = .ok true → s.lresolve (s.absnorm po) = .ok oldO → s.existsL (s.absnorm pn) = .ok true →
      wp (do
        match ← renameToExisting force (s.absnorm pn) (s.absnorm po) oldO (s.cfg.endsWithSep po) with
        | none => M.pure ()
        | some new => renameTail (s.absnorm po) new oldO) Q s)
    (hnew : ∀ oldO, s.existsL (s.absnorm po) = .ok true → s.lresolve (s.absnorm po) = .ok oldO → s.existsL (s.absnorm pn) = .ok false →
      wp (renameTail (s.absnorm po) (s.absnorm pn) oldO) Q s) : wp (rename po pn force) Q s := by
  unfold rename
  apply wp_getBind
  dsimp only
  apply wp_readBind
  · intro e _; exact herr e
  intro b hb
  apply wp_ite
  · intro _; exact herr _
  intro hb'
  have hb' : b = true := by simpa using hb'
  subst hb'
  have fin : ∀ oldO, s.lresolve (s.absnorm po) = .ok oldO → wp (do
      let x ← rd fun x => x.existsL (s.absnorm pn)
      if x = true then do
          match ← renameToExisting force (s.absnorm pn) (s.absnorm po) oldO (s.cfg.endsWithSep po) with
          | none => M.pure ()
          | some new => renameTail (s.absnorm po) new oldO
        else renameTail (s.absnorm po) (s.absnorm pn) oldO) Q s := by
    intro oldO hO
    apply wp_readBind
    · intro e _; exact herr e
    intro c hc
    apply wp_ite
    · rintro rfl; exact hold oldO hb hO hc
    · intro hf
      have hf : c = false := by simpa using hf
      subst hf
      exact hnew oldO hb hO hc
  have rest : wp (do
      let oldO ← rd fun x => x.lresolve (s.absnorm po)
      if (!s.cfg.isWin) = true then do
          rd fun x => x.posixDirLinkErrors (s.absnorm pn) (s.absnorm po) (s.cfg.endsWithSep po)
          let x ← rd fun x => x.existsL (s.absnorm pn)
          if x = true then do
              match ← renameToExisting force (s.absnorm pn) (s.absnorm po) oldO (s.cfg.endsWithSep po) with
              | none => M.pure ()
              | some new => renameTail (s.absnorm po) new oldO
            else renameTail (s.absnorm po) (s.absnorm pn) oldO
        else do
          let x ← rd fun x => x.existsL (s.absnorm pn)
          if x = true then do
              match ← renameToExisting force (s.absnorm pn) (s.absnorm po) oldO (s.cfg.endsWithSep po) with
              | none => M.pure ()
              | some new => renameTail (s.absnorm po) new oldO
            else renameTail (s.absnorm po) (s.absnorm pn) oldO) Q s := by
    apply wp_readBind
    · intro e _; exact herr e
    intro oldO hO
    apply wp_ite
    · intro _
      apply wp_readBind
      · intro e _; exact herr e
      intro _ _
      exact fin oldO hO
    · intro _; exact fin oldO hO
  apply wp_ite
  · intro _
    apply wp_readBind
    · intro e _; exact herr e
    intro _ _
    exact rest
  · intro _; exact rest

/-- What a successful `rename` did. -/
structure Renaming (s s' : FS) (po pn : Str) (lo : List Str) (on : Str) (od : Ref) (ln : List Str) (nn : Str) (nd r : Ref) : Prop where
  old : Names s po lo on od
  new : Names s pn ln nn nd
  heap : Renamed s s' od on nd nn r
  moved : Moved s s' (lo ++ [on]) (ln ++ [nn])
  may : mayRemove s od
  empty : ∀ t, alookup nn (s.heap nd).entries = some t → (s.heap t).entries = []

theorem rename_spec_new {s : FS} (hi : Inv s) (hw : Within s) (ht : s.cfg.Tree) {po pn : Str} {force : Bool} (hdev : DevInDir s)
    (hmay : ∀ ln nm nd, Names s pn ln nm nd → mayRemove s nd)
    (hfree : ∀ ln nm nd, Names s pn ln nm nd → alookup nm (s.heap nd).entries = none) (hex : s.existsL (s.absnorm pn) ≠ .ok true) :
    wp (rename po pn force) (fun res s' => (∃ x, res = .error x ∧ s' = s) ∨
      ∃ lo on od ln nn nd r, res = .ok () ∧ Renaming s s' po pn lo on od ln nn nd r ∧ alookup nn (s.heap nd).entries = none) s := by
  apply rename_cases
  · intro x; exact Or.inl ⟨x, rfl, rfl⟩
  · intro _ _ _ h; exact absurd h hex
  intro oldO h1 h2 h3
  rcases absCanon_cases (hi.absnorm ht.posix pn) with h0 | ⟨names', nn, hn', hnn, h0⟩
  · exfalso
    rw [h0, absPath_nil, existsL_root hi ht.posix] at h3
    simp at h3
  have hfree' : ∀ nd, s.resolve (absPath s.cfg.sep names') = .ok nd → (s.heap nd).isDir = true → alookup nn (s.heap nd).entries = none ∧ mayRemove s nd := by
    intro nd k1 k2
    obtain ⟨ln, hln⟩ := resolve_loc hi ht k1 (isDir_ne_devNull hi k2)
    have hN : Names s pn ln nn nd := ⟨⟨names', hn', hnn, h0, resolve_weaken hi ht k1⟩, k2, hln⟩
    exact ⟨hfree ln nn nd hN, hmay ln nn nd hN⟩
  rcases absCanon_cases (hi.absnorm ht.posix po) with k0 | ⟨names, on, hn, hon, k0⟩
  · -- the root directory cannot be moved
    rw [k0, absPath_nil] at h2 ⊢
    have : oldO = rootRef := by
      rw [FS.lresolve, lresolve_root] at h2; injection h2 with h2; exact h2.symm
    subst this
    rw [h0]
    refine renameTail_cases ht (names := []) (on := []) ?_ hn' hnn (fun x => Or.inl ⟨x, rfl, rfl⟩) ?_
    · rw [← absPath_nil]; exact splitpath_root ht.posix
    intro od nd hok
    exfalso
    have := hasParent_of_anc hi ht (resolve_lt hi hok.rnd) (((Closed.anc hi).resolve hok.rnd).2 hok.dir)
    rw [hok.below] at this; simp at this
  · rw [k0, h0]
    refine renameTail_cases ht (splitpath_absPath ht.posix hn hon) hn' hnn (fun x => Or.inl ⟨x, rfl, rfl⟩) ?_
    intro od nd hok
    obtain ⟨f1, f2⟩ := hfree' nd hok.rnd hok.dir
    apply wp_mono (renameOk_commit hi hw ht hn hon hn' hnn k0 h0 h2 hok f2 hdev (by rw [f1]; simp))
    rintro res s' (⟨x, a, b, _⟩ | ⟨lo, ln, a, b, c, d, e, f⟩)
    · exact Or.inl ⟨x, a, b⟩
    · exact Or.inr ⟨lo, on, od, ln, nn, nd, oldO, a, ⟨b, c, d, e, f, by rw [f1]; simp⟩, f1⟩

/-! ## An existing target -/

/-- The target of a `rename`: the entry `nn` of the directory `nd`, reached without symbolic links. -/
structure Target (s : FS) (pn : Str) (names' : List Str) (nn : Str) (nd t : Ref) : Prop where
  proper : ∀ w ∈ names', Plain s.cfg.sep w
  name : Plain s.cfg.sep nn
  path : s.absnorm pn = absPath s.cfg.sep (names' ++ [nn])
  nolink : NoLink s.heap rootRef names'
  walk : walk s.heap rootRef names' = some nd
  dir : (s.heap nd).isDir = true
  entry : alookup nn (s.heap nd).entries = some t
  notDev : absPath s.cfg.sep (names' ++ [nn]) ≠ s.devName
  res : s.resolve (absPath s.cfg.sep names') true false = .ok nd

theorem target_of_names {s : FS} (hi : Inv s) (ht : s.cfg.Tree) {pn : Str} (ho : Ordinary s pn) (hl : NoLinksTo s pn) {ln : List Str}
    {nn : Str} {nd t : Ref} (hN : Names s pn ln nn nd) (htt : alookup nn (s.heap nd).entries = some t) :
    ∃ names', Target s pn names' nn nd t := by
  obtain ⟨⟨names', h1, h2, h3, h4⟩, h5, h6⟩ := hN
  obtain ⟨n2, nm2, k1, k2, k3, k4⟩ := hl
  obtain ⟨⟨n3, l1, l2⟩, l3⟩ := ho
  have hall : ∀ w ∈ names' ++ [nn], Proper s.cfg.sep w := by
    intro w hw; rcases List.mem_append.mp hw with hw | hw
    · exact h1 w hw
    · simp at hw; subst hw; exact h2
  have hall2 : ∀ w ∈ n2 ++ [nm2], Proper s.cfg.sep w := by
    intro w hw; rcases List.mem_append.mp hw with hw | hw
    · exact k1 w hw
    · simp at hw; subst hw; exact k2
  have e2 : names' ++ [nn] = n2 ++ [nm2] := absPath_inj ht.posix hall hall2 (by rw [← h3, k3])
  have e3 : names' ++ [nn] = n3 := absPath_inj ht.posix hall (plain_proper l1) (by rw [← h3, l2])
  have e2' := List.append_inj' e2 rfl
  rw [← e2'.1] at k4
  have hpl : ∀ w ∈ names', Plain s.cfg.sep w := fun w hw => l1 w (by rw [← e3]; simp [hw])
  refine ⟨names', hpl, l1 nn (by rw [← e3]; simp), h3, k4, ?_, h5, htt, by rw [← h3]; exact l3, h4⟩
  have h4' := h4
  rw [FS.resolve, FS.resolveFG, if_pos rfl] at h4
  have hcan := absnorm_canon hi ht.posix (absCanon_names h1)
  by_cases e : absPath s.cfg.sep names' = s.cfg.root
  · have hnil : names' = [] := by
      have := absPath_inj ht.posix h1 (b := []) (by simp) (by rw [e, absPath_nil])
      exact this
    obtain ⟨_, _, h7⟩ := (resolveG_ok hi ht _).mp h4
    rw [hcan] at h7
    rcases h7 with ⟨_, h7⟩ | ⟨h7, _⟩ | ⟨h7, _⟩
    · rw [hnil, h7]; rfl
    · exact absurd e h7
    · exact absurd e h7
  · have hnd : absPath s.cfg.sep names' ≠ s.devName := by
      intro e2
      obtain ⟨_, _, h7⟩ := (resolveG_ok hi ht _).mp h4
      rw [hcan] at h7
      rcases h7 with ⟨h7, _⟩ | ⟨_, _, h7⟩ | ⟨_, h7, _⟩
      · exact e h7
      · exact isDir_ne_devNull hi h5 h7
      · exact h7 e2
    exact ((resolve_plain hi ht s.rc hpl k4 hnd).mp h4).1

theorem Target.getObject {s : FS} (hi : Inv s) (ht : s.cfg.Tree) {pn : Str} {names' : List Str} {nn : Str} {nd t x : Ref}
    (h : Target s pn names' nn nd t) (hx : s.getObject (s.absnorm pn) = .ok x) : x = t := by
  have hall : ∀ w ∈ names' ++ [nn], Proper s.cfg.sep w := by
    intro w hw; rcases List.mem_append.mp hw with hw | hw
    · exact (h.proper w hw).1
    · simp at hw; subst hw; exact h.name.1
  unfold FS.getObject FS.getObjNormG at hx
  rw [originalPath_tree ht.cs, absnorm_idem hi ht.posix, h.path, originalPath_tree ht.cs,
    if_neg (absPath_snoc_ne_root (plain_proper h.proper) h.name.1), if_neg h.notDev, pathComponents_absPath ht.posix hall] at hx
  have := objLoop_last ht.cs _ _ _ _ _ (root_not_lnk hi) h.nolink hx
  rw [walk_append, h.walk] at this
  simp [Spec.walk, h.entry] at this
  exact this.symm

theorem walked_append {hp : Ref → Obj} {b : List Str} : ∀ {a : List Str} {r x : Ref}, walk hp r a = some x →
    walked hp r (a ++ b) = walked hp r a ++ walked hp x b := by
  intro a
  induction a with
  | nil => intro r x h; simp only [walk, Option.some.injEq] at h; subst h; rfl
  | cons c a ih =>
    intro r x h
    simp only [walk] at h
    cases ha : alookup c (hp r).entries with
    | none => rw [ha] at h; simp at h
    | some y =>
      rw [ha] at h
      simp only [List.cons_append, walked, ha, ih h]

theorem Target.ne_dev {s : FS} (hi : Inv s) (ht : s.cfg.Tree) {pn : Str} {names' : List Str} {nn : Str} {nd t : Ref}
    (h : Target s pn names' nn nd t) (e : absPath s.cfg.sep names' ≠ s.cfg.root) : absPath s.cfg.sep names' ≠ s.devName := by
  intro e2
  have h4 := h.res
  rw [FS.resolve, FS.resolveFG, if_pos rfl] at h4
  obtain ⟨_, _, h7⟩ := (resolveG_ok hi ht _).mp h4
  rw [absnorm_canon hi ht.posix (absCanon_names (plain_proper h.proper))] at h7
  rcases h7 with ⟨h7, _⟩ | ⟨_, _, h7⟩ | ⟨_, h7, _⟩
  · exact e h7
  · exact isDir_ne_devNull hi h.dir h7
  · exact h7 e2

theorem Target.nolink' {s : FS} {pn : Str} {names' : List Str} {nn : Str} {nd t : Ref} (h : Target s pn names' nn nd t)
    (hl : (s.heap t).isLnk = false) : NoLink s.heap rootRef (names' ++ [nn]) := by
  refine noLink_append.mpr ⟨h.nolink, ?_⟩
  intro x hx
  rw [h.walk] at hx; injection hx with hx; subst hx
  intro y hy
  rw [h.entry] at hy; injection hy with hy; subst hy
  exact ⟨hl, trivial⟩

theorem Target.readable {s : FS} (hi : Inv s) (ht : s.cfg.Tree) {pn : Str} {names' : List Str} {nn : Str} {nd t x : Ref}
    (h : Target s pn names' nn nd t) (hl : (s.heap t).isLnk = false) (hx : s.getObject (s.absnorm pn) = .ok x) :
    s.resolve (absPath s.cfg.sep names') = .ok nd := by
  have hall : ∀ w ∈ names' ++ [nn], Proper s.cfg.sep w := by
    intro w hw; rcases List.mem_append.mp hw with hw | hw
    · exact (h.proper w hw).1
    · simp at hw; subst hw; exact h.name.1
  unfold FS.getObject FS.getObjNormG at hx
  rw [originalPath_tree ht.cs, absnorm_idem hi ht.posix, h.path, originalPath_tree ht.cs,
    if_neg (absPath_snoc_ne_root (plain_proper h.proper) h.name.1), if_neg h.notDev, pathComponents_absPath ht.posix hall] at hx
  obtain ⟨_, k2, k3⟩ := (objLoop_tree ht.cs _ _ _ _ _ (root_not_lnk hi) (h.nolink' hl)).mp hx
  rw [through_append h.walk] at k2
  rw [walked_append h.walk] at k3
  rw [FS.resolve, FS.resolveFG, if_pos rfl]
  by_cases e : absPath s.cfg.sep names' = s.cfg.root
  · have hnil : names' = [] := absPath_inj ht.posix (plain_proper h.proper) (b := []) (by simp) (by rw [e, absPath_nil])
    have := h.walk
    rw [hnil] at this
    simp only [Spec.walk, Option.some.injEq] at this
    subst this
    refine (resolveG_ok hi ht _).mpr ⟨absPath_ne_nil, validRel_plain ht.posix _ h.proper, Or.inl ⟨?_, rfl⟩⟩
    rw [absnorm_canon hi ht.posix (absCanon_names (plain_proper h.proper))]; exact e
  · exact (resolve_plain hi ht s.rc h.proper h.nolink (h.ne_dev hi ht e)).mpr ⟨h.walk, k2.1, fun y hy => k3 y (by simp [hy])⟩

theorem names_unique {s : FS} (ht : s.cfg.Tree) {p : Str} {names : List Str} {nm : Str} {d : Ref} (hn : ∀ w ∈ names, Proper s.cfg.sep w)
    (hnm : Proper s.cfg.sep nm) (hp : s.absnorm p = absPath s.cfg.sep (names ++ [nm])) (hr : s.resolve (absPath s.cfg.sep names) true false = .ok d)
    {ld : List Str} {nm' : Str} {d' : Ref} (h : Names s p ld nm' d') : nm' = nm ∧ d' = d := by
  obtain ⟨⟨names', h1, h2, h3, h4⟩, h5, h6⟩ := h
  have hall : ∀ {n : List Str} {w : Str}, (∀ x ∈ n, Proper s.cfg.sep x) → Proper s.cfg.sep w → ∀ x ∈ n ++ [w], Proper s.cfg.sep x := by
    intro n w a b x hx; rcases List.mem_append.mp hx with hx | hx
    · exact a x hx
    · simp at hx; subst hx; exact b
  have e := absPath_inj ht.posix (hall h1 h2) (hall hn hnm) (by rw [← h3, hp])
  have e' := List.append_inj' e rfl
  rw [e'.1, hr] at h4
  injection h4 with h4
  exact ⟨by simpa using e'.2, h4.symm⟩

theorem renameToExisting_spec {s : FS} (hi : Inv s) (hw : Within s) (ht : s.cfg.Tree) (hg : Genuine s) {po pn : Str} {force es : Bool}
    (hm : s.cfg.isMac = false) {names' : List Str} {nn : Str} {nd t oldO : Ref} (hT : Target s pn names' nn nd t) (htO : t ≠ oldO)
    (hdiff : s.absnorm po ≠ s.absnorm pn) :
    wp (renameToExisting force (s.absnorm pn) (s.absnorm po) oldO es) (fun r s1 => (∃ x, r = .error x ∧ s1 = s) ∨
      (r = .ok (some (s.absnorm pn)) ∧ s1 = s ∧ (s.heap t).entries = []) ∨
      (r = .ok (some (s.absnorm pn)) ∧ Removed s s1 nd nn t ∧ s1.mounts = released s t ∧ Inv s1 ∧ (s.heap t).isDir = false ∧
        (s.heap t).isLnk = false ∧ (s.heap oldO).isDirMode = false ∧ s.resolve (absPath s.cfg.sep names') = .ok nd)) s := by
  have hndlt := walk_lt hi _ (root_lt hi) hT.walk
  have htlt := hi.g.entLt nd hndlt _ (alookup_mem hT.entry)
  unfold renameToExisting
  apply wp_readBind
  · intro e _; exact Or.inl ⟨e, rfl, rfl⟩
  intro x hx
  have := hT.getObject hi ht hx
  subst this
  apply wp_getBind
  rw [if_neg hdiff, if_neg (Ne.symm htO)]
  apply wp_ite
  · intro hdl
    apply wp_readBind
    · intro e _; exact Or.inl ⟨e, rfl, rfl⟩
    intro _ he
    refine Or.inr (Or.inl ⟨rfl, rfl, ?_⟩)
    unfold FS.renameDirLinkErr at he
    rw [ht.posix.win, hm] at he
    simp only [Bool.false_eq_true, if_false, Bool.not_false, Bool.or_true, Bool.and_true] at he
    split at he
    · rename_i hlk
      apply mem_entries_nil
      rw [hg _ htlt]; exact lnk_not_dirMode hlk
    · split at he
      · simp at he
      · rename_i hc
        exact hasContents_entries (by simpa using hc)
  intro hdl
  have hdl : (s.heap x).isDirMode = false ∧ (s.heap x).isLnk = false := by simpa using hdl
  apply wp_ite
  · intro _; exact Or.inl ⟨_, rfl, rfl⟩
  intro hod
  rw [ht.posix.win]
  simp only [Bool.false_and, Bool.false_eq_true, if_false]
  have hxd : (s.heap x).isDir = false := by rw [hg _ htlt]; exact hdl.1
  have k1 := removeObject_one hi hw ht (p := s.absnorm pn) (fun ld nm d e hN he => by
    rw [names_absnorm hi ht] at hN
    obtain ⟨rfl, rfl⟩ := names_unique ht (plain_proper hT.proper) hT.name.1 hT.path hT.res hN
    rw [hT.entry] at he; injection he with he; subst he
    exact mem_entries_nil hxd)
  have k2 := removeObject_shrink (s.absnorm pn) hi
  unfold wp at k1 k2
  rcases hr : removeObject (s.absnorm pn) s with ⟨r, s1⟩
  rw [hr] at k1 k2
  simp only at k1 k2
  rcases k1 with ⟨e, rfl, rfl⟩ | ⟨ld, nm, d, e, rfl, l1, l2, l3, l4⟩
  · exact wp_bindErr hr (Or.inl ⟨e, rfl, rfl⟩)
  · refine wp_bindOk hr ?_
    rw [names_absnorm hi ht] at l1
    obtain ⟨rfl, rfl⟩ := names_unique ht (plain_proper hT.proper) hT.name.1 hT.path hT.res l1
    have : x = e := by have := l2.was; rw [hT.entry] at this; injection this
    subst this
    exact Or.inr (Or.inr ⟨rfl, l2, l4, k2.1.inv, hxd, hdl.2, by simpa using hod, hT.readable hi ht hdl.2 hx⟩)

/-- An existing plain file is removed before the entry is moved: the two steps together. -/
theorem Removed.thenRenamed {s s1 s' : FS} (hi : Inv s) {od nd t r : Ref} {on nn : Str} (h1 : Removed s s1 nd nn t)
    (hm : s1.mounts = released s t) (h2 : Renamed s1 s' od on nd nn r) (htr : t ≠ r) (hto : t ≠ od) (hrnd : r ≠ nd) :
    Renamed s s' od on nd nn r := by
  have hfree : alookup nn (s1.heap nd).entries = none := by
    rw [h1.parent]; show alookup nn (aerase nn _) = none; rw [alookup_aerase, if_pos rfl]
  have look1 : ∀ x n, alookup n (s1.heap x).entries = if x = nd ∧ n = nn then none else alookup n (s.heap x).entries := by
    intro x n
    by_cases e1 : x = nd
    · subst e1
      rw [h1.parent]
      show alookup n (aerase nn (s.heap x).entries) = _
      rw [alookup_aerase]; simp only [true_and]
    · rw [if_neg (fun h => e1 h.1)]
      by_cases e2 : x = t
      · subst e2; rw [h1.child]; rfl
      · rw [h1.others x e1 e2]
  refine ⟨h1.env.trans h2.env, ?_, ?_, ?_, h2.ne, ?_, ?_, ?_, ?_, ?_, ?_⟩
  · rw [h2.next, h1.next]
  · rw [h2.lastIno, h1.lastIno]
  · have := h2.was
    rw [look1] at this
    split at this
    · simp at this
    · exact this
  · intro x n
    rw [h2.look]
    split
    · rfl
    · rename_i h
      rw [look1, if_neg h]
  · rw [h2.obj, h1.others r hrnd (Ne.symm htr)]
    have : (s1.heap nd).dev = (s.heap nd).dev := by rw [h1.parent]
    rw [this]
  · intro x hx
    refine ⟨?_, (h2.dirs x hx).2⟩
    rw [(h2.dirs x hx).1]
    by_cases e : x = nd
    · subst e; rw [h1.parent]
    · have hxt : x ≠ t := by
        rintro rfl
        rcases hx with h | h
        · exact hto h
        · exact e h
      rw [h1.others x e hxt]
  · intro t' ht'
    rw [h1.was] at ht'; injection ht' with ht'; subst ht'
    rw [h2.others t hto h1.ne.symm htr (by rw [hfree]; simp), h1.child]
  · intro x x1 x2 x3 x4
    have hxt : x ≠ t := fun e => x4 (by rw [h1.was, e])
    rw [h2.others x x1 x2 x3 (by rw [hfree]; simp), h1.others x x2 hxt]
  · rw [h2.mounts, hfree, h1.was]; exact hm

/-- After the removal of a plain file in the target's place the checks of `rename` still succeed. -/
theorem Removed.renameOk {s s1 : FS} (hi : Inv s) (hi1 : Inv s1) (ht : s.cfg.Tree) (hg : Genuine s) {pn : Str} {names names' : List Str}
    {nn : Str} {od nd t oldO : Ref} (hT : Target s pn names' nn nd t) (k1 : Removed s s1 nd nn t) (k4 : (s.heap t).isDir = false)
    (k5 : (s.heap t).isLnk = false) (k7 : s.resolve (absPath s.cfg.sep names') = .ok nd) (hpl : ∀ w ∈ names, Plain s.cfg.sep w)
    (hrod : s.resolve (absPath s.cfg.sep names) = .ok od) (a2 : (s.heap od).isDir = true) (hOd : (s.heap oldO).isDir = false)
    (htO : t ≠ oldO) (hd : (s.heap od).dev = (s.heap nd).dev) : RenameOk s1 names names' oldO od nd ∧ ¬ Anc s1.heap oldO nd := by
  have hn' := plain_proper hT.proper
  have hndlt := walk_lt hi _ (root_lt hi) hT.walk
  have hte : (s.heap t).entries = [] := mem_entries_nil k4
  have hodt : od ≠ t := by rintro rfl; rw [a2] at k4; simp at k4
  have hs := k1.sub hi
  have hcfg : s1.cfg = s.cfg := hs.cfg
  have ht1 : s1.cfg.Tree := by rw [hcfg]; exact ht
  have r1 := k1.resolve_keep hi hi1 ht k5 hte hpl hrod (isDir_ne_devNull hi a2) hodt
  have r2 := k1.resolve_keep hi hi1 ht k5 hte hT.proper k7 (isDir_ne_devNull hi hT.dir) k1.ne
  have hmode : ∀ x < s.next, (s1.heap x).mode = (s.heap x).mode := fun x hx => hs.mode x (by rw [k1.next]; exact hx)
  have dnd : (s1.heap nd).isDir = true := by rw [k1.parent]; rfl
  have mnd : (s1.heap nd).isDirMode = true := by
    unfold Obj.isDirMode; rw [hmode nd hndlt]
    have := hg nd hndlt
    rw [hT.dir] at this
    exact this.symm
  have vnd : (s1.heap nd).dev = (s.heap nd).dev := by rw [k1.parent]
  have vod : (s1.heap od).dev = (s.heap od).dev := by
    by_cases e : od = nd
    · rw [e, k1.parent]
    · rw [k1.others od e hodt]
  have hrnd : oldO ≠ nd := by rintro rfl; rw [hT.dir] at hOd; simp at hOd
  have hO1 : s1.heap oldO = s.heap oldO := k1.others oldO hrnd (Ne.symm htO)
  have nanc : ¬ Anc s1.heap oldO nd := fun ha => by
    have := ha.isDir hi1.g (by rw [k1.next]; exact hndlt) dnd
    rw [hO1, hOd] at this; simp at this
  have hthere : s1.exists_ (absPath s1.cfg.sep names') = .ok true := by
    rw [hcfg]
    by_cases e : absPath s.cfg.sep names' = s.cfg.root
    · rw [e, ← hcfg]; exact exists_root ht1.posix (hi1.n.cwd ht1.posix) _
    · refine exists_of_resolve hi1 ht1 (c := true) ?_ ?_ (isDir_ne_devNull hi1 dnd) r2
      · rw [hcfg]; exact absCanon_not_endsWithSep ht.posix (absCanon_names hn')
      · rw [hs.absnorm, hs.devName, absnorm_canon hi ht.posix (absCanon_names hn')]
        exact hT.ne_dev hi ht e
  refine ⟨⟨hthere, by rw [hcfg]; exact r1, by rw [hcfg]; exact r2, by rw [vnd, vod, hd], mnd, dnd, ?_⟩, nanc⟩
  cases hh : s1.hasParent nd oldO with
  | false => rfl
  | true => exact absurd (anc_of_hasParentF _ _ _ hh) nanc

theorem rename_spec_over {s : FS} (hi : Inv s) (hw : Within s) (ht : s.cfg.Tree) (hg : Genuine s) (hm : s.cfg.isMac = false) {po pn : Str}
    {force : Bool} (ho : Ordinary s po) (hon : Ordinary s pn) (hl : NoLinksTo s pn) (hdev : DevInDir s) {ln : List Str} {nn : Str} {nd t : Ref}
    (hN : Names s pn ln nn nd) (htt : alookup nn (s.heap nd).entries = some t) (hmay : mayRemove s nd)
    (hdiff : s.lresolve (s.absnorm po) ≠ .ok t) :
    wp (rename po pn force) (fun res s' => (∃ x, res = .error x ∧ s' = s) ∨
      (∃ x lo on od, res = .error x ∧ Removed s s' nd nn t ∧ s'.mounts = released s t ∧ Names s po lo on od ∧
        ((s.heap od).dev ≠ (s.heap nd).dev ∨ ¬ mayRemove s od)) ∨
      ∃ lo on od r, res = .ok () ∧ Renaming s s' po pn lo on od ln nn nd r ∧ r ≠ t) s := by
  obtain ⟨names', hT⟩ := target_of_names hi ht hon hl hN htt
  have hn' := plain_proper hT.proper
  have hndlt := walk_lt hi _ (root_lt hi) hT.walk
  have htlt := hi.g.entLt nd hndlt _ (alookup_mem hT.entry)
  have hloc : ∀ ln', walk s.heap rootRef ln' = some nd → ln' = ln := fun ln' h => walk_dir_unique hi _ _ h hN.loc hN.dir
  -- what is common to the cases in which the target is not removed first
  have direct : ∀ oldO, s.lresolve (s.absnorm po) = .ok oldO → (s.heap t).entries = [] →
      wp (renameTail (s.absnorm po) (s.absnorm pn) oldO) (fun res s' => (∃ x, res = .error x ∧ s' = s) ∨
      (∃ x lo on od, res = .error x ∧ Removed s s' nd nn t ∧ s'.mounts = released s t ∧ Names s po lo on od ∧
        ((s.heap od).dev ≠ (s.heap nd).dev ∨ ¬ mayRemove s od)) ∨
      ∃ lo on od r, res = .ok () ∧ Renaming s s' po pn lo on od ln nn nd r ∧ r ≠ t) s := by
    intro oldO h2 hte
    have htO : t ≠ oldO := fun e => hdiff (by rw [h2, e])
    rw [hT.path]
    rcases absCanon_cases (hi.absnorm ht.posix po) with k0 | ⟨names, on, hn, hon, k0⟩
    · rw [k0, absPath_nil] at h2 ⊢
      have : oldO = rootRef := by
        rw [FS.lresolve, lresolve_root] at h2; injection h2 with h2; exact h2.symm
      subst this
      refine renameTail_cases ht (names := []) (on := []) ?_ hn' hT.name.1 (fun x => Or.inl ⟨x, rfl, rfl⟩) ?_
      · rw [← absPath_nil]; exact splitpath_root ht.posix
      intro od nd hok
      exfalso
      have := hasParent_of_anc hi ht (resolve_lt hi hok.rnd) (((Closed.anc hi).resolve hok.rnd).2 hok.dir)
      rw [hok.below] at this; simp at this
    · rw [k0]
      refine renameTail_cases ht (splitpath_absPath ht.posix hn hon) hn' hT.name.1 (fun x => Or.inl ⟨x, rfl, rfl⟩) ?_
      intro od nd' hok
      have : nd = nd' := by
        have := resolve_weaken hi ht hok.rnd
        rw [hT.res] at this; injection this
      subst this
      apply wp_mono (renameOk_commit hi hw ht hn hon hn' hT.name.1 k0 hT.path h2 hok hmay hdev
        (by intro t' ht'; rw [htt] at ht'; injection ht' with ht'; subst ht'; exact ⟨htO, hte⟩))
      rintro res s' (⟨x, a, b, _⟩ | ⟨lo, ln', a, b, c, d, e, f⟩)
      · exact Or.inl ⟨x, a, b⟩
      · have := hloc _ c.loc
        subst this
        exact Or.inr (Or.inr ⟨lo, on, od, oldO, a, ⟨b, c, d, e, f, fun t' ht' => by rw [htt] at ht'; injection ht' with ht'; subst ht'; exact hte⟩, htO.symm⟩)
  apply rename_cases
  · intro x; exact Or.inl ⟨x, rfl, rfl⟩
  · intro oldO h1 h2 h3
    have htO : t ≠ oldO := fun e => hdiff (by rw [h2, e])
    have hpp : s.absnorm po ≠ s.absnorm pn := by
      intro e
      rw [e, hT.path] at h2
      obtain ⟨r, k1, _, _, k4⟩ := (lresolve_tree ht s.rc hn' hT.name.1).mp h2
      have : s.resolve (absPath s.cfg.sep names') = .ok r := by rw [FS.resolve, FS.resolveFG, if_pos rfl]; exact k1
      have := resolve_weaken hi ht this
      rw [hT.res] at this; injection this with this; subst this
      rw [htt] at k4; injection k4 with k4; exact htO k4
    have key := renameToExisting_spec hi hw ht hg (po := po) (force := force) (es := s.cfg.endsWithSep po) hm hT htO hpp
    unfold wp at key
    rcases hr : renameToExisting force (s.absnorm pn) (s.absnorm po) oldO (s.cfg.endsWithSep po) s with ⟨r, s1⟩
    rw [hr] at key
    simp only at key
    rcases key with ⟨x, rfl, rfl⟩ | ⟨rfl, rfl, hte⟩ | ⟨rfl, k1, k2, k3, k4, k5, k6, k7⟩
    · exact wp_bindErr hr (Or.inl ⟨x, rfl, rfl⟩)
    · exact wp_bindOk hr (direct oldO h2 hte)
    · refine wp_bindOk hr ?_
      show wp (renameTail (s.absnorm po) (s.absnorm pn) oldO) _ s1
      have hlt := lresolve_lt hi h2
      have hOd : (s.heap oldO).isDir = false := by rw [hg _ hlt]; exact k6
      rcases absCanon_cases (hi.absnorm ht.posix po) with k0 | ⟨names, on, hn, hon', k0⟩
      · exfalso
        rw [k0, absPath_nil] at h2
        rw [FS.lresolve, lresolve_root] at h2; injection h2 with h2
        subst h2
        have := hi.g.rootDir
        rw [hOd] at this; simp at this
      have h2' := h2
      rw [k0] at h2'
      obtain ⟨od, a1, a2, _, a3⟩ := (lresolve_tree ht s.rc hn hon').mp h2'
      have hrod : s.resolve (absPath s.cfg.sep names) = .ok od := by rw [FS.resolve, FS.resolveFG, if_pos rfl]; exact a1
      have hodlt := resolve_lt hi hrod
      have hpl : ∀ w ∈ names, Plain s.cfg.sep w := by
        obtain ⟨⟨n3, l1, l2⟩, _⟩ := ho
        have hall : ∀ w ∈ names ++ [on], Proper s.cfg.sep w := by
          intro w hw; rcases List.mem_append.mp hw with hw | hw
          · exact hn w hw
          · simp at hw; subst hw; exact hon'
        have e3 : names ++ [on] = n3 := absPath_inj ht.posix hall (plain_proper l1) (by rw [← k0, l2])
        intro w hw; exact l1 w (by rw [← e3]; simp [hw])
      have hte : (s.heap t).entries = [] := mem_entries_nil k4
      have hodt : od ≠ t := by rintro rfl; rw [a2] at k4; simp at k4
      have hs := k1.sub hi
      have hcfg : s1.cfg = s.cfg := hs.cfg
      have ht1 : s1.cfg.Tree := by rw [hcfg]; exact ht
      have r1 := k1.resolve_keep hi k3 ht k5 hte hpl hrod (isDir_ne_devNull hi a2) hodt
      have r2 := k1.resolve_keep hi k3 ht k5 hte hT.proper k7 (isDir_ne_devNull hi hN.dir) k1.ne
      obtain ⟨lo, hlo⟩ := resolve_loc hi ht hrod (isDir_ne_devNull hi a2)
      have hNo : Names s po lo on od := ⟨⟨names, hn, hon', k0, resolve_weaken hi ht hrod⟩, a2, hlo⟩
      have hmode : ∀ x < s.next, (s1.heap x).mode = (s.heap x).mode := fun x hx => hs.mode x (by rw [k1.next]; exact hx)
      have dnd : (s1.heap nd).isDir = true := by rw [k1.parent]; rfl
      have vnd : (s1.heap nd).dev = (s.heap nd).dev := by rw [k1.parent]
      have vod : (s1.heap od).dev = (s.heap od).dev := by
        by_cases e : od = nd
        · rw [e, k1.parent]
        · rw [k1.others od e hodt]
      have hrnd : oldO ≠ nd := by rintro rfl; rw [hN.dir] at hOd; simp at hOd
      have hO1 : s1.heap oldO = s.heap oldO := k1.others oldO hrnd (Ne.symm htO)
      by_cases hd : (s.heap od).dev = (s.heap nd).dev
      · obtain ⟨hok, nanc⟩ := k1.renameOk hi k3 ht hg hT k4 k5 k7 hpl hrod a2 hOd htO hd
        have heq := renameTail_ok ht1 (on := on) (nn := nn) (by rw [hcfg]; exact hn) (by rw [hcfg]; exact hon') (by rw [hcfg]; exact hn')
          (by rw [hcfg]; exact hT.name.1) hok
        rw [hcfg] at heq
        unfold wp
        rw [k0, hT.path, heq]
        have hw1 : Within s1 := by
          unfold Within
          rw [k2]
          unfold released
          split
          · exact within_charge hw _ (by omega)
          · exact hw
        have look1 : alookup on (s1.heap od).entries = some oldO := k1.lookup_keep a3 (Ne.symm htO)
        have hroot1 : s1.isRoot = s.isRoot := by unfold FS.isRoot; rw [k1.env]
        have may1 : ∀ x < s.next, mayRemove s1 x ↔ mayRemove s x := by
          intro x hx
          unfold mayRemove
          rw [hroot1, hmode x hx]
        have hfree : alookup nn (s1.heap nd).entries = none := by
          rw [k1.parent]; show alookup nn (aerase nn _) = none; rw [alookup_aerase, if_pos rfl]
        have key2 := renameCommit_spec k3 hw1 ht1 (on := on) (nn := nn) (by rw [k1.next]; exact hodlt) (by rw [k1.next]; exact hndlt) dnd
          (fun r hr => by rw [look1] at hr; injection hr with hr; subst hr; exact nanc) ((may1 nd hndlt).mpr hmay)
          (fun r hr _ => by
            rw [look1] at hr; injection hr with hr; subst hr
            rw [hO1, vnd, hdev lo _ hlo _ (alookup_mem a3) hOd, hd])
          (fun r t' _ h => by rw [hfree] at h; simp at h)
        unfold wp at key2
        rcases hc : renameCommit od nd on nn s1 with ⟨res, s'⟩
        rw [hc] at key2
        rcases key2 with ⟨x, b1, b2, b3⟩ | ⟨r, b1, b2, b3⟩
        · refine Or.inr (Or.inl ⟨x, lo, on, od, b1, by rw [b2]; exact k1, by rw [b2]; exact k2, hNo, Or.inr ?_⟩)
          intro hm
          exact b3 ((may1 od hodlt).mpr hm) oldO look1
        · have : oldO = r := by have := b2.was; rw [look1] at this; injection this
          subst this
          have hR := k1.thenRenamed hi k2 b2 htO (Ne.symm hodt) hrnd
          have nanc0 : ¬ Anc s.heap oldO nd := fun ha => by
            have := ha.isDir hi.g hndlt hN.dir
            rw [hOd] at this; simp at this
          refine Or.inr (Or.inr ⟨lo, on, od, oldO, b1, ⟨hNo, hN, hR, ?_, (may1 od hodlt).mp b3, fun t' ht' => by
            rw [htt] at ht'; injection ht' with ht'; subst ht'; exact hte⟩, htO.symm⟩)
          exact hR.moved hi ht hN.dir hlo hN.loc nanc0 (fun t' ht' => by
            rw [htt] at ht'; injection ht' with ht'; subst ht'; exact hte)
      · rw [k0, hT.path]
        rw [← hcfg]
        refine renameTail_cases ht1 (names := names) (on := on) (splitpath_absPath ht1.posix (by rw [hcfg]; exact hn) (by rw [hcfg]; exact hon'))
          (by rw [hcfg]; exact hn') (by rw [hcfg]; exact hT.name.1) ?_ ?_
        · intro x; exact Or.inr (Or.inl ⟨x, lo, on, od, rfl, k1, k2, hNo, Or.inl hd⟩)
        · intro od' nd' hok
          exfalso
          have e1 : od = od' := by have := hok.rod; rw [hcfg, r1] at this; injection this
          have e2 : nd = nd' := by have := hok.rnd; rw [hcfg, r2] at this; injection this
          subst e1 e2
          have := hok.dev
          rw [vod, vnd] at this
          exact hd this
  · intro oldO h1 h2 h3
    apply direct oldO h2
    cases hlk : (s.heap t).isLnk with
    | true =>
      apply mem_entries_nil
      rw [hg _ htlt]; exact lnk_not_dirMode hlk
    | false =>
      exfalso
      have hall : ∀ w ∈ names' ++ [nn], Plain s.cfg.sep w := by
        intro w hw; rcases List.mem_append.mp hw with hw | hw
        · exact hT.proper w hw
        · simp at hw; subst hw; exact hT.name
      have := exists_plain hi ht s.rc hall (hT.nolink' hlk) hT.notDev
      rw [walk_append, hT.walk] at this
      simp [Spec.walk, htt] at this
      rw [hT.path] at h3
      unfold FS.existsL FS.existsLG at h3
      rw [this] at h3
      cases hk : s.isLinkG s.rc (absPath s.cfg.sep (names' ++ [nn])) <;>
        simp [hk, bind, Except.bind, pure, Except.pure] at h3

end Verif
