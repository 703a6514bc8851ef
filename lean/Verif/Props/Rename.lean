import Verif.RenameMoved
import Verif.DemoFacts
import Verif.Props.Lookup
/-!
# C17: rename moves a subtree
-/

namespace Verif
open Py Spec Cfg

/-- A free name (reached without symbolic links) does not exist. -/
theorem existsL_free {s : FS} (hi : Inv s) (ht : s.cfg.Tree) (hg : Genuine s) (hnd : NoDev s) {p : Str} (ho : Ordinary s p) (hl : NoLinksTo s p)
    (hfree : ∀ ln nm nd, Names s p ln nm nd → alookup nm (s.heap nd).entries = none) : s.existsL (s.absnorm p) ≠ .ok true := by
  obtain ⟨names, nm, h1, h2, h3, h4⟩ := hl
  obtain ⟨⟨n3, l1, l2⟩, l3⟩ := ho
  have hall : ∀ w ∈ names ++ [nm], Proper s.cfg.sep w := by
    intro w hw; rcases List.mem_append.mp hw with hw | hw
    · exact h1 w hw
    · simp at hw; subst hw; exact h2
  have e3 : names ++ [nm] = n3 := absPath_inj ht.posix hall (plain_proper l1) (by rw [← h3, l2])
  subst e3
  have hpl : ∀ w ∈ names, Plain s.cfg.sep w := fun w hw => l1 w (by simp [hw])
  have hent : ∀ d, walk s.heap rootRef names = some d → alookup nm (s.heap d).entries = none := by
    intro d hd
    cases ha : alookup nm (s.heap d).entries with
    | none => rfl
    | some t =>
      have hdir := isDir_of_entry (alookup_mem ha)
      have hndv : absPath s.cfg.sep names ≠ s.devName := by
        intro e
        have := hnd names h1 e
        rw [hd] at this; simp at this
      have hr : s.resolve (absPath s.cfg.sep names) true false = .ok d :=
        (resolve_plain hi ht s.rc hpl h4 hndv).mpr ⟨hd, through_genuine hi hg (root_lt hi) hd, fun y _ => by simp [FS.readable]⟩
      rw [hfree names nm d ⟨⟨names, h1, h2, h3, hr⟩, hdir, hd⟩] at ha
      simp at ha
  have hw : walk s.heap rootRef (names ++ [nm]) = none := by
    rw [walk_append]
    cases hd : walk s.heap rootRef names with
    | none => rfl
    | some d => simp [walk, hent d hd]
  have hno : NoLink s.heap rootRef (names ++ [nm]) := by
    refine noLink_append.mpr ⟨h4, ?_⟩
    intro d hd x hx
    rw [hent d hd] at hx; simp at hx
  intro h
  rw [h3] at h l3
  have he := exists_plain hi ht s.rc l1 hno l3
  rw [hw] at he
  unfold FS.existsL FS.existsLG at h
  rw [he] at h
  cases hk : s.isLinkG s.rc (absPath s.cfg.sep (names ++ [nm])) with
  | error e => rw [hk] at h; simp [bind, Except.bind] at h
  | ok b =>
    cases b with
    | false => rw [hk] at h; simp [bind, Except.bind] at h
    | true =>
      unfold FS.isLinkG FS.isOfTypeG FS.resolveFG at hk
      simp only [Bool.false_eq_true, if_false] at hk
      cases hr : s.lresolveG s.rc (absPath s.cfg.sep (names ++ [nm])) with
      | error e =>
        rw [hr] at hk
        simp only [bind, Except.bind] at hk
        split at hk <;> simp at hk
      | ok x =>
        obtain ⟨r, k1, k2, _, k3⟩ := (lresolve_tree ht s.rc h1 h2).mp hr
        have hr' : s.resolve (absPath s.cfg.sep names) true true = .ok r := k1
        have := resolve_weaken hi ht hr'
        obtain ⟨ld, hld⟩ := resolve_loc hi ht hr' (isDir_ne_devNull hi k2)
        rw [hfree ld nm r ⟨⟨names, h1, h2, h3, this⟩, k2, hld⟩] at k3
        simp at k3

/-- C17: what `rename(old, new)` does, for paths without names starting with `..`, no symbolic link on the way to `new`, and
directories on one device whose entries the user may remove: either it fails and changes nothing at all, or the
object named `old` is now named `new`, everything below it moved with it, what was at `new` (nothing, a file, a link or an
empty directory) is gone, and all other locations lead where they led before.  `Renamed` says what else changed: only the
entries and link counts of the two directories, the name and parent of the moved object and the link count of what was at `new`. -/
theorem rename_effect {s : FS} (hs : Reachable s) (ht : s.cfg.Tree) (hm : s.cfg.isMac = false) (hw : Within s) (hg : Genuine s)
    (hnd : NoDev s) (hdev : DevInDir s) {po pn : Str} {force : Bool} (ho : Ordinary s po) (hon : Ordinary s pn) (hl : NoLinksTo s pn)
    (hmo : ∀ lo on od, Names s po lo on od → mayRemove s od) (hmn : ∀ ln nn nd, Names s pn ln nn nd → mayRemove s nd)
    (hone : ∀ lo on od ln nn nd, Names s po lo on od → Names s pn ln nn nd → (s.heap od).dev = (s.heap nd).dev)
    (hdiff : ∀ ln nn nd t, Names s pn ln nn nd → alookup nn (s.heap nd).entries = some t → s.lresolve (s.absnorm po) ≠ .ok t) :
    (∃ e, rename po pn force s = (.error e, s)) ∨
    ∃ s' lo on od ln nn nd r, rename po pn force s = (.ok (), s') ∧ Names s po lo on od ∧ Names s pn ln nn nd ∧
      Moved s s' (lo ++ [on]) (ln ++ [nn]) ∧ Renamed s s' od on nd nn r ∧
      ∀ t, alookup nn (s.heap nd).entries = some t → t ≠ r ∧ (s.heap t).entries = [] := by
  have hi := reachable_inv hs
  by_cases hex : ∃ ln nn nd t, Names s pn ln nn nd ∧ alookup nn (s.heap nd).entries = some t
  · obtain ⟨ln, nn, nd, t, hN, htt⟩ := hex
    have hk := rename_spec_over hi hw ht hg hm (force := force) ho hon hl hdev hN htt (hmn _ _ _ hN) (hdiff _ _ _ _ hN htt)
    unfold wp at hk
    rcases hr : rename po pn force s with ⟨res, s'⟩
    rw [hr] at hk
    simp only at hk
    rcases hk with ⟨x, h1, h2⟩ | ⟨x, lo, on, od, h1, h2, h3, h4, h5⟩ | ⟨lo, on, od, r, h1, h2, h3⟩
    · exact Or.inl ⟨x, by rw [h1, h2]⟩
    · exfalso
      rcases h5 with h5 | h5
      · exact h5 (hone _ _ _ _ _ _ h4 hN)
      · exact h5 (hmo _ _ _ h4)
    · refine Or.inr ⟨s', lo, on, od, ln, nn, nd, r, by rw [h1], h2.old, h2.new, h2.moved, h2.heap, ?_⟩
      intro t' ht'
      rw [htt] at ht'; injection ht' with ht'; subst ht'
      exact ⟨h3.symm, h2.empty t htt⟩
  · have hfree : ∀ ln nm nd, Names s pn ln nm nd → alookup nm (s.heap nd).entries = none := by
      intro ln nm nd hN
      cases ha : alookup nm (s.heap nd).entries with
      | none => rfl
      | some t => exact absurd ⟨ln, nm, nd, t, hN, ha⟩ hex
    have hk := rename_spec_new hi hw ht (po := po) (force := force) hdev hmn hfree (existsL_free hi ht hg hnd hon hl hfree)
    unfold wp at hk
    rcases hr : rename po pn force s with ⟨res, s'⟩
    rw [hr] at hk
    simp only at hk
    rcases hk with ⟨x, h1, h2⟩ | ⟨lo, on, od, ln, nn, nd, r, h1, h2, h3⟩
    · exact Or.inl ⟨x, by rw [h1, h2]⟩
    · exact Or.inr ⟨s', lo, on, od, ln, nn, nd, r, by rw [h1], h2.old, h2.new, h2.moved, h2.heap, fun t h => by rw [h3] at h; simp at h⟩

/-! ## The meaning of paths after a rename -/

/-- A location leading to something that is not a link has no links on the way. -/
theorem noLink_of_walk {s : FS} (hi : Inv s) (hg : Genuine s) : ∀ {l : List Str} {r x : Ref}, r < s.next → walk s.heap r l = some x →
    (s.heap x).isLnk = false → NoLink s.heap r l := by
  intro l
  induction l with
  | nil => intro r x _ _ _; trivial
  | cons c l ih =>
    intro r x hr hx hl y hy
    simp only [walk, hy, Option.bind_some] at hx
    have hlt := hi.g.entLt r hr _ (alookup_mem hy)
    refine ⟨?_, ih hlt hx hl⟩
    cases l with
    | nil => simp only [walk, Option.some.injEq] at hx; subst hx; exact hl
    | cons d l =>
      cases hlk : (s.heap y).isLnk with
      | false => rfl
      | true =>
        exfalso
        simp only [walk] at hx
        cases ha : alookup d (s.heap y).entries with
        | none => rw [ha] at hx; simp at hx
        | some z =>
          have h1 := isDir_of_entry (alookup_mem ha)
          rw [hg y hlt, lnk_not_dirMode hlk] at h1
          simp at h1

/-- A plain path whose names lead to something that is not a link resolves to it. -/
theorem resolve_at {s : FS} (hi : Inv s) (ht : s.cfg.Tree) (hg : Genuine s) (hrd : Readable s) {l : List Str} (hl : ∀ w ∈ l, Plain s.cfg.sep w)
    (hd : absPath s.cfg.sep l ≠ s.devName) {x : Ref} (hx : walk s.heap rootRef l = some x) (hlk : (s.heap x).isLnk = false) (c : Bool) :
    s.resolve (absPath s.cfg.sep l) true c = .ok x :=
  (resolve_plain hi ht s.rc hl (noLink_of_walk hi hg (root_lt hi) hx hlk) hd).mpr
    ⟨hx, through_genuine hi hg (root_lt hi) hx, fun y hy => hrd.readable (walked_lt hi _ (root_lt hi) y hy) _⟩

theorem Renamed.keeps {s s' : FS} {od nd r : Ref} {on nn : Str} (h : Renamed s s' od on nd nn r) (hodir : (s.heap od).isDir = true)
    (hndir : (s.heap nd).isDir = true) (hro : r ≠ od) (hrn : r ≠ nd)
    (htg : ∀ t, alookup nn (s.heap nd).entries = some t → t ≠ od ∧ t ≠ nd ∧ t ≠ r) (x : Ref) :
    (s'.heap x).mode = (s.heap x).mode ∧ (s'.heap x).isDir = (s.heap x).isDir := by
  by_cases e1 : x = od ∨ x = nd
  · obtain ⟨h1, h2⟩ := h.dirs x e1
    refine ⟨by rw [h1], ?_⟩
    rw [h2]
    rcases e1 with rfl | rfl
    · exact hodir.symm
    · exact hndir.symm
  · by_cases e2 : x = r
    · subst e2; rw [h.obj]; exact ⟨rfl, rfl⟩
    · by_cases e3 : alookup nn (s.heap nd).entries = some x
      · rw [h.target x e3]; exact ⟨rfl, rfl⟩
      · rw [h.others x (fun e => e1 (Or.inl e)) (fun e => e1 (Or.inr e)) e2 e3]; exact ⟨rfl, rfl⟩

/-- C17, in terms of paths (for root or someone who may read everything): after a successful `rename` the path `new/rest` leads
to what `old/rest` led to, `old/rest` does not exist, and a path neither below `old` nor below `new` leads where it led. -/
theorem rename_paths {s s' : FS} (hs : Reachable s) (ht : s.cfg.Tree) (hg : Genuine s) (hrd : Readable s) {po pn : Str} {force : Bool}
    (hok : rename po pn force s = (.ok (), s')) {lo ln : List Str} {on nn : Str} {od nd r : Ref} (hNo : Names s po lo on od)
    (hNn : Names s pn ln nn nd) (hM : Moved s s' (lo ++ [on]) (ln ++ [nn])) (hR : Renamed s s' od on nd nn r)
    (hrdev : r ≠ devNullRef) (htg : ∀ t, alookup nn (s.heap nd).entries = some t → t ≠ r ∧ (s.heap t).entries = []) :
    (∀ rest x, (∀ w ∈ lo ++ [on] ++ rest, Plain s.cfg.sep w) → (∀ w ∈ ln ++ [nn] ++ rest, Plain s.cfg.sep w) →
      absPath s.cfg.sep (lo ++ [on] ++ rest) ≠ s.devName → absPath s.cfg.sep (ln ++ [nn] ++ rest) ≠ s.devName →
      walk s.heap rootRef (lo ++ [on] ++ rest) = some x → (s.heap x).isLnk = false →
      s.resolve (absPath s.cfg.sep (lo ++ [on] ++ rest)) = .ok x ∧ s'.resolve (absPath s.cfg.sep (ln ++ [nn] ++ rest)) = .ok x ∧
      s'.exists_ (absPath s.cfg.sep (lo ++ [on] ++ rest)) = .ok false) ∧
    (∀ l x, ¬ lo ++ [on] <+: l → ¬ ln ++ [nn] <+: l → (∀ w ∈ l, Plain s.cfg.sep w) → absPath s.cfg.sep l ≠ s.devName →
      walk s.heap rootRef l = some x → (s.heap x).isLnk = false →
      s.resolve (absPath s.cfg.sep l) = .ok x ∧ s'.resolve (absPath s.cfg.sep l) = .ok x) := by
  have hi := reachable_inv hs
  have hi' : Inv s' := by
    have := rename_pres po pn force s hi
    unfold wp at this; rw [hok] at this; exact this.inv
  have hod := walk_lt hi _ (root_lt hi) hNo.loc
  have hndl := walk_lt hi _ (root_lt hi) hNn.loc
  have hodr : od ≠ r := entry_ne hi ht hod hR.was
  have hall := hR.look
  have hrn : r ≠ nd := by
    rintro rfl
    have h1 := hM.here []
    have h2 := entry_ne hi' (by rw [hR.env]; exact ht) (d := r) (by rw [hR.next]; exact hndl) (nm := nn) (e := r)
      (by rw [hR.look, if_pos ⟨rfl, rfl⟩])
    exact h2 rfl
  have keep := hR.keeps hNo.dir hNn.dir (Ne.symm hodr) hrn (fun t htt => by
    obtain ⟨h1, h2⟩ := htg t htt
    refine ⟨?_, Ne.symm (entry_ne hi ht hndl htt), h1⟩
    rintro rfl
    have := hR.was
    rw [h2] at this; simp [alookup] at this)
  have hg' : Genuine s' := by
    intro x hx
    rw [hR.next] at hx
    have := hg x hx
    unfold Obj.isDirMode at *
    rw [(keep x).1, (keep x).2]; exact this
  have hcfg : s'.cfg = s.cfg := by rw [hR.env]
  have ht' : s'.cfg.Tree := by rw [hcfg]; exact ht
  have hrd' : Readable s' := by
    rcases hrd with h | h
    · left; unfold FS.isRoot at *; rw [hR.env]; exact h
    · right; intro x hx; rw [hR.next] at hx; rw [(keep x).1]; exact h x hx
  have hlnk : ∀ x, (s'.heap x).isLnk = (s.heap x).isLnk := fun x => by unfold Obj.isLnk; rw [(keep x).1]
  have hdv : s'.devName = s.devName := by
    have hf := hi.n.devFile
    unfold FS.devName
    by_cases e1 : devNullRef = od ∨ devNullRef = nd
    · exfalso
      rcases e1 with e | e
      · exact isDir_ne_devNull hi hNo.dir e.symm
      · exact isDir_ne_devNull hi hNn.dir e.symm
    · by_cases e2 : devNullRef = r
      · exact absurd e2.symm hrdev
      · by_cases e3 : alookup nn (s.heap nd).entries = some devNullRef
        · rw [hR.target _ e3]
        · rw [hR.others _ (fun e => e1 (Or.inl e)) (fun e => e1 (Or.inr e)) e2 e3]
  constructor
  · intro rest x p1 p2 d1 d2 hx hl
    refine ⟨resolve_at hi ht hg hrd p1 d1 hx hl true, ?_, ?_⟩
    · have := resolve_at hi' ht' hg' hrd' (l := ln ++ [nn] ++ rest) (by rw [hcfg]; exact p2) (by rw [hcfg, hdv]; exact d2) (x := x)
        (by rw [hM.here]; exact hx) (by rw [hlnk]; exact hl) true
      rw [hcfg] at this; exact this
    · have hn : NoLink s'.heap rootRef (lo ++ [on] ++ rest) := by
        have hw' : walk s'.heap rootRef lo = some od := by
          rw [hM.elsewhere lo (fun h => by have := h.length_le; simp at this) ?_]
          · exact hNo.loc
          · rintro ⟨a, ha⟩
            have h1 := hNo.loc
            rw [← ha, List.append_assoc, walk_append, hNn.loc] at h1
            simp only [Option.bind_some, List.singleton_append, walk] at h1
            cases hh : alookup nn (s.heap nd).entries with
            | none => rw [hh] at h1; simp at h1
            | some t =>
              rw [hh] at h1
              simp only [Option.bind_some] at h1
              have hte := (htg t hh).2
              cases a with
              | nil =>
                simp [walk] at h1
                subst h1
                have := hR.was
                rw [hte] at this; simp [alookup] at this
              | cons c a => simp [walk, hte, alookup] at h1
        rw [List.append_assoc, noLink_append]
        have hodl : (s'.heap od).isLnk = false := by
          cases hlk : (s'.heap od).isLnk with
          | false => rfl
          | true =>
            have h1 := (hR.dirs od (Or.inl rfl)).2
            rw [hg' od (by rw [hR.next]; exact hod), lnk_not_dirMode hlk] at h1; simp at h1
        refine ⟨noLink_of_walk hi' hg' (root_lt hi') hw' hodl, ?_⟩
        intro y hy
        rw [hw'] at hy; injection hy with hy; subst hy
        intro z hz
        have := hM.gone []
        rw [List.append_nil, walk_append, hw'] at this
        simp [walk, hz] at this
      have := exists_plain hi' ht' s'.rc (l := lo ++ [on] ++ rest) (by rw [hcfg]; exact p1) hn (by rw [hcfg, hdv]; exact d1)
      rw [hM.gone, hcfg] at this
      exact this
  · intro l x n1 n2 p d hx hl
    refine ⟨resolve_at hi ht hg hrd p d hx hl true, ?_⟩
    have := resolve_at hi' ht' hg' hrd' (l := l) (by rw [hcfg]; exact p) (by rw [hcfg, hdv]; exact d) (x := x)
      (by rw [hM.elsewhere l n1 n2]; exact hx) (by rw [hlnk]; exact hl) true
    rw [hcfg] at this; exact this

/-! ## Which error -/

section
variable {s : FS} (hi : Inv s) (ht : s.cfg.Tree) (hg : Genuine s) (hrd : Readable s) {names : List Str} {nm : Str} {d : Ref}
  (h : Spot s names nm d)
include hi ht hg hrd h

theorem spot_lresolve_none (he : alookup nm (s.heap d).entries = none) :
    ∃ e, s.lresolveG s.rc (absPath s.cfg.sep (names ++ [nm])) = .error (.os e) := by
  have hn : ∀ w ∈ names, Proper s.cfg.sep w := fun w hw => (h.plain w (by simp [hw])).1
  have hw := (h.plain nm (by simp)).1
  have hd : s.resolveG s.rc (absPath s.cfg.sep names) true = .ok d := spot_dir hi ht hg hrd h true
  unfold FS.lresolveG
  rw [if_neg absPath_ne_nil, if_neg (absPath_snoc_ne_root hn hw)]
  have hl : s.lparent (absPath s.cfg.sep (names ++ [nm])) = (absPath s.cfg.sep names, nm) := by
    unfold FS.lparent
    simp only [stripTrailing_canon ht.posix (absCanon_names (plain_proper h.plain)), absPath_ne_dot ht.posix, if_false, originalPath_tree ht.cs,
      splitpath_absPath ht.posix hn hw, absPath_ne_nil]
  rw [hl, hd]
  simp only [bind, Except.bind]
  unfold FS.lentry
  cases hc : (s.heap d).content with
  | file b => exact ⟨_, rfl⟩
  | dir es =>
    rw [mem_entries hc] at he
    simp only [getEntry_tree ht.cs, hw.1, if_false, he, h.read]
    exact ⟨_, rfl⟩

theorem spot_type (f : Nat) : s.isOfTypeG s.rc (absPath s.cfg.sep (names ++ [nm])) f false =
    .ok (match alookup nm (s.heap d).entries with | none => false | some e => ifmt (s.heap e).mode == f) := by
  have hes := absCanon_not_endsWithSep ht.posix (absCanon_names (plain_proper h.plain))
  unfold FS.isOfTypeG FS.resolveFG
  simp only [Bool.false_eq_true, if_false]
  cases ha : alookup nm (s.heap d).entries with
  | none =>
    obtain ⟨e, he⟩ := spot_lresolve_none hi ht hg hrd h ha
    rw [he]; rfl
  | some e =>
    have hlr : s.lresolveG s.rc (absPath s.cfg.sep (names ++ [nm])) = .ok e := spot_lresolve hi ht hg hrd h ha
    simp only [hlr, bind, Except.bind, FS.raiseForSepG, hes, pure, Except.pure, Bool.false_eq_true, if_false]

theorem spot_isLink : s.isLink (absPath s.cfg.sep (names ++ [nm])) =
    .ok (match alookup nm (s.heap d).entries with | none => false | some e => (s.heap e).isLnk) := spot_type hi ht hg hrd h S_IFLNK

theorem spot_isDir : s.isDir (absPath s.cfg.sep (names ++ [nm])) false =
    .ok (match alookup nm (s.heap d).entries with | none => false | some e => (s.heap e).isDirMode) := spot_type hi ht hg hrd h S_IFDIR

theorem spot_existsL : s.existsL (absPath s.cfg.sep (names ++ [nm])) = .ok (alookup nm (s.heap d).entries).isSome := by
  have hl := spot_isLink hi ht hg hrd h
  unfold FS.existsL FS.existsLG
  unfold FS.isLink at hl
  rw [hl]
  have hex : (∀ e, alookup nm (s.heap d).entries = some e → (s.heap e).isLnk = false) →
      s.existsG s.rc (absPath s.cfg.sep (names ++ [nm])) = .ok (alookup nm (s.heap d).entries).isSome := by
    intro hh
    rw [exists_plain hi ht s.rc h.plain (spot_noLink hi ht hg hrd h hh) h.dev', spot_walk hi ht hg hrd h]
  cases ha : alookup nm (s.heap d).entries with
  | none =>
    rw [ha] at hex
    simp only [bind, Except.bind, Bool.false_eq_true, if_false]
    exact hex (by simp)
  | some e =>
    simp only [bind, Except.bind]
    by_cases hk : (s.heap e).isLnk = true
    · rw [if_pos hk]; rfl
    · rw [if_neg hk]
      have hk : (s.heap e).isLnk = false := by simpa using hk
      rw [ha] at hex
      exact hex (by intro e' he'; injection he' with he'; subst he'; exact hk)

theorem spot_target {t : Ref} (he : alookup nm (s.heap d).entries = some t) :
    Target s (absPath s.cfg.sep (names ++ [nm])) names nm d t where
  proper w hw := h.plain w (by simp [hw])
  name := h.plain nm (by simp)
  path := absnorm_canon hi ht.posix (absCanon_names (plain_proper h.plain))
  nolink := h.noLink
  walk := h.here
  dir := isDir_of_entry (alookup_mem he)
  entry := he
  notDev := h.dev'
  res := spot_dir hi ht hg hrd h false

end

/-- A directory lies at or below `r` exactly if `r` is among its ancestors. -/
theorem below_iff {s : FS} (hi : Inv s) {r : Ref} (hr : r < s.next) : ∀ {l : List Str} {d : Ref}, walk s.heap rootRef l = some d →
    (s.heap d).isDir = true → (Anc s.heap r d ↔ ∃ l', walk s.heap r l' = some d) := by
  intro l
  induction l using List.reverseRecOn with
  | nil =>
    intro d hl hd
    refine ⟨fun ha => ?_, fun ⟨l', h'⟩ => walk_anc hi l' hr h' hd⟩
    simp only [walk, Option.some.injEq] at hl
    subst hl
    cases ha with
    | refl => exact ⟨[], rfl⟩
    | up h0 _ => rw [hi.g.rootPar] at h0; simp at h0
  | append_singleton l c ih =>
    intro d hl hd
    refine ⟨fun ha => ?_, fun ⟨l', h'⟩ => walk_anc hi l' hr h' hd⟩
    obtain ⟨y, hy, hc⟩ := walk_snoc hl
    have hylt := walk_lt hi _ (root_lt hi) hy
    have hyd := isDir_of_entry (alookup_mem hc)
    cases ha with
    | refl => exact ⟨[], rfl⟩
    | up h0 h1 =>
      have := (hi.g.dirEnt y hylt _ (alookup_mem hc) hd).1
      rw [h0] at this; injection this with this; subst this
      obtain ⟨l', h'⟩ := (ih hy hyd).mp h1
      exact ⟨l' ++ [c], by rw [walk_append, h']; simp [walk, hc]⟩

namespace Spec
/-- The last check of a rename of the object `r` from the directory `od` to the directory `nd`. -/
noncomputable def renameFits (s : FS) (r od nd : Ref) : Except Err Unit :=
  open Classical in
  if (s.heap od).dev ≠ (s.heap nd).dev then .error (.os .EXDEV)
  else if ∃ l, walk s.heap r l = some nd then .error (.os .EINVAL)
  else .ok ()

/-- Which rename of the object `r` from the directory `od` to the directory `nd` succeeds, if there is `t` in its new place. -/
noncomputable def renameVerdict (s : FS) (r od nd : Ref) (t : Option Ref) : Except Err Unit :=
  match t with
  | none => renameFits s r od nd
  | some t =>
    if (s.heap t).isLnk then if (s.heap r).isDir then .error (.os .ENOTDIR) else renameFits s r od nd
    else if (s.heap t).isDir then
      if (s.heap r).isLnk then .error (.os .EISDIR)
      else if (s.heap t).entries ≠ [] then .error (.os .ENOTEMPTY)
      else if ifmt (s.heap r).mode = S_IFREG then .error (.os .EISDIR)
      else renameFits s r od nd
    else if (s.heap r).isDir then .error (.os .ENOTDIR)
    else renameFits s r od nd
end Spec

/-- The last part of `rename` between two places whose directories are there. -/
theorem spot_tail {s : FS} (hi : Inv s) (hw : Within s) (ht : s.cfg.Tree) (hg : Genuine s) (hrd : Readable s) (hdev : DevInDir s)
    {names names' : List Str} {on nn : Str} {od nd r : Ref} (ho : Spot s names on od) (hn : Spot s names' nn nd) (hndir : (s.heap nd).isDir = true)
    (hmo : mayRemove s od) (hmn : mayRemove s nd) (hr : alookup on (s.heap od).entries = some r)
    (hte : ∀ t, alookup nn (s.heap nd).entries = some t → t ≠ r ∧ (s.heap t).entries = []) :
    (renameTail (absPath s.cfg.sep (names ++ [on])) (absPath s.cfg.sep (names' ++ [nn])) r s).1 = renameFits s r od nd := by
  have hnp : ∀ w ∈ names, Proper s.cfg.sep w := fun w hw => (ho.plain w (by simp [hw])).1
  have hnp' : ∀ w ∈ names', Proper s.cfg.sep w := fun w hw => (hn.plain w (by simp [hw])).1
  have hon : Proper s.cfg.sep on := (ho.plain on (by simp)).1
  have hnn : Proper s.cfg.sep nn := (hn.plain nn (by simp)).1
  have rod := spot_dir hi ht hg hrd ho true
  have rnd := spot_dir hi ht hg hrd hn true
  have hndlt := resolve_lt hi rnd
  have hodlt := resolve_lt hi rod
  have hrlt := hi.g.entLt od hodlt _ (alookup_mem hr)
  have mnd : (s.heap nd).isDirMode = true := by have := hg nd hndlt; rw [hndir] at this; exact this.symm
  have there : s.exists_ (absPath s.cfg.sep names') = .ok true := by
    have := exists_plain hi ht s.rc (fun w hw => hn.plain w (by simp [hw])) hn.noLink hn.dev
    rw [hn.here] at this; exact this
  have hb := below_iff hi hrlt hn.here hndir
  unfold renameFits
  by_cases hd : (s.heap od).dev = (s.heap nd).dev
  · rw [if_neg (by simpa using hd)]
    by_cases hanc : Anc s.heap r nd
    · rw [if_pos (hb.mp hanc)]
      unfold renameTail
      rw [M.bind_eq]
      dsimp only [M.get]
      rw [if_neg absPath_ne_nil, splitpath_absPath ht.posix hnp hon, splitpath_absPath ht.posix hnp' hnn]
      dsimp only
      rw [M.bind_eq, rd_eq (f := fun x => x.exists_ (absPath s.cfg.sep names')) there]
      dsimp only
      rw [if_neg (by simp), M.bind_eq, rd_eq (f := fun x => x.resolve (absPath s.cfg.sep names)) rod]
      dsimp only
      rw [M.bind_eq, rd_eq (f := fun x => x.resolve (absPath s.cfg.sep names')) rnd]
      dsimp only
      rw [if_neg (by rw [hd]; simp), if_neg (by rw [mnd]; simp), if_neg (by rw [hndir]; simp), if_pos (hasParent_of_anc hi ht hndlt hanc)]
      rfl
    · rw [if_neg (fun h => hanc (hb.mpr h))]
      have hok : RenameOk s names names' r od nd := ⟨there, rod, rnd, hd, mnd, hndir, by
        cases hh : s.hasParent nd r with
        | false => rfl
        | true => exact absurd (anc_of_hasParentF _ _ _ hh) hanc⟩
      rw [renameTail_ok ht hnp hon hnp' hnn hok]
      have key := renameCommit_spec hi hw ht (on := on) (nn := nn) hodlt hndlt hndir
        (fun r' hr' => by rw [hr] at hr'; injection hr' with hr'; subst hr'; exact hanc) hmn
        (fun r' hr' hf => by
          rw [hr] at hr'; injection hr' with hr'; subst hr'
          rw [hdev _ _ ho.here _ (alookup_mem hr) hf, hd])
        (fun r' t hr' htt => by rw [hr] at hr'; injection hr' with hr'; subst hr'; exact hte t htt)
      unfold wp at key
      rcases key with ⟨x, _, _, h3⟩ | ⟨_, h1, _⟩
      · exact absurd hr (h3 hmo r)
      · exact h1
  · rw [if_pos (by simpa using hd)]
    unfold renameTail
    rw [M.bind_eq]
    dsimp only [M.get]
    rw [if_neg absPath_ne_nil, splitpath_absPath ht.posix hnp hon, splitpath_absPath ht.posix hnp' hnn]
    dsimp only
    rw [M.bind_eq, rd_eq (f := fun x => x.exists_ (absPath s.cfg.sep names')) there]
    dsimp only
    rw [if_neg (by simp), M.bind_eq, rd_eq (f := fun x => x.resolve (absPath s.cfg.sep names)) rod]
    dsimp only
    rw [M.bind_eq, rd_eq (f := fun x => x.resolve (absPath s.cfg.sep names')) rnd]
    dsimp only
    rw [if_pos (by simpa using hd)]
    rfl

theorem objLoop_last_ok {s : FS} (hi : Inv s) (ht : s.cfg.Tree) (hg : Genuine s) (hrd : Readable s) (k : FS.Rec) {w : Str} :
    ∀ l r x, r < s.next → (s.heap r).isLnk = false → NoLink s.heap r l → walk s.heap r (l ++ [w]) = some x →
      s.objLoop k true r (l ++ [w]) = .ok x := by
  intro l
  induction l with
  | nil =>
    intro r x hr hl _ h
    simp only [List.nil_append, walk] at h
    cases ha : alookup w (s.heap r).entries with
    | none => rw [ha] at h; simp at h
    | some y =>
      rw [ha] at h
      simp only [Option.bind_some, Option.some.injEq] at h
      subst h
      have hd := isDir_of_entry (alookup_mem ha)
      have hdm := hg r hr
      rw [hd] at hdm
      have hylt := hi.g.entLt r hr _ (alookup_mem ha)
      simp only [List.nil_append, FS.objLoop, FS.deref, hl, Bool.false_eq_true, if_false, bind, Except.bind, ← hdm, Bool.not_true]
      unfold Obj.isDir at hd
      cases hc : (s.heap r).content with
      | file b => rw [hc] at hd; simp at hd
      | dir es =>
        rw [mem_entries hc] at ha
        simp only [getEntry_tree ht.cs, ha]
        rw [if_neg]
        rcases hrd with h1 | h1
        · simp [h1]
        · simpa using fun _ => h1 y hylt
  | cons c l ih =>
    intro r x hr hl hn h
    simp only [List.cons_append, walk] at h
    cases ha : alookup c (s.heap r).entries with
    | none => rw [ha] at h; simp at h
    | some y =>
      rw [ha] at h
      have hd := isDir_of_entry (alookup_mem ha)
      have hdm := hg r hr
      rw [hd] at hdm
      have hylt := hi.g.entLt r hr _ (alookup_mem ha)
      have hny := hn y ha
      simp only [List.cons_append, FS.objLoop, FS.deref, hl, Bool.false_eq_true, if_false, bind, Except.bind, ← hdm, Bool.not_true]
      unfold Obj.isDir at hd
      cases hc : (s.heap r).content with
      | file b => rw [hc] at hd; simp at hd
      | dir es =>
        rw [mem_entries hc] at ha
        simp only [getEntry_tree ht.cs, ha]
        rw [if_neg]
        · exact ih y x hylt hny.1 hny.2 h
        · rcases hrd with h1 | h1
          · simp [h1]
          · simpa using fun _ => h1 y hylt

theorem walk_nodir {hp : Ref → Obj} {r x : Ref} {l : List Str} (he : (hp r).entries = []) (h : walk hp r l = some x) : r = x := by
  cases l with
  | nil => simpa [walk] using h
  | cons c l => simp [walk, he, alookup] at h

/-- C17: which `rename` succeeds (Linux; root or someone who may read everything and remove from both directories; `old` and `new` given by
absolute paths without symbolic links on the way to the last name; not two names of the same object): the verdict is that of
`renameVerdict` above, ENOENT if there is nothing at `old`.  In particular a directory is never moved below itself. -/
theorem rename_outcome {s : FS} (hs : Reachable s) (ht : s.cfg.Tree) (hm : s.cfg.isMac = false) (hw : Within s) (hg : Genuine s)
    (hrd : Readable s) (hdev : DevInDir s) {force : Bool} {names names' : List Str} {on nn : Str} {od nd : Ref} (ho : Spot s names on od)
    (hn : Spot s names' nn nd) (hndir : (s.heap nd).isDir = true) (hmo : mayRemove s od) (hmn : mayRemove s nd)
    (hdiff : ∀ t, alookup nn (s.heap nd).entries = some t → alookup on (s.heap od).entries ≠ some t) :
    (rename (absPath s.cfg.sep (names ++ [on])) (absPath s.cfg.sep (names' ++ [nn])) force s).1 =
      match alookup on (s.heap od).entries with
      | none => .error (.os .ENOENT)
      | some r => renameVerdict s r od nd (alookup nn (s.heap nd).entries) := by
  have hi := reachable_inv hs
  have hes := absCanon_not_endsWithSep ht.posix (absCanon_names (plain_proper ho.plain))
  have ho1 := absnorm_canon hi ht.posix (absCanon_names (plain_proper ho.plain))
  have hn1 := absnorm_canon hi ht.posix (absCanon_names (plain_proper hn.plain))
  have hodlt := resolve_lt hi (spot_dir hi ht hg hrd ho true)
  have hndlt := resolve_lt hi (spot_dir hi ht hg hrd hn true)
  refine (show wp (rename _ _ _) (fun res _ => res = _) s from ?_)
  unfold rename
  apply wp_getBind
  dsimp only
  rw [ho1, hn1]
  refine wp_bindOk (rd_eq (f := fun x => x.existsL (absPath s.cfg.sep (names ++ [on]))) (spot_existsL hi ht hg hrd ho)) ?_
  cases hr : alookup on (s.heap od).entries with
  | none => rfl
  | some r =>
    have hrlt := hi.g.entLt od hodlt _ (alookup_mem hr)
    have hrg : (s.heap r).isDirMode = (s.heap r).isDir := (hg r hrlt).symm
    rw [if_neg (by simp), hes, if_neg (by simp)]
    refine wp_bindOk (rd_eq (f := fun x => x.lresolve (absPath s.cfg.sep (names ++ [on]))) (spot_lresolve hi ht hg hrd ho hr)) ?_
    rw [if_pos (by simp [ht.posix.win])]
    have hlo := spot_isLink hi ht hg hrd ho
    have hdo := spot_isDir hi ht hg hrd ho
    have hln := spot_isLink hi ht hg hrd hn
    have hdn := spot_isDir hi ht hg hrd hn
    rw [hr] at hlo hdo
    have hdl : s.posixDirLinkErrors (absPath s.cfg.sep (names' ++ [nn])) (absPath s.cfg.sep (names ++ [on])) false =
        match alookup nn (s.heap nd).entries with
        | none => .ok ()
        | some t => if (s.heap r).isDirMode = true ∧ (s.heap t).isLnk = true then .error (.os .ENOTDIR)
          else if (s.heap t).isDirMode = true ∧ (s.heap r).isLnk = true then .error (.os .EISDIR) else .ok () := by
      unfold FS.posixDirLinkErrors
      simp only [hlo, hdo, hln, hdn, bind, Except.bind]
      cases ha : alookup nn (s.heap nd).entries with
      | none => cases h1 : (s.heap r).isDirMode <;> simp
      | some t =>
        cases h1 : (s.heap r).isDirMode <;> cases h2 : (s.heap t).isLnk <;> cases h3 : (s.heap t).isDirMode <;> cases h4 : (s.heap r).isLnk <;>
          simp
    cases ha : alookup nn (s.heap nd).entries with
    | none =>
      rw [ha] at hdl
      refine wp_bindOk (rd_eq (f := fun x => x.posixDirLinkErrors (absPath s.cfg.sep (names' ++ [nn])) (absPath s.cfg.sep (names ++ [on])) false) hdl) ?_
      refine wp_bindOk (rd_eq (f := fun x => x.existsL (absPath s.cfg.sep (names' ++ [nn]))) (spot_existsL hi ht hg hrd hn)) ?_
      rw [ha, if_neg (by simp)]
      exact spot_tail hi hw ht hg hrd hdev ho hn hndir hmo hmn hr (fun t h => by rw [ha] at h; simp at h)
    | some t =>
      have htlt := hi.g.entLt nd hndlt _ (alookup_mem ha)
      have htg : (s.heap t).isDirMode = (s.heap t).isDir := (hg t htlt).symm
      have htr : t ≠ r := fun e => hdiff t ha (by rw [hr, e])
      have hT := spot_target hi ht hg hrd hn ha
      rw [ha] at hdl
      simp only [hrg, htg] at hdl
      dsimp only [renameVerdict]
      -- the two early errors
      by_cases e1 : (s.heap r).isDir = true ∧ (s.heap t).isLnk = true
      · rw [if_pos e1] at hdl
        rw [if_pos e1.2, if_pos e1.1]
        exact wp_bindErr (rd_eq (f := fun x => x.posixDirLinkErrors (absPath s.cfg.sep (names' ++ [nn])) (absPath s.cfg.sep (names ++ [on])) false) hdl) rfl
      rw [if_neg e1] at hdl
      by_cases e2 : (s.heap t).isDir = true ∧ (s.heap r).isLnk = true
      · rw [if_pos e2] at hdl
        have : (s.heap t).isLnk = false := by
          cases hlk : (s.heap t).isLnk with
          | false => rfl
          | true => rw [← htg, lnk_not_dirMode hlk] at e2; simp at e2
        rw [if_neg (by rw [this]; simp), if_pos e2.1, if_pos e2.2]
        exact wp_bindErr (rd_eq (f := fun x => x.posixDirLinkErrors (absPath s.cfg.sep (names' ++ [nn])) (absPath s.cfg.sep (names ++ [on])) false) hdl) rfl
      rw [if_neg e2] at hdl
      refine wp_bindOk (rd_eq (f := fun x => x.posixDirLinkErrors (absPath s.cfg.sep (names' ++ [nn])) (absPath s.cfg.sep (names ++ [on])) false) hdl) ?_
      refine wp_bindOk (rd_eq (f := fun x => x.existsL (absPath s.cfg.sep (names' ++ [nn]))) (spot_existsL hi ht hg hrd hn)) ?_
      rw [ha, if_pos (by simp)]
      have hgo : s.getObject (absPath s.cfg.sep (names' ++ [nn])) = .ok t := by
        unfold FS.getObject FS.getObjNormG
        rw [originalPath_tree ht.cs, hn1, originalPath_tree ht.cs,
          if_neg (absPath_snoc_ne_root (plain_proper hT.proper) hT.name.1), if_neg hn.dev', pathComponents_absPath ht.posix (plain_proper hn.plain)]
        exact objLoop_last_ok hi ht hg hrd _ _ _ _ (root_lt hi) (root_not_lnk hi) hn.noLink ((spot_walk hi ht hg hrd hn).trans ha)
      have hpp : absPath s.cfg.sep (names ++ [on]) ≠ absPath s.cfg.sep (names' ++ [nn]) := by
        intro e
        have h1 := spot_lresolve hi ht hg hrd ho hr
        rw [e, spot_lresolve hi ht hg hrd hn ha] at h1
        injection h1 with h1; exact htr h1
      have hrun : renameToExisting force (absPath s.cfg.sep (names' ++ [nn])) (absPath s.cfg.sep (names ++ [on])) r false s =
          (if (s.heap t).isDirMode || (s.heap t).isLnk then do
            rd (·.renameDirLinkErr force t r false)
            M.pure (some (absPath s.cfg.sep (names' ++ [nn])))
          else if (s.heap r).isDirMode then M.raise (if s.cfg.isWin then .EEXIST else .ENOTDIR)
          else if s.cfg.isWin && !force then M.raise .EEXIST
          else do
            removeObject (absPath s.cfg.sep (names' ++ [nn]))
            M.pure (some (absPath s.cfg.sep (names' ++ [nn]))) : M (Option Str)) s := by
          unfold renameToExisting
          rw [M.bind_eq, rd_eq (f := fun x => x.getObject (absPath s.cfg.sep (names' ++ [nn]))) hgo]
          dsimp only
          rw [M.bind_eq]
          dsimp only [M.get]
          rw [if_neg hpp, if_neg (Ne.symm htr)]
      have tailS : (s.heap t).entries = [] → wp (renameTail (absPath s.cfg.sep (names ++ [on])) (absPath s.cfg.sep (names' ++ [nn])) r)
          (fun res _ => res = renameFits s r od nd) s := fun hte =>
        spot_tail hi hw ht hg hrd hdev ho hn hndir hmo hmn hr (fun t' h => by rw [ha] at h; injection h with h; subst h; exact ⟨htr, hte⟩)
      by_cases hlk : (s.heap t).isLnk = true
      · have hrd' : (s.heap r).isDir = false := by
          cases hh : (s.heap r).isDir with
          | false => rfl
          | true => exact absurd ⟨hh, hlk⟩ e1
        rw [if_pos hlk, if_neg (by rw [hrd']; simp)]
        rw [if_pos (by simp [hlk])] at hrun
        have hde : s.renameDirLinkErr force t r false = .ok () := by
          unfold FS.renameDirLinkErr
          rw [if_neg (by simp [ht.posix.win]), if_pos hlk]
        refine wp_bindOk (s' := s) (a := some (absPath s.cfg.sep (names' ++ [nn]))) (hrun.trans ?_) ?_
        · rw [M.bind_eq, rd_eq (f := fun x => x.renameDirLinkErr force t r false) hde]; rfl
        · exact tailS (mem_entries_nil (by rw [← htg]; exact lnk_not_dirMode hlk))
      · have hlk' : (s.heap t).isLnk = false := by simpa using hlk
        rw [if_neg hlk]
        by_cases htd : (s.heap t).isDir = true
        · have hrl : (s.heap r).isLnk = false := by
            cases hh : (s.heap r).isLnk with
            | false => rfl
            | true => exact absurd ⟨htd, hh⟩ e2
          rw [if_pos htd, if_neg (by rw [hrl]; simp)]
          rw [if_pos (by simp [htg, htd])] at hrun
          have hhas : (s.heap t).hasContents = decide ((s.heap t).entries ≠ []) := by
            unfold Obj.hasContents Obj.entries
            unfold Obj.isDir at htd
            cases hc : (s.heap t).content with
            | file b => rw [hc] at htd; simp at htd
            | dir es => cases es <;> simp
          have hde : s.renameDirLinkErr force t r false = if (s.heap t).entries ≠ [] then .error (.os .ENOTEMPTY)
              else if ifmt (s.heap r).mode = S_IFREG then .error (.os .EISDIR) else .ok () := by
            unfold FS.renameDirLinkErr
            rw [if_neg (by simp [ht.posix.win]), if_neg hlk, hhas, hrl]
            simp only [Obj.isRegMode, Bool.not_false, Bool.true_or, Bool.and_true, decide_eq_true_eq, beq_iff_eq]
          by_cases hte : (s.heap t).entries ≠ []
          · rw [if_pos hte] at hde ⊢
            exact wp_bindErr (s' := s) (by rw [hrun, M.bind_eq, rd_eq (f := fun x => x.renameDirLinkErr force t r false) hde]) rfl
          · rw [if_neg hte] at hde ⊢
            by_cases hreg : ifmt (s.heap r).mode = S_IFREG
            · rw [if_pos hreg] at hde ⊢
              exact wp_bindErr (s' := s) (by rw [hrun, M.bind_eq, rd_eq (f := fun x => x.renameDirLinkErr force t r false) hde]) rfl
            · rw [if_neg hreg] at hde ⊢
              refine wp_bindOk (s' := s) (a := some (absPath s.cfg.sep (names' ++ [nn]))) (hrun.trans ?_) ?_
              · rw [M.bind_eq, rd_eq (f := fun x => x.renameDirLinkErr force t r false) hde]; rfl
              · exact tailS (by simpa using hte)
        · have htd' : (s.heap t).isDir = false := by simpa using htd
          rw [if_neg htd]
          rw [if_neg (by simp [htg, htd', hlk'])] at hrun
          by_cases hrdir : (s.heap r).isDir = true
          · rw [if_pos hrdir]
            rw [if_pos (by rw [hrg]; exact hrdir), ht.posix.win] at hrun
            exact wp_bindErr (s' := s) (e := .os .ENOTDIR) hrun rfl
          · have hrdir' : (s.heap r).isDir = false := by simpa using hrdir
            rw [if_neg hrdir]
            rw [if_neg (by rw [hrg]; exact hrdir), if_neg (by simp [ht.posix.win])] at hrun
            have k0 := spot_removeObject hi ht hg hrd hn hw (fun e he => by
              rw [ha] at he; injection he with he; subst he; exact mem_entries_nil htd')
            rw [ha] at k0
            simp only [if_pos hmn] at k0
            have k1 := removeObject_one hi hw ht (p := absPath s.cfg.sep (names' ++ [nn])) (fun ld nm d e hN he => by
              obtain ⟨rfl, rfl⟩ := names_unique ht (plain_proper hT.proper) hT.name.1 hn1 hT.res hN
              rw [ha] at he; injection he with he; subst he
              exact mem_entries_nil htd')
            have k2 := removeObject_shrink (absPath s.cfg.sep (names' ++ [nn])) hi
            unfold wp at k1 k2
            rcases hrr : removeObject (absPath s.cfg.sep (names' ++ [nn])) s with ⟨res, s1⟩
            rw [hrr] at k0 k1 k2
            simp only at k0 k1 k2
            subst k0
            rcases k1 with ⟨e, h1, _⟩ | ⟨ld, nm, d, e, _, l1, l2, l3, l4⟩
            · simp at h1
            obtain ⟨rfl, rfl⟩ := names_unique ht (plain_proper hT.proper) hT.name.1 hn1 hT.res l1
            have : t = e := by have := l2.was; rw [ha] at this; injection this
            subst this
            refine wp_bindOk (s' := s1) (a := some (absPath s.cfg.sep (names' ++ [nm]))) (hrun.trans ?_) ?_
            · rw [M.bind_eq, hrr]; rfl
            show (renameTail (absPath s.cfg.sep (names ++ [on])) (absPath s.cfg.sep (names' ++ [nm])) r s1).1 = renameFits s r od d
            have hi1 := k2.1.inv
            have hs := l2.sub hi
            have hcfg : s1.cfg = s.cfg := hs.cfg
            have hte := mem_entries_nil htd'
            have hmode : ∀ x < s.next, (s1.heap x).mode = (s.heap x).mode := fun x hx => hs.mode x (by rw [l2.next]; exact hx)
            have hdevk : ∀ x, (s1.heap x).dev = (s.heap x).dev := by
              intro x
              by_cases a1 : x = d
              · rw [a1, l2.parent]
              · by_cases a2 : x = t
                · rw [a2, l2.child]
                · rw [l2.others x a1 a2]
            have hodt : od ≠ t := by rintro rfl; have := isDir_of_entry (alookup_mem hr); rw [htd'] at this; simp at this
            have hg1 : Genuine s1 := by
              intro x hx
              have hx0 := hx
              rw [l2.next] at hx0
              have := hg x hx0
              unfold Obj.isDirMode at *
              rw [hmode x hx0, hs.kind x hx]; exact this
            have hrd1 : Readable s1 := by
              rcases hrd with h | h
              · left; unfold FS.isRoot at *; rw [l2.env]; exact h
              · right; intro x hx; rw [l2.next] at hx; rw [hmode x hx]; exact h x hx
            have hdev1 : DevInDir s1 := by
              intro ld x hld e he hf
              have hx := walk_lt hi1 _ (root_lt hi1) hld
              have hx0 := hx
              rw [l2.next] at hx0
              have he' : e ∈ (s.heap x).entries := alookup_mem (hs.ent x hx e.1 e.2 (alookup_of_mem (hi1.g.keys x hx) he))
              rw [hdevk, hdevk]
              refine hdev ld x (hs.walk hi1 (root_lt hi1) hld) e he' ?_
              rw [← hs.kind e.2 (by rw [l2.next]; exact hi.g.entLt x hx0 e he')]; exact hf
            have hw1 : Within s1 := by
              unfold Within
              rw [l4]
              unfold released
              split
              · exact within_charge hw _ (by omega)
              · exact hw
            have may1 : ∀ x < s.next, mayRemove s x → mayRemove s1 x := by
              intro x hx hmm
              have hroot1 : s1.isRoot = s.isRoot := by unfold FS.isRoot; rw [l2.env]
              unfold mayRemove at *
              rw [hroot1, hmode x hx]; exact hmm
            have spot1 : ∀ {ns : List Str} {n : Str} {x : Ref}, Spot s ns n x → x ≠ t → Spot s1 ns n x := by
              intro ns n x hsp hxt
              refine ⟨by rw [hcfg]; exact hsp.plain, l2.noLink_keep hi (root_lt hi) hsp.noLink, by rw [hcfg, hs.devName]; exact hsp.dev,
                by rw [hcfg, hs.devName]; exact hsp.dev', l2.walk_keep hte hsp.here hxt, ?_⟩
              rw [hmode x (walk_lt hi _ (root_lt hi) hsp.here)]; exact hsp.read
            have key := spot_tail hi1 hw1 (by rw [hcfg]; exact ht) hg1 hrd1 hdev1 (spot1 ho hodt) (spot1 hn l2.ne)
              (by rw [l2.parent]; rfl) (may1 od hodlt hmo) (may1 d hndlt hmn) (r := r) (l2.lookup_keep hr (Ne.symm htr))
              (fun t' h => by
                exfalso
                rw [l2.parent] at h
                have : alookup nm (aerase nm (s.heap d).entries) = some t' := h
                rw [alookup_aerase, if_pos rfl] at this; simp at this)
            rw [hcfg] at key
            rw [key]
            have hrne : r ≠ d := by rintro rfl; rw [hndir] at hrdir'; simp at hrdir'
            unfold renameFits
            rw [hdevk, hdevk, if_neg (c := ∃ l, walk s1.heap r l = some d), if_neg (c := ∃ l, walk s.heap r l = some d)]
            · rintro ⟨l, hl⟩; exact hrne (walk_nodir (mem_entries_nil hrdir') hl)
            · rintro ⟨l, hl⟩
              have : (s1.heap r).entries = [] := by rw [l2.others r hrne (Ne.symm htr)]; exact mem_entries_nil hrdir'
              exact hrne (walk_nodir this hl)

/-- C17: `rename` between two names (differing not only in case) of the same file does nothing. -/
theorem rename_same {s : FS} (hs : Reachable s) (ht : s.cfg.Tree) (hg : Genuine s) (hrd : Readable s) {force : Bool}
    {names names' : List Str} {on nn : Str} {od nd r : Ref} (ho : Spot s names on od) (hn : Spot s names' nn nd)
    (hr : alookup on (s.heap od).entries = some r) (ha : alookup nn (s.heap nd).entries = some r) (hl : (s.heap r).isLnk = false)
    (hlow : s.cfg.lower (absPath s.cfg.sep (names ++ [on])) ≠ s.cfg.lower (absPath s.cfg.sep (names' ++ [nn]))) :
    rename (absPath s.cfg.sep (names ++ [on])) (absPath s.cfg.sep (names' ++ [nn])) force s = (.ok (), s) := by
  have hi := reachable_inv hs
  have hes := absCanon_not_endsWithSep ht.posix (absCanon_names (plain_proper ho.plain))
  have ho1 := absnorm_canon hi ht.posix (absCanon_names (plain_proper ho.plain))
  have hn1 := absnorm_canon hi ht.posix (absCanon_names (plain_proper hn.plain))
  have hpp : absPath s.cfg.sep (names ++ [on]) ≠ absPath s.cfg.sep (names' ++ [nn]) := fun e => hlow (by rw [e])
  have hlo := spot_isLink hi ht hg hrd ho
  have hdo := spot_isDir hi ht hg hrd ho
  have hln := spot_isLink hi ht hg hrd hn
  have hdn := spot_isDir hi ht hg hrd hn
  rw [hr] at hlo hdo
  rw [ha] at hln hdn
  have hdl : s.posixDirLinkErrors (absPath s.cfg.sep (names' ++ [nn])) (absPath s.cfg.sep (names ++ [on])) false = .ok () := by
    unfold FS.posixDirLinkErrors
    simp only [hlo, hdo, hln, hdn, bind, Except.bind, hl]
    cases h1 : (s.heap r).isDirMode <;> simp
  have hgo : s.getObject (absPath s.cfg.sep (names' ++ [nn])) = .ok r := by
    unfold FS.getObject FS.getObjNormG
    rw [originalPath_tree ht.cs, hn1, originalPath_tree ht.cs,
      if_neg (absPath_snoc_ne_root (fun w hw => (hn.plain w (by simp [hw])).1) (hn.plain nn (by simp)).1), if_neg hn.dev',
      pathComponents_absPath ht.posix (plain_proper hn.plain)]
    exact objLoop_last_ok hi ht hg hrd _ _ _ _ (root_lt hi) (root_not_lnk hi) hn.noLink ((spot_walk hi ht hg hrd hn).trans ha)
  have hno : NoLink s.heap rootRef (names ++ [on]) := spot_noLink hi ht hg hrd ho (fun e he => by
    rw [hr] at he; injection he with he; subst he; exact hl)
  have hnn : NoLink s.heap rootRef (names' ++ [nn]) := spot_noLink hi ht hg hrd hn (fun e he => by
    rw [ha] at he; injection he with he; subst he; exact hl)
  have hsame : s.renameSame (absPath s.cfg.sep (names' ++ [nn])) (absPath s.cfg.sep (names ++ [on])) = .ok none := by
    have p1 : s.resolvePath (absPath s.cfg.sep (names ++ [on])) = .ok _ := resolvePath_plain hi ht s.rc ho.plain hno
    have p2 : s.resolvePath (absPath s.cfg.sep (names' ++ [nn])) = .ok _ := resolvePath_plain hi ht s.rc hn.plain hnn
    unfold FS.renameSame
    simp only [if_neg hlow, p1, p2, bind, Except.bind, originalPath_tree ht.cs, Ne.symm hpp, false_and, if_false, beq_iff_eq, Ne.symm hlow]
  unfold rename
  rw [M.bind_eq]
  dsimp only [M.get]
  rw [ho1, hn1, M.bind_eq, rd_eq (f := fun x => x.existsL (absPath s.cfg.sep (names ++ [on]))) (spot_existsL hi ht hg hrd ho), hr]
  dsimp only
  rw [if_neg (by simp), hes, if_neg (by simp), M.bind_eq,
    rd_eq (f := fun x => x.lresolve (absPath s.cfg.sep (names ++ [on]))) (spot_lresolve hi ht hg hrd ho hr)]
  dsimp only
  rw [if_pos (by simp [ht.posix.win]), M.bind_eq,
    rd_eq (f := fun x => x.posixDirLinkErrors (absPath s.cfg.sep (names' ++ [nn])) (absPath s.cfg.sep (names ++ [on])) false) hdl]
  dsimp only
  rw [M.bind_eq, rd_eq (f := fun x => x.existsL (absPath s.cfg.sep (names' ++ [nn]))) (spot_existsL hi ht hg hrd hn), ha]
  dsimp only
  rw [if_pos (by simp), M.bind_eq]
  have : renameToExisting force (absPath s.cfg.sep (names' ++ [nn])) (absPath s.cfg.sep (names ++ [on])) r false s = (.ok none, s) := by
    unfold renameToExisting
    rw [M.bind_eq, rd_eq (f := fun x => x.getObject (absPath s.cfg.sep (names' ++ [nn]))) hgo]
    dsimp only
    rw [M.bind_eq]
    dsimp only [M.get]
    rw [if_neg hpp, if_pos rfl, rd_eq (f := fun x => x.renameSame (absPath s.cfg.sep (names' ++ [nn])) (absPath s.cfg.sep (names ++ [on]))) hsame]
  rw [this]
  rfl

/-! ## Examples -/

theorem demo_devInDir : DevInDir demo := by
  intro ld x hld
  have hx := walk_lt demo_inv _ (root_lt demo_inv) hld
  rw [demo_next] at hx
  have h : ∀ x < 6, ∀ e ∈ (demo.heap x).entries, (demo.heap e.2).isDir = false → (demo.heap e.2).dev = (demo.heap x).dev := by decide +kernel
  exact h x hx

theorem demo_noLinksTo {p : Str} {names : List Str} {nm : Str} (h : ∀ w ∈ names ++ [nm], Proper '/' w)
    (hp : demo.absnorm p = absPath '/' (names ++ [nm])) (hn : NoLink demo.heap rootRef names) : NoLinksTo demo p :=
  ⟨names, nm, by rw [demo_sep]; exact fun w hw => h w (by simp [hw]), by rw [demo_sep]; exact h nm (by simp), by rw [demo_sep]; exact hp, hn⟩

theorem demo_spot' (nm : Str) (h : Plain '/' nm) (h' : absPath '/' [nm] ≠ demo.devName) : Spot demo [] nm rootRef where
  plain := by
    rw [demo_sep]
    intro w hw
    simp only [List.nil_append, List.mem_singleton] at hw
    rw [hw]; exact h
  noLink := trivial
  dev := by decide +kernel
  dev' := by rw [demo_sep]; exact h'
  here := rfl
  read := by decide +kernel

/-- `/a` (a directory with the entries `f` and `d`) can be moved to `/b`, and the hypotheses of `rename_effect` hold -/
example : Ordinary demo ['/', 'a'] ∧ Ordinary demo ['/', 'b'] ∧ NoLinksTo demo ['/', 'b'] ∧ (rename ['/', 'a'] ['/', 'b'] false demo).1 = .ok () ∧
    ((rename ['/', 'a'] ['/', 'b'] false demo).2.resolve ['/', 'b', '/', 'f'] = .ok 3) := by
  refine ⟨demo_ordinary (l := [['a']]) (by decide) (by decide +kernel) (by decide +kernel),
    demo_ordinary (l := [['b']]) (by decide) (by decide +kernel) (by decide +kernel),
    demo_noLinksTo (names := []) (nm := ['b']) (by decide) (by decide +kernel) trivial, by decide +kernel, by decide +kernel⟩

/-- every hypothesis of `rename_effect`, for the same call -/
example : (∃ e, rename ['/', 'a'] ['/', 'b'] false demo = (.error e, demo)) ∨
    ∃ s' lo on od ln nn nd r, rename ['/', 'a'] ['/', 'b'] false demo = (.ok (), s') ∧ Names demo ['/', 'a'] lo on od ∧
      Names demo ['/', 'b'] ln nn nd ∧ Moved demo s' (lo ++ [on]) (ln ++ [nn]) ∧ Renamed demo s' od on nd nn r ∧
      ∀ t, alookup nn (demo.heap nd).entries = some t → t ≠ r ∧ (demo.heap t).entries = [] := by
  have hb : ∀ ln nn nd, Names demo ['/', 'b'] ln nn nd → nn = ['b'] ∧ nd = rootRef := fun ln nn nd hN =>
    names_unique demo_tree (names := []) (by simp) (by rw [demo_sep]; decide) (by rw [demo_sep]; decide +kernel) (by decide +kernel) hN
  refine rename_effect demo_reachable demo_tree demo_mac demo_within demo_genuine demo_noDev demo_devInDir
    (demo_ordinary (l := [['a']]) (by decide) (by decide +kernel) (by decide +kernel))
    (demo_ordinary (l := [['b']]) (by decide) (by decide +kernel) (by decide +kernel))
    (demo_noLinksTo (names := []) (nm := ['b']) (by decide) (by decide +kernel) trivial)
    (fun _ _ _ _ => demo_may _) (fun _ _ _ _ => demo_may _) ?_ ?_
  · intro lo on od ln nn nd h1 h2
    obtain ⟨_, rfl⟩ := names_unique demo_tree (names := []) (nm := ['a']) (d := rootRef) (by simp) (by rw [demo_sep]; decide) (by rw [demo_sep]; decide +kernel) (by decide +kernel) h1
    obtain ⟨_, rfl⟩ := hb _ _ _ h2
    rfl
  · intro ln nn nd t hN htt
    obtain ⟨rfl, rfl⟩ := hb _ _ _ hN
    have : alookup ['b'] (demo.heap rootRef).entries = none := by decide +kernel
    rw [this] at htt; simp at htt

/-- the cases of `rename_outcome` -/
example : (rename ['/', 'a'] ['/', 'a', '/', 'd', '/', 'x'] false demo).1 = .error (.os .EINVAL) ∧
    (rename ['/', 'g'] ['/', 'a', '/', 'd'] false demo).1 = .error (.os .EISDIR) ∧
    (rename ['/', 'l'] ['/', 'g'] false demo).1 = .ok () ∧
    rename ['/', 'g'] ['/', 'a', '/', 'f'] false demo = (.ok (), (rename ['/', 'g'] ['/', 'a', '/', 'f'] false demo).2) ∧
    Spot demo [['a']] ['f'] 2 ∧ Spot demo [] ['g'] rootRef ∧ Readable demo := by
  refine ⟨by decide +kernel, by decide +kernel, by decide +kernel, Prod.ext (by decide +kernel) rfl,
    demo_spot _ (by decide) (by decide +kernel), demo_spot' _ (by decide) (by decide +kernel), Or.inl demo_root⟩

/-! ## What goes wrong without the hypotheses -/

/-- The target is removed before the devices are compared: a failing `rename` onto an existing file of another device has
removed that file. -/
theorem rename_exdev_counterexample :
    let s := runs [.mkdir ['/', 'm'] 0o777, .addMountPoint ['/', 'n'] none, .createFile ['/', 'n', '/', 'f'] (S_IFREG ||| 0o666) (some [1]) none true false] demo
    Reachable s ∧ (rename ['/', 'g'] ['/', 'n', '/', 'f'] false s).1 = .error (.os .EXDEV) ∧
      s.exists_ ['/', 'n', '/', 'f'] = .ok true ∧ (rename ['/', 'g'] ['/', 'n', '/', 'f'] false s).2.exists_ ['/', 'n', '/', 'f'] = .ok false := by
  refine ⟨reachable_runs demo_reachable _, ?_⟩
  decide +kernel

/-- The old name is removed before the permissions of the new directory are checked: the only name of the file is lost. -/
theorem rename_lost_counterexample :
    let s := runs [.mkdir ['/', 'm'] 0o777, .chmod ['/', 'm'] 0o555 true, .chmod ['/'] 0o777 true,
      .createFile ['/', 'f'] (S_IFREG ||| 0o666) (some [1]) none true false, .setUser 1000 1000] demo
    Reachable s ∧ s.exists_ ['/', 'f'] = .ok true ∧ (rename ['/', 'f'] ['/', 'm', '/', 'f'] false s).1 = .error (.os .EACCES) ∧
      (rename ['/', 'f'] ['/', 'm', '/', 'f'] false s).2.exists_ ['/', 'f'] = .ok false ∧
      (rename ['/', 'f'] ['/', 'm', '/', 'f'] false s).2.exists_ ['/', 'm', '/', 'f'] = .ok false := by
  refine ⟨reachable_runs demo_reachable _, ?_⟩
  decide +kernel

end Verif
