import Verif.Realpath
import Verif.Props.Scandir
import Mathlib.Data.Finset.Card
/-!
# C45: realpath
-/

namespace Verif
open Py Spec Cfg

namespace Spec
/-- Resolving the components one after the other as POSIX does, from the location `names` (no symlinks in it): `.` and empty
components are skipped, `..` goes up, a symlink is replaced by what its target resolves to from where the link is, anything
else (a file, a directory, or nothing at all) is entered. A chain of symlinks that does not end has no result. -/
inductive Real (s : FS) : List Str → List Str → List Str → Prop
  | done (names : List Str) : Real s names [] names
  | skip {names rest out : List Str} {w : Str} : (w = [] ∨ w = ['.']) → Real s names rest out → Real s names (w :: rest) out
  | up {names rest out : List Str} : Real s names.dropLast rest out → Real s names (['.', '.'] :: rest) out
  | enter {names rest out : List Str} {w : Str} : w ≠ [] → w ≠ ['.'] → w ≠ ['.', '.'] →
      (∀ x, Spec.walk s.heap rootRef (names ++ [w]) = some x → (s.heap x).isLnk = false) →
      Real s (names ++ [w]) rest out → Real s names (w :: rest) out
  | link {names rest out mid : List Str} {w : Str} {x : Ref} : w ≠ [] → w ≠ ['.'] → w ≠ ['.', '.'] →
      Spec.walk s.heap rootRef (names ++ [w]) = some x → (s.heap x).isLnk = true →
      Real s (if isAbs s.cfg.sep (s.linkTarget (s.heap x)) then [] else names)
        (split s.cfg.sep (s.linkTarget (s.heap x))) mid →
      Real s mid rest out → Real s names (w :: rest) out

/-- The component is `..` or does not start with two dots. -/
def PlainPart (w : Str) : Prop := w = ['.', '.'] ∨ (['.', '.'] : Str).isPrefixOf w = false

/-- The targets of all symlinks are made of such components. -/
def PlainTargets (s : FS) : Prop := ∀ x < s.next, (s.heap x).isLnk = true → ∀ w ∈ split s.cfg.sep (s.linkTarget (s.heap x)), PlainPart w

/-- The number of directory entries that are symlinks. -/
def linkEntries (s : FS) : Nat := (((List.range s.next).flatMap fun d => (s.heap d).entries.filter fun e => (s.heap e.2).isLnk).length)
end Spec

/-- `Real` with the size of the derivation -/
inductive RealH (s : FS) : Nat → List Str → List Str → List Str → Prop
  | done (names : List Str) : RealH s 0 names [] names
  | skip {n : Nat} {names rest out : List Str} {w : Str} : (w = [] ∨ w = ['.']) → RealH s n names rest out → RealH s (n + 1) names (w :: rest) out
  | up {n : Nat} {names rest out : List Str} : RealH s n names.dropLast rest out → RealH s (n + 1) names (['.', '.'] :: rest) out
  | enter {n : Nat} {names rest out : List Str} {w : Str} : w ≠ [] → w ≠ ['.'] → w ≠ ['.', '.'] →
      (∀ x, Spec.walk s.heap rootRef (names ++ [w]) = some x → (s.heap x).isLnk = false) →
      RealH s n (names ++ [w]) rest out → RealH s (n + 1) names (w :: rest) out
  | link {n m : Nat} {names rest out mid : List Str} {w : Str} {x : Ref} : w ≠ [] → w ≠ ['.'] → w ≠ ['.', '.'] →
      Spec.walk s.heap rootRef (names ++ [w]) = some x → (s.heap x).isLnk = true →
      RealH s n (if isAbs s.cfg.sep (s.linkTarget (s.heap x)) then [] else names)
        (split s.cfg.sep (s.linkTarget (s.heap x))) mid →
      RealH s m mid rest out → RealH s (n + m + 1) names (w :: rest) out

theorem Spec.Real.height {s : FS} {names comps out : List Str} (h : Real s names comps out) : ∃ n, RealH s n names comps out := by
  induction h with
  | done names => exact ⟨_, .done names⟩
  | skip hw _ ih => obtain ⟨n, ih⟩ := ih; exact ⟨_, .skip hw ih⟩
  | up _ ih => obtain ⟨n, ih⟩ := ih; exact ⟨_, .up ih⟩
  | enter h1 h2 h3 h4 _ ih => obtain ⟨n, ih⟩ := ih; exact ⟨_, .enter h1 h2 h3 h4 ih⟩
  | link h1 h2 h3 h4 h5 _ _ ih1 ih2 =>
    obtain ⟨n, ih1⟩ := ih1
    obtain ⟨m, ih2⟩ := ih2
    exact ⟨_, .link h1 h2 h3 h4 h5 ih1 ih2⟩

theorem RealH.real {s : FS} {n : Nat} {names comps out : List Str} (h : RealH s n names comps out) : Real s names comps out := by
  induction h with
  | done names => exact .done names
  | skip hw _ ih => exact .skip hw ih
  | up _ ih => exact .up ih
  | enter h1 h2 h3 h4 _ ih => exact .enter h1 h2 h3 h4 ih
  | link h1 h2 h3 h4 h5 _ _ ih1 ih2 => exact .link h1 h2 h3 h4 h5 ih1 ih2

theorem RealH.det {s : FS} {n : Nat} {names comps out : List Str} (h : RealH s n names comps out) :
    ∀ {n' : Nat} {out' : List Str}, RealH s n' names comps out' → n = n' ∧ out = out' := by
  induction h with
  | done names => intro n' out' h'; cases h' with | done => exact ⟨rfl, rfl⟩
  | skip hw _ ih =>
    intro n' out' h'
    cases h' with
    | skip _ h' => obtain ⟨rfl, rfl⟩ := ih h'; exact ⟨rfl, rfl⟩
    | up _ => simp at hw
    | enter h1 h2 h3 _ _ => rcases hw with hw | hw <;> contradiction
    | link h1 h2 h3 _ _ _ _ => rcases hw with hw | hw <;> contradiction
  | up _ ih =>
    intro n' out' h'
    cases h' with
    | skip hw _ => simp at hw
    | up h' => obtain ⟨rfl, rfl⟩ := ih h'; exact ⟨rfl, rfl⟩
    | enter h1 h2 h3 _ _ => contradiction
    | link h1 h2 h3 _ _ _ _ => contradiction
  | enter h1 h2 h3 h4 _ ih =>
    intro n' out' h'
    cases h' with
    | skip hw _ => rcases hw with hw | hw <;> contradiction
    | up _ => contradiction
    | enter _ _ _ _ h' => obtain ⟨rfl, rfl⟩ := ih h'; exact ⟨rfl, rfl⟩
    | link _ _ _ h5 h6 _ _ => rw [h4 _ h5] at h6; contradiction
  | link h1 h2 h3 h4 h5 _ _ ih1 ih2 =>
    intro n' out' h'
    cases h' with
    | skip hw _ => rcases hw with hw | hw <;> contradiction
    | up _ => contradiction
    | enter _ _ _ h6 _ => rw [h6 _ h4] at h5; contradiction
    | link _ _ _ h6 h7 h8 h9 =>
      rw [h4] at h6
      injection h6 with h6
      subst h6
      obtain ⟨rfl, rfl⟩ := ih1 h8
      obtain ⟨rfl, rfl⟩ := ih2 h9
      exact ⟨rfl, rfl⟩

theorem Spec.Real.det {s : FS} {names comps out out' : List Str} (h : Real s names comps out) (h' : Real s names comps out') : out = out' := by
  obtain ⟨n, h⟩ := h.height
  obtain ⟨n', h'⟩ := h'.height
  exact (h.det h').2


/-- a location without symlinks in it -/
structure CleanAt (s : FS) (l : List Str) : Prop where
  plain : ∀ w ∈ l, Plain s.cfg.sep w
  noLink : NoLink s.heap rootRef l

theorem CleanAt.dropLast {s : FS} {l : List Str} (h : CleanAt s l) : CleanAt s l.dropLast := by
  refine ⟨fun w hw => h.plain w (List.mem_of_mem_dropLast hw), ?_⟩
  rcases List.eq_nil_or_concat l with rfl | ⟨l', c, rfl⟩
  · exact h.noLink
  · have := h.noLink
    rw [List.concat_eq_append] at this ⊢
    rw [List.dropLast_concat]
    exact noLink_prefix this

theorem CleanAt.nil {s : FS} : CleanAt s [] := ⟨by simp, trivial⟩

theorem CleanAt.snoc {s : FS} {l : List Str} (h : CleanAt s l) {w : Str} (hw : Plain s.cfg.sep w)
    (hn : ∀ x, Spec.walk s.heap rootRef (l ++ [w]) = some x → (s.heap x).isLnk = false) : CleanAt s (l ++ [w]) := by
  refine ⟨?_, ?_⟩
  · intro v hv
    rcases List.mem_append.mp hv with hv | hv
    · exact h.plain v hv
    · simp at hv; rw [hv]; exact hw
  · rw [noLink_append]
    refine ⟨h.noLink, ?_⟩
    intro x hx y hy
    exact ⟨hn y (by rw [walk_append, hx]; simp [Spec.walk, hy]), trivial⟩

theorem lresolve_error {s : FS} (W : WalkOk s) {l : List Str} {w : Str} {e : Err} (hl : ∀ v ∈ l, Plain s.cfg.sep v) (hw : Plain s.cfg.sep w)
    (h : s.lresolveG s.rc (absPath s.cfg.sep (l ++ [w])) = .error e) : e.isOS = true := by
  have ht := W.tree
  have hcan : AbsCanon s.cfg.sep (absPath s.cfg.sep (l ++ [w])) := absCanon_names (fun v hv => by
    rcases List.mem_append.mp hv with hv | hv
    · exact (hl v hv).1
    · simp at hv; rw [hv]; exact hw.1)
  unfold FS.lresolveG at h
  rw [if_neg absPath_ne_nil, if_neg (absPath_snoc_ne_root (plain_proper hl) hw.1)] at h
  have hp : s.lparent (absPath s.cfg.sep (l ++ [w])) = (absPath s.cfg.sep l, w) := by
    unfold FS.lparent
    simp only [stripTrailing_canon ht.posix hcan, absPath_ne_dot ht.posix, if_false, originalPath_tree ht.cs,
      splitpath_absPath ht.posix (plain_proper hl) hw.1, absPath_ne_nil]
  rw [hp] at h
  cases hr : s.resolveG s.rc (absPath s.cfg.sep l) true with
  | error e' =>
    rw [hr] at h
    have h : (Except.error e' : Except Err Ref) = .error e := h
    injection h with h; subst h
    exact resolve_error W (validRel_plain ht.posix _ hl) hr
  | ok r =>
    rw [hr] at h
    have h : s.lentry r w = .error e := h
    unfold FS.lentry at h
    split at h
    · injection h with h; rw [← h]; rfl
    · split at h
      · injection h with h; rw [← h]; rfl
      · split at h
        · cases h
        · split at h
          · cases h
          · injection h with h; rw [← h]; rfl

/-- `os.path.islink` below a location without links -/
theorem isLink_clean {s : FS} (W : WalkOk s) {l : List Str} (h : CleanAt s l) {w : Str} (hw : Plain s.cfg.sep w) :
    (∀ x, Spec.walk s.heap rootRef (l ++ [w]) = some x → s.lresolve (absPath s.cfg.sep (l ++ [w])) = .ok x ∧
      s.isLink (absPath s.cfg.sep (l ++ [w])) = .ok (s.heap x).isLnk) ∧
    (Spec.walk s.heap rootRef (l ++ [w]) = none → s.isLink (absPath s.cfg.sep (l ++ [w])) = .ok false) := by
  have hi := W.inv
  have ht := W.tree
  have hcan : AbsCanon s.cfg.sep (absPath s.cfg.sep (l ++ [w])) := absCanon_names (fun v hv => by
    rcases List.mem_append.mp hv with hv | hv
    · exact (h.plain v hv).1
    · simp at hv; rw [hv]; exact hw.1)
  constructor
  · intro x hx
    have hx' := hx
    rw [walk_append, Option.bind_eq_some_iff] at hx'
    obtain ⟨r, hr, hx'⟩ := hx'
    have hrd : (s.heap r).isDir = true := by
      simp only [Spec.walk] at hx'
      cases ha : alookup w (s.heap r).entries with
      | none => rw [ha] at hx'; simp at hx'
      | some y => exact isDir_of_entry (alookup_mem ha)
    have hrl := walk_lt hi l (root_lt hi) hr
    have hd : absPath s.cfg.sep l ≠ s.devName := by
      intro e
      have := W.noDev l (plain_proper h.plain) e
      rw [hr] at this; simp at this
    have hres : s.lresolveG s.rc (absPath s.cfg.sep (l ++ [w])) = .ok x :=
      (lresolve_plain hi ht s.rc h.plain hw.1 h.noLink hd).mpr ⟨hx, through_genuine hi W.genuine (root_lt hi) hr,
        fun y hy => W.readable.readable (walked_lt hi _ (root_lt hi) y hy) true, r, hr, W.dirs r hrl hrd⟩
    refine ⟨hres, ?_⟩
    unfold FS.isLink FS.isLinkG FS.isOfTypeG FS.resolveFG
    simp only [Bool.false_eq_true, if_false, hres]
    simp only [bind, Except.bind, FS.raiseForSepG, absCanon_not_endsWithSep ht.posix hcan, Bool.false_eq_true, if_false, pure, Except.pure]
    rfl
  · intro hx
    unfold FS.isLink FS.isLinkG FS.isOfTypeG FS.resolveFG
    simp only [Bool.false_eq_true, if_false]
    cases hr : s.lresolveG s.rc (absPath s.cfg.sep (l ++ [w])) with
    | error e =>
      have := lresolve_error W h.plain hw hr
      simp only [bind, Except.bind, this, if_true]
    | ok x =>
      exfalso
      by_cases hd : absPath s.cfg.sep l = s.devName
      · obtain ⟨r, h1, h2, _, h4⟩ := (lresolve_tree ht s.rc (plain_proper h.plain) hw.1).mp hr
        rcases (resolveG_ok hi ht _).mp h1 with ⟨_, _, ⟨h3, _⟩ | ⟨_, _, rfl⟩ | ⟨_, h3, _⟩⟩
        · rw [absnorm_canon hi ht.posix (absCanon_names (plain_proper h.plain))] at h3
          rw [(absPath_eq_root (fun v hv => proper_compOk (h.plain v hv).1)).mp h3] at hd hx
          have := W.noDev [] (by simp) hd
          simp [Spec.walk] at this
        · rw [hi.n.devFile] at h2; simp at h2
        · rw [absnorm_canon hi ht.posix (absCanon_names (plain_proper h.plain))] at h3
          exact h3 hd
      · have := ((lresolve_plain hi ht s.rc h.plain hw.1 h.noLink hd).mp hr).1
        rw [hx] at this; simp at this

theorem readlink_clean {s : FS} (W : WalkOk s) {l : List Str} (h : CleanAt s l) {w : Str} (hw : Plain s.cfg.sep w) {x : Ref}
    (hx : Spec.walk s.heap rootRef (l ++ [w]) = some x) (hl : (s.heap x).isLnk = true) :
    s.readlink (absPath s.cfg.sep (l ++ [w])) = .ok (s.linkTarget (s.heap x)) := by
  have ht := W.tree
  have hcan : AbsCanon s.cfg.sep (absPath s.cfg.sep (l ++ [w])) := absCanon_names (fun v hv => by
    rcases List.mem_append.mp hv with hv | hv
    · exact (h.plain v hv).1
    · simp at hv; rw [hv]; exact hw.1)
  have hr := ((isLink_clean W h hw).1 x hx).1
  have hm : ifmt (s.heap x).mode = S_IFLNK := by unfold Obj.isLnk at hl; simpa using hl
  unfold FS.readlink
  simp only [hr, bind, Except.bind]
  rw [if_neg (by simp [hm]), absCanon_not_endsWithSep ht.posix hcan]
  rfl


/-- a symlink `x` with the name `w` at the location `l` -/
structure LinkAt (s : FS) (l : List Str) (w : Str) (x : Ref) : Prop where
  clean : CleanAt s l
  plain : Plain s.cfg.sep w
  walk : Spec.walk s.heap rootRef (l ++ [w]) = some x
  lnk : (s.heap x).isLnk = true

/-- where the target of a link at `l` starts -/
abbrev startOf (s : FS) (l : List Str) (x : Ref) : List Str := if isAbs s.cfg.sep (s.linkTarget (s.heap x)) then [] else l
/-- the components of the target of a link -/
abbrev partsOf (s : FS) (x : Ref) : List Str := split s.cfg.sep (s.linkTarget (s.heap x))

open Classical in
/-- there are no more paths of symlinks than entries that are symlinks -/
theorem link_paths {s : FS} (hi : Inv s) : ∃ K : Finset Str, K.card ≤ linkEntries s ∧
    ∀ l w x, LinkAt s l w x → absPath s.cfg.sep (l ++ [w]) ∈ K := by
  let pairs : List (Ref × Str) := (List.range s.next).flatMap fun d => ((s.heap d).entries.filter fun e => (s.heap e.2).isLnk).map fun e => (d, e.1)
  let f : Ref × Str → Str := fun p => if h : ∃ l, Spec.walk s.heap rootRef l = some p.1 then absPath s.cfg.sep (h.choose ++ [p.2]) else []
  refine ⟨(pairs.map f).toFinset, ?_, ?_⟩
  · refine le_trans (List.toFinset_card_le _) ?_
    simp only [List.length_map, pairs, linkEntries, List.length_flatMap]
    exact le_refl _
  · intro l w x h
    have hw := h.walk
    rw [walk_append, Option.bind_eq_some_iff] at hw
    obtain ⟨d, hd, hw⟩ := hw
    have ha : alookup w (s.heap d).entries = some x := by
      simp only [Spec.walk] at hw
      cases ha : alookup w (s.heap d).entries with
      | none => rw [ha] at hw; simp at hw
      | some y => rw [ha] at hw; simpa using hw
    have hlt := walk_lt hi l (root_lt hi) hd
    rw [List.mem_toFinset, List.mem_map]
    refine ⟨(d, w), ?_, ?_⟩
    · simp only [pairs, List.mem_flatMap, List.mem_map, List.mem_filter, List.mem_range]
      exact ⟨d, hlt, (w, x), ⟨alookup_mem ha, h.lnk⟩, rfl⟩
    · have hex : ∃ l, Spec.walk s.heap rootRef l = some (d, w).1 := ⟨l, hd⟩
      simp only [f]
      rw [dif_pos hex]
      rw [walk_dir_unique hi _ _ hex.choose_spec hd (isDir_of_entry (alookup_mem ha))]

/-- the paths in `seen` -/
def domSeen (seen : FS.Seen) : Finset Str := (seen.map (·.1)).toFinset

theorem mem_domSeen {seen : FS.Seen} {k : Str} : k ∈ domSeen seen ↔ alookup k seen ≠ none := by
  unfold domSeen
  rw [List.mem_toFinset]
  induction seen with
  | nil => simp [alookup]
  | cons e seen ih =>
    obtain ⟨a, b⟩ := e
    simp only [List.map_cons, List.mem_cons, alookup, ih]
    by_cases h : a = k
    · simp [h]
    · have h' : ¬ k = a := fun e => h e.symm
      simp [h, h']

/-- what `seen` holds: paths of symlinks, and what they resolve to -/
structure SeenOk (s : FS) (K : Finset Str) (seen : FS.Seen) : Prop where
  dom : domSeen seen ⊆ K
  val : ∀ k p, alookup k seen = some (some p) → ∃ l w x mid, k = absPath s.cfg.sep (l ++ [w]) ∧ LinkAt s l w x ∧
    p = absPath s.cfg.sep mid ∧ CleanAt s mid ∧ Real s (startOf s l x) (partsOf s x) mid

/-- the symlink is being resolved -/
structure Pending (s : FS) (seen : FS.Seen) (h : Nat) : Prop where
  ex : ∃ l w x h' mid, alookup (absPath s.cfg.sep (l ++ [w])) seen = some none ∧ LinkAt s l w x ∧
    RealH s h' (startOf s l x) (partsOf s x) mid ∧ h' < h

structure RealPost (s : FS) (K : Finset Str) (names comps : List Str) (seen : FS.Seen) (p : Str) (ok : Bool) (seen' : FS.Seen) : Prop where
  seenOk : SeenOk s K seen'
  dom : domSeen seen ⊆ domSeen seen'
  good : ok = true → (∃ out, p = absPath s.cfg.sep out ∧ CleanAt s out ∧ Real s names comps out) ∧
    ∀ k, alookup k seen' = some none → alookup k seen = some none
  bad : ok = false → ∀ h out, RealH s h names comps out → Pending s seen h

/-- the loop and the recursive call end -/
def Ends (s : FS) (K : Finset Str) (names comps : List Str) (seen : FS.Seen) (r : Except Err (Str × Bool × FS.Seen)) : Prop :=
  ∃ p ok seen', r = .ok (p, ok, seen') ∧ RealPost s K names comps seen p ok seen'

theorem Pending.mono {s : FS} {seen : FS.Seen} {h h' : Nat} (p : Pending s seen h) (hl : h ≤ h') : Pending s seen h' := by
  obtain ⟨l, w, x, g, mid, h1, h2, h3, h4⟩ := p.ex
  exact ⟨l, w, x, g, mid, h1, h2, h3, lt_of_lt_of_le h4 hl⟩

/-- a step that adds nothing to `seen` -/
theorem Ends.step {s : FS} {K : Finset Str} {names names' comps comps' : List Str} {seen : FS.Seen} {r : Except Err (Str × Bool × FS.Seen)}
    (h : Ends s K names' comps' seen r) (hg : ∀ out, Real s names' comps' out → Real s names comps out)
    (hb : ∀ h out, RealH s h names comps out → ∃ h' < h, RealH s h' names' comps' out) : Ends s K names comps seen r := by
  obtain ⟨p, ok, seen', hr, hp⟩ := h
  refine ⟨p, ok, seen', hr, hp.seenOk, hp.dom, ?_, ?_⟩
  · intro hok
    obtain ⟨⟨out, h1, h2, h3⟩, h4⟩ := hp.good hok
    exact ⟨⟨out, h1, h2, hg out h3⟩, h4⟩
  · intro hok g out hh
    obtain ⟨g', hlt, hh'⟩ := hb g out hh
    exact (hp.bad hok g' out hh').mono (le_of_lt hlt)

theorem plainPart_plain {c : Char} {w : Str} (hs : c ∉ w) (h : PlainPart w) (h1 : w ≠ []) (h2 : w ≠ ['.']) (h3 : w ≠ ['.', '.']) : Plain c w := by
  rcases h with h | h
  · exact absurd h h3
  · exact ⟨⟨h1, h2, h3, hs⟩, h⟩

theorem join_absPath {k : Cfg} (hp : k.Posix) {names : List Str} {w : Str} (hn : ∀ v ∈ names, Proper k.sep v) (hw : Proper k.sep w)
    (ht : Tidy k (absPath k.sep names)) : k.joinpaths [absPath k.sep names, w] = absPath k.sep (names ++ [w]) := by
  rw [join_tidy hp ht hw]
  by_cases h : names = []
  · subst h; simp [absPath, Py.join]
  · have hne : absPath k.sep names ≠ [k.sep] := by
      intro e
      exact h ((absPath_eq_root (fun v hv => proper_compOk (hn v hv))).mp e)
    rw [if_neg hne]
    unfold absPath
    rw [join_append _ h (by simp)]
    simp [Py.join]

theorem realParent_absPath {s : FS} (hp : s.cfg.Posix) {names : List Str} (hn : ∀ v ∈ names, Proper s.cfg.sep v) :
    s.realParent (absPath s.cfg.sep names) = absPath s.cfg.sep names.dropLast := by
  unfold FS.realParent
  rw [if_pos absPath_ne_nil]
  rcases List.eq_nil_or_concat names with rfl | ⟨l, w, rfl⟩
  · rw [splitpath_root hp]
    simp [dotdot]
  · rw [List.concat_eq_append] at hn ⊢
    have hw : Proper s.cfg.sep w := hn w (by simp)
    rw [splitpath_absPath hp (fun v hv => hn v (by simp [hv])) hw, List.dropLast_concat]
    exact if_neg hw.2.2.1

theorem isabs_eq {k : Cfg} (hp : k.Posix) (p : Str) : k.isabs p = decide (isAbs k.sep p) := by
  unfold Cfg.isabs Cfg.startsWithSep
  rw [hp.win]
  simp [startsWithC_eq, hp.altsep]

section
variable {s : FS} (W : WalkOk s) (T : PlainTargets s) {K : Finset Str} (hK : ∀ l w x, LinkAt s l w x → absPath s.cfg.sep (l ++ [w]) ∈ K)
include W T hK

theorem realLoop_ends {n : Nat} (ih : ∀ path rest names seen, CleanAt s names → (¬ isAbs s.cfg.sep rest → path = absPath s.cfg.sep names) →
      (∀ w ∈ split s.cfg.sep rest, PlainPart w) → SeenOk s K seen → (K \ domSeen seen).card < n →
      Ends s K (if isAbs s.cfg.sep rest then [] else names) (split s.cfg.sep rest) seen (s.joinReal n path rest seen)) :
    ∀ (comps names : List Str) (seen : FS.Seen), CleanAt s names → (∀ w ∈ comps, s.cfg.sep ∉ w ∧ PlainPart w) → SeenOk s K seen →
      (K \ domSeen seen).card ≤ n → Ends s K names comps seen (s.realLoop (s.joinReal n) (absPath s.cfg.sep names) comps seen) := by
  intro comps
  induction comps with
  | nil =>
    intro names seen hc _ hs _
    exact ⟨_, _, _, rfl, hs, fun _ h => h, fun _ => ⟨⟨names, rfl, hc, .done names⟩, fun _ h => h⟩, by simp⟩
  | cons w rest ihc =>
    intro names seen hc hw hs hn
    have hrest : ∀ v ∈ rest, s.cfg.sep ∉ v ∧ PlainPart v := fun v hv => hw v (by simp [hv])
    obtain ⟨hwsep, hwp⟩ := hw w (by simp)
    unfold FS.realLoop
    by_cases h1 : w = [] ∨ w = dot
    · rw [if_pos h1]
      refine (ihc names seen hc hrest hs hn).step (fun out h => .skip h1 h) ?_
      intro h out hh
      cases hh with
      | skip _ h' => exact ⟨_, Nat.lt_succ_self _, h'⟩
      | up _ => simp [dot] at h1
      | enter a b _ _ _ => rcases h1 with h1 | h1 <;> contradiction
      | link a b _ _ _ _ _ => rcases h1 with h1 | h1 <;> contradiction
    rw [if_neg h1]
    have h1' : w ≠ [] ∧ w ≠ ['.'] := ⟨fun e => h1 (Or.inl e), fun e => h1 (Or.inr e)⟩
    by_cases h2 : w = dotdot
    · rw [if_pos h2]
      have hpar := realParent_absPath W.tree.posix (plain_proper hc.plain)
      rw [hpar]
      have h2 : w = ['.', '.'] := h2
      subst h2
      refine (ihc names.dropLast seen hc.dropLast hrest hs hn).step (fun out h => .up h) ?_
      intro h out hh
      cases hh with
      | skip a _ => simp at a
      | up h' => exact ⟨_, Nat.lt_succ_self _, h'⟩
      | enter _ _ a _ _ => contradiction
      | link _ _ a _ _ _ _ => contradiction
    rw [if_neg h2]
    have hwP : Plain s.cfg.sep w := plainPart_plain hwsep hwp h1'.1 h1'.2 h2
    have hj : s.cfg.joinpaths [absPath s.cfg.sep names, w] = absPath s.cfg.sep (names ++ [w]) :=
      join_absPath W.tree.posix (plain_proper hc.plain) hwP.1 (absPath_tidy W.inv W.tree.posix hc.plain)
    simp only [hj]
    obtain ⟨hl1, hl2⟩ := isLink_clean W hc hwP
    -- not a link
    have hplain : (∀ x, Spec.walk s.heap rootRef (names ++ [w]) = some x → (s.heap x).isLnk = false) →
        Ends s K names (w :: rest) seen (s.realLoop (s.joinReal n) (absPath s.cfg.sep (names ++ [w])) rest seen) := by
      intro hnl
      refine (ihc (names ++ [w]) seen (hc.snoc hwP hnl) hrest hs hn).step (fun out h => .enter h1'.1 h1'.2 h2 hnl h) ?_
      intro h out hh
      cases hh with
      | skip a _ => exact absurd a h1
      | up _ => exact absurd rfl h2
      | enter _ _ _ _ h' => exact ⟨_, Nat.lt_succ_self _, h'⟩
      | link _ _ _ a b _ _ => rw [hnl _ a] at b; contradiction
    cases hx : Spec.walk s.heap rootRef (names ++ [w]) with
    | none =>
      rw [hl2 hx]
      exact hplain (fun x h => by rw [hx] at h; simp at h)
    | some x =>
      obtain ⟨_, hl3⟩ := hl1 x hx
      rw [hl3]
      cases hlk : (s.heap x).isLnk with
      | false => exact hplain (fun y h => by rw [hx] at h; injection h with h; rw [← h]; exact hlk)
      | true =>
        have hL : LinkAt s names w x := ⟨hc, hwP, hx, hlk⟩
        have hxlt : x < s.next := walk_lt W.inv _ (root_lt W.inv) hx
        -- the derivation for a link
        have hder : ∀ h out, RealH s h names (w :: rest) out → ∃ a b mid, a + b < h ∧ RealH s a (startOf s names x) (partsOf s x) mid ∧ RealH s b mid rest out := by
          intro h out hh
          cases hh with
          | skip a _ => exact absurd a h1
          | up _ => exact absurd rfl h2
          | enter _ _ _ a _ => rw [a x hx] at hlk; contradiction
          | link _ _ _ a b c d =>
            rw [hx] at a
            injection a with a
            subst a
            exact ⟨_, _, _, Nat.lt_succ_self _, c, d⟩
        dsimp only
        cases hsn : alookup (absPath s.cfg.sep (names ++ [w])) seen with
        | some v =>
          cases v with
          | none =>
            refine ⟨_, _, _, rfl, hs, fun _ h => h, by simp, ?_⟩
            intro _ h out hh
            obtain ⟨a, b, mid, hab, ha, _⟩ := hder h out hh
            exact ⟨names, w, x, a, mid, hsn, hL, ha, by omega⟩
          | some p =>
            obtain ⟨l, w', x', mid, e, hL', rfl, hcm, hreal⟩ := hs.val _ _ hsn
            have he := absPath_inj W.tree.posix (by
              intro v hv
              rcases List.mem_append.mp hv with hv | hv
              · exact (hc.plain v hv).1
              · simp at hv; rw [hv]; exact hwP.1) (by
              intro v hv
              rcases List.mem_append.mp hv with hv | hv
              · exact (hL'.clean.plain v hv).1
              · simp at hv; rw [hv]; exact hL'.plain.1) e
            obtain ⟨rfl, e2⟩ := List.append_inj' he rfl
            injection e2 with e2 _
            subst e2
            have := hL'.walk
            rw [hx] at this
            injection this with this
            subst this
            refine (ihc mid seen hcm hrest hs hn).step (fun out h => .link h1'.1 h1'.2 h2 hx hlk hreal h) ?_
            intro h out hh
            obtain ⟨a, b, mid', hab, ha, hb⟩ := hder h out hh
            have := hreal.det ha.real
            subst this
            exact ⟨b, by omega, hb⟩
        | none =>
          dsimp only
          rw [readlink_clean W hc hwP hx hlk]
          dsimp only
          have hkK := hK names w x hL
          have hnd : absPath s.cfg.sep (names ++ [w]) ∉ domSeen seen := by rw [mem_domSeen]; simp [hsn]
          have hdom1 : ∀ v : Option Str, domSeen ((absPath s.cfg.sep (names ++ [w]), v) :: seen) = insert (absPath s.cfg.sep (names ++ [w])) (domSeen seen) := by
            intro v; simp [domSeen]
          have hs1 : SeenOk s K ((absPath s.cfg.sep (names ++ [w]), none) :: seen) := by
            refine ⟨?_, ?_⟩
            · rw [hdom1]; exact Finset.insert_subset hkK hs.dom
            · intro k p hk
              simp only [alookup] at hk
              split at hk
              · simp at hk
              · exact hs.val k p hk
          have hcard : (K \ domSeen ((absPath s.cfg.sep (names ++ [w]), none) :: seen)).card < n := by
            refine lt_of_lt_of_le (Finset.card_lt_card ?_) hn
            rw [hdom1]
            refine ⟨Finset.sdiff_subset_sdiff (le_refl _) (Finset.subset_insert _ _), ?_⟩
            intro hsub
            have := hsub (Finset.mem_sdiff.mpr ⟨hkK, hnd⟩)
            simp at this
          obtain ⟨p, ok, seen1, hr, hp⟩ := ih (absPath s.cfg.sep names) (s.linkTarget (s.heap x)) names _ hc (fun _ => rfl) (T x hxlt hlk) hs1 hcard
          rw [hr]
          have hdsub : domSeen seen ⊆ domSeen seen1 := by
            refine subset_trans ?_ hp.dom
            rw [hdom1]; exact Finset.subset_insert _ _
          have hbadkey : ∀ h0 a mid0, RealH s a (startOf s names x) (partsOf s x) mid0 → h0 ≤ a →
              Pending s ((absPath s.cfg.sep (names ++ [w]), none) :: seen) h0 → Pending s seen h0 := by
            intro h0 a mid0 ha hle hpd
            obtain ⟨l, w', x', g, mid', e1, e2, e3, e4⟩ := hpd.ex
            simp only [alookup] at e1
            split at e1
            · rename_i hk
              have he := absPath_inj W.tree.posix (by
                intro v hv
                rcases List.mem_append.mp hv with hv | hv
                · exact (hc.plain v hv).1
                · simp at hv; rw [hv]; exact hwP.1) (by
                intro v hv
                rcases List.mem_append.mp hv with hv | hv
                · exact (e2.clean.plain v hv).1
                · simp at hv; rw [hv]; exact e2.plain.1) hk
              obtain ⟨rfl, e5⟩ := List.append_inj' he rfl
              injection e5 with e5 _
              subst e5
              have := e2.walk
              rw [hx] at this
              injection this with this
              subst this
              have := (e3.det ha).1
              omega
            · exact ⟨l, w', x', g, mid', e1, e2, e3, e4⟩
          cases ok with
          | false =>
            refine ⟨_, _, _, rfl, hp.seenOk, hdsub, by simp, ?_⟩
            intro _ h out hh
            obtain ⟨a, b, mid, hab, ha, hb⟩ := hder h out hh
            exact (hbadkey a a mid ha (le_refl _) (hp.bad rfl a mid ha)).mono (by omega)
          | true =>
            obtain ⟨⟨mid, rfl, hcm, hreal⟩, hpend⟩ := hp.good rfl
            dsimp only
            have hdom2 : domSeen ((absPath s.cfg.sep (names ++ [w]), some (absPath s.cfg.sep mid)) :: seen1) = insert (absPath s.cfg.sep (names ++ [w])) (domSeen seen1) := by
              simp [domSeen]
            have hs2 : SeenOk s K ((absPath s.cfg.sep (names ++ [w]), some (absPath s.cfg.sep mid)) :: seen1) := by
              refine ⟨?_, ?_⟩
              · rw [hdom2]; exact Finset.insert_subset hkK hp.seenOk.dom
              · intro k p hk
                simp only [alookup] at hk
                split at hk
                · rename_i hk'
                  simp only [Option.some.injEq] at hk
                  exact ⟨names, w, x, mid, hk'.symm, hL, hk.symm, hcm, hreal⟩
                · exact hp.seenOk.val k p hk
            obtain ⟨p2, ok2, seen2, hr2, hp2⟩ := ihc mid _ hcm hrest hs2 (by
              refine le_trans (Finset.card_le_card ?_) hn
              refine Finset.sdiff_subset_sdiff (le_refl _) ?_
              rw [hdom2]
              exact subset_trans hdsub (Finset.subset_insert _ _))
            have hpend2 : ∀ k, alookup k ((absPath s.cfg.sep (names ++ [w]), some (absPath s.cfg.sep mid)) :: seen1) = some none → alookup k seen = some none := by
              intro k hk
              simp only [alookup] at hk
              split at hk
              · simp at hk
              · rename_i hne
                have := hpend k hk
                simp only [alookup, if_neg hne] at this
                exact this
            refine ⟨p2, ok2, seen2, hr2, hp2.seenOk, ?_, ?_, ?_⟩
            · refine subset_trans ?_ hp2.dom
              rw [hdom2]
              exact subset_trans hdsub (Finset.subset_insert _ _)
            · intro hok
              obtain ⟨⟨out, e1, e2, e3⟩, e4⟩ := hp2.good hok
              exact ⟨⟨out, e1, e2, .link h1'.1 h1'.2 h2 hx hlk hreal e3⟩, fun k hk => hpend2 k (e4 k hk)⟩
            · intro hok h out hh
              obtain ⟨a, b, mid', hab, ha, hb⟩ := hder h out hh
              have := hreal.det ha.real
              subst this
              obtain ⟨l, w', x', g, mid', e1, e2, e3, e4⟩ := (hp2.bad hok b out hb).ex
              exact ⟨l, w', x', g, mid', hpend2 _ e1, e2, e3, by omega⟩

theorem joinReal_ends : ∀ (n : Nat) (path rest : Str) (names : List Str) (seen : FS.Seen), CleanAt s names →
    (¬ isAbs s.cfg.sep rest → path = absPath s.cfg.sep names) →
      (∀ w ∈ split s.cfg.sep rest, PlainPart w) → SeenOk s K seen → (K \ domSeen seen).card < n →
      Ends s K (if isAbs s.cfg.sep rest then [] else names) (split s.cfg.sep rest) seen (s.joinReal n path rest seen) := by
  intro n
  induction n with
  | zero => intro _ _ _ _ _ _ _ _ h; omega
  | succ n ih =>
    intro path rest names seen hc hp hw hs hn
    have hnos : ∀ (q : Str), ∀ w ∈ split s.cfg.sep q, s.cfg.sep ∉ w := fun q w hw => mem_split_no_sep hw
    have hia := isabs_eq W.tree.posix rest
    unfold FS.joinReal
    rw [hia]
    by_cases ha : isAbs s.cfg.sep rest
    · obtain ⟨q, rfl⟩ := ha
      have ha : isAbs s.cfg.sep (s.cfg.sep :: q) := ⟨q, rfl⟩
      simp only [decide_eq_true_eq, if_pos ha, split_abs, List.drop_one, List.tail_cons]
      rw [split_abs] at hw
      have h0 := realLoop_ends W T hK ih (split s.cfg.sep q) [] seen CleanAt.nil (fun w h => ⟨hnos q w h, hw w (by simp [h])⟩) hs (by omega)
      have he : absPath s.cfg.sep [] = [s.cfg.sep] := rfl
      rw [he] at h0
      refine h0.step (fun out h => .skip (Or.inl rfl) h) ?_
      intro h out hh
      cases hh with
      | skip _ h' => exact ⟨_, Nat.lt_succ_self _, h'⟩
      | enter a _ _ _ _ => exact absurd rfl a
      | link a _ _ _ _ _ _ => exact absurd rfl a
    · simp only [decide_eq_true_eq, if_neg ha]
      rw [hp ha]
      exact realLoop_ends W T hK ih (split s.cfg.sep rest) names seen hc (fun w h => ⟨hnos rest w h, hw w h⟩) hs (by omega)
end

theorem abspath_canon {s : FS} (hp : s.cfg.Posix) {q : Str} (hq : isAbs s.cfg.sep q) : s.abspath q = s.cfg.normpath q := by
  unfold FS.abspath
  simp only [isabs_eq hp, hq, hp.win, decide_true, Bool.not_true, Bool.false_and, Bool.false_eq_true, if_false]

theorem abspath_isAbs {s : FS} (hi : Inv s) (hp : s.cfg.Posix) (q : Str) : isAbs s.cfg.sep (s.abspath q) := by
  by_cases hq : isAbs s.cfg.sep q
  · rw [abspath_canon hp hq, normpath_abs_iff hp]; exact hq
  · unfold FS.abspath
    simp only [isabs_eq hp, hq, hp.win, decide_false, Bool.not_false, if_true]
    rw [normpath_abs_iff hp, join_two hp, if_neg hq]
    obtain ⟨r, hr⟩ := hi.n.cwd hp
    rw [hr]
    split
    · exact ⟨_, rfl⟩
    · exact ⟨_, rfl⟩

/-- C45: `os.path.realpath` of an absolute path, in any reachable state, whatever the symlinks: it ends if the interpreter allows
more nested calls than there are symlinks; if resolving the path component by component has a result, this is what it returns, and no
prefix of it is a symlink; otherwise (a loop of symlinks) it still returns an absolute path. -/
theorem realpath_spec {s : FS} (hs : Reachable s) (ht : s.cfg.Tree) (W : Walkable s) (T : PlainTargets s) (hlim : linkEntries s < s.limit)
    {p : Str} (habs : isAbs s.cfg.sep p) (hp : ∀ w ∈ split s.cfg.sep p, PlainPart w) :
    ∃ q, s.realpath p = .ok q ∧ isAbs s.cfg.sep q ∧
      ∀ out, Real s [] (split s.cfg.sep p) out → q = absPath s.cfg.sep out ∧
        ∀ l x, l <+: out → Spec.walk s.heap rootRef l = some x → (s.heap x).isLnk = false := by
  have hi := reachable_inv hs
  have W : WalkOk s := ⟨hi, ht, W.genuine, W.readable, W.dirs, W.noDev, W.names⟩
  obtain ⟨K, hK1, hK2⟩ := link_paths hi
  obtain ⟨q, ok, seen', hr, hp⟩ := joinReal_ends W T hK2 s.limit [] p [] [] CleanAt.nil (fun h => absurd habs h) hp
    ⟨by simp [domSeen], by simp [alookup]⟩ (by simp [domSeen]; omega)
  rw [if_pos habs] at hp
  refine ⟨s.abspath q, ?_, abspath_isAbs hi ht.posix q, ?_⟩
  · unfold FS.realpath
    rw [if_neg (by simp [ht.posix.win]), hr]
  · intro out hout
    cases ok with
    | false =>
      obtain ⟨h, hh⟩ := hout.height
      obtain ⟨l, w, x, g, mid, e1, _⟩ := (hp.bad rfl h out hh).ex
      simp [alookup] at e1
    | true =>
      obtain ⟨⟨out', rfl, hc, hr'⟩, _⟩ := hp.good rfl
      rw [hr'.det hout] at hc ⊢
      refine ⟨?_, ?_⟩
      · rw [abspath_canon ht.posix (q := absPath s.cfg.sep out) ⟨_, rfl⟩]
        exact normpath_canon_id ht.posix (Or.inl (absCanon_names (plain_proper hc.plain)))
      · rintro l x ⟨l', rfl⟩ hx
        exact noLink_last (root_not_lnk hi) (noLink_prefix hc.noLink) hx

/-- C45: the result leads to the object found by resolving the path component by component. -/
theorem realpath_resolves {s : FS} (hs : Reachable s) (ht : s.cfg.Tree) (W : Walkable s) (T : PlainTargets s) (hlim : linkEntries s < s.limit)
    {p : Str} (habs : isAbs s.cfg.sep p) (hp : ∀ w ∈ split s.cfg.sep p, PlainPart w) {out : List Str}
    (hr : Real s [] (split s.cfg.sep p) out) {x : Ref} (hx : Spec.walk s.heap rootRef out = some x) :
    ∃ q, s.realpath p = .ok q ∧ s.resolve q = .ok x := by
  have hi := reachable_inv hs
  obtain ⟨q, h1, _, h2⟩ := realpath_spec hs ht W T hlim habs hp
  obtain ⟨rfl, h3⟩ := h2 out hr
  refine ⟨_, h1, ?_⟩
  have hpl := walk_names hi W.names (root_lt hi) hx
  have hd : absPath s.cfg.sep out ≠ s.devName := by
    intro e
    have := W.noDev out (plain_proper hpl) e
    rw [hx] at this; simp at this
  have hn : ∀ (l l' : List Str), NoLink s.heap rootRef l → out = l ++ l' → NoLink s.heap rootRef out := by
    intro l l'
    induction l' generalizing l with
    | nil => intro h e; rw [e, List.append_nil]; exact h
    | cons w l' ih =>
      intro h e
      refine ih (l ++ [w]) ?_ (by rw [e]; simp)
      rw [noLink_append]
      refine ⟨h, fun y hy z hz => ⟨h3 (l ++ [w]) z ⟨l', by rw [e]; simp⟩ (by rw [walk_append, hy]; simp [Spec.walk, hz]), trivial⟩⟩
  exact (resolve_plain hi ht s.rc hpl (hn [] out trivial rfl) hd).mpr ⟨hx, through_genuine hi W.genuine (root_lt hi) hx,
    fun y hy => W.readable.readable (walked_lt hi _ (root_lt hi) y hy) true⟩

theorem demo_targets : PlainTargets demo := by
  unfold PlainTargets PlainPart
  rw [demo_next, demo_sep]
  decide +kernel

/-- `/l/../d` in the demo filesystem, where `/l → a/f`: `/a/d`, not `/d` -/
theorem demo_real : Real demo [] (split demo.cfg.sep ['/', 'l', '/', '.', '.', '/', 'd']) [['a'], ['d']] := by
  rw [demo_sep]
  have e : split '/' ['/', 'l', '/', '.', '.', '/', 'd'] = [[], ['l'], ['.', '.'], ['d']] := by decide
  rw [e]
  refine .skip (Or.inl rfl) (.link (x := 4) (mid := [['a'], ['f']]) (by simp) (by simp) (by simp) (by decide +kernel) (by decide +kernel) ?_ (.up ?_))
  · have e : split demo.cfg.sep (demo.linkTarget (demo.heap 4)) = [['a'], ['f']] := by decide +kernel
    rw [e]
    have e2 : ¬ isAbs demo.cfg.sep (demo.linkTarget (demo.heap 4)) := of_decide_eq_false (by decide +kernel)
    rw [if_neg e2]
    refine .enter (by simp) (by simp) (by simp) ?_ (.enter (by simp) (by simp) (by simp) ?_ (.done _))
    · have : Spec.walk demo.heap rootRef ([] ++ [['a']]) = some 2 := by decide +kernel
      rw [this]; intro x h; injection h with h; rw [← h]; decide +kernel
    · have : Spec.walk demo.heap rootRef (([] ++ [['a']]) ++ [['f']]) = some 3 := by decide +kernel
      rw [this]; intro x h; injection h with h; rw [← h]; decide +kernel
  · refine .enter (by simp) (by simp) (by simp) ?_ (.done _)
    have : Spec.walk demo.heap rootRef ([['a'], ['f']].dropLast ++ [['d']]) = some 5 := by decide +kernel
    rw [this]; intro x h; injection h with h; rw [← h]; decide +kernel

example : ∃ q, demo.realpath ['/', 'l', '/', '.', '.', '/', 'd'] = .ok q ∧ demo.resolve q = .ok 5 :=
  realpath_resolves demo_reachable demo_tree demo_walkable demo_targets (by decide +kernel) (by rw [demo_sep]; exact ⟨_, rfl⟩)
    (by rw [demo_sep]; unfold PlainPart; decide) demo_real (by decide +kernel)

example : demo.realpath ['/', 'l', '/', '.', '.', '/', 'd'] = .ok ['/', 'a', '/', 'd'] := by decide +kernel

/-- a link to itself, `/l → ../l` -/
def selfFS : FS := runs [.createSymlink ['/', 'l'] ['.', '.', '/', 'l'] false] (initFS demoCfg 50 0 0 0o022 7 none)

theorem self_reachable : Reachable selfFS := ⟨_, _, _, _, _, _, _, _, rfl⟩

/-- C45 for relative paths: the loop is found if the link is given by its absolute path, but with the relative path the same link is met as
`l`, `../l`, `../../l`, ... until the interpreter's limit is exceeded. -/
theorem realpath_relative_counterexample : selfFS.realpath ['/', 'l'] = .ok ['/', 'l'] ∧ selfFS.cwd = ['/'] ∧
    selfFS.realpath ['l'] = .error .recursion := by
  decide +kernel

end Verif
