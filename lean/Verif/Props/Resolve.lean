import Verif.Slash
/-!
# C48: `Path.resolve`
-/

namespace Verif
open Py Spec Cfg

namespace Spec
/-- What resolving the components one after the other gives, from the location `names` (no symlinks in it): the location, or the error
for the first missing component in strict mode. `.` and empty components are skipped, `..` goes up, a symlink is replaced by what its
target resolves to from where the link is, anything else is entered. A chain of symlinks that does not end gives nothing. -/
inductive Resolves (s : FS) (strict : Bool) : List Str → List Str → Except Errno (List Str) → Prop
  | done (names : List Str) : Resolves s strict names [] (.ok names)
  | skip {names rest : List Str} {o} {w : Str} : (w = [] ∨ w = ['.']) → Resolves s strict names rest o → Resolves s strict names (w :: rest) o
  | up {names rest : List Str} {o} : Resolves s strict names.dropLast rest o → Resolves s strict names (['.', '.'] :: rest) o
  | missing {names rest : List Str} {w : Str} {r : Ref} : w ≠ [] → w ≠ ['.'] → w ≠ ['.', '.'] → strict = true →
      Spec.walk s.heap rootRef names = some r → Spec.walk s.heap rootRef (names ++ [w]) = none →
      Resolves s strict names (w :: rest) (.error (if (s.heap r).isDir then .ENOENT else .ENOTDIR))
  | enter {names rest : List Str} {o} {w : Str} : w ≠ [] → w ≠ ['.'] → w ≠ ['.', '.'] →
      (Spec.walk s.heap rootRef (names ++ [w]) = none → strict = false) →
      (∀ x, Spec.walk s.heap rootRef (names ++ [w]) = some x → (s.heap x).isLnk = false) →
      Resolves s strict (names ++ [w]) rest o → Resolves s strict names (w :: rest) o
  | link {names rest mid : List Str} {o} {w : Str} {x : Ref} : w ≠ [] → w ≠ ['.'] → w ≠ ['.', '.'] →
      Spec.walk s.heap rootRef (names ++ [w]) = some x → (s.heap x).isLnk = true →
      Resolves s strict (if isAbs s.cfg.sep (s.linkTarget (s.heap x)) then [] else names)
        (split s.cfg.sep (s.linkTarget (s.heap x))) (.ok mid) →
      Resolves s strict mid rest o → Resolves s strict names (w :: rest) o
  | fails {names rest : List Str} {e : Errno} {w : Str} {x : Ref} : w ≠ [] → w ≠ ['.'] → w ≠ ['.', '.'] →
      Spec.walk s.heap rootRef (names ++ [w]) = some x → (s.heap x).isLnk = true →
      Resolves s strict (if isAbs s.cfg.sep (s.linkTarget (s.heap x)) then [] else names)
        (split s.cfg.sep (s.linkTarget (s.heap x))) (.error e) →
      Resolves s strict names (w :: rest) (.error e)
end Spec

/-- `Resolves` with the size of the derivation -/
inductive ResH (s : FS) (strict : Bool) : Nat → List Str → List Str → Except Errno (List Str) → Prop
  | done (names : List Str) : ResH s strict 0 names [] (.ok names)
  | skip {n : Nat} {names rest : List Str} {o} {w : Str} : (w = [] ∨ w = ['.']) → ResH s strict n names rest o → ResH s strict (n + 1) names (w :: rest) o
  | up {n : Nat} {names rest : List Str} {o} : ResH s strict n names.dropLast rest o → ResH s strict (n + 1) names (['.', '.'] :: rest) o
  | missing {names rest : List Str} {w : Str} {r : Ref} : w ≠ [] → w ≠ ['.'] → w ≠ ['.', '.'] → strict = true →
      Spec.walk s.heap rootRef names = some r → Spec.walk s.heap rootRef (names ++ [w]) = none →
      ResH s strict 0 names (w :: rest) (.error (if (s.heap r).isDir then .ENOENT else .ENOTDIR))
  | enter {n : Nat} {names rest : List Str} {o} {w : Str} : w ≠ [] → w ≠ ['.'] → w ≠ ['.', '.'] →
      (Spec.walk s.heap rootRef (names ++ [w]) = none → strict = false) →
      (∀ x, Spec.walk s.heap rootRef (names ++ [w]) = some x → (s.heap x).isLnk = false) →
      ResH s strict n (names ++ [w]) rest o → ResH s strict (n + 1) names (w :: rest) o
  | link {n m : Nat} {names rest mid : List Str} {o} {w : Str} {x : Ref} : w ≠ [] → w ≠ ['.'] → w ≠ ['.', '.'] →
      Spec.walk s.heap rootRef (names ++ [w]) = some x → (s.heap x).isLnk = true →
      ResH s strict n (startOf s names x) (partsOf s x) (.ok mid) →
      ResH s strict m mid rest o → ResH s strict (n + m + 1) names (w :: rest) o
  | fails {n : Nat} {names rest : List Str} {e : Errno} {w : Str} {x : Ref} : w ≠ [] → w ≠ ['.'] → w ≠ ['.', '.'] →
      Spec.walk s.heap rootRef (names ++ [w]) = some x → (s.heap x).isLnk = true →
      ResH s strict n (startOf s names x) (partsOf s x) (.error e) →
      ResH s strict (n + 1) names (w :: rest) (.error e)

theorem Spec.Resolves.height {s : FS} {strict : Bool} {names comps : List Str} {o} (h : Resolves s strict names comps o) : ∃ n, ResH s strict n names comps o := by
  induction h with
  | done names => exact ⟨_, .done names⟩
  | skip hw _ ih => obtain ⟨n, ih⟩ := ih; exact ⟨_, .skip hw ih⟩
  | up _ ih => obtain ⟨n, ih⟩ := ih; exact ⟨_, .up ih⟩
  | missing h1 h2 h3 h4 h5 h6 => exact ⟨_, .missing h1 h2 h3 h4 h5 h6⟩
  | enter h1 h2 h3 h4 h5 _ ih => obtain ⟨n, ih⟩ := ih; exact ⟨_, .enter h1 h2 h3 h4 h5 ih⟩
  | link h1 h2 h3 h4 h5 _ _ ih1 ih2 =>
    obtain ⟨n, ih1⟩ := ih1
    obtain ⟨m, ih2⟩ := ih2
    exact ⟨_, .link h1 h2 h3 h4 h5 ih1 ih2⟩
  | fails h1 h2 h3 h4 h5 _ ih1 =>
    obtain ⟨n, ih1⟩ := ih1
    exact ⟨_, .fails h1 h2 h3 h4 h5 ih1⟩

theorem ResH.res {s : FS} {strict : Bool} {n : Nat} {names comps : List Str} {o} (h : ResH s strict n names comps o) : Resolves s strict names comps o := by
  induction h with
  | done names => exact .done names
  | skip hw _ ih => exact .skip hw ih
  | up _ ih => exact .up ih
  | missing h1 h2 h3 h4 h5 h6 => exact .missing h1 h2 h3 h4 h5 h6
  | enter h1 h2 h3 h4 h5 _ ih => exact .enter h1 h2 h3 h4 h5 ih
  | link h1 h2 h3 h4 h5 _ _ ih1 ih2 => exact .link h1 h2 h3 h4 h5 ih1 ih2
  | fails h1 h2 h3 h4 h5 _ ih1 => exact .fails h1 h2 h3 h4 h5 ih1

theorem ResH.det {s : FS} {strict : Bool} {n : Nat} {names comps : List Str} {o} (h : ResH s strict n names comps o) :
    ∀ {n' : Nat} {o'}, ResH s strict n' names comps o' → n = n' ∧ o = o' := by
  induction h with
  | done names => intro n' out' h'; cases h' with | done => exact ⟨rfl, rfl⟩
  | skip hw _ ih =>
    intro n' out' h'
    cases h' with
    | skip _ h' => obtain ⟨rfl, rfl⟩ := ih h'; exact ⟨rfl, rfl⟩
    | up _ => simp at hw
    | missing h1 h2 h3 _ _ _ => rcases hw with hw | hw <;> contradiction
    | enter h1 h2 h3 _ _ _ => rcases hw with hw | hw <;> contradiction
    | link h1 h2 h3 _ _ _ _ => rcases hw with hw | hw <;> contradiction
    | fails h1 h2 h3 _ _ _ => rcases hw with hw | hw <;> contradiction
  | up _ ih =>
    intro n' out' h'
    cases h' with
    | skip hw _ => simp at hw
    | up h' => obtain ⟨rfl, rfl⟩ := ih h'; exact ⟨rfl, rfl⟩
    | missing h1 h2 h3 _ _ _ => contradiction
    | enter h1 h2 h3 _ _ _ => contradiction
    | link h1 h2 h3 _ _ _ _ => contradiction
    | fails h1 h2 h3 _ _ _ => contradiction
  | missing h1 h2 h3 h4 h5 h6 =>
    intro n' out' h'
    cases h' with
    | skip hw _ => rcases hw with hw | hw <;> contradiction
    | up _ => contradiction
    | missing _ _ _ _ h7 _ => rw [h5] at h7; injection h7 with h7; subst h7; exact ⟨rfl, rfl⟩
    | enter _ _ _ h7 _ _ => rw [h7 h6] at h4; contradiction
    | link _ _ _ h7 _ _ _ => rw [h6] at h7; contradiction
    | fails _ _ _ h7 _ _ => rw [h6] at h7; contradiction
  | enter h1 h2 h3 h4 h5 _ ih =>
    intro n' out' h'
    cases h' with
    | skip hw _ => rcases hw with hw | hw <;> contradiction
    | up _ => contradiction
    | missing _ _ _ h7 _ h8 => rw [h4 h8] at h7; contradiction
    | enter _ _ _ _ _ h' => obtain ⟨rfl, rfl⟩ := ih h'; exact ⟨rfl, rfl⟩
    | link _ _ _ h6 h7 _ _ => rw [h5 _ h6] at h7; contradiction
    | fails _ _ _ h6 h7 _ => rw [h5 _ h6] at h7; contradiction
  | link h1 h2 h3 h4 h5 _ _ ih1 ih2 =>
    intro n' out' h'
    cases h' with
    | skip hw _ => rcases hw with hw | hw <;> contradiction
    | up _ => contradiction
    | missing _ _ _ _ _ h8 => rw [h4] at h8; contradiction
    | enter _ _ _ _ h6 _ => rw [h6 _ h4] at h5; contradiction
    | link _ _ _ h6 h7 h8 h9 =>
      rw [h4] at h6
      injection h6 with h6
      subst h6
      obtain ⟨rfl, e⟩ := ih1 h8
      injection e with e
      subst e
      obtain ⟨rfl, rfl⟩ := ih2 h9
      exact ⟨rfl, rfl⟩
    | fails _ _ _ h6 h7 h8 =>
      rw [h4] at h6
      injection h6 with h6
      subst h6
      have := (ih1 h8).2
      contradiction
  | fails h1 h2 h3 h4 h5 _ ih1 =>
    intro n' out' h'
    cases h' with
    | skip hw _ => rcases hw with hw | hw <;> contradiction
    | up _ => contradiction
    | missing _ _ _ _ _ h8 => rw [h4] at h8; contradiction
    | enter _ _ _ _ h6 _ => rw [h6 _ h4] at h5; contradiction
    | link _ _ _ h6 h7 h8 h9 =>
      rw [h4] at h6
      injection h6 with h6
      subst h6
      have := (ih1 h8).2
      contradiction
    | fails _ _ _ h6 h7 h8 =>
      rw [h4] at h6
      injection h6 with h6
      subst h6
      obtain ⟨rfl, e⟩ := ih1 h8
      injection e with e
      subst e
      exact ⟨rfl, rfl⟩

theorem Spec.Resolves.det {s : FS} {strict : Bool} {names comps : List Str} {o o'} (h : Resolves s strict names comps o) (h' : Resolves s strict names comps o') : o = o' := by
  obtain ⟨n, h⟩ := h.height
  obtain ⟨n', h'⟩ := h'.height
  exact (h.det h').2

/-- without `strict` this is the resolution that `os.path.realpath` does -/
theorem Spec.Resolves.real {s : FS} {names comps : List Str} {o} (h : Resolves s false names comps o) : ∃ out, o = .ok out ∧ Real s names comps out := by
  induction h with
  | done names => exact ⟨_, rfl, .done names⟩
  | skip hw _ ih => obtain ⟨out, rfl, ih⟩ := ih; exact ⟨_, rfl, .skip hw ih⟩
  | up _ ih => obtain ⟨out, rfl, ih⟩ := ih; exact ⟨_, rfl, .up ih⟩
  | missing h1 h2 h3 h4 h5 h6 => contradiction
  | enter h1 h2 h3 h4 h5 _ ih => obtain ⟨out, rfl, ih⟩ := ih; exact ⟨_, rfl, .enter h1 h2 h3 h5 ih⟩
  | link h1 h2 h3 h4 h5 _ _ ih1 ih2 =>
    obtain ⟨n, e, ih1⟩ := ih1
    injection e with e
    subst e
    obtain ⟨m, rfl, ih2⟩ := ih2
    exact ⟨_, rfl, .link h1 h2 h3 h4 h5 ih1 ih2⟩
  | fails h1 h2 h3 h4 h5 _ ih1 =>
    obtain ⟨n, e, ih1⟩ := ih1
    contradiction

theorem Spec.Real.resolves {s : FS} {names comps out : List Str} (h : Real s names comps out) : Resolves s false names comps (.ok out) := by
  induction h with
  | done names => exact .done names
  | skip hw _ ih => exact .skip hw ih
  | up _ ih => exact .up ih
  | enter h1 h2 h3 h5 _ ih => exact .enter h1 h2 h3 (fun _ => rfl) h5 ih
  | link h1 h2 h3 h4 h5 _ _ ih1 ih2 => exact .link h1 h2 h3 h4 h5 ih1 ih2

/-! ### readlink of a component -/

theorem readlink_other {s : FS} (W : WalkOk s) {l : List Str} (h : CleanAt s l) {w : Str} (hw : Plain s.cfg.sep w) {x : Ref}
    (hx : Spec.walk s.heap rootRef (l ++ [w]) = some x) (hl : (s.heap x).isLnk = false) :
    s.readlink (absPath s.cfg.sep (l ++ [w])) = .error (.os .EINVAL) := by
  have hr := ((isLink_clean W h hw).1 x hx).1
  have hm : ifmt (s.heap x).mode ≠ S_IFLNK := by unfold Obj.isLnk at hl; simpa using hl
  unfold FS.readlink
  simp only [hr, bind, Except.bind]
  rw [if_pos hm]

theorem lresolve_missing {s : FS} (W : WalkOk s) {l : List Str} (h : CleanAt s l) {w : Str} (hw : Plain s.cfg.sep w)
    (hx : Spec.walk s.heap rootRef (l ++ [w]) = none) : ∃ e, s.lresolveG s.rc (absPath s.cfg.sep (l ++ [w])) = .error e ∧ e.isOS = true := by
  have hi := W.inv
  have ht := W.tree
  cases hr : s.lresolveG s.rc (absPath s.cfg.sep (l ++ [w])) with
  | error e => exact ⟨e, rfl, lresolve_error W h.plain hw hr⟩
  | ok x =>
    exfalso
    by_cases hd : absPath s.cfg.sep l = s.devName
    · obtain ⟨r, h1, h2, _, h4⟩ := (lresolve_tree ht s.rc (plain_proper h.plain) hw.1).mp hr
      rcases (resolveG_ok hi ht _).mp h1 with ⟨_, _, ⟨h3, _⟩ | ⟨_, _, rfl⟩ | ⟨_, h3, _⟩⟩
      · rw [absnorm_canon hi ht.posix (absCanon_names (plain_proper h.plain))] at h3
        rw [(absPath_eq_root (fun v hv => proper_compOk (h.plain v hv).1)).mp h3] at hd hx
        have := W.noDev [] (by simp) hd
        simp [Spec.walk] at this
      · rw [hi.n.devFile] at h2; simp at h2
      · rw [absnorm_canon hi ht.posix (absCanon_names (plain_proper h.plain))] at h3
        exact h3 hd
    · have := ((lresolve_plain hi ht s.rc h.plain hw.1 h.noLink hd).mp hr).1
      rw [hx] at this; simp at this

theorem readlink_missing {s : FS} (W : WalkOk s) {l : List Str} (h : CleanAt s l) {w : Str} (hw : Plain s.cfg.sep w)
    (hx : Spec.walk s.heap rootRef (l ++ [w]) = none) : ∃ e, s.readlink (absPath s.cfg.sep (l ++ [w])) = .error e ∧ e.isOS = true := by
  obtain ⟨e, he, ho⟩ := lresolve_missing W h hw hx
  refine ⟨e, ?_, ho⟩
  have he : s.lresolve (absPath s.cfg.sep (l ++ [w])) = .error e := he
  unfold FS.readlink
  simp only [he, bind, Except.bind]

theorem readlink_strict {s : FS} (W : WalkOk s) {l : List Str} (h : CleanAt s l) {w : Str} (hw : Plain s.cfg.sep w) {r : Ref}
    (hr : Spec.walk s.heap rootRef l = some r) (hx : Spec.walk s.heap rootRef (l ++ [w]) = none) :
    s.readlink (absPath s.cfg.sep (l ++ [w])) = .error (.os (if (s.heap r).isDir then .ENOENT else .ENOTDIR)) := by
  have hi := W.inv
  have ht := W.tree
  have hcan : AbsCanon s.cfg.sep (absPath s.cfg.sep (l ++ [w])) := absCanon_names (fun v hv => by
    rcases List.mem_append.mp hv with hv | hv
    · exact (h.plain v hv).1
    · simp at hv; rw [hv]; exact hw.1)
  have hd : absPath s.cfg.sep l ≠ s.devName := by
    intro e
    have := W.noDev l (plain_proper h.plain) e
    rw [hr] at this; simp at this
  have hres : s.resolveG s.rc (absPath s.cfg.sep l) true = .ok r :=
    (resolve_plain hi ht s.rc h.plain h.noLink hd).mpr ⟨hr, through_genuine hi W.genuine (root_lt hi) hr,
      fun y hy => W.readable.readable (walked_lt hi _ (root_lt hi) y hy) true⟩
  have hp : s.lparent (absPath s.cfg.sep (l ++ [w])) = (absPath s.cfg.sep l, w) := by
    unfold FS.lparent
    simp only [stripTrailing_canon ht.posix hcan, absPath_ne_dot ht.posix, if_false, originalPath_tree ht.cs,
      splitpath_absPath ht.posix (plain_proper h.plain) hw.1, absPath_ne_nil]
  have he : s.lresolve (absPath s.cfg.sep (l ++ [w])) = .error (.os (if (s.heap r).isDir then .ENOENT else .ENOTDIR)) := by
    unfold FS.lresolve FS.lresolveG
    rw [if_neg absPath_ne_nil, if_neg (absPath_snoc_ne_root (plain_proper h.plain) hw.1), hp]
    show (s.resolveG s.rc (absPath s.cfg.sep l) true >>= fun r => s.lentry r w) = _
    rw [hres]
    show s.lentry r w = _
    have hrl := walk_lt hi l (root_lt hi) hr
    have hdr := W.dirs r hrl
    have hwk : alookup w (s.heap r).entries = none := by
      rw [walk_append, hr] at hx
      simp only [Option.bind_some, Spec.walk] at hx
      cases ha : alookup w (s.heap r).entries with
      | none => rfl
      | some y => rw [ha] at hx; simp at hx
    unfold FS.lentry
    cases hc : (s.heap r).content with
    | file f => simp [Obj.isDir, hc, ht.posix.win]
    | dir es =>
      have hdir : (s.heap r).isDir = true := by simp [Obj.isDir, hc]
      have hes : (s.heap r).entries = es := by simp [Obj.entries, hc]
      rw [hes] at hwk
      simp only [hdir, if_true, if_neg (hdr hdir), if_neg hw.1.1, getEntry_tree ht.cs, hwk]
  unfold FS.readlink
  simp only [he, bind, Except.bind]


/-! ### the loop -/

/-- in strict mode the location exists -/
def Here (s : FS) (strict : Bool) (l : List Str) : Prop := strict = true → ∃ x, Spec.walk s.heap rootRef l = some x

theorem Here.nil {s : FS} {strict : Bool} : Here s strict [] := fun _ => ⟨_, rfl⟩
theorem Here.dropLast {s : FS} {strict : Bool} {l : List Str} (h : Here s strict l) : Here s strict l.dropLast := by
  intro hs
  obtain ⟨x, hx⟩ := h hs
  rcases List.eq_nil_or_concat l with rfl | ⟨l', w, rfl⟩
  · exact ⟨_, rfl⟩
  · rw [List.concat_eq_append] at hx ⊢
    rw [List.dropLast_concat]
    rw [walk_append, Option.bind_eq_some_iff] at hx
    obtain ⟨y, hy, _⟩ := hx
    exact ⟨y, hy⟩

/-- what `seen` holds: paths of symlinks, and what they resolve to -/
structure SeenR (s : FS) (strict : Bool) (K : Finset Str) (seen : FS.Seen) : Prop where
  dom : domSeen seen ⊆ K
  key : ∀ k v, alookup k seen = some v → ∃ l w x, At s.cfg.sep (l ++ [w]) k ∧ LinkAt s l w x
  val : ∀ k p, alookup k seen = some (some p) → ∃ l w x mid, At s.cfg.sep (l ++ [w]) k ∧ LinkAt s l w x ∧
    At s.cfg.sep mid p ∧ CleanAt s mid ∧ Here s strict mid ∧ Resolves s strict (startOf s l x) (partsOf s x) (.ok mid)

/-- the symlink is being resolved -/
structure PendR (s : FS) (strict : Bool) (seen : FS.Seen) (h : Nat) : Prop where
  ex : ∃ k l w x h' o, At s.cfg.sep (l ++ [w]) k ∧ alookup k seen = some none ∧ LinkAt s l w x ∧
    ResH s strict h' (startOf s l x) (partsOf s x) o ∧ h' < h

structure OkR (s : FS) (strict : Bool) (K : Finset Str) (names comps : List Str) (seen : FS.Seen) (p : Str) (seen' : FS.Seen) (out : List Str) : Prop where
  seenOk : SeenR s strict K seen'
  dom : domSeen seen ⊆ domSeen seen'
  at_ : At s.cfg.sep out p
  clean : CleanAt s out
  here : Here s strict out
  res : Resolves s strict names comps (.ok out)
  pend : ∀ k, alookup k seen' = some none → alookup k seen = some none

/-- how the loop and the recursive call end -/
def EndsR (s : FS) (strict : Bool) (K : Finset Str) (names comps : List Str) (seen : FS.Seen) (r : Except Err (Str × FS.Seen)) : Prop :=
  (∃ p seen' out, r = .ok (p, seen') ∧ OkR s strict K names comps seen p seen' out) ∨
  (∃ e, r = .error (.os e) ∧ Resolves s strict names comps (.error e)) ∨
  (r = .error .runtimeError ∧ ∀ h o, ResH s strict h names comps o → PendR s strict seen h)

theorem PendR.mono {s : FS} {strict : Bool} {seen : FS.Seen} {h h' : Nat} (p : PendR s strict seen h) (hl : h ≤ h') : PendR s strict seen h' := by
  obtain ⟨k, l, w, x, g, mid, h0, h1, h2, h3, h4⟩ := p.ex
  exact ⟨k, l, w, x, g, mid, h0, h1, h2, h3, lt_of_lt_of_le h4 hl⟩

/-- a step that adds nothing to `seen` -/
theorem EndsR.step {s : FS} {strict : Bool} {K : Finset Str} {names names' comps comps' : List Str} {seen : FS.Seen} {r : Except Err (Str × FS.Seen)}
    (h : EndsR s strict K names' comps' seen r) (hg : ∀ o, Resolves s strict names' comps' o → Resolves s strict names comps o)
    (hb : ∀ h o, ResH s strict h names comps o → ∃ h' < h, ResH s strict h' names' comps' o) : EndsR s strict K names comps seen r := by
  rcases h with ⟨p, seen', out, hr, hp⟩ | ⟨e, hr, hp⟩ | ⟨hr, hp⟩
  · exact Or.inl ⟨p, seen', out, hr, hp.seenOk, hp.dom, hp.at_, hp.clean, hp.here, hg _ hp.res, hp.pend⟩
  · exact Or.inr (Or.inl ⟨e, hr, hg _ hp⟩)
  · refine Or.inr (Or.inr ⟨hr, ?_⟩)
    intro g o hh
    obtain ⟨g', hlt, hh'⟩ := hb g o hh
    exact (hp g' o hh').mono (le_of_lt hlt)

theorem snoc_proper {c : Char} {l : List Str} {w : Str} (hl : ∀ v ∈ l, Plain c v) (hw : Plain c w) : ∀ v ∈ l ++ [w], Proper c v := by
  intro v hv
  rcases List.mem_append.mp hv with hv | hv
  · exact (hl v hv).1
  · simp at hv; rw [hv]; exact hw.1

/-- two links with the same path are the same -/
theorem LinkAt.same {s : FS} {l l' : List Str} {w w' : Str} {x x' : Ref} {k : Str} (h : LinkAt s l w x) (h' : LinkAt s l' w' x')
    (hk : At s.cfg.sep (l ++ [w]) k) (hk' : At s.cfg.sep (l' ++ [w']) k) : l = l' ∧ w = w' ∧ x = x' := by
  have he := At.inj (snoc_proper h.clean.plain h.plain) (snoc_proper h'.clean.plain h'.plain) hk hk'
  obtain ⟨rfl, e2⟩ := List.append_inj' he rfl
  injection e2 with e2 _
  subst e2
  have := h.walk
  rw [h'.walk] at this
  injection this with this
  exact ⟨rfl, rfl, this.symm⟩

section
variable {s : FS} (W : WalkOk s) (T : PlainTargets s) {strict : Bool} {K : Finset Str}
  (hK : ∀ l w x k, LinkAt s l w x → At s.cfg.sep (l ++ [w]) k → k ∈ K)
include W T hK

theorem resolveLoop_ends {n : Nat} (ih : ∀ path rest names seen, CleanAt s names → Here s strict names → At s.cfg.sep names path →
      (∀ w ∈ split s.cfg.sep rest, PlainPart w) → SeenR s strict K seen → (K \ domSeen seen).card < n →
      EndsR s strict K (if isAbs s.cfg.sep rest then [] else names) (split s.cfg.sep rest) seen (s.resolveRec strict n path rest seen)) :
    ∀ (comps names : List Str) (path : Str) (seen : FS.Seen), CleanAt s names → Here s strict names → At s.cfg.sep names path →
      (∀ w ∈ comps, s.cfg.sep ∉ w ∧ PlainPart w) → SeenR s strict K seen →
      (K \ domSeen seen).card ≤ n → EndsR s strict K names comps seen (s.resolveLoop strict (s.resolveRec strict n) path comps seen) := by
  intro comps
  induction comps with
  | nil =>
    intro names path seen hc hh ha _ hs _
    exact Or.inl ⟨_, _, _, rfl, hs, fun _ h => h, ha, hc, hh, .done names, fun _ h => h⟩
  | cons w rest ihc =>
    intro names path seen hc hh ha hw hs hn
    have hrest : ∀ v ∈ rest, s.cfg.sep ∉ v ∧ PlainPart v := fun v hv => hw v (by simp [hv])
    obtain ⟨hwsep, hwp⟩ := hw w (by simp)
    unfold FS.resolveLoop
    by_cases h1 : w = [] ∨ w = dot
    · rw [if_pos h1]
      refine (ihc names path seen hc hh ha hrest hs hn).step (fun out h => .skip h1 h) ?_
      intro h out hh
      cases hh with
      | skip _ h' => exact ⟨_, Nat.lt_succ_self _, h'⟩
      | up _ => simp [dot] at h1
      | missing a b _ _ _ _ => rcases h1 with h1 | h1 <;> contradiction
      | enter a b _ _ _ _ => rcases h1 with h1 | h1 <;> contradiction
      | link a b _ _ _ _ _ => rcases h1 with h1 | h1 <;> contradiction
      | fails a b _ _ _ _ => rcases h1 with h1 | h1 <;> contradiction
    rw [if_neg h1]
    have h1' : w ≠ [] ∧ w ≠ ['.'] := ⟨fun e => h1 (Or.inl e), fun e => h1 (Or.inr e)⟩
    by_cases h2 : w = dotdot
    · rw [if_pos h2]
      have h2 : w = ['.', '.'] := h2
      subst h2
      refine (ihc names.dropLast _ seen hc.dropLast hh.dropLast (ha.up (plain_proper hc.plain)) hrest hs hn).step (fun out h => .up h) ?_
      intro h out hh
      cases hh with
      | skip a _ => simp at a
      | up h' => exact ⟨_, Nat.lt_succ_self _, h'⟩
      | missing _ _ a _ _ _ => contradiction
      | enter _ _ a _ _ _ => contradiction
      | link _ _ a _ _ _ _ => contradiction
      | fails _ _ a _ _ _ => contradiction
    rw [if_neg h2]
    have hwP : Plain s.cfg.sep w := plainPart_plain hwsep hwp h1'.1 h1'.2 h2
    have haw : At s.cfg.sep (names ++ [w]) (path ++ s.cfg.sep :: w) := ha.snoc
    generalize path ++ s.cfg.sep :: w = newpath at haw
    dsimp only
    have hrl := readlink_at W.inv W.tree hc.plain hwP haw
    -- not a link
    have hplain : (∀ x, Spec.walk s.heap rootRef (names ++ [w]) = some x → (s.heap x).isLnk = false) →
        (Spec.walk s.heap rootRef (names ++ [w]) = none → strict = false) →
        EndsR s strict K names (w :: rest) seen (s.resolveLoop strict (s.resolveRec strict n) newpath rest seen) := by
      intro hnl hst
      have hh' : Here s strict (names ++ [w]) := by
        intro hs
        cases hx : Spec.walk s.heap rootRef (names ++ [w]) with
        | some x => exact ⟨x, rfl⟩
        | none => rw [hst hx] at hs; contradiction
      refine (ihc (names ++ [w]) newpath seen (hc.snoc hwP hnl) hh' haw hrest hs hn).step (fun out h => .enter h1'.1 h1'.2 h2 hst hnl h) ?_
      intro h out hh
      cases hh with
      | skip a _ => exact absurd a h1
      | up _ => exact absurd rfl h2
      | missing _ _ _ a _ b => rw [hst b] at a; contradiction
      | enter _ _ _ _ _ h' => exact ⟨_, Nat.lt_succ_self _, h'⟩
      | link _ _ _ a b _ _ => rw [hnl _ a] at b; contradiction
      | fails _ _ _ a b _ => rw [hnl _ a] at b; contradiction
    -- only links are in `seen`
    have hnone : (∀ x, Spec.walk s.heap rootRef (names ++ [w]) = some x → (s.heap x).isLnk = false) → alookup newpath seen = none := by
      intro hnl
      cases hsn : alookup newpath seen with
      | none => rfl
      | some v =>
        exfalso
        obtain ⟨l, w', x', e, hL'⟩ := hs.key _ _ hsn
        have he := At.inj (snoc_proper hc.plain hwP) (snoc_proper hL'.clean.plain hL'.plain) haw e
        have := hnl x' (by rw [he]; exact hL'.walk)
        rw [hL'.lnk] at this
        contradiction
    cases hx : Spec.walk s.heap rootRef (names ++ [w]) with
    | none =>
      have hnl : ∀ x, Spec.walk s.heap rootRef (names ++ [w]) = some x → (s.heap x).isLnk = false := fun x h => by rw [hx] at h; simp at h
      rw [hnone hnl]
      dsimp only
      rw [hrl]
      cases strict with
      | false =>
        obtain ⟨e, he, ho⟩ := readlink_missing W hc hwP hx
        rw [he]
        dsimp only
        rw [if_neg (by simp [ho])]
        exact hplain hnl (fun _ => rfl)
      | true =>
        obtain ⟨r, hr⟩ := hh rfl
        rw [readlink_strict W hc hwP hr hx]
        dsimp only
        rw [if_pos (Or.inr ⟨by split <;> simp, rfl⟩)]
        exact Or.inr (Or.inl ⟨_, rfl, .missing h1'.1 h1'.2 h2 rfl hr hx⟩)
    | some x =>
      cases hlk : (s.heap x).isLnk with
      | false =>
        have hnl : ∀ y, Spec.walk s.heap rootRef (names ++ [w]) = some y → (s.heap y).isLnk = false := fun y h => by
          rw [hx] at h; injection h with h; rw [← h]; exact hlk
        rw [hnone hnl]
        dsimp only
        rw [hrl, readlink_other W hc hwP hx hlk]
        dsimp only
        rw [if_neg (by simp [Err.isOS])]
        exact hplain hnl (fun h => by rw [hx] at h; simp at h)
      | true =>
        have hL : LinkAt s names w x := ⟨hc, hwP, hx, hlk⟩
        have hxlt : x < s.next := walk_lt W.inv _ (root_lt W.inv) hx
        -- the derivation for a link
        have hder : ∀ h o, ResH s strict h names (w :: rest) o → (∃ a b mid, a + b < h ∧ ResH s strict a (startOf s names x) (partsOf s x) (.ok mid) ∧ ResH s strict b mid rest o) ∨
            ∃ a e, a < h ∧ ResH s strict a (startOf s names x) (partsOf s x) (.error e) := by
          intro h out hh
          cases hh with
          | skip a _ => exact absurd a h1
          | up _ => exact absurd rfl h2
          | missing _ _ _ _ _ b => rw [hx] at b; contradiction
          | enter _ _ _ _ a _ => rw [a x hx] at hlk; contradiction
          | link _ _ _ a b c d =>
            rw [hx] at a
            injection a with a
            subst a
            exact Or.inl ⟨_, _, _, Nat.lt_succ_self _, c, d⟩
          | fails _ _ _ a b c =>
            rw [hx] at a
            injection a with a
            subst a
            exact Or.inr ⟨_, _, Nat.lt_succ_self _, c⟩
        cases hsn : alookup newpath seen with
        | some v =>
          cases v with
          | none =>
            refine Or.inr (Or.inr ⟨rfl, ?_⟩)
            intro h o hh
            rcases hder h o hh with ⟨a, b, mid, hab, ha, _⟩ | ⟨a, e, hab, ha⟩
            · exact ⟨newpath, names, w, x, a, _, haw, hsn, hL, ha, by omega⟩
            · exact ⟨newpath, names, w, x, a, _, haw, hsn, hL, ha, by omega⟩
          | some p =>
            obtain ⟨l, w', x', mid, e, hL', hat, hcm, hhm, hres⟩ := hs.val _ _ hsn
            obtain ⟨rfl, rfl, rfl⟩ := hL.same hL' haw e
            dsimp only
            refine (ihc mid p seen hcm hhm hat hrest hs hn).step (fun o h => .link h1'.1 h1'.2 h2 hx hlk hres h) ?_
            intro h o hh
            rcases hder h o hh with ⟨a, b, mid', hab, ha, hb⟩ | ⟨a, e, hab, ha⟩
            · have := hres.det ha.res
              injection this with this
              subst this
              exact ⟨b, by omega, hb⟩
            · have := hres.det ha.res
              contradiction
        | none =>
          dsimp only
          rw [hrl, readlink_clean W hc hwP hx hlk]
          dsimp only
          have hkK := hK names w x newpath hL haw
          have hnd : newpath ∉ domSeen seen := by rw [mem_domSeen]; simp [hsn]
          have hdom1 : ∀ v : Option Str, domSeen ((newpath, v) :: seen) = insert newpath (domSeen seen) := by
            intro v; simp [domSeen]
          have hs1 : SeenR s strict K ((newpath, none) :: seen) := by
            refine ⟨?_, ?_, ?_⟩
            · rw [hdom1]; exact Finset.insert_subset hkK hs.dom
            · intro k v hk
              simp only [alookup] at hk
              split at hk
              · rename_i hk'; subst hk'; exact ⟨names, w, x, haw, hL⟩
              · exact hs.key k v hk
            · intro k p hk
              simp only [alookup] at hk
              split at hk
              · simp at hk
              · exact hs.val k p hk
          have hcard : (K \ domSeen ((newpath, none) :: seen)).card < n := by
            refine lt_of_lt_of_le (Finset.card_lt_card ?_) hn
            rw [hdom1]
            refine ⟨Finset.sdiff_subset_sdiff (le_refl _) (Finset.subset_insert _ _), ?_⟩
            intro hsub
            have := hsub (Finset.mem_sdiff.mpr ⟨hkK, hnd⟩)
            simp at this
          have hbadkey : ∀ a o, ResH s strict a (startOf s names x) (partsOf s x) o →
              PendR s strict ((newpath, none) :: seen) a → PendR s strict seen a := by
            intro a o ha hpd
            obtain ⟨k, l, w', x', g, o', e0, e1, e2, e3, e4⟩ := hpd.ex
            simp only [alookup] at e1
            split at e1
            · rename_i hk
              subst hk
              obtain ⟨rfl, rfl, rfl⟩ := hL.same e2 haw e0
              have := (e3.det ha).1
              omega
            · exact ⟨k, l, w', x', g, o', e0, e1, e2, e3, e4⟩
          rcases ih path (s.linkTarget (s.heap x)) names _ hc hh ha (T x hxlt hlk) hs1 hcard with ⟨p, seen1, mid, hr, hp⟩ | ⟨e, hr, hp⟩ | ⟨hr, hp⟩
          · rw [hr]
            have hdsub : domSeen seen ⊆ domSeen seen1 := by
              refine subset_trans ?_ hp.dom
              rw [hdom1]; exact Finset.subset_insert _ _
            have hres := hp.res
            dsimp only
            have hdom2 : domSeen ((newpath, some p) :: seen1) = insert newpath (domSeen seen1) := by
              simp [domSeen]
            have hs2 : SeenR s strict K ((newpath, some p) :: seen1) := by
              refine ⟨?_, ?_, ?_⟩
              · rw [hdom2]; exact Finset.insert_subset hkK hp.seenOk.dom
              · intro k v hk
                simp only [alookup] at hk
                split at hk
                · rename_i hk'; subst hk'; exact ⟨names, w, x, haw, hL⟩
                · exact hp.seenOk.key k v hk
              · intro k p hk
                simp only [alookup] at hk
                split at hk
                · rename_i hk'
                  subst hk'
                  simp only [Option.some.injEq] at hk
                  subst hk
                  exact ⟨names, w, x, mid, haw, hL, hp.at_, hp.clean, hp.here, hres⟩
                · exact hp.seenOk.val k p hk
            have hpend2 : ∀ k, alookup k ((newpath, some p) :: seen1) = some none → alookup k seen = some none := by
              intro k hk
              simp only [alookup] at hk
              split at hk
              · simp at hk
              · rename_i hne
                have := hp.pend k hk
                simp only [alookup, if_neg hne] at this
                exact this
            rcases ihc mid p _ hp.clean hp.here hp.at_ hrest hs2 (by
              refine le_trans (Finset.card_le_card ?_) hn
              refine Finset.sdiff_subset_sdiff (le_refl _) ?_
              rw [hdom2]
              exact subset_trans hdsub (Finset.subset_insert _ _)) with ⟨p2, seen2, out, hr2, hp2⟩ | ⟨e2, hr2, hp2⟩ | ⟨hr2, hp2⟩
            · refine Or.inl ⟨p2, seen2, out, hr2, hp2.seenOk, ?_, hp2.at_, hp2.clean, hp2.here, .link h1'.1 h1'.2 h2 hx hlk hres hp2.res, fun k hk => hpend2 k (hp2.pend k hk)⟩
              refine subset_trans ?_ hp2.dom
              rw [hdom2]
              exact subset_trans hdsub (Finset.subset_insert _ _)
            · exact Or.inr (Or.inl ⟨e2, hr2, .link h1'.1 h1'.2 h2 hx hlk hres hp2⟩)
            · refine Or.inr (Or.inr ⟨hr2, ?_⟩)
              intro h o hh
              rcases hder h o hh with ⟨a, b, mid', hab, ha, hb⟩ | ⟨a, e, hab, ha⟩
              · have := hres.det ha.res
                injection this with this
                subst this
                obtain ⟨k, l, w', x', g, mid', e0, e1, e2, e3, e4⟩ := (hp2 b o hb).ex
                exact ⟨k, l, w', x', g, mid', e0, hpend2 _ e1, e2, e3, by omega⟩
              · have := hres.det ha.res
                contradiction
          · rw [hr]
            exact Or.inr (Or.inl ⟨e, rfl, .fails h1'.1 h1'.2 h2 hx hlk hp⟩)
          · rw [hr]
            refine Or.inr (Or.inr ⟨rfl, ?_⟩)
            intro h o hh
            rcases hder h o hh with ⟨a, b, mid', hab, ha, hb⟩ | ⟨a, e, hab, ha⟩
            · exact (hbadkey a _ ha (hp a _ ha)).mono (by omega)
            · exact (hbadkey a _ ha (hp a _ ha)).mono (by omega)

theorem resolveRec_ends : ∀ (n : Nat) (path rest : Str) (names : List Str) (seen : FS.Seen), CleanAt s names → Here s strict names → At s.cfg.sep names path →
      (∀ w ∈ split s.cfg.sep rest, PlainPart w) → SeenR s strict K seen → (K \ domSeen seen).card < n →
      EndsR s strict K (if isAbs s.cfg.sep rest then [] else names) (split s.cfg.sep rest) seen (s.resolveRec strict n path rest seen) := by
  intro n
  induction n with
  | zero => intro _ _ _ _ _ _ _ _ _ h; omega
  | succ n ih =>
    intro path rest names seen hc hh ha hw hs hn
    unfold FS.resolveRec
    rw [startsWithC_eq]
    have hw' : ∀ w ∈ split s.cfg.sep rest, s.cfg.sep ∉ w ∧ PlainPart w := fun w h => ⟨mem_split_no_sep h, hw w h⟩
    by_cases hab : isAbs s.cfg.sep rest
    · simp only [decide_eq_true_eq, if_pos hab]
      exact resolveLoop_ends W T hK ih _ [] [] seen CleanAt.nil Here.nil At.nil hw' hs (by omega)
    · simp only [decide_eq_true_eq, if_neg hab]
      exact resolveLoop_ends W T hK ih _ names path seen hc hh ha hw' hs (by omega)
end

open Classical in
/-- C48: `Path(p).resolve(strict)`, in any reachable state, whatever the symlinks. Resolving the components one after the other from the
current directory (or from the root) has at most one outcome. If it is a location, this is what `resolve` returns; if it is a missing
component, `resolve` raises that error; and if there is none (a loop of symlinks), it raises `RuntimeError`. -/
theorem pathResolve_spec {s : FS} (hs : Reachable s) (ht : s.cfg.Tree) (W : Walkable s) (T : PlainTargets s) (hlim : 2 * linkEntries s < s.limit)
    {strict : Bool} {p : Str} (hp : ∀ w ∈ split s.cfg.sep p, PlainPart w) {base : List Str} (hcwd : s.cwd = absPath s.cfg.sep base)
    (hb : ∀ w ∈ base, Plain s.cfg.sep w) (hbl : ∀ l x, l <+: base → Spec.walk s.heap rootRef l = some x → (s.heap x).isLnk = false)
    (hbx : strict = true → ∃ x, Spec.walk s.heap rootRef base = some x) :
    (∃ out, Resolves s strict (if isAbs s.cfg.sep p then [] else base) (split s.cfg.sep p) (.ok out) ∧
      s.pathResolve strict p = .ok (absPath s.cfg.sep out)) ∨
    (∃ e, Resolves s strict (if isAbs s.cfg.sep p then [] else base) (split s.cfg.sep p) (.error e) ∧ s.pathResolve strict p = .error (.os e)) ∨
    (¬ ∃ o, Resolves s strict (if isAbs s.cfg.sep p then [] else base) (split s.cfg.sep p) o) ∧ s.pathResolve strict p = .error .runtimeError := by
  have hi := reachable_inv hs
  have W : WalkOk s := ⟨hi, ht, W.genuine, W.readable, W.dirs, W.noDev, W.names⟩
  obtain ⟨K, hK1, hK2⟩ := link_paths hi
  have hK3 : ∀ l w x k, LinkAt s l w x → At s.cfg.sep (l ++ [w]) k → k ∈ K ∪ K.image (fun q => s.cfg.sep :: q) := by
    rintro l w x k hL ⟨d, rfl⟩
    have := hK2 l w x hL
    cases d
    · exact Finset.mem_union_left _ (by simpa [pth] using this)
    · refine Finset.mem_union_right _ (Finset.mem_image.mpr ⟨_, this, ?_⟩)
      simp [pth]
  have hcard : (K ∪ K.image (fun q => s.cfg.sep :: q)).card < s.limit := by
    have h1 := Finset.card_union_le K (K.image (fun q => s.cfg.sep :: q))
    have h2 : (K.image (fun q => s.cfg.sep :: q)).card ≤ K.card := Finset.card_image_le
    omega
  have hn : ∀ (l l' : List Str), NoLink s.heap rootRef l → base = l ++ l' → NoLink s.heap rootRef base := by
    intro l l'
    induction l' generalizing l with
    | nil => intro h e; rw [e, List.append_nil]; exact h
    | cons w l' ih =>
      intro h e
      refine ih (l ++ [w]) ?_ (by rw [e]; simp)
      rw [noLink_append]
      refine ⟨h, fun y hy z hz => ⟨hbl (l ++ [w]) z ⟨l', by rw [e]; simp⟩ (by rw [walk_append, hy]; simp [Spec.walk, hz]), trivial⟩⟩
  have hat : At s.cfg.sep base s.cwd := by
    rw [hcwd]
    by_cases h : base = []
    · subst h; exact ⟨true, by simp [pth, absPath, join]⟩
    · exact ⟨false, by simp [pth, h]⟩
  have key : EndsR s strict (K ∪ K.image (fun q => s.cfg.sep :: q)) (if isAbs s.cfg.sep p then [] else base) (split s.cfg.sep p) []
      (s.resolveRec strict s.limit (if startsWithC s.cfg.sep p then [] else s.cwd) p []) := by
    rw [startsWithC_eq]
    by_cases hab : isAbs s.cfg.sep p
    · have := resolveRec_ends W T hK3 (strict := strict) s.limit [] p [] [] CleanAt.nil Here.nil At.nil hp ⟨by simp [domSeen], by simp [alookup], by simp [alookup]⟩ (by simpa [domSeen] using hcard)
      simp only [decide_eq_true_eq, if_pos hab] at this ⊢
      exact this
    · simp only [decide_eq_true_eq, if_neg hab]
      have := resolveRec_ends W T hK3 (strict := strict) s.limit s.cwd p base [] ⟨hb, hn [] base trivial rfl⟩ hbx hat hp ⟨by simp [domSeen], by simp [alookup], by simp [alookup]⟩ (by simpa [domSeen] using hcard)
      rw [if_neg hab] at this
      exact this
  unfold FS.pathResolve FS.resolvePosix
  rcases key with ⟨q, seen', out, hr, hq⟩ | ⟨e, hr, hq⟩ | ⟨hr, hq⟩
  · rw [hr]
    exact Or.inl ⟨out, hq.res, congrArg Except.ok (hq.at_.absnorm hi ht.posix (plain_proper hq.clean.plain))⟩
  · rw [hr]
    exact Or.inr (Or.inl ⟨e, hq, rfl⟩)
  · rw [hr]
    refine Or.inr (Or.inr ⟨?_, rfl⟩)
    rintro ⟨o, ho⟩
    obtain ⟨h, hh⟩ := ho.height
    obtain ⟨k, l, w, x, g, mid, _, e1, _⟩ := (hq h o hh).ex
    simp [alookup] at e1

/-- the outcome has no symlinks in it if the start has none -/
theorem Spec.Resolves.noLinks {s : FS} (hr : (s.heap rootRef).isLnk = false) {strict : Bool} {names comps : List Str} {o} (h : Resolves s strict names comps o) :
    ∀ out, o = .ok out → (∀ l x, l <+: names → Spec.walk s.heap rootRef l = some x → (s.heap x).isLnk = false) →
      ∀ l x, l <+: out → Spec.walk s.heap rootRef l = some x → (s.heap x).isLnk = false := by
  have h0 : ∀ l x, l <+: ([] : List Str) → Spec.walk s.heap rootRef l = some x → (s.heap x).isLnk = false := by
    intro l x hl hx
    rw [List.prefix_nil] at hl
    subst hl
    simp only [Spec.walk, Option.some.injEq] at hx
    rw [← hx]; exact hr
  induction h with
  | done names => intro out e hn; injection e with e; subst e; exact hn
  | skip _ _ ih => intro out e hn; exact ih out e hn
  | up _ ih => intro out e hn; exact ih out e (fun l x hl => hn l x (hl.trans (List.dropLast_prefix _)))
  | missing _ _ _ _ _ _ => intro out e; cases e
  | enter _ _ _ _ h5 _ ih =>
    intro out e hn
    refine ih out e ?_
    intro l x hl hx
    rcases List.prefix_concat_iff.mp hl with rfl | hl
    · exact h5 x hx
    · exact hn l x hl hx
  | link _ _ _ _ _ _ _ ih1 ih2 =>
    intro out e hn
    refine ih2 out e (ih1 _ rfl ?_)
    split
    · exact h0
    · exact hn
  | fails _ _ _ _ _ _ _ => intro out e; cases e

/-- in strict mode the outcome exists if the start does -/
theorem Spec.Resolves.exists_ {s : FS} {names comps : List Str} {o} (h : Resolves s true names comps o) :
    ∀ out, o = .ok out → (∃ x, Spec.walk s.heap rootRef names = some x) → ∃ x, Spec.walk s.heap rootRef out = some x := by
  induction h with
  | done names => intro out e hn; injection e with e; subst e; exact hn
  | skip _ _ ih => intro out e hn; exact ih out e hn
  | up _ ih => intro out e hn; exact ih out e ((Here.dropLast (strict := true) fun _ => hn) rfl)
  | missing _ _ _ _ _ _ => intro out e; cases e
  | @enter names rest o w _ _ _ h4 _ _ ih =>
    intro out e hn
    refine ih out e ?_
    cases hx : Spec.walk s.heap rootRef (names ++ [w]) with
    | some x => exact ⟨x, rfl⟩
    | none => exact absurd (h4 hx) (by simp)
  | link _ _ _ _ _ _ _ ih1 ih2 =>
    intro out e hn
    refine ih2 out e (ih1 _ rfl ?_)
    split
    · exact ⟨_, rfl⟩
    · exact hn
  | fails _ _ _ _ _ _ _ => intro out e; cases e

/-- C48: the path returned has no symlinks in it, and in strict mode it leads to an object. -/
theorem pathResolve_result {s : FS} (hs : Reachable s) (ht : s.cfg.Tree) (W : Walkable s) (T : PlainTargets s) (hlim : 2 * linkEntries s < s.limit)
    {strict : Bool} {p : Str} (hp : ∀ w ∈ split s.cfg.sep p, PlainPart w) {base : List Str} (hcwd : s.cwd = absPath s.cfg.sep base)
    (hb : ∀ w ∈ base, Plain s.cfg.sep w) (hbl : ∀ l x, l <+: base → Spec.walk s.heap rootRef l = some x → (s.heap x).isLnk = false)
    (hbx : strict = true → ∃ x, Spec.walk s.heap rootRef base = some x) {q : Str} (hq : s.pathResolve strict p = .ok q) :
    ∃ out, q = absPath s.cfg.sep out ∧ (∀ l x, l <+: out → Spec.walk s.heap rootRef l = some x → (s.heap x).isLnk = false) ∧
      (strict = true → ∃ x, Spec.walk s.heap rootRef out = some x ∧ s.resolve q = .ok x) := by
  have hi := reachable_inv hs
  rcases pathResolve_spec hs ht W T hlim hp hcwd hb hbl hbx with ⟨out, h1, h2⟩ | ⟨e, _, h2⟩ | ⟨_, h2⟩
  · rw [h2] at hq
    injection hq with hq
    subst hq
    have hst : ∀ l x, l <+: (if isAbs s.cfg.sep p then [] else base) → Spec.walk s.heap rootRef l = some x → (s.heap x).isLnk = false := by
      split
      · intro l x hl hx
        rw [List.prefix_nil] at hl
        subst hl
        simp only [Spec.walk, Option.some.injEq] at hx
        rw [← hx]; exact root_not_lnk hi
      · exact hbl
    have hnl := h1.noLinks (root_not_lnk hi) out rfl hst
    refine ⟨out, rfl, hnl, ?_⟩
    intro hstr
    subst hstr
    obtain ⟨x, hx⟩ := h1.exists_ out rfl (by
      split
      · exact ⟨_, rfl⟩
      · exact hbx rfl)
    refine ⟨x, hx, ?_⟩
    have hpl := walk_names hi W.names (root_lt hi) hx
    have hd : absPath s.cfg.sep out ≠ s.devName := by
      intro e
      have := W.noDev out (plain_proper hpl) e
      rw [hx] at this; simp at this
    have hn : ∀ (l l' : List Str), NoLink s.heap rootRef l → out = l ++ l' → NoLink s.heap rootRef out := by
      intro l l'
      induction l' generalizing l with
      | nil => intro h e; rw [e, List.append_nil]; exact h
      | cons w l' ih =>
        intro h e
        refine ih (l ++ [w]) ?_ (by rw [e]; simp)
        rw [noLink_append]
        refine ⟨h, fun y hy z hz => ⟨hnl (l ++ [w]) z ⟨l', by rw [e]; simp⟩ (by rw [walk_append, hy]; simp [Spec.walk, hz]), trivial⟩⟩
    exact (resolve_plain hi ht s.rc hpl (hn [] out trivial rfl) hd).mpr ⟨hx, through_genuine hi W.genuine (root_lt hi) hx,
      fun y hy => W.readable.readable (walked_lt hi _ (root_lt hi) y hy) true⟩
  · rw [h2] at hq; cases hq
  · rw [h2] at hq; cases hq

/-- C48: without `strict`, for an absolute path, `resolve` returns what `os.path.realpath` returns, if it returns at all. -/
theorem pathResolve_realpath {s : FS} (hs : Reachable s) (ht : s.cfg.Tree) (W : Walkable s) (T : PlainTargets s) (hlim : 2 * linkEntries s < s.limit)
    {p : Str} (habs : isAbs s.cfg.sep p) (hp : ∀ w ∈ split s.cfg.sep p, PlainPart w) {base : List Str} (hcwd : s.cwd = absPath s.cfg.sep base)
    (hb : ∀ w ∈ base, Plain s.cfg.sep w) (hbl : ∀ l x, l <+: base → Spec.walk s.heap rootRef l = some x → (s.heap x).isLnk = false)
    {q : Str} (hq : s.pathResolve false p = .ok q) : s.realpath p = .ok q := by
  rcases pathResolve_spec (strict := false) hs ht W T hlim hp hcwd hb hbl (fun h => by cases h) with ⟨out, h1, h2⟩ | ⟨e, _, h2⟩ | ⟨_, h2⟩
  · rw [h2] at hq
    injection hq with hq
    subst hq
    rw [if_pos habs] at h1
    obtain ⟨out', e, hr⟩ := h1.real
    injection e with e
    subst e
    obtain ⟨q', h3, _, h4⟩ := realpath_spec hs ht W T (by omega) habs hp
    rw [h3, (h4 _ hr).1]
  · rw [h2] at hq; cases hq
  · rw [h2] at hq; cases hq

theorem demo_cwd : demo.cwd = absPath demo.cfg.sep [] := by decide +kernel

theorem demo_prefix : ∀ l x, l <+: ([] : List Str) → Spec.walk demo.heap rootRef l = some x → (demo.heap x).isLnk = false := by
  intro l x hl hx
  rw [List.prefix_nil] at hl
  subst hl
  simp only [Spec.walk, Option.some.injEq] at hx
  rw [← hx]; exact root_not_lnk demo_inv

/-- the relative path `l/../d` with the current directory `/`, where `/l → a/f` -/
example : ∃ out, (['/', 'a', '/', 'd'] : Str) = absPath demo.cfg.sep out ∧ (∀ l x, l <+: out → Spec.walk demo.heap rootRef l = some x → (demo.heap x).isLnk = false) ∧
      ((true : Bool) = true → ∃ x, Spec.walk demo.heap rootRef out = some x ∧ demo.resolve ['/', 'a', '/', 'd'] = .ok x) :=
  pathResolve_result demo_reachable demo_tree demo_walkable demo_targets (by decide +kernel) (p := ['l', '/', '.', '.', '/', 'd'])
    (by rw [demo_sep]; unfold PlainPart; decide) demo_cwd (by simp) demo_prefix (fun _ => ⟨_, rfl⟩) (by decide +kernel)

example : demo.realpath ['/', 'l', '/', '.', '.', '/', 'x'] = .ok ['/', 'a', '/', 'x'] :=
  pathResolve_realpath demo_reachable demo_tree demo_walkable demo_targets (by decide +kernel) (by rw [demo_sep]; exact ⟨_, rfl⟩)
    (by rw [demo_sep]; unfold PlainPart; decide) demo_cwd (by simp) demo_prefix (by decide +kernel)

/-- a missing component, and a component below a file -/
example : demo.pathResolve true ['/', 'a', '/', 'x'] = .error (.os .ENOENT) ∧ demo.pathResolve true ['l', '/', 'x'] = .error (.os .ENOTDIR) ∧
    demo.pathResolve false ['l', '/', 'x'] = .ok ['/', 'a', '/', 'f', '/', 'x'] := by
  decide +kernel

/-- the loop of the link to itself is found, also for the relative path -/
example : selfFS.pathResolve false ['/', 'l'] = .error .runtimeError ∧ selfFS.pathResolve false ['l'] = .error .runtimeError := by
  decide +kernel

end Verif
