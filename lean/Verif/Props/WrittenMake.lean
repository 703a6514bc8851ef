import Verif.Props.WrittenOps
/-!
# C85, continued: creating
-/

namespace Verif
open Py Spec Cfg

/-- A normalised path does not end with a separator. -/
theorem canon_noSep {k : Cfg} (hp : k.Posix) {p : Str} (h : Canon k.sep p) : k.endsWithSep p = false := by
  rcases h with h | rfl | ⟨m, names, h1, h2, rfl⟩
  · exact absCanon_not_endsWithSep hp h
  · unfold Cfg.endsWithSep
    rw [hp.altsep]
    have := hp.sepDot
    simp [endsWithC, fun e : '.' = k.sep => this e.symm]
  · have hall : ∀ w ∈ List.replicate m (['.', '.'] : Str) ++ names, k.sep ∉ w ∧ w ≠ [] := by
      intro w hw
      rcases List.mem_append.mp hw with hw | hw
      · rw [(List.mem_replicate.mp hw).2]
        exact ⟨dotdot_no_sep hp, by simp⟩
      · exact ⟨(h1 w hw).2.2.2, (h1 w hw).1⟩
    have hne : List.replicate m (['.', '.'] : Str) ++ names ≠ [] := by
      rcases h2 with h2 | h2
      · intro e
        have := (List.append_eq_nil_iff.mp e).1
        simp at this; omega
      · simp [h2]
    have hsp := split_join hne fun w hw => (hall w hw).1
    generalize join k.sep (List.replicate m (['.', '.'] : Str) ++ names) = q at hsp
    have : endsWithC k.sep q = false := by
      cases hq : endsWithC k.sep q with
      | false => rfl
      | true =>
        exfalso
        unfold endsWithC at hq
        simp only [beq_iff_eq] at hq
        obtain ⟨r, rfl⟩ := List.getLast?_eq_some_iff.mp hq
        rw [split_append_sep] at hsp
        have hm : ([] : Str) ∈ List.replicate m (['.', '.'] : Str) ++ names := by rw [← hsp]; simp [Py.split]
        exact (hall _ hm).2 rfl
    unfold Cfg.endsWithSep
    rw [hp.altsep, this]
    simp

theorem suffix_dots {k : Cfg} (hp : k.Posix) {p : Str} (h : dots k.sep p = 0) : (k.sep :: dotdot).isSuffixOf p = false := by
  cases hc : (k.sep :: dotdot).isSuffixOf p with
  | false => rfl
  | true =>
    exfalso
    rw [List.isSuffixOf_iff_suffix] at hc
    obtain ⟨q, rfl⟩ := hc
    unfold dots at h
    rw [split_append_sep, List.countP_append, split_no_sep (dotdot_no_sep hp)] at h
    simp [Cfg.dotdot] at h

section
variable {s : FS} {p : Str} {l : List Str} {n : Str} (hi : Inv s) (ht : s.cfg.Tree) (h : Written s p l n)
include hi ht h

theorem Spec.Written.splitR : s.cfg.splitpath (absPath s.cfg.sep (l ++ [n])) = (absPath s.cfg.sep l, n) :=
  splitpath_absPath ht.posix (plain_proper (h.pl hi ht)) (h.pn hi ht).1

/-- the directory part of a path that does not go up does not go up -/
theorem Spec.Written.flatDir (hf : Spec.dots s.cfg.sep p = 0) (hne : (s.cfg.splitpath p).1 ≠ []) : Spec.dots s.cfg.sep (s.cfg.splitpath p).1 = 0 := by
  obtain ⟨m, h1, h2, h3⟩ := splitpath_shape ht.posix p
  rw [h1] at hf
  rcases Nat.eq_zero_or_pos m with rfl | hm
  · rcases h3 with ⟨e, _⟩ | e | ⟨_, h3⟩
    · exact absurd e hne
    · rw [e]; unfold Spec.dots; simp [Py.split]
    · omega
  · obtain ⟨j, rfl⟩ : ∃ j, m = j + 1 := ⟨m - 1, by omega⟩
    unfold Spec.dots at hf ⊢
    rw [List.replicate_succ, List.append_assoc, List.cons_append, split_append_sep, List.countP_append] at hf
    omega

theorem Spec.Written.mkdirParent (hf : Spec.dots s.cfg.sep p = 0) (hc : s.cfg.sep ∉ p → s.exists_ s.cwd = .ok true) :
    s.mkdirParent p = s.mkdirParent (absPath s.cfg.sep (l ++ [n])) := by
  obtain ⟨hd, h1, h2⟩ := h.split hi ht
  have hfd := h.flatDir hi ht hf
  rw [h1] at hfd
  unfold FS.mkdirParent
  dsimp only
  rw [h1, h.splitR hi ht]
  dsimp only
  rw [if_pos absPath_ne_nil, not_dotdot_suffix ht.posix (h.pl hi ht), normpath_canon_id ht.posix (Or.inl (absCanon_names (plain_proper (h.pl hi ht))))]
  rcases h2 with ⟨rfl, e⟩ | ⟨hne, hd0, he⟩
  · rw [if_neg (by simp), ← e]
    have hp : p = n := by
      obtain ⟨m, h3, _, h5⟩ := splitpath_shape ht.posix p
      rw [h1] at h3 h5
      rcases h5 with ⟨_, rfl⟩ | h5 | ⟨⟨i, x, h5, _⟩, _⟩
      · simpa using h3
      · cases h5
      · simp at h5
    simp only [Bool.false_and, Bool.false_eq_true, if_false, hc (by rw [hp]; exact (h.pn hi ht).1.2.2.2)]
    rfl
  · have hd0 := hfd hne
    have hcan := normpath_canonical ht.posix hd
    have hnn : s.cfg.normpath hd ≠ [] := by
      rcases hcan with ⟨m, _, e⟩ | e | ⟨m, names, h3, h4, e⟩
      · rw [e]; exact absPath_ne_nil
      · rw [e]; simp
      · rw [e]
        intro e0
        have hq : List.replicate m (['.', '.'] : Str) ++ names ≠ [] := by
          rcases h4 with h4 | h4
          · intro e
            have := (List.append_eq_nil_iff.mp e).1
            simp at this; omega
          · simp [h4]
        have hall : ∀ w ∈ List.replicate m (['.', '.'] : Str) ++ names, s.cfg.sep ∉ w ∧ w ≠ [] := by
          intro w hw
          rcases List.mem_append.mp hw with hw | hw
          · rw [(List.mem_replicate.mp hw).2]
            exact ⟨dotdot_no_sep ht.posix, by simp⟩
          · exact ⟨(h3 w hw).2.2.2, (h3 w hw).1⟩
        have hsp := split_join hq fun w hw => (hall w hw).1
        rw [e0] at hsp
        have hm : ([] : Str) ∈ List.replicate m (['.', '.'] : Str) ++ names := by rw [← hsp]; simp [Py.split]
        exact (hall _ hm).2 rfl
    have hnd : Spec.dots s.cfg.sep (s.cfg.normpath hd) = 0 := by
      have := dots_normpath ht.posix hd
      dsimp only at hd0
      omega
    have hna : s.absnorm (s.cfg.normpath hd) = absPath s.cfg.sep l := by
      refine absnorm_of_loc hi ht.posix (plain_proper (h.pl hi ht)) hnn ?_
      rw [normpath_meaning ht.posix]
      exact loc_of_absnorm hi ht.posix (plain_proper (h.pl hi ht)) hne he
    rw [if_pos hne, suffix_dots ht.posix hd0]
    simp only [Bool.false_and, Bool.false_eq_true, if_false, h.existsDir hi ht hnn (passable_of_dots ht.posix hnd) hna (canon_noSep ht.posix hcan)]

theorem Spec.Written.mkdir (m : Nat) (hf : Spec.dots s.cfg.sep p = 0) (hc : s.cfg.sep ∉ p → s.exists_ s.cwd = .ok true) : mkdir p m s = mkdir (absPath s.cfg.sep (l ++ [n])) m s := by
  have hp := plain_proper h.plain
  unfold Verif.mkdir
  rw [M.bind_eq, M.bind_eq]
  dsimp only [M.get]
  rw [h.strip hi ht, stripTrailing_canon ht.posix (absCanon_names hp), if_neg (h.ne hi ht), if_neg absPath_ne_nil, ht.posix.win]
  simp only [Bool.false_eq_true, if_false, false_and]
  refine rd_both (h.mkdirParent hi ht hf hc) fun _ _ => ?_
  rw [h.norm hi ht, h.normR hi ht, h.sepL hi ht, h.sepR hi ht]

theorem Spec.Written.mknod (m : Nat) (hc : s.cfg.sep ∈ p) : mknod p m s = mknod (absPath s.cfg.sep (l ++ [n])) m s := by
  obtain ⟨hd, h1, h2⟩ := h.split hi ht
  have hpn : p ≠ n := by rintro rfl; exact (h.pn hi ht).1.2.2.2 hc
  rcases h2 with ⟨rfl, e⟩ | ⟨hne, hd0, he⟩
  · exfalso
    obtain ⟨m, h3, _, h5⟩ := splitpath_shape ht.posix p
    rw [h1] at h3 h5
    rcases h5 with ⟨_, rfl⟩ | h5 | ⟨⟨i, x, h5, _⟩, _⟩
    · exact hpn (by simpa using h3)
    · cases h5
    · simp at h5
  unfold Verif.mknod
  rw [M.bind_eq, M.bind_eq]
  dsimp only [M.get]
  rw [h1, h.splitR hi ht]
  by_cases c1 : s.cfg.isWin = true
  · rw [if_pos c1, if_pos c1]; rfl
  rw [if_neg c1, if_neg c1]
  by_cases c2 : m &&& S_IFREG = 0 ∧ (!s.isRoot) = true
  · rw [if_pos c2, if_pos c2]; rfl
  rw [if_neg c2, if_neg c2]
  dsimp only
  rw [if_neg (h.pn hi ht).1.1, if_neg (h.pn hi ht).1.1]
  by_cases c3 : n = dot ∨ n = dotdot
  · rw [if_pos c3, if_pos c3]; rfl
  rw [if_neg c3, if_neg c3]
  refine rd_both (h.existsL hi ht) fun b _ => ?_
  cases b with
  | true => rfl
  | false =>
    refine bind_right fun x s1 hx => ?_
    have e1 : ∀ q, s1.resolve q = s.resolve q := by
      intro q
      injection hx with h1 h2
      subst h2
      exact ((new_same s _).agree hi).resolve (Closed.lt hi) _ _ _
    unfold Verif.addObject
    rw [if_neg hne, if_neg absPath_ne_nil]
    refine rd_left ?_
    show s1.resolve _ = s1.resolve _
    rw [e1, e1]
    show s.resolveG _ _ _ = s.resolveG _ _ _
    unfold FS.resolveG
    rw [resolvePath_word hi ht _ hne (validRel_pass hi ht hd0) (h.pl hi ht) he]

theorem Spec.Written.createFile (hsl : s.cfg.sep = '/') (m : Nat) (c : Option Bytes) (size : Option Nat) (cm um : Bool) :
    createFileI p m c size cm um s = createFileI (absPath s.cfg.sep (l ++ [n])) m c size cm um s := by
  unfold createFileI
  rw [M.bind_eq, M.bind_eq]
  dsimp only [M.get]
  rw [makeStringPath_slash hsl, makeStringPath_slash hsl, h.norm hi ht, h.normR hi ht]

theorem Spec.Written.createDir (hsl : s.cfg.sep = '/') (m : Nat) : createDir p m s = createDir (absPath s.cfg.sep (l ++ [n])) m s := by
  unfold Verif.createDir createDirG
  rw [M.bind_eq, M.bind_eq]
  dsimp only [M.get]
  rw [makeStringPath_slash hsl, makeStringPath_slash hsl, h.norm hi ht, h.normR hi ht]

theorem Spec.Written.makedirs (m : Nat) (ok : Bool) : makedirs p m ok s = makedirs (absPath s.cfg.sep (l ++ [n])) m ok s := by
  unfold Verif.makedirs
  rw [if_neg (h.ne hi ht), if_neg absPath_ne_nil]
  dsimp only
  rw [M.bind_eq, M.bind_eq]
  dsimp only [M.get]
  rw [h.norm hi ht, h.normR hi ht, h.sepL hi ht, h.sepR hi ht]

theorem Spec.Written.symlink (hsl : s.cfg.sep = '/') (target : Str) (cm : Bool) :
    createSymlink p target cm s = createSymlink (absPath s.cfg.sep (l ++ [n])) target cm s := by
  have hn : ∀ p, s.cfg.normcase p = p := fun p => by unfold Cfg.normcase; rw [ht.posix.altsep]
  unfold createSymlink
  rw [M.bind_eq, M.bind_eq]
  dsimp only [M.get]
  simp only [makeStringPath_slash hsl, hn, h.sepL hi ht, h.sepR hi ht, Bool.false_eq_true, if_false]
  refine rd_both (h.isLink hi ht) fun b _ => ?_
  cases b with
  | false => exact rd_left (h.resolvePath hi ht)
  | true => exact h.createFile hi ht hsl _ _ _ _ _

theorem Spec.Written.linkOld (new : Str) (f : Bool) : link p new f s = link (absPath s.cfg.sep (l ++ [n])) new f s := by
  unfold link createLink
  rw [M.bind_eq, M.bind_eq]
  dsimp only [M.get]
  refine bind_right fun b s' e => ?_
  rw [rd_eq (f := fun x => x.existsL (s.absnorm new)) rfl] at e
  injection e with _ e
  subst e
  cases b with
  | true => simp only [if_true]; rw [M.bind_eq, M.bind_eq]; rfl
  | false =>
    simp only [Bool.false_eq_true, if_false]
    refine bind_right fun _ s' e => ?_
    have : s' = s := linkParent_same e
    subst this
    unfold linkTail
    rw [M.bind_eq, M.bind_eq]
    dsimp only [M.get]
    rw [h.sepL hi ht, h.sepR hi ht]
    simp only [Bool.false_eq_true, if_false]
    have e2 : catchOS (rd (·.resolve p f)) (fun _ => M.raise .ENOENT) s' =
        catchOS (rd (·.resolve (absPath s'.cfg.sep (l ++ [n])) f)) (fun _ => M.raise .ENOENT) s' := by
      refine tryCatch_left ?_
      rw [rd_eq (f := fun x => x.resolve p f) (h.resolve hi ht f true), rd_eq (f := fun x => x.resolve (absPath s'.cfg.sep (l ++ [n])) f) rfl]
    by_cases c : (!s'.cfg.isWin && s'.cfg.endsWithSep new) = true
    · rw [if_pos c, if_pos c, M.bind_eq, M.bind_eq]; rfl
    · rw [if_neg c, if_neg c]
      exact bind_left e2

theorem Spec.Written.linkNew (old : Str) (f : Bool) : link old p f s = link old (absPath s.cfg.sep (l ++ [n])) f s := by
  unfold link createLink
  rw [M.bind_eq, M.bind_eq]
  dsimp only [M.get]
  rw [h.norm hi ht, h.normR hi ht]
  refine bind_right fun b s' e => ?_
  rw [rd_eq (f := fun x => x.existsL (absPath s.cfg.sep (l ++ [n]))) rfl] at e
  injection e with _ e
  subst e
  cases b with
  | true => simp only [if_true]; rw [M.bind_eq, M.bind_eq]; rfl
  | false =>
    simp only [Bool.false_eq_true, if_false]
    refine bind_right fun _ s' e => ?_
    have : s' = s := linkParent_same e
    subst this
    unfold linkTail
    rw [M.bind_eq, M.bind_eq]
    dsimp only [M.get]
    rw [h.sepL hi ht, h.sepR hi ht]
end

/-- Only the configuration, the limit of nesting, the current directory, the null device's name and what exists matter. -/
theorem Spec.Written.keep {s s' : FS} {p : Str} {l : List Str} {n : Str} (h : Written s p l n) (hc : s'.cfg = s.cfg) (hw : s'.cwd = s.cwd)
    (hl : s'.limit = s.limit) (hd : s'.devName = s.devName)
    (hx : ∀ q, (∀ w ∈ q, Plain s.cfg.sep w) → s.exists_ (absPath s.cfg.sep q) = .ok true → s'.exists_ (absPath s.cfg.sep q) = .ok true) :
    Written s' p l n :=
  ⟨hc ▸ h.plain, by rw [hc, hw]; exact h.means, hc ▸ h.last, by
    intro q r e
    rw [hc] at e
    obtain ⟨h1, h2⟩ := h.up q r e
    refine ⟨by rw [hl]; exact h1, fun hne => ?_⟩
    obtain ⟨names, h3, h4, h5⟩ := h2 hne
    exact ⟨names, by rw [hc]; exact h3, by rw [hc, hw]; exact h4, by rw [hc]; exact hx names h3 h5⟩,
    by rw [hc, hw]; exact h.cwd, by rw [hc, hd]; exact h.null,
    by rw [hc, hd]; exact h.dev, by rw [hc, hd]; exact h.dev'⟩

theorem walk_mono {hp hp' : Ref → Obj} {nx : Nat} (hlt : ∀ x < nx, ∀ e ∈ (hp x).entries, e.2 < nx)
    (hk : ∀ x < nx, ∀ c y, alookup c (hp x).entries = some y → alookup c (hp' x).entries = some y) :
    ∀ (l : List Str) (x : Ref), x < nx → (walk hp x l).isSome → (walk hp' x l).isSome := by
  intro l
  induction l with
  | nil => intro x _ _; rfl
  | cons c l ih =>
    intro x hx h
    unfold walk at h ⊢
    cases ha : alookup c (hp x).entries with
    | none => rw [ha] at h; cases h
    | some y =>
      rw [ha] at h
      rw [hk x hx c y ha]
      exact ih y (hlt x hx _ (alookup_some ha)) h

/-- Making something new (not a link) takes nothing away. -/
theorem Added.exists_stays {s s' : FS} (hi : Inv s) (hi' : Inv s') (ht : s.cfg.Tree) {d : Ref} {nm : Str} (a : Added s s' d nm s.next)
    (he : (s'.heap s.next).entries = []) (hl : (s'.heap s.next).isLnk = false) {q : List Str} (hq : ∀ w ∈ q, Plain s.cfg.sep w)
    (h : s.exists_ (absPath s.cfg.sep q) = .ok true) : s'.exists_ (absPath s.cfg.sep q) = .ok true := by
  have hcfg : s'.cfg = s.cfg := by rw [a.env]
  have hdv : s'.devName = s.devName := by
    unfold FS.devName
    have hd : devNullRef ≠ d := fun e => isDir_ne_devNull hi a.dir e.symm
    rw [a.others _ (devNull_lt hi) hd (Nat.ne_of_lt (devNull_lt hi))]
  have h1 := (exists_abs hi ht s.rc hq).mp h
  have h2 := (exists_abs hi' (by rw [hcfg]; exact ht) s'.rc (l := q) (by rw [hcfg]; exact hq)).mpr
  rw [hcfg] at h2
  refine h2 ?_
  rw [hdv]
  rcases h1 with h1 | h1 | ⟨cs, h1, h3⟩
  · exact .inl h1
  · exact .inr (.inl h1)
  · refine .inr (.inr ⟨cs, by rw [a.resolveComps hi ht.cs he hl]; exact h1, ?_⟩)
    refine walk_mono (nx := s.next) (fun x hx e hee => hi.g.entLt x hx e hee) ?_ cs rootRef (root_lt hi) h3
    intro x hx c y hy
    by_cases hxd : x = d
    · rw [hxd, a.parent]
      show alookup c ((s.heap d).entries ++ [(nm, s.next)]) = some y
      rw [alookup_snoc, ← hxd, hy]
    · rw [a.others x hx hxd (Nat.ne_of_lt hx)]; exact hy

theorem Spec.Written.osOpen {s : FS} {p : Str} {l : List Str} {n : Str} (hs : Reachable s) (ht : s.cfg.Tree) (h : Written s p l n)
    (hwin : s.cfg.isWin = false) (hw : Within s) (hg : Genuine s) (f : OFlags) (mode : Nat) :
    osOpen p f mode s = osOpen (absPath s.cfg.sep (l ++ [n])) f mode s := by
  have hi := reachable_inv hs
  have ed : s.openDirArg p = s.openDirArg (absPath s.cfg.sep (l ++ [n])) := by
    unfold FS.openDirArg
    rw [h.exists_ hi ht, h.resolve hi ht]
  by_cases hx : f.excl = true ∧ f.creat = false
  · unfold Verif.osOpen
    have : (f.modes.mustNotExist && f.modes.mustExist) = true := by
      unfold OFlags.modes; dsimp only; simpa using hx
    dsimp only
    rw [if_pos this, if_pos this]
    rfl
  cases hd : s.openDirArg (absPath s.cfg.sep (l ++ [n])) with
  | error e =>
    have e1 : ∀ p, s.openDirArg p = .error e → Verif.osOpen p f mode s = (.error e, s) := by
      intro p hp
      unfold Verif.osOpen
      dsimp only
      rw [if_neg (by unfold OFlags.modes; dsimp only; simpa using hx)]
      rw [M.bind_eq]
      dsimp only [M.get]
      rw [M.bind_eq, rd_eq (f := fun x => x.openDirArg p) hp]
    rw [e1 _ hd, e1 _ (ed.trans hd)]
  | ok v =>
  cases v with
  | some z =>
    unfold Verif.osOpen
    dsimp only
    rw [if_neg (by unfold OFlags.modes; dsimp only; simpa using hx), if_neg (by unfold OFlags.modes; dsimp only; simpa using hx)]
    rw [M.bind_eq, M.bind_eq]
    dsimp only [M.get]
    rw [M.bind_eq, rd_eq (f := fun x => x.openDirArg _) (ed.trans hd), M.bind_eq, rd_eq (f := fun x => x.openDirArg _) hd]
  | none =>
    rw [osOpen_file hx hd, osOpen_file hx (ed.trans hd)]
    rw [M.bind_eq, M.bind_eq, h.openPath hi ht]
    rcases hop : Verif.openPath (absPath s.cfg.sep (l ++ [n])) f.modes none true false s with ⟨res, s'⟩
    cases res with
    | error e => rfl
    | ok i =>
      dsimp only
      have e : hget i s' = (.ok (s'.handles i), s') := rfl
      rw [M.bind_eq, M.bind_eq, e]
      dsimp only
      by_cases hne : (s'.handles i).obj ≠ devNullRef
      · rw [if_pos hne, if_pos hne]
        have hgood := openPath_pres (absPath s.cfg.sep (l ++ [n])) f.modes none true false s hi
        unfold wp at hgood
        rw [hop] at hgood
        have hW : Written s' p l n := by
          have hk := opened_keeps (P := fun t => t.devName = s.devName ∧ ∀ q, (∀ w ∈ q, Plain s.cfg.sep w) →
            s.exists_ (absPath s.cfg.sep q) = .ok true → t.exists_ (absPath s.cfg.sep q) = .ok true) hs ht ⟨rfl, fun _ _ e => e⟩ ?_ ?_ hwin hw hg hd h.dev' hop hne
          · exact h.keep hgood.ext.cfg hgood.ext.cwd hgood.ext.limit hk.1 hk.2
          · intro a b ag ha
            exact ⟨ag.devName.trans ha.1, fun q hq e => by rw [ag.exists_ (closed_true a)]; exact ha.2 q hq e⟩
          · intro s0 d nm hi0 a he hl
            refine ⟨?_, fun q hq e => a.exists_stays hi hi0 ht he hl hq e⟩
            unfold FS.devName
            rw [a.others devNullRef (devNull_lt hi) (fun e => isDir_ne_devNull hi a.dir e.symm) (Nat.ne_of_lt (devNull_lt hi))]
        refine bind_left ?_
        have := hW.chmod hgood.inv (by rw [hgood.ext.cfg]; exact ht) mode true
        rw [hgood.ext.cfg] at this
        exact this
      · rw [if_neg hne, if_neg hne]
end Verif
