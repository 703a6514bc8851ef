import Verif.Props.Alias
/-!
# C77, continued: every call
-/

namespace Verif
open Py Spec Cfg

theorem bind_left {α β : Type} {m m' : M α} {f : α → M β} {s : FS} (h : m s = m' s) : (m >>= f) s = (m' >>= f) s := by
  rw [M.bind_eq, M.bind_eq, h]

theorem bind_right {α β : Type} {m : M α} {f g : α → M β} {s : FS} (h : ∀ a s', m s = (.ok a, s') → f a s' = g a s') :
    (m >>= f) s = (m >>= g) s := by
  rw [M.bind_eq, M.bind_eq]
  rcases hm : m s with ⟨_ | a, s'⟩
  · rfl
  · exact h a s' hm

theorem rd_left {α β : Type} {f g : FS → Except Err α} {k : α → M β} {s : FS} (h : f s = g s) : (rd f >>= k) s = (rd g >>= k) s :=
  bind_left (rd_eq (h.trans rfl) |>.trans (rd_eq rfl).symm)

theorem rd_both {α β : Type} {f g : FS → Except Err α} {k k' : α → M β} {s : FS} (h : f s = g s)
    (hk : ∀ a, g s = .ok a → k a s = k' a s) : (rd f >>= k) s = (rd g >>= k') s := by
  rw [rd_left h]
  refine bind_right ?_
  intro a s' e
  rw [rd_eq (f := g) rfl] at e
  injection e with e1 e2
  subst e2
  exact hk a e1

section
variable {s : FS} {l r : List Str} {n : Str} (hi : Inv s) (ht : s.cfg.Tree) (h : Alias s l r n)
include hi ht h

/-! ## reading -/

theorem Spec.Alias.stat (f : Bool) : s.stat (absPath s.cfg.sep (l ++ [n])) f = s.stat (absPath s.cfg.sep (r ++ [n])) f := by
  unfold FS.stat
  simp only [h.resolve hi ht, h.raise hi ht]

theorem Spec.Alias.readlink : s.readlink (absPath s.cfg.sep (l ++ [n])) = s.readlink (absPath s.cfg.sep (r ++ [n])) := by
  unfold FS.readlink
  simp only [h.lresolve hi ht, h.sepL hi ht, h.sepR hi ht, h.exists_ hi ht]

theorem Spec.Alias.listdir : s.listdir (absPath s.cfg.sep (l ++ [n])) = s.listdir (absPath s.cfg.sep (r ++ [n])) := by
  unfold FS.listdir
  rw [h.resolvePath hi ht]

theorem Spec.Alias.access (m : Nat) (f : Bool) :
    s.access (absPath s.cfg.sep (l ++ [n])) m f = s.access (absPath s.cfg.sep (r ++ [n])) m f := by
  unfold FS.access
  rw [h.stat hi ht]

theorem Spec.Alias.getxattr (a : Str) (f : Bool) :
    s.getxattr (absPath s.cfg.sep (l ++ [n])) a f = s.getxattr (absPath s.cfg.sep (r ++ [n])) a f := by
  unfold FS.getxattr
  rw [h.resolve hi ht]

theorem Spec.Alias.listxattr (f : Bool) :
    s.listxattr (absPath s.cfg.sep (l ++ [n])) f = s.listxattr (absPath s.cfg.sep (r ++ [n])) f := by
  unfold FS.listxattr
  rw [h.resolve hi ht]

/-! ## attributes -/

theorem Spec.Alias.chmod (m : Nat) (f : Bool) :
    chmod (absPath s.cfg.sep (l ++ [n])) m f s = chmod (absPath s.cfg.sep (r ++ [n])) m f s :=
  rd_left (h.resolve hi ht f true)

theorem Spec.Alias.utime (ns : Option (Int × Int)) (f : Bool) :
    utime (absPath s.cfg.sep (l ++ [n])) ns f s = utime (absPath s.cfg.sep (r ++ [n])) ns f s :=
  rd_left (h.resolve hi ht f true)

theorem Spec.Alias.chown (u g : Int) (f : Bool) :
    chown (absPath s.cfg.sep (l ++ [n])) u g f s = chown (absPath s.cfg.sep (r ++ [n])) u g f s :=
  rd_left (h.resolve hi ht f true)

theorem Spec.Alias.truncate (k : Nat) :
    truncate (absPath s.cfg.sep (l ++ [n])) k s = truncate (absPath s.cfg.sep (r ++ [n])) k s :=
  rd_left (h.resolve hi ht true true)

theorem Spec.Alias.chdir : chdir (absPath s.cfg.sep (l ++ [n])) s = chdir (absPath s.cfg.sep (r ++ [n])) s :=
  rd_left (h.resolvePath hi ht)

theorem Spec.Alias.setxattr (a : Str) (v : Bytes) (fl : Nat) (f : Bool) :
    setxattr (absPath s.cfg.sep (l ++ [n])) a v fl f s = setxattr (absPath s.cfg.sep (r ++ [n])) a v fl f s := by
  unfold Verif.setxattr
  refine bind_right fun x s' hx => ?_
  injection hx with h1 h2
  subst h2
  injection h1 with h1
  subst h1
  split
  · rfl
  · exact rd_left (h.resolve hi ht f true)

theorem Spec.Alias.removexattr (a : Str) (f : Bool) :
    removexattr (absPath s.cfg.sep (l ++ [n])) a f s = removexattr (absPath s.cfg.sep (r ++ [n])) a f s := by
  unfold Verif.removexattr
  refine bind_right fun x s' hx => ?_
  injection hx with h1 h2
  subst h2
  injection h1 with h1
  subst h1
  split
  · rfl
  · exact rd_left (h.resolve hi ht f true)

/-! ## opening -/

theorem Spec.Alias.fileArg : s.fileArg (absPath s.cfg.sep (l ++ [n])) = s.fileArg (absPath s.cfg.sep (r ++ [n])) := by
  unfold FS.fileArg
  rw [if_neg h.devL', if_neg h.devR', h.resolvePath hi ht, h.exists_ hi ht]

theorem Spec.Alias.initFileObject (o : Option Ref) (real : Str) (md : OpenModes) :
    initFileObject o (absPath s.cfg.sep (l ++ [n])) real md s = initFileObject o (absPath s.cfg.sep (r ++ [n])) real md s := by
  cases o with
  | some x => rfl
  | none =>
    unfold Verif.initFileObject
    dsimp only
    split
    · rfl
    refine rd_both (h.isLink hi ht) fun b hb => ?_
    cases b with
    | true =>
      simp only [if_true]
      exact rd_left (h.resolve hi ht false true)
    | false =>
      simp only [Bool.false_eq_true, if_false]
      rw [M.bind_eq, M.bind_eq]
      dsimp only [M.pure]
      rw [M.bind_eq, M.bind_eq]
      dsimp only [M.get]
      rw [h.sepL hi ht, h.sepR hi ht]

theorem Spec.Alias.openObject (o : Option Ref) (real : Str) (md : OpenModes) :
    openObject o (absPath s.cfg.sep (l ++ [n])) real md s = openObject o (absPath s.cfg.sep (r ++ [n])) real md s := by
  unfold Verif.openObject
  split
  · cases o with
    | some x => rfl
    | none =>
      simp only [Option.isSome_none, Bool.false_eq_true, if_false]
      rw [M.bind_eq, M.bind_eq]
      dsimp only [M.get]
      refine rd_both (h.isLink hi ht) fun b _ => ?_
      rw [M.bind_eq, M.bind_eq]
      dsimp only [M.pure]
      split
      · rfl
      · exact bind_left (h.initFileObject hi ht none real md)
  · exact bind_left (h.initFileObject hi ht o real md)

/-- `open` -/
theorem Spec.Alias.openPath (md : OpenModes) (bf : Option Nat) (ra del : Bool) :
    openPath (absPath s.cfg.sep (l ++ [n])) md bf ra del s = openPath (absPath s.cfg.sep (r ++ [n])) md bf ra del s := by
  unfold Verif.openPath
  refine rd_both (h.fileArg hi ht) fun a _ => ?_
  exact bind_left (h.openObject hi ht a.1 a.2 md)

/-! ## removing -/

omit hi ht h in
theorem removeObject_at {s : FS} (hi : Inv s) (ht : s.cfg.Tree) {names : List Str} {nm : Str} (hn : ∀ w ∈ names ++ [nm], Plain s.cfg.sep w) :
    removeObject (absPath s.cfg.sep (names ++ [nm])) s =
      M.tryCatch (do
        let d ← rd (·.resolve (absPath s.cfg.sep names) true false)
        removeEntry d nm true) (fun e =>
          match e with
          | .keyError => M.raise .ENOENT
          | .attributeError => M.raise .ENOTDIR
          | e => M.throw e) s := by
  have hp := plain_proper hn
  have hcan := absCanon_names hp
  have h0 := absPath_snoc_ne_root (k := s.cfg) (fun x hx => hp x (List.mem_append_left _ hx)) (hp nm (by simp))
  unfold removeObject
  rw [M.bind_eq]
  dsimp only [M.get]
  rw [originalPath_tree ht.cs, absnorm_canon hi ht.posix hcan]
  have h2 : s.cfg.isRootPath (absPath s.cfg.sep (names ++ [nm])) = false := by
    cases h : s.cfg.isRootPath (absPath s.cfg.sep (names ++ [nm])) with
    | false => rfl
    | true => exact absurd ((isRootPath_tree ht _).mp h) h0
  rw [h2, splitpath_absPath ht.posix (fun x hx => hp x (List.mem_append_left _ hx)) (hp nm (by simp))]
  rfl

omit hi ht h in
theorem tryCatch_left {α : Type} {m m' : M α} {f : Err → M α} {s : FS} (h : m s = m' s) : M.tryCatch m f s = M.tryCatch m' f s := by
  unfold M.tryCatch; rw [h]

theorem Spec.Alias.removeObject :
    removeObject (absPath s.cfg.sep (l ++ [n])) s = removeObject (absPath s.cfg.sep (r ++ [n])) s := by
  rw [removeObject_at hi ht h.plainL, removeObject_at hi ht h.plainR]
  exact tryCatch_left (rd_left (h.dir hi ht false))

theorem Spec.Alias.normL : s.absnorm (absPath s.cfg.sep (l ++ [n])) = absPath s.cfg.sep (l ++ [n]) :=
  absnorm_canon hi ht.posix (absCanon_names (plain_proper h.plainL))
theorem Spec.Alias.normR : s.absnorm (absPath s.cfg.sep (r ++ [n])) = absPath s.cfg.sep (r ++ [n]) :=
  absnorm_canon hi ht.posix (absCanon_names (plain_proper h.plainR))

omit hi ht h in
theorem absPath_noSep {s : FS} (ht : s.cfg.Tree) {names : List Str} {nm : Str} (hn : ∀ w ∈ names ++ [nm], Plain s.cfg.sep w) :
    endsWithC s.cfg.sep (absPath s.cfg.sep (names ++ [nm])) = false := by
  have hp := plain_proper hn
  have h0 := absPath_snoc_ne_root (k := s.cfg) (fun x hx => hp x (List.mem_append_left _ hx)) (hp nm (by simp))
  have h1 := absCanon_not_endsWithSep ht.posix (absCanon_names hp)
  unfold Cfg.endsWithSep at h1
  have h2 : absPath s.cfg.sep (names ++ [nm]) ≠ [s.cfg.sep] := h0
  rw [ht.posix.altsep] at h1
  simpa [h2, absPath_ne_nil (c := s.cfg.sep) (l := names ++ [nm])] using h1

theorem Spec.Alias.removeCheckPath :
    s.removeCheckPath (absPath s.cfg.sep (l ++ [n])) = s.removeCheckPath (absPath s.cfg.sep (r ++ [n])) := by
  have e1 : endsWithC s.cfg.sep (absPath s.cfg.sep (l ++ [n])) = endsWithC s.cfg.sep (absPath s.cfg.sep (r ++ [n])) := by
    rw [absPath_noSep ht h.plainL, absPath_noSep ht h.plainR]
  unfold FS.removeCheckPath
  simp only [h.normL hi ht, h.normR hi ht, h.sepL hi ht, h.sepR hi ht, h.exists_ hi ht, h.resolve hi ht, h.lresolve hi ht,
    h.raise hi ht, e1, Bool.false_eq_true, if_false]

theorem Spec.Alias.remove : remove (absPath s.cfg.sep (l ++ [n])) s = remove (absPath s.cfg.sep (r ++ [n])) s := by
  unfold Verif.remove
  refine rd_both (h.removeCheckPath hi ht) fun _ _ => ?_
  rw [M.bind_eq, M.bind_eq]
  dsimp only [M.get]
  rw [h.normL hi ht, h.normR hi ht]
  exact h.removeObject hi ht

theorem Spec.Alias.rmdir (b : Bool) : rmdir (absPath s.cfg.sep (l ++ [n])) b s = rmdir (absPath s.cfg.sep (r ++ [n])) b s := by
  unfold Verif.rmdir
  have e : s.rmdirCheck (absPath s.cfg.sep (l ++ [n])) b = s.rmdirCheck (absPath s.cfg.sep (r ++ [n])) b := by
    unfold FS.rmdirCheck FS.confirmdir
    rw [if_neg (absPath_ne_dot ht.posix), if_neg (absPath_ne_dot ht.posix)]
    simp only [h.normL hi ht, h.normR hi ht, h.sepL hi ht, h.sepR hi ht, h.isLink hi ht, h.resolve hi ht]
  refine rd_both e fun go _ => ?_
  rw [M.bind_eq, M.bind_eq]
  dsimp only [M.get]
  rw [h.normL hi ht, h.normR hi ht]
  cases go with
  | true => exact h.removeObject hi ht
  | false => rfl

/-! ## creating -/

theorem Spec.Alias.addObject {o : FS → Obj} :
    (newObj o >>= fun d => addObject (absPath s.cfg.sep l) d) s = (newObj o >>= fun d => addObject (absPath s.cfg.sep r) d) s := by
  refine bind_right fun x s1 hx => ?_
  have e1 : ∀ p, s1.resolve p = s.resolve p := by
    intro p
    injection hx with h1 h2
    subst h2
    exact ((new_same s (o s)).agree hi).resolve (Closed.lt hi) _ _ _
  unfold Verif.addObject
  rw [if_neg absPath_ne_nil, if_neg absPath_ne_nil]
  refine rd_left ?_
  show s1.resolve _ = s1.resolve _
  rw [e1, e1]
  exact h.dir hi ht true

theorem Spec.Alias.mkdirParent :
    s.mkdirParent (absPath s.cfg.sep (l ++ [n])) = s.mkdirParent (absPath s.cfg.sep (r ++ [n])) := by
  have hp := plain_proper h.plainL
  have hq := plain_proper h.plainR
  unfold FS.mkdirParent
  dsimp only
  rw [splitpath_absPath ht.posix (fun x hx => hp x (List.mem_append_left _ hx)) (hp n (by simp)),
    splitpath_absPath ht.posix (fun x hx => hq x (List.mem_append_left _ hx)) (hq n (by simp))]
  dsimp only
  rw [if_pos absPath_ne_nil, if_pos absPath_ne_nil, not_dotdot_suffix ht.posix (h.pl hi ht), not_dotdot_suffix ht.posix (h.pr hi ht),
    normpath_canon_id ht.posix (Or.inl (absCanon_names (plain_proper (h.pl hi ht)))),
    normpath_canon_id ht.posix (Or.inl (absCanon_names (plain_proper (h.pr hi ht))))]
  simp only [Bool.false_and, Bool.false_eq_true, if_false, h.existsDir hi ht]

theorem Spec.Alias.mkdir (m : Nat) : mkdir (absPath s.cfg.sep (l ++ [n])) m s = mkdir (absPath s.cfg.sep (r ++ [n])) m s := by
  have hp := plain_proper h.plainL
  have hq := plain_proper h.plainR
  have htail : mkdirTail (absPath s.cfg.sep (l ++ [n])) m s = mkdirTail (absPath s.cfg.sep (r ++ [n])) m s := by
    unfold mkdirTail
    rw [M.bind_eq, M.bind_eq]
    dsimp only [M.get]
    rw [splitpath_absPath ht.posix (fun x hx => hp x (List.mem_append_left _ hx)) (hp n (by simp)),
      splitpath_absPath ht.posix (fun x hx => hq x (List.mem_append_left _ hx)) (hq n (by simp))]
    exact h.addObject hi ht
  unfold Verif.mkdir
  rw [M.bind_eq, M.bind_eq]
  dsimp only [M.get]
  rw [stripTrailing_canon ht.posix (absCanon_names hp), stripTrailing_canon ht.posix (absCanon_names hq),
    if_neg absPath_ne_nil, if_neg absPath_ne_nil, ht.posix.win]
  simp only [Bool.false_eq_true, if_false, false_and]
  refine rd_both (h.mkdirParent hi ht) fun _ _ => ?_
  rw [h.normL hi ht, h.normR hi ht, h.sepL hi ht, h.sepR hi ht]
  refine rd_both (h.existsL hi ht) fun b _ => ?_
  cases b with
  | true => rfl
  | false => exact htail

theorem Spec.Alias.splitL : s.cfg.splitpath (absPath s.cfg.sep (l ++ [n])) = (absPath s.cfg.sep l, n) :=
  splitpath_absPath ht.posix (plain_proper (h.pl hi ht)) (h.pn hi ht).1
theorem Spec.Alias.splitR : s.cfg.splitpath (absPath s.cfg.sep (r ++ [n])) = (absPath s.cfg.sep r, n) :=
  splitpath_absPath ht.posix (plain_proper (h.pr hi ht)) (h.pn hi ht).1

theorem Spec.Alias.mknod (m : Nat) : mknod (absPath s.cfg.sep (l ++ [n])) m s = mknod (absPath s.cfg.sep (r ++ [n])) m s := by
  unfold Verif.mknod
  rw [M.bind_eq, M.bind_eq]
  dsimp only [M.get]
  rw [h.splitL hi ht, h.splitR hi ht]
  by_cases c1 : s.cfg.isWin = true
  · rw [if_pos c1, if_pos c1]; rfl
  rw [if_neg c1, if_neg c1]
  by_cases c2 : m &&& S_IFREG = 0 ∧ (!s.isRoot) = true
  · rw [if_pos c2, if_pos c2]; rfl
  rw [if_neg c2, if_neg c2]
  dsimp only
  rw [if_neg (h.pn hi ht).1.1, if_neg (h.pn hi ht).1.1]
  by_cases c3 : n = dot ∨ n = dotdot
  · rw [if_pos c3, if_pos c3]; rfl
  rw [if_neg c3, if_neg c3]
  refine rd_both (h.existsL hi ht) fun b _ => ?_
  cases b with
  | true => rfl
  | false => exact h.addObject hi ht

theorem Spec.Alias.createFileTail (hw : Within s) (m : Nat) (c : Option Bytes) (size : Option Nat) (um : Bool) :
    createFileTail (absPath s.cfg.sep l) n (absPath s.cfg.sep (l ++ [n])) m c size um s =
    createFileTail (absPath s.cfg.sep r) n (absPath s.cfg.sep (r ++ [n])) m c size um s := by
  unfold Verif.createFileTail
  rw [M.bind_eq, M.bind_eq]
  dsimp only [M.get]
  have hadd := h.addObject hi ht (o := mkFileObj n (if um = true then andNot m s.umask else m) none)
  rw [M.bind_eq, M.bind_eq] at hadd
  have hnew : newObj (mkFileObj n (if um = true then andNot m s.umask else m) none) s = (.ok s.next, { s with
    heap := upd s.heap s.next (mkFileObj n (if um = true then andNot m s.umask else m) none s), next := s.next + 1 }) := rfl
  have hname := newFile_fresh hi n (if um = true then andNot m s.umask else m) none
  unfold wp at hname
  rw [hnew] at hadd hname
  rw [M.bind_eq, M.bind_eq, hnew]
  dsimp only at hadd hname ⊢
  obtain ⟨hg1, _, hf, hs1⟩ := hname
  generalize hs : ({ s with
    heap := upd s.heap s.next (mkFileObj n (if um = true then andNot m s.umask else m) none s), next := s.next + 1 } : FS) = s1 at *
  have hok : NameOk s1 s.next := by
    intro p m
    rw [← hs]
    show Proper s.cfg.sep (upd s.heap s.next _ s.next).name
    rw [upd_same]
    exact (h.pn hi ht).1
  rw [M.bind_eq, M.bind_eq, hadd]
  have hgood := addObject_fresh hg1.inv (absPath s.cfg.sep r) hf hok
  rcases addObject_new (o := mkFileObj n (if um = true then andNot m s.umask else m) none s) hi hw ht rfl rfl rfl rfl hs.symm (names := r)
    with ⟨e, he, _⟩ | ⟨s2, d, ld, he, h1, h2, h3, h4⟩
  · rw [he]
  · unfold wp at hgood
    rw [he] at hgood ⊢
    dsimp only at hgood ⊢
    have hi2 : Inv s2 := hgood.inv
    have hcfg : s2.cfg = s.cfg := by rw [h4.added.env]
    have hrm : Verif.removeObject (absPath s.cfg.sep (l ++ [n])) s2 = Verif.removeObject (absPath s.cfg.sep (r ++ [n])) s2 := by
      have ht2 : s2.cfg.Tree := by rw [hcfg]; exact ht
      have a1 := removeObject_at hi2 ht2 (names := l) (nm := n) (by rw [hcfg]; exact h.plainL)
      have a2 := removeObject_at hi2 ht2 (names := r) (nm := n) (by rw [hcfg]; exact h.plainR)
      rw [hcfg] at a1 a2
      rw [a1, a2]
      refine tryCatch_left (rd_left ?_)
      have hd : s.resolve (absPath s.cfg.sep r) true false = .ok d := resolve_weaken hi ht h1
      have hne := isDir_ne_devNull hi h3
      show s2.resolve _ true false = s2.resolve _ true false
      rw [made_resolve hi hi2 ht h4 ((h.dir hi ht false).trans hd) hne, made_resolve hi hi2 ht h4 hd hne]
    by_cases c1 : (if size = none ∧ c = none then some [] else c) ≠ none ∨ size ≠ none
    · rw [if_pos c1, if_pos c1]
      refine bind_left ?_
      rcases h4.fill hi ht c size with hfe | ⟨s3, hfe, _⟩
      · have hgd : (if size = none ∧ c = none then some [] else c).getD [] = c.getD [] := by
          cases c <;> cases size <;> simp
        rw [hgd]
        show catchOS (fillNew s.next c size) _ s2 = catchOS (fillNew s.next c size) _ s2
        unfold catchOS M.tryCatch
        rw [hfe]
        exact bind_left hrm
      · have hgd : (if size = none ∧ c = none then some [] else c).getD [] = c.getD [] := by
          cases c <;> cases size <;> simp
        rw [hgd]
        show catchOS (fillNew s.next c size) _ s2 = catchOS (fillNew s.next c size) _ s2
        unfold catchOS M.tryCatch
        rw [hfe]
    · rw [if_neg c1, if_neg c1]

omit hi ht h in
theorem fileParent_err {s : FS} {x : Str} {e : Err} (cm : Bool) (he : s.exists_ x = .error e) : fileParent x cm s = (.error e, s) := by
  unfold fileParent
  rw [M.bind_eq, rd_eq (f := fun y => y.exists_ x) he]

omit hi ht h in
theorem fileParent_none {s : FS} {x : Str} (he : s.exists_ x = .ok false) : fileParent x false s = (.error (.os .ENOENT), s) := by
  unfold fileParent
  rw [M.bind_eq, rd_eq (f := fun y => y.exists_ x) he]
  rfl

omit hi ht h in
theorem fileParent_there {s : FS} (ht : s.cfg.Tree) {x : Str} (cm : Bool) (he : s.exists_ x = .ok true) : fileParent x cm s = (.ok x, s) := by
  unfold fileParent
  rw [M.bind_eq, rd_eq (f := fun y => y.exists_ x) he]
  show ((.ok (s.originalPath x), s) : Except Err Str × FS) = _
  rw [originalPath_tree ht.cs]

/-- `create_file` in a directory that exists -/
theorem Spec.Alias.createFile (hw : Within s) (hsl : s.cfg.sep = '/') (m : Nat) (c : Option Bytes) (size : Option Nat) (cm um : Bool)
    (hex : cm = false ∨ s.exists_ (absPath s.cfg.sep l) = .ok true) :
    createFileI (absPath s.cfg.sep (l ++ [n])) m c size cm um s = createFileI (absPath s.cfg.sep (r ++ [n])) m c size cm um s := by
  unfold createFileI
  rw [M.bind_eq, M.bind_eq]
  dsimp only [M.get]
  rw [makeStringPath_slash hsl, makeStringPath_slash hsl, h.normL hi ht, h.normR hi ht, h.splitL hi ht, h.splitR hi ht]
  refine rd_both (h.existsL hi ht) fun b _ => ?_
  cases b with
  | true => rw [if_pos rfl, if_pos rfl, M.bind_eq, M.bind_eq]; rfl
  | false =>
  simp only [Bool.false_eq_true, if_false]
  rw [if_neg absPath_ne_nil, if_neg absPath_ne_nil, M.bind_eq, M.bind_eq, autoMount_posix ht.posix, autoMount_posix ht.posix]
  dsimp only
  have main := h.createFileTail hi ht hw m c size um
  have hdir : ∀ y, s.exists_ (absPath s.cfg.sep l) = y → s.exists_ (absPath s.cfg.sep r) = y := fun y e => (h.existsDir hi ht).symm.trans e
  cases he : s.exists_ (absPath s.cfg.sep l) with
  | error e =>
    rw [M.bind_eq, M.bind_eq, fileParent_err cm he, fileParent_err cm (hdir _ he)]
  | ok b =>
    cases b with
    | false =>
      rcases hex with rfl | hex
      · rw [M.bind_eq, M.bind_eq, fileParent_none he, fileParent_none (hdir _ he)]
      · rw [he] at hex; cases hex
    | true =>
      rw [M.bind_eq, M.bind_eq, fileParent_there ht cm he, fileParent_there ht cm (hdir _ he)]
      exact main

/-- `os.symlink` -/
theorem Spec.Alias.symlink (hw : Within s) (hsl : s.cfg.sep = '/') (target : Str) :
    createSymlink (absPath s.cfg.sep (l ++ [n])) target false s = createSymlink (absPath s.cfg.sep (r ++ [n])) target false s := by
  have hn : ∀ p, s.cfg.normcase p = p := fun p => by unfold Cfg.normcase; rw [ht.posix.altsep]
  unfold createSymlink
  rw [M.bind_eq, M.bind_eq]
  dsimp only [M.get]
  simp only [makeStringPath_slash hsl, hn, h.sepL hi ht, h.sepR hi ht, Bool.false_eq_true, if_false]
  refine rd_both (h.isLink hi ht) fun b _ => ?_
  cases b with
  | false => exact rd_left (h.resolvePath hi ht)
  | true => exact h.createFile hi ht hw hsl _ _ _ _ _ (Or.inl rfl)

omit hi ht h in
theorem linkParent_same {s s' : FS} {x : Str} {u : Unit} (e : linkParent x false s = (.ok u, s')) : s' = s := by
  unfold linkParent at e
  rw [M.bind_eq, rd_eq (f := fun y => y.exists_ x) rfl] at e
  cases hx : s.exists_ x with
  | error er => rw [hx] at e; cases e
  | ok b =>
    rw [hx] at e
    cases b with
    | false => cases e
    | true => injection e with _ e; exact e.symm

/-- `os.link`, the existing name -/
theorem Spec.Alias.linkOld (new : Str) (f : Bool) :
    link (absPath s.cfg.sep (l ++ [n])) new f s = link (absPath s.cfg.sep (r ++ [n])) new f s := by
  unfold link createLink
  rw [M.bind_eq, M.bind_eq]
  dsimp only [M.get]
  refine bind_right fun b s' e => ?_
  rw [rd_eq (f := fun x => x.existsL (s.absnorm new)) rfl] at e
  injection e with _ e
  subst e
  cases b with
  | true => simp only [if_true]; rw [M.bind_eq, M.bind_eq]; rfl
  | false =>
    simp only [Bool.false_eq_true, if_false]
    refine bind_right fun _ s' e => ?_
    have : s' = s := linkParent_same e
    subst this
    unfold linkTail
    rw [M.bind_eq, M.bind_eq]
    dsimp only [M.get]
    rw [h.sepL hi ht, h.sepR hi ht]
    simp only [Bool.false_eq_true, if_false]
    have e2 : catchOS (rd (·.resolve (absPath s'.cfg.sep (l ++ [n])) f)) (fun _ => M.raise .ENOENT) s' =
        catchOS (rd (·.resolve (absPath s'.cfg.sep (r ++ [n])) f)) (fun _ => M.raise .ENOENT) s' := by
      refine tryCatch_left ?_
      rw [rd_eq (f := fun x => x.resolve (absPath s'.cfg.sep (l ++ [n])) f) (h.resolve hi ht f true), rd_eq (f := fun x => x.resolve (absPath s'.cfg.sep (r ++ [n])) f) rfl]
    by_cases c : (!s'.cfg.isWin && s'.cfg.endsWithSep new) = true
    · rw [if_pos c, if_pos c, M.bind_eq, M.bind_eq]; rfl
    · rw [if_neg c, if_neg c]
      exact bind_left e2

/-- `os.link`, the new name -/
theorem Spec.Alias.linkNew (old : Str) (f : Bool) (hne : s.resolve old f ≠ .ok devNullRef) :
    link old (absPath s.cfg.sep (l ++ [n])) f s = link old (absPath s.cfg.sep (r ++ [n])) f s := by
  unfold link createLink
  rw [M.bind_eq, M.bind_eq]
  dsimp only [M.get]
  rw [h.normL hi ht, h.normR hi ht, h.splitL hi ht, h.splitR hi ht]
  refine rd_both (h.existsL hi ht) fun b _ => ?_
  cases b with
  | true => simp only [if_true]; rw [M.bind_eq, M.bind_eq]; rfl
  | false =>
    simp only [Bool.false_eq_true, if_false]
    rw [if_neg absPath_ne_nil, if_neg absPath_ne_nil]
    have hlp : linkParent (absPath s.cfg.sep l) false s = linkParent (absPath s.cfg.sep r) false s := by
      unfold linkParent
      exact rd_left (h.existsDir hi ht)
    rw [M.bind_eq, M.bind_eq, hlp]
    rcases hq : linkParent (absPath s.cfg.sep r) false s with ⟨_ | u, s'⟩
    · rfl
    have := linkParent_same hq
    subst this
    dsimp only
    unfold linkTail
    rw [M.bind_eq, M.bind_eq]
    dsimp only [M.get]
    rw [h.sepL hi ht, h.sepR hi ht]
    by_cases c : s'.cfg.endsWithSep old = true
    · rw [if_pos c, if_pos c, M.bind_eq, M.bind_eq]; rfl
    rw [if_neg c, if_neg c]
    simp only [Bool.and_false, Bool.false_eq_true, if_false]
    refine bind_right fun x s2 e => ?_
    have e2 : s2 = s' ∧ s'.resolve old f = .ok x := by
      unfold catchOS M.tryCatch at e
      rw [rd_eq (f := fun x => x.resolve old f) rfl] at e
      cases hr : s'.resolve old f with
      | error er =>
        rw [hr] at e
        dsimp only at e
        cases ho : er.isOS <;> rw [ho] at e <;> cases e
      | ok y =>
        rw [hr] at e
        injection e with e1 e3
        injection e1 with e1
        exact ⟨e3.symm, by rw [e1]⟩
    obtain ⟨rfl, hx⟩ := e2
    have hxn : x ≠ devNullRef := fun e => hne (e ▸ hx)
    rw [M.bind_eq, M.bind_eq]
    dsimp only [M.get]
    by_cases c2 : (s2.heap x).mode &&& S_IFDIR ≠ 0
    · rw [if_pos c2, if_pos c2, M.bind_eq, M.bind_eq]; rfl
    rw [if_neg c2, if_neg c2, M.bind_eq, M.bind_eq]
    dsimp only [M.modify]
    have a : Agree (fun _ => True) s2 (s2.setObj x fun o => { o with name := n }) := by
      have e : ∀ y, ((s2.setObj x fun o => { o with name := n }).heap y) = if y = x then { s2.heap x with name := n } else s2.heap y := by
        intro y; unfold FS.setObj upd; rfl
      refine ⟨rfl, rfl, rfl, rfl, ?_, ?_, ?_, ?_, ?_⟩
      · unfold FS.devName; rw [e, if_neg (fun h => hxn h.symm)]
      all_goals intro y _
      · rw [e]; split <;> simp_all
      · rw [e]; split <;> simp_all [Obj.isDir]
      · rw [e]; split <;> simp_all [Obj.entries]
      · intro _; rw [e]; split
        · subst_vars; rfl
        · rfl
    refine bind_left ?_
    unfold Verif.addObject
    rw [if_neg absPath_ne_nil, if_neg absPath_ne_nil]
    refine rd_left ?_
    show FS.resolve _ _ = FS.resolve _ _
    rw [a.resolve (closed_true s2), a.resolve (closed_true s2)]
    exact h.dir hi ht true

theorem Spec.Alias.dirLinkErrorsOld (new : Str) :
    s.posixDirLinkErrors new (absPath s.cfg.sep (l ++ [n])) false = s.posixDirLinkErrors new (absPath s.cfg.sep (r ++ [n])) false := by
  unfold FS.posixDirLinkErrors
  simp only [h.isDir hi ht, h.isLink hi ht, Bool.false_and, Bool.false_eq_true, if_false, bind, Except.bind]

theorem Spec.Alias.dirLinkErrorsNew (old : Str) (es : Bool) (hex : s.existsL old = .ok true) (hfree : s.existsL (absPath s.cfg.sep (l ++ [n])) = .ok false) :
    s.posixDirLinkErrors (absPath s.cfg.sep (l ++ [n])) old es = s.posixDirLinkErrors (absPath s.cfg.sep (r ++ [n])) old es := by
  have n1 : (old == absPath s.cfg.sep (l ++ [n])) = false := by
    rw [beq_eq_false_iff_ne]; rintro rfl; rw [hfree] at hex; cases hex
  have n2 : (old == absPath s.cfg.sep (r ++ [n])) = false := by
    rw [beq_eq_false_iff_ne]; rintro rfl; rw [← h.existsL hi ht, hfree] at hex; cases hex
  unfold FS.posixDirLinkErrors
  simp only [h.isDir hi ht, h.isLink hi ht, n1, n2]

/-- `os.rename`, the old name -/
theorem Spec.Alias.renameOld (new : Str) (force : Bool) (hfree : s.existsL (s.absnorm new) = .ok false) :
    rename (absPath s.cfg.sep (l ++ [n])) new force s = rename (absPath s.cfg.sep (r ++ [n])) new force s := by
  unfold rename
  rw [M.bind_eq, M.bind_eq]
  dsimp only [M.get]
  rw [h.normL hi ht, h.normR hi ht, h.sepL hi ht, h.sepR hi ht]
  simp only [Bool.false_eq_true, if_false]
  refine rd_both (h.existsL hi ht) fun b _ => ?_
  cases b with
  | false => simp only [Bool.not_false, if_true]; rw [M.bind_eq, M.bind_eq]; rfl
  | true =>
    simp only [Bool.not_true, Bool.false_eq_true, if_false]
    refine rd_both (h.lresolve hi ht) fun oldO _ => ?_
    rw [ht.posix.win]
    simp only [Bool.not_false, if_true]
    refine rd_both (h.dirLinkErrorsOld hi ht (s.absnorm new)) fun _ _ => ?_
    refine rd_both rfl fun b hb => ?_
    rw [hfree] at hb
    injection hb with hb
    subst hb
    simp only [Bool.false_eq_true, if_false]
    unfold renameTail
    rw [M.bind_eq, M.bind_eq]
    dsimp only [M.get]
    rw [h.splitL hi ht, h.splitR hi ht]
    by_cases c : s.absnorm new = []
    · rw [if_pos c, if_pos c]
    rw [if_neg c, if_neg c]
    refine rd_both rfl fun b _ => ?_
    cases b with
    | false => simp only [Bool.not_false, if_true]; rw [M.bind_eq, M.bind_eq]; rfl
    | true =>
      simp only [Bool.not_true, Bool.false_eq_true, if_false]
      exact rd_left (h.dir hi ht true)

/-- `os.rename`, the new name -/
theorem Spec.Alias.renameNew (old : Str) (force : Bool) (hfree : s.existsL (absPath s.cfg.sep (l ++ [n])) = .ok false) :
    rename old (absPath s.cfg.sep (l ++ [n])) force s = rename old (absPath s.cfg.sep (r ++ [n])) force s := by
  have tail : ∀ oldO, renameTail (s.absnorm old) (absPath s.cfg.sep (l ++ [n])) oldO s = renameTail (s.absnorm old) (absPath s.cfg.sep (r ++ [n])) oldO s := by
    intro oldO
    unfold renameTail
    rw [M.bind_eq, M.bind_eq]
    dsimp only [M.get]
    rw [h.splitL hi ht, h.splitR hi ht, if_neg absPath_ne_nil, if_neg absPath_ne_nil]
    refine rd_both (h.existsDir hi ht) fun b _ => ?_
    cases b with
    | false => simp only [Bool.not_false, if_true]; rw [M.bind_eq, M.bind_eq]; rfl
    | true =>
      simp only [Bool.not_true, Bool.false_eq_true, if_false]
      refine rd_both rfl fun od _ => ?_
      exact rd_left (h.dir hi ht true)
  have hfree' := (h.existsL hi ht).symm.trans hfree
  unfold rename
  rw [M.bind_eq, M.bind_eq]
  dsimp only [M.get]
  rw [h.normL hi ht, h.normR hi ht]
  refine rd_both rfl fun b hb => ?_
  cases b with
  | false => simp only [Bool.not_false, if_true]; rw [M.bind_eq, M.bind_eq]; rfl
  | true =>
    simp only [Bool.not_true, Bool.false_eq_true, if_false]
    have rest : ∀ oldO, (do
        rd (·.posixDirLinkErrors (absPath s.cfg.sep (l ++ [n])) (s.absnorm old) (s.cfg.endsWithSep old))
        if ← rd (·.existsL (absPath s.cfg.sep (l ++ [n]))) then
          match ← renameToExisting force (absPath s.cfg.sep (l ++ [n])) (s.absnorm old) oldO (s.cfg.endsWithSep old) with
          | none => M.pure ()
          | some new => renameTail (s.absnorm old) new oldO
        else renameTail (s.absnorm old) (absPath s.cfg.sep (l ++ [n])) oldO : M Unit) s = (do
        rd (·.posixDirLinkErrors (absPath s.cfg.sep (r ++ [n])) (s.absnorm old) (s.cfg.endsWithSep old))
        if ← rd (·.existsL (absPath s.cfg.sep (r ++ [n]))) then
          match ← renameToExisting force (absPath s.cfg.sep (r ++ [n])) (s.absnorm old) oldO (s.cfg.endsWithSep old) with
          | none => M.pure ()
          | some new => renameTail (s.absnorm old) new oldO
        else renameTail (s.absnorm old) (absPath s.cfg.sep (r ++ [n])) oldO : M Unit) s := by
      intro oldO
      refine rd_both (h.dirLinkErrorsNew hi ht (s.absnorm old) _ hb hfree) fun _ _ => ?_
      refine rd_both (h.existsL hi ht) fun b hb => ?_
      rw [hfree'] at hb
      injection hb with hb
      subst hb
      exact tail oldO
    rw [ht.posix.win]
    by_cases c : s.cfg.endsWithSep old = true
    · rw [if_pos c, if_pos c]
      refine rd_both rfl fun _ _ => ?_
      refine rd_both rfl fun oldO _ => ?_
      exact rest oldO
    · rw [if_neg c, if_neg c]
      refine rd_both rfl fun oldO _ => ?_
      exact rest oldO
end

end Verif
