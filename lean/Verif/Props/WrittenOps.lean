import Verif.Props.Written
/-!
# C85, continued: every call
-/

namespace Verif
open Py Spec Cfg

section
variable {s : FS} {p : Str} {l : List Str} {n : Str} (hi : Inv s) (ht : s.cfg.Tree) (h : Written s p l n)
include hi ht h

theorem Spec.Written.resolvePath : s.resolvePath p = s.resolvePath (absPath s.cfg.sep (l ++ [n])) :=
  resolvePath_word hi ht _ (h.ne hi ht) (validRel_pass hi ht h.up) h.plain (h.norm hi ht)

theorem Spec.Written.resolveT (c : Bool) : s.resolve p true c = s.resolve (absPath s.cfg.sep (l ++ [n])) true c := by
  have := h.resolvePath hi ht
  unfold FS.resolvePath at this
  show s.resolveG _ _ _ = s.resolveG _ _ _
  unfold FS.resolveG
  rw [this]

/-- the directory part, as the calls that look at the entry itself see it -/
theorem Spec.Written.dirPath : ∃ d, s.lparent p = (d, n) ∧ s.resolvePathG s.rc d = s.resolvePathG s.rc (absPath s.cfg.sep l) := by
  obtain ⟨hd, h1, h2⟩ := h.split hi ht
  unfold FS.lparent
  simp only [h.strip hi ht, if_neg (h.neDot hi ht), originalPath_tree ht.cs, h1]
  rcases h2 with ⟨rfl, e⟩ | ⟨hne, hd0, he⟩
  · exact ⟨_, rfl, by rw [if_pos rfl, e]⟩
  · exact ⟨_, rfl, by rw [if_neg hne]; exact resolvePath_word hi ht _ hne (validRel_pass hi ht hd0) (h.pl hi ht) he⟩

theorem Spec.Written.lresolve : s.lresolve p = s.lresolve (absPath s.cfg.sep (l ++ [n])) := by
  obtain ⟨d, h1, h2⟩ := h.dirPath hi ht
  have hp := plain_proper h.plain
  have hr : p ≠ s.cfg.root := by
    intro e
    have := h.ends hi ht
    rw [e] at this
    simp [endsWithC, Cfg.root] at this
  have h0 : absPath s.cfg.sep (l ++ [n]) ≠ s.cfg.root := absPath_snoc_ne_root (k := s.cfg) (fun x hx => hp x (List.mem_append_left _ hx)) (hp n (by simp))
  unfold FS.lresolve FS.lresolveG
  rw [if_neg (h.ne hi ht), if_neg hr, if_neg absPath_ne_nil, if_neg h0, h1, lparent_absPath ht h.plain]
  unfold FS.resolveG
  rw [h2]

theorem Spec.Written.resolve (f c : Bool) : s.resolve p f c = s.resolve (absPath s.cfg.sep (l ++ [n])) f c := by
  cases f with
  | true => exact h.resolveT hi ht c
  | false => exact h.lresolve hi ht

theorem Spec.Written.raise (x : Ref) (f m : Bool) : s.raiseForSep p x f m = s.raiseForSep (absPath s.cfg.sep (l ++ [n])) x f m := by
  rw [noSep_raise (h.sepL hi ht), noSep_raise (h.sepR hi ht)]

theorem Spec.Written.ofType (flag : Nat) (f : Bool) :
    s.isOfTypeG s.rc p flag f = s.isOfTypeG s.rc (absPath s.cfg.sep (l ++ [n])) flag f := by
  unfold FS.isOfTypeG
  have e1 := h.resolve hi ht f true
  have e2 := fun x m => h.raise hi ht x true m
  unfold FS.resolve at e1
  unfold FS.raiseForSep at e2
  simp only [e1, e2]

theorem Spec.Written.exists_ : s.exists_ p = s.exists_ (absPath s.cfg.sep (l ++ [n])) := by
  unfold FS.exists_ FS.existsG
  have e1 := h.resolvePath hi ht
  unfold FS.resolvePath at e1
  rw [if_neg (h.ne hi ht), if_neg absPath_ne_nil, if_neg (h.devL hi ht), if_neg h.dev']
  simp only [FS.isFileSepG, h.sepL hi ht, h.sepR hi ht, e1, Bool.false_eq_true, if_false]

theorem Spec.Written.existsL : s.existsL p = s.existsL (absPath s.cfg.sep (l ++ [n])) := by
  unfold FS.existsL FS.existsLG FS.isLinkG
  have e1 := h.exists_ hi ht
  unfold FS.exists_ at e1
  rw [h.ofType hi ht, e1]

theorem Spec.Written.isLink : s.isLink p = s.isLink (absPath s.cfg.sep (l ++ [n])) := h.ofType hi ht _ _
theorem Spec.Written.isDir (f : Bool) : s.isDir p f = s.isDir (absPath s.cfg.sep (l ++ [n])) f := h.ofType hi ht _ _
theorem Spec.Written.isFile : s.isFile p = s.isFile (absPath s.cfg.sep (l ++ [n])) := h.ofType hi ht _ _

/-! ## reading and attributes -/

theorem Spec.Written.stat (f : Bool) : s.stat p f = s.stat (absPath s.cfg.sep (l ++ [n])) f := by
  unfold FS.stat
  simp only [h.resolve hi ht, h.raise hi ht]

theorem Spec.Written.readlink : s.readlink p = s.readlink (absPath s.cfg.sep (l ++ [n])) := by
  unfold FS.readlink
  simp only [h.lresolve hi ht, h.sepL hi ht, h.sepR hi ht, h.exists_ hi ht]

theorem Spec.Written.listdir : s.listdir p = s.listdir (absPath s.cfg.sep (l ++ [n])) := by
  unfold FS.listdir
  rw [h.resolvePath hi ht]

theorem Spec.Written.access (m : Nat) (f : Bool) : s.access p m f = s.access (absPath s.cfg.sep (l ++ [n])) m f := by
  unfold FS.access
  rw [h.stat hi ht]

theorem Spec.Written.getxattr (a : Str) (f : Bool) : s.getxattr p a f = s.getxattr (absPath s.cfg.sep (l ++ [n])) a f := by
  unfold FS.getxattr
  rw [h.resolve hi ht]

theorem Spec.Written.listxattr (f : Bool) : s.listxattr p f = s.listxattr (absPath s.cfg.sep (l ++ [n])) f := by
  unfold FS.listxattr
  rw [h.resolve hi ht]

theorem Spec.Written.chmod (m : Nat) (f : Bool) : chmod p m f s = chmod (absPath s.cfg.sep (l ++ [n])) m f s :=
  rd_left (h.resolve hi ht f true)
theorem Spec.Written.utime (ns : Option (Int × Int)) (f : Bool) : utime p ns f s = utime (absPath s.cfg.sep (l ++ [n])) ns f s :=
  rd_left (h.resolve hi ht f true)
theorem Spec.Written.chown (u g : Int) (f : Bool) : chown p u g f s = chown (absPath s.cfg.sep (l ++ [n])) u g f s :=
  rd_left (h.resolve hi ht f true)
theorem Spec.Written.truncate (k : Nat) : truncate p k s = truncate (absPath s.cfg.sep (l ++ [n])) k s :=
  rd_left (h.resolve hi ht true true)
theorem Spec.Written.chdir : chdir p s = chdir (absPath s.cfg.sep (l ++ [n])) s :=
  rd_left (h.resolvePath hi ht)

theorem Spec.Written.setxattr (a : Str) (v : Bytes) (fl : Nat) (f : Bool) :
    setxattr p a v fl f s = setxattr (absPath s.cfg.sep (l ++ [n])) a v fl f s := by
  unfold Verif.setxattr
  refine bind_right fun x s' hx => ?_
  injection hx with h1 h2
  subst h2
  injection h1 with h1
  subst h1
  split
  · rfl
  · exact rd_left (h.resolve hi ht f true)

theorem Spec.Written.removexattr (a : Str) (f : Bool) : removexattr p a f s = removexattr (absPath s.cfg.sep (l ++ [n])) a f s := by
  unfold Verif.removexattr
  refine bind_right fun x s' hx => ?_
  injection hx with h1 h2
  subst h2
  injection h1 with h1
  subst h1
  split
  · rfl
  · exact rd_left (h.resolve hi ht f true)

/-! ## opening -/

theorem Spec.Written.fileArg : s.fileArg p = s.fileArg (absPath s.cfg.sep (l ++ [n])) := by
  unfold FS.fileArg
  rw [if_neg (h.devL hi ht), if_neg h.dev', h.resolvePath hi ht, h.exists_ hi ht]

theorem Spec.Written.initFileObject (o : Option Ref) (real : Str) (md : OpenModes) :
    initFileObject o p real md s = initFileObject o (absPath s.cfg.sep (l ++ [n])) real md s := by
  cases o with
  | some x => rfl
  | none =>
    unfold Verif.initFileObject
    dsimp only
    split
    · rfl
    refine rd_both (h.isLink hi ht) fun b hb => ?_
    cases b with
    | true =>
      simp only [if_true]
      exact rd_left (h.resolve hi ht false true)
    | false =>
      simp only [Bool.false_eq_true, if_false]
      rw [M.bind_eq, M.bind_eq]
      dsimp only [M.pure]
      rw [M.bind_eq, M.bind_eq]
      dsimp only [M.get]
      rw [h.sepL hi ht, h.sepR hi ht]

theorem Spec.Written.openObject (o : Option Ref) (real : Str) (md : OpenModes) :
    openObject o p real md s = openObject o (absPath s.cfg.sep (l ++ [n])) real md s := by
  unfold Verif.openObject
  split
  · cases o with
    | some x => rfl
    | none =>
      simp only [Option.isSome_none, Bool.false_eq_true, if_false]
      rw [M.bind_eq, M.bind_eq]
      dsimp only [M.get]
      refine rd_both (h.isLink hi ht) fun b _ => ?_
      rw [M.bind_eq, M.bind_eq]
      dsimp only [M.pure]
      split
      · rfl
      · exact bind_left (h.initFileObject hi ht none real md)
  · exact bind_left (h.initFileObject hi ht o real md)

theorem Spec.Written.openPath (md : OpenModes) (bf : Option Nat) (ra del : Bool) :
    openPath p md bf ra del s = openPath (absPath s.cfg.sep (l ++ [n])) md bf ra del s := by
  unfold Verif.openPath
  refine rd_both (h.fileArg hi ht) fun a _ => ?_
  exact bind_left (h.openObject hi ht a.1 a.2 md)

/-! ## removing, renaming -/

theorem Spec.Written.removeObject : removeObject p s = removeObject (absPath s.cfg.sep (l ++ [n])) s := by
  unfold Verif.removeObject
  rw [M.bind_eq, M.bind_eq]
  dsimp only [M.get]
  rw [originalPath_tree ht.cs, originalPath_tree ht.cs, h.norm hi ht, h.normR hi ht]

theorem Spec.Written.removeCheckPath : s.removeCheckPath p = s.removeCheckPath (absPath s.cfg.sep (l ++ [n])) := by
  have e1 : endsWithC s.cfg.sep p = endsWithC s.cfg.sep (absPath s.cfg.sep (l ++ [n])) := by
    rw [h.ends hi ht, absPath_noSep ht h.plain]
  unfold FS.removeCheckPath
  simp only [h.norm hi ht, h.normR hi ht, h.sepL hi ht, h.sepR hi ht, h.raise hi ht, e1, Bool.false_eq_true, if_false]

theorem Spec.Written.remove : remove p s = remove (absPath s.cfg.sep (l ++ [n])) s := by
  unfold Verif.remove
  refine rd_both (h.removeCheckPath hi ht) fun _ _ => ?_
  rw [M.bind_eq, M.bind_eq]
  dsimp only [M.get]
  rw [h.norm hi ht, h.normR hi ht]

theorem Spec.Written.rmdir (b : Bool) : rmdir p b s = rmdir (absPath s.cfg.sep (l ++ [n])) b s := by
  unfold Verif.rmdir
  have e : s.rmdirCheck p b = s.rmdirCheck (absPath s.cfg.sep (l ++ [n])) b := by
    unfold FS.rmdirCheck
    rw [if_neg (h.neDot hi ht), if_neg (absPath_ne_dot ht.posix)]
    simp only [h.norm hi ht, h.normR hi ht, h.sepL hi ht, h.sepR hi ht]
  refine rd_both e fun go _ => ?_
  rw [M.bind_eq, M.bind_eq]
  dsimp only [M.get]
  rw [h.norm hi ht, h.normR hi ht]

theorem Spec.Written.removedirs : removedirs p s = removedirs (absPath s.cfg.sep (l ++ [n])) s := by
  unfold Verif.removedirs
  rw [M.bind_eq, M.bind_eq]
  dsimp only [M.get]
  rw [h.norm hi ht, h.normR hi ht]

theorem Spec.Written.renameOld (new : Str) (force : Bool) : rename p new force s = rename (absPath s.cfg.sep (l ++ [n])) new force s := by
  unfold rename
  rw [M.bind_eq, M.bind_eq]
  dsimp only [M.get]
  rw [h.norm hi ht, h.normR hi ht, h.sepL hi ht, h.sepR hi ht]

theorem Spec.Written.renameNew (old : Str) (force : Bool) : rename old p force s = rename old (absPath s.cfg.sep (l ++ [n])) force s := by
  unfold rename
  rw [M.bind_eq, M.bind_eq]
  dsimp only [M.get]
  rw [h.norm hi ht, h.normR hi ht]

/-! ## creating -/

theorem Spec.Written.existsDir {hd : Str} (hne : hd ≠ []) (hd0 : Passable s hd) (he : s.absnorm hd = absPath s.cfg.sep l)
    (hs : s.cfg.endsWithSep hd = false) : s.exists_ hd = s.exists_ (absPath s.cfg.sep l) := by
  have s2 := absCanon_not_endsWithSep ht.posix (absCanon_names (plain_proper (h.pl hi ht)))
  unfold FS.exists_ FS.existsG
  have hdn : hd ≠ s.devName := by
    intro e
    rw [e, absnorm_canon hi ht.posix h.null] at he
    exact h.dev he.symm
  rw [if_neg hne, if_neg absPath_ne_nil, if_neg hdn, if_neg h.dev]
  simp only [FS.isFileSepG, hs, s2, resolvePath_word hi ht _ hne (validRel_pass hi ht hd0) (h.pl hi ht) he, Bool.false_eq_true, if_false]

end
end Verif
