import Verif.Props.RefineMore
/-!
# C74, continued: `os.removedirs`
-/

namespace Verif
open Py Spec Cfg

section
variable {k : Cfg} {u : Nat} {s : FS} (hk : Linux k) (h : RefSt k u s)
include hk h

/-- `rmdir` of something that is not a symlink is the same with and without `allow_symlink` -/
theorem RefSt.rmdir_allow {p : List Str} (hp : Usable p) : Verif.rmdir (absPath s.cfg.sep p) true s = Verif.rmdir (absPath s.cfg.sep p) false s := by
  have e : s.rmdirCheck (absPath s.cfg.sep p) true = s.rmdirCheck (absPath s.cfg.sep p) false := by
    unfold FS.rmdirCheck
    rw [h.canon hk hp]
    dsimp only
    rw [h.isLink hk hp]
    cases s.confirmdir (absPath s.cfg.sep p) <;> cases s.cfg.isWin <;> rfl
  unfold Verif.rmdir
  rw [M.bind_eq, M.bind_eq, rd_run, rd_run, e]

omit hk h in
theorem RefSt.contents {x : Ref} (hd : (s.heap x).isDir = true) : (s.heap x).hasContents = true ↔ (s.heap x).entries ≠ [] := by
  unfold Obj.isDir at hd
  unfold Obj.hasContents Obj.entries
  cases hc : (s.heap x).content with
  | file b => rw [hc] at hd; simp at hd
  | dir es => cases es <;> simp

/-- the root cannot be removed -/
theorem RefSt.rmdir_root (he : (treeOf s).empty []) : Verif.rmdir (absPath s.cfg.sep []) true s = (.error (.os .EBUSY), s) := by
  have hu : Usable [] := ⟨by simp, by simp [devDir]⟩
  have hw : walk s.heap rootRef [] = some rootRef := rfl
  have hd : (s.heap rootRef).isDir = true := by
    rcases h.cases hk [] with ⟨c1, _⟩ | ⟨x, c1, c2, _⟩ | ⟨x, b, c1, c2, _⟩
    · simp [walk] at c1
    · rw [hw] at c1; injection c1 with c1; subst c1; exact c2
    · rw [hw] at c1; injection c1 with c1; subst c1; exact absurd (reachable_inv h.reach).g.rootDir (by simp [c2])
  have hcf := h.confirm hk hu
  rw [hw] at hcf
  dsimp only at hcf
  rw [hd, if_pos rfl] at hcf
  have hch : s.rmdirCheck (absPath s.cfg.sep []) true = .ok true := by
    unfold FS.rmdirCheck
    rw [if_neg (absPath_ne_dot (h.tree hk).posix), h.canon hk hu]
    dsimp only
    rw [h.isLink hk hu, hcf, h.res hk hu hw true]
    have : (s.heap rootRef).hasContents = false := by
      rw [← Bool.not_eq_true, RefSt.contents hd]
      simp [(h.empty_iff hk hw).mp he]
    cases s.cfg.isWin <;> simp [bind, Except.bind, this]
  unfold Verif.rmdir
  rw [M.bind_eq, rd_eq (f := fun s => s.rmdirCheck _ true) hch]
  dsimp only
  rw [M.bind_eq]
  dsimp only [M.get]
  rw [if_pos rfl, h.canon hk hu]
  unfold removeObject
  rw [M.bind_eq]
  dsimp only [M.get]
  rw [originalPath_tree (h.tree hk).cs, h.canon hk hu, if_pos ((isRootPath_tree (h.tree hk) _).mpr (absPath_nil _))]
  rfl

/-- whatever is in the tree lies in a directory of the tree -/
theorem RefSt.parentDir {l : List Str} {n : Str} (he : treeOf s (l ++ [n]) ≠ none) : treeOf s l = some .dir := by
  rw [ne_eq, h.treeAt hk, ← ne_eq, Option.ne_none_iff_exists'] at he
  obtain ⟨x, hx⟩ := he
  obtain ⟨y, hy, hn⟩ := walk_snoc hx
  rw [h.at hk hy, nodeOf_dir (isDir_of_entry (alookup_mem hn))]

omit hk in
omit h in
theorem absPath_longer {c : Char} {l : List Str} {w : Str} : l.length < (absPath c (l ++ [w])).length := by
  have : ∀ (l : List Str), l.length ≤ (absPath c l).length := by
    intro l
    induction l with
    | nil => simp
    | cons a l ih => 
      cases l with
      | nil => simp [absPath]
      | cons b l => simp only [absPath, Py.join, List.length_cons, List.length_append] at ih ⊢; omega
  have := this (l ++ [w])
  simp at this
  omega

theorem RefSt.prune : ∀ (fuel : Nat) {s : FS}, RefSt k u s → ∀ {p : List Str} {w : Str}, Usable p → w ≠ [] → p.length < fuel → treeOf s p = some .dir →
    RefSt k u (removedirsLoop fuel (absPath s.cfg.sep p) w s).2 ∧
    Ref.Prunes (treeOf s) p (resOf (fun _ => .done) (removedirsLoop fuel (absPath s.cfg.sep p) w s).1) (treeOf (removedirsLoop fuel (absPath s.cfg.sep p) w s).2) := by
  intro fuel
  induction fuel with
  | zero => intro s h p w _ _ hf; exact absurd hf (Nat.not_lt_zero _)
  | succ fuel ih =>
    intro s h p w hp hw hf ht
    obtain ⟨x, hx, hd⟩ : ∃ x, walk s.heap rootRef p = some x ∧ (s.heap x).isDir = true := by
      rcases h.cases hk p with ⟨_, c⟩ | ⟨x, c1, c2, _⟩ | ⟨x, b, _, _, _, _, _, _, c⟩
      · rw [ht] at c; simp at c
      · exact ⟨x, c1, c2⟩
      · rw [ht] at c; simp at c
    have hcf := h.confirm hk hp
    rw [hx] at hcf
    dsimp only at hcf
    rw [hd, if_pos rfl] at hcf
    have e0 : removedirsLoop (fuel + 1) (absPath s.cfg.sep p) w s = (if (s.heap x).hasContents then M.pure () else do
        Verif.rmdir (absPath s.cfg.sep p) true
        removedirsLoop fuel (s.cfg.splitpath (absPath s.cfg.sep p)).1 (s.cfg.splitpath (absPath s.cfg.sep p)).2) s := by
      rw [removedirsLoop, if_neg (by rintro (e | e) <;> [exact absPath_ne_nil e; exact hw e]), M.bind_eq, rd_eq (f := fun s => s.confirmdir _) hcf]
      dsimp only
      rw [M.bind_eq]
      rfl
    rw [e0]
    by_cases hc : (s.heap x).hasContents = true
    · rw [if_pos hc]
      rw [RefSt.contents hd, ne_eq, ← h.empty_iff hk hx] at hc
      exact ⟨h, .stop hc⟩
    · rw [if_neg hc]
      rw [RefSt.contents hd, ne_eq, ← h.empty_iff hk hx, Classical.not_not] at hc
      rcases List.eq_nil_or_concat p with rfl | ⟨l, n, rfl⟩
      · rw [M.bind_eq, h.rmdir_root hk hc]
        exact ⟨h, .root hc⟩
      · rw [List.concat_eq_append] at *
        have hr := h.rmdir hk hp
        have hst := hr.step
        rw [Ref.Step, ht] at hst
        rw [M.bind_eq, h.rmdir_allow hk hp]
        have ec : callOn (.rmdir (l ++ [n])) s = doCall (fun _ => .done) (Verif.rmdir (absPath s.cfg.sep (l ++ [n]))) s := by rw [h.sep hk]; rfl
        have hst1 := hr.st
        rw [ec] at hst hst1
        unfold doCall at hst hst1
        rcases hm : Verif.rmdir (absPath s.cfg.sep (l ++ [n])) false s with ⟨r, s1⟩
        rw [hm] at hst hst1
        rcases hst with ⟨_, h1, h2⟩ | ⟨h1, _⟩
        swap
        · exact absurd hc h1
        dsimp only at h1 h2 hst1
        cases r with
        | error e => cases e <;> simp [resOf] at h1
        | ok a =>
          dsimp only
          have hsep : s.cfg.sep = s1.cfg.sep := by rw [h.sep hk, hst1.sep hk]
          have hpl := plain_proper (h.plain hk hp)
          rw [splitpath_absPath (h.tree hk).posix (fun y hy => hpl y (by simp [hy])) (hpl n (by simp))]
          dsimp only
          rw [hsep]
          have hdl : treeOf s1 l = some .dir := by
            rw [h2]
            unfold Ref.Tree.set
            rw [if_neg (by intro e; have := congrArg List.length e; simp at this)]
            exact h.parentDir hk (n := n) (by rw [ht]; simp)
          obtain ⟨g1, g2⟩ := ih hst1 hp.init (hpl n (by simp)).1 (by simp at hf; omega) hdl
          exact ⟨g1, .up hc (by rw [← h2]; exact g2)⟩

theorem RefSt.removedirs {p : List Str} {n : Str} (hp : Usable (p ++ [n])) : Refines k u s (.removedirs (p ++ [n])) := by
  refine h.did hk (f := fun _ => .done) (m := Verif.removedirs (absPath s.cfg.sep (p ++ [n]))) (by rw [h.sep hk]; rfl) ?_
  have hcf := h.confirm hk hp
  rw [Ref.Step]
  have hfail : ∀ e, s.confirmdir (absPath s.cfg.sep (p ++ [n])) = .error e → Verif.removedirs (absPath s.cfg.sep (p ++ [n])) s = (.error e, s) := by
    intro e he
    unfold Verif.removedirs
    rw [M.bind_eq]
    dsimp only [M.get]
    rw [M.bind_eq, h.canon hk hp, rd_eq (f := fun s => s.confirmdir _) he]
  rcases h.cases hk (p ++ [n]) with ⟨c1, c2⟩ | ⟨y, c1, c2, _, c3⟩ | ⟨y, b, c1, c2, _, _, _, _, c3⟩
  · rw [c1] at hcf
    obtain ⟨e, h1, h2⟩ := hcf
    rw [hfail _ h1, c2]
    exact ⟨h, e, h2, rfl, rfl⟩
  swap
  · rw [c1] at hcf
    dsimp only at hcf
    rw [c2, if_neg (by simp)] at hcf
    rw [hfail _ hcf, c3]
    exact ⟨h, rfl, rfl⟩
  rw [c1] at hcf
  dsimp only at hcf
  rw [c2, if_pos rfl] at hcf
  have hpl := plain_proper (h.plain hk hp)
  have hspl := splitpath_absPath (h.tree hk).posix (names := p) (w := n) (fun y hy => hpl y (by simp [hy])) (hpl n (by simp))
  have hn : n ≠ [] := (hpl n (by simp)).1
  have e0 : Verif.removedirs (absPath s.cfg.sep (p ++ [n])) s = (if (s.heap y).hasContents then M.raise .ENOTEMPTY else do
      Verif.rmdir (absPath s.cfg.sep (p ++ [n]))
      removedirsLoop (absPath s.cfg.sep (p ++ [n])).length (absPath s.cfg.sep p) n) s := by
    unfold Verif.removedirs
    rw [M.bind_eq]
    dsimp only [M.get]
    rw [M.bind_eq, h.canon hk hp, rd_eq (f := fun s => s.confirmdir _) hcf]
    dsimp only
    rw [M.bind_eq]
    dsimp only [M.get]
    rw [hspl]
    dsimp only
    rw [if_neg hn]
    cases (s.heap y).hasContents <;> rfl
  rw [e0, c3]
  dsimp only
  by_cases hc : (s.heap y).hasContents = true
  · rw [if_pos hc]
    rw [RefSt.contents c2, ne_eq, ← h.empty_iff hk c1] at hc
    exact ⟨h, Or.inl ⟨hc, rfl, rfl⟩⟩
  · rw [if_neg hc]
    rw [RefSt.contents c2, ne_eq, ← h.empty_iff hk c1, Classical.not_not] at hc
    have hr := h.rmdir hk hp
    have hst := hr.step
    rw [Ref.Step, c3] at hst
    rw [M.bind_eq]
    have ec : callOn (.rmdir (p ++ [n])) s = doCall (fun _ => .done) (Verif.rmdir (absPath s.cfg.sep (p ++ [n]))) s := by rw [h.sep hk]; rfl
    have hst1 := hr.st
    rw [ec] at hst hst1
    unfold doCall at hst hst1
    rcases hm : Verif.rmdir (absPath s.cfg.sep (p ++ [n])) false s with ⟨r, s1⟩
    rw [hm] at hst hst1
    rcases hst with ⟨_, h1, h2⟩ | ⟨h1, _⟩
    swap
    · exact absurd hc h1
    dsimp only at h1 h2 hst1
    cases r with
    | error e => cases e <;> simp [resOf] at h1
    | ok a =>
      dsimp only
      have hsep : s.cfg.sep = s1.cfg.sep := by rw [h.sep hk, hst1.sep hk]
      have hdl : treeOf s1 p = some .dir := by
        rw [h2]
        unfold Ref.Tree.set
        rw [if_neg (by intro e; have := congrArg List.length e; simp at this)]
        exact h.parentDir hk (n := n) (by rw [c3]; simp)
      rw [hsep]
      obtain ⟨g1, g2⟩ := RefSt.prune hk hst1 (absPath s1.cfg.sep (p ++ [n])).length hst1 hp.init hn absPath_longer hdl
      refine ⟨g1, Or.inr ⟨hc, ?_⟩⟩
      rw [← h2]
      have : Ref.parent (p ++ [n]) = p := by simp [Ref.parent]
      rw [this]
      exact g2

end
end Verif
