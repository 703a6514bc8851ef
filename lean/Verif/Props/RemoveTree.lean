import Verif.EffTree
import Verif.DemoFacts
/-!
# C63: recursive removal
-/

namespace Verif
open Py Spec Cfg

namespace Spec
/-- Only names at and below `loc` may be missing in `s'`; no name was added, and no object changed except for its
entries and link count; the contents of files stay. -/
structure OnlyBelow (s s' : FS) (loc : List Str) : Prop where
  elsewhere : ∀ l, ¬ loc <+: l → walk s'.heap rootRef l = walk s.heap rootRef l
  below : ∀ l x, walk s'.heap rootRef l = some x → walk s.heap rootRef l = some x
  object : ∀ x, ∃ n c, s'.heap x = { s.heap x with nlink := n, content := c }
  content : ∀ x, (s.heap x).isDir = false → (s'.heap x).content = (s.heap x).content
  rest : s' = { s with heap := s'.heap, mounts := s'.mounts }

/-- The entry `nm`, which belonged to `e`, and everything below `e` is gone: no location at or below it leads anywhere, the
directories there have no entries left, every other directory but the one that lost `nm` has the same entries as before; a
file that had names in the removed part keeps the names it has elsewhere, and its link count is their number. -/
structure TreeGone (s s' : FS) (d : Ref) (ld : List Str) (nm : Str) (e : Ref) : Prop where
  only : OnlyBelow s s' (ld ++ [nm])
  gone : ∀ rest, walk s'.heap rootRef (ld ++ nm :: rest) = none
  dir : (s'.heap d).entries = aerase nm (s.heap d).entries
  emptied : ∀ x, x ≠ d → Below s e x → (s'.heap x).entries = []
  others : ∀ x, x ≠ d → ¬ Below s e x → (s'.heap x).entries = (s.heap x).entries
  links : ∀ x < s.next, (s.heap x).isDir = false → (s'.heap x).nlink = refs s'.heap s.next x
end Spec

/-- the state does not change except by removed entries -/
theorem Shrink.onlyBelow {s s' : FS} (hi : Inv s) (hi' : Inv s') (h : Shrink s s') {loc : List Str}
    (hw : ∀ l, ¬ loc <+: l → walk s'.heap rootRef l = walk s.heap rootRef l) : OnlyBelow s s' loc where
  elsewhere := hw
  below l x hx := (h.sub hi).walk hi' (by rw [h.next]; exact root_lt hi) hx
  object := h.obj
  content := h.file
  rest := by obtain ⟨hp, ms, e⟩ := h.rest; rw [e]

/-- `remove_object` is the removal of the entry the path names, if there is one, and does nothing otherwise. -/
theorem removeObject_entry {s : FS} (hi : Inv s) (ht : s.cfg.Tree) {p : Str} {Q : Except Err Unit → FS → Prop}
    (hQ : ∀ ld nm d e, Names s p ld nm d → alookup nm (s.heap d).entries = some e → wp (removeEntry d nm true) Q s) :
    wp (removeObject p) (fun r s' => (∃ x, r = .error x ∧ s' = s ∧
        ∀ ld nm d e, Names s p ld nm d → alookup nm (s.heap d).entries ≠ some e) ∨
      ∃ ld nm d e r0, Names s p ld nm d ∧ alookup nm (s.heap d).entries = some e ∧ Q r0 s' ∧ (r = .ok () ↔ r0 = .ok ())) s := by
  unfold removeObject
  apply wp_getBind
  rw [originalPath_tree ht.cs]
  rcases absCanon_cases (hi.absnorm ht.posix p) with h0 | ⟨names, nm, hn, hnm, h0⟩
  · apply wp_ite
    · intro _
      refine Or.inl ⟨_, rfl, rfl, ?_⟩
      rintro ld nm d e ⟨⟨names, h1, h2, h3, h4⟩, _, _⟩
      rw [h0] at h3
      have := absPath_inj ht.posix (by simp) (by simp only [List.mem_append, List.mem_singleton]; rintro w (hw | rfl); exacts [h1 w hw, h2]) h3
      simp at this
    · intro hr
      rw [h0, absPath_nil] at hr; exact absurd (by unfold Cfg.isRootPath; simp) hr
  apply wp_ite
  · intro hr
    rw [h0] at hr
    exact absurd ((isRootPath_tree ht _).mp hr) (absPath_snoc_ne_root hn hnm)
  intro _
  rw [h0]
  dsimp only
  rw [splitpath_absPath ht.posix hn hnm]
  have hmine : ∀ {ld nm' d}, Names s p ld nm' d → nm' = nm ∧ s.resolve (absPath s.cfg.sep names) true false = .ok d := by
    rintro ld nm' d ⟨⟨names', h1, h2, h3, h4⟩, _, _⟩
    rw [h0] at h3
    have := absPath_inj ht.posix (by simp only [List.mem_append, List.mem_singleton]; rintro w (hw | rfl); exacts [hn w hw, hnm])
      (by simp only [List.mem_append, List.mem_singleton]; rintro w (hw | rfl); exacts [h1 w hw, h2]) h3
    obtain ⟨e1, e2⟩ := List.append_inj' this rfl
    subst e1
    injection e2 with e2 _
    exact ⟨e2.symm, h4⟩
  apply wp_tryCatch
  have key : wp (do
      let d ← rd (·.resolve (absPath s.cfg.sep names) true false)
      removeEntry d nm true) (fun r s' => (∃ x, r = .error x ∧ s' = s ∧
        ∀ ld nm d e, Names s p ld nm d → alookup nm (s.heap d).entries ≠ some e) ∨
      ∃ ld nm d e r0, Names s p ld nm d ∧ alookup nm (s.heap d).entries = some e ∧ Q r0 s' ∧ (r = .ok () ↔ r0 = .ok ())) s := by
    apply wp_readBind
    · intro e he
      refine Or.inl ⟨_, rfl, rfl, fun ld nm' d e' hN => ?_⟩
      have := (hmine hN).2
      rw [he] at this; simp at this
    intro d hd
    have hlt := resolve_lt hi hd
    have hself : ∀ {ld nm' d'}, Names s p ld nm' d' → nm' = nm ∧ d' = d := fun hN => by
      obtain ⟨h1, h2⟩ := hmine hN
      rw [hd] at h2; injection h2 with h2
      exact ⟨h1, h2.symm⟩
    by_cases hdir : (s.heap d).isDir = true
    · obtain ⟨ld, hld⟩ := resolve_loc hi ht hd (isDir_ne_devNull hi hdir)
      have hN : Names s p ld nm d := ⟨⟨names, hn, hnm, h0, hd⟩, hdir, hld⟩
      cases ha : alookup nm (s.heap d).entries with
      | none =>
        unfold wp removeEntry removeEntryF
        rw [if_neg (by rw [hdir]; simp)]
        dsimp only
        rw [normEntry_caseSens ht, getEntry_tree ht.cs, ha]
        refine Or.inl ⟨_, rfl, rfl, fun ld nm' d' e' hN => ?_⟩
        obtain ⟨rfl, rfl⟩ := hself hN
        rw [ha]; simp
      | some e =>
        apply wp_mono (hQ ld nm d e hN ha)
        intro r s' h
        exact Or.inr ⟨ld, nm, d, e, r, hN, ha, h, Iff.rfl⟩
    · unfold wp removeEntry removeEntryF
      have hdir : (s.heap d).isDir = false := by simpa using hdir
      rw [if_pos hdir]
      refine Or.inl ⟨_, rfl, rfl, fun ld nm' d' e' hN => ?_⟩
      obtain ⟨rfl, rfl⟩ := hself hN
      rw [mem_entries_nil hdir]; simp [alookup]
  apply wp_mono key
  intro r s' h
  cases r with
  | ok a => exact h
  | error x =>
    rcases h with ⟨x', h1, h2, h3⟩ | ⟨ld, nm, d, e, r0, h1, h2, h3, h4⟩
    · cases x <;> exact Or.inl ⟨_, rfl, h2, h3⟩
    · cases x <;> exact Or.inr ⟨ld, nm, d, e, r0, h1, h2, h3, by simpa [M.throw, M.raise] using h4⟩

/-- C63: whatever `remove_object` does (also when it fails half way, because some directory may not be written), names outside
the part of the tree that starts at the entry named by the path are untouched; if that entry does not exist, nothing changes. -/
theorem removeObject_inside {s : FS} (hs : Reachable s) (ht : s.cfg.Tree) {p : Str} :
    ((removeObject p s).2 = s ∧ ∃ x, (removeObject p s).1 = .error x ∧
      ∀ ld nm d e, Names s p ld nm d → alookup nm (s.heap d).entries ≠ some e) ∨
    ∃ ld nm d e, Names s p ld nm d ∧ alookup nm (s.heap d).entries = some e ∧
      OnlyBelow s (removeObject p s).2 (ld ++ [nm]) ∧
      ((removeObject p s).1 = .ok () → ∀ rest, walk (removeObject p s).2.heap rootRef (ld ++ nm :: rest) = none) := by
  have hi := reachable_inv hs
  have h := removeObject_entry hi ht (p := p) (Q := fun r s' => Inv s' ∧ Shrink s s' ∧ ∃ ld nm d e, Names s p ld nm d ∧
      alookup nm (s.heap d).entries = some e ∧ OnlyBelow s s' (ld ++ [nm]) ∧
      (r = .ok () → ∀ rest, walk s'.heap rootRef (ld ++ nm :: rest) = none)) (by
    intro ld nm d e hN ha
    have hlt := walk_lt hi _ (root_lt hi) hN.loc
    have k1 := removeEntry_post hi hlt nm true
    have k2 := removeEntryF_inside (s.next + 1) hi ht hlt ha
    unfold wp at k1 k2 ⊢
    have e1 : removeEntry d nm true s = removeEntryF (s.next + 1) d nm true s := rfl
    rw [e1] at k1 ⊢
    rcases hr : removeEntryF (s.next + 1) d nm true s with ⟨r, s'⟩
    rw [hr] at k1 k2
    dsimp only at k1 k2 ⊢
    have hi' := k1.good.inv
    refine ⟨hi', k1.shrink, ld, nm, d, e, hN, ha, k1.shrink.onlyBelow hi hi' ?_, ?_⟩
    · exact outside_walk hi hi' k1.shrink hN.loc ha (by rcases k2.1 with h | h; exacts [Or.inl h.1, Or.inr h.1]) k2.2
    · intro hok rest
      rcases k2.1 with h | h
      · exact absurd hok h.2
      cases hw : walk s'.heap rootRef (ld ++ nm :: rest) with
      | none => rfl
      | some x =>
        rw [walk_append, Option.bind_eq_some_iff] at hw
        obtain ⟨y, hy, hx⟩ := hw
        have hy2 := (k1.shrink.sub hi).walk hi' (by rw [k1.shrink.next]; exact root_lt hi) hy
        rw [hN.loc] at hy2; injection hy2 with hy2; subst hy2
        rw [walk, h.1, alookup_aerase, if_pos rfl] at hx
        simp at hx)
  unfold wp at h
  rcases hr : removeObject p s with ⟨r, s'⟩
  rw [hr] at h
  dsimp only at h ⊢
  rcases h with ⟨x, h1, h2, h3⟩ | ⟨ld, nm, d, e, r0, h1, h2, ⟨_, _, ld', nm', d', e', h3, h4, h5, h6⟩, h7⟩
  · exact Or.inl ⟨h2, x, h1, h3⟩
  · exact Or.inr ⟨ld', nm', d', e', h3, h4, h5, fun h => h6 (h7.mp h)⟩

/-- C63: when every directory may be written (always for root), `remove_object` removes the entry named by the path with everything
below it, if there is such an entry, however deep and wide the tree is; else it fails and changes nothing. -/
theorem removeObject_tree {s : FS} (hs : Reachable s) (ht : s.cfg.Tree) (hw : Within s)
    (hall : ∀ x < s.next, (s.heap x).isDir = true → mayRemove s x) {p : Str} :
    ((∃ x, removeObject p s = (.error x, s)) ∧ ∀ ld nm d e, Names s p ld nm d → alookup nm (s.heap d).entries ≠ some e) ∨
    ∃ s' ld nm d e, removeObject p s = (.ok (), s') ∧ Names s p ld nm d ∧ alookup nm (s.heap d).entries = some e ∧
      TreeGone s s' d ld nm e := by
  have hi := reachable_inv hs
  have h := removeObject_entry hi ht (p := p) (Q := fun r s' => r = .ok () ∧ ∃ ld nm d e, Names s p ld nm d ∧
      alookup nm (s.heap d).entries = some e ∧ TreeGone s s' d ld nm e) (by
    intro ld nm d e hN ha
    have hlt := walk_lt hi _ (root_lt hi) hN.loc
    obtain ⟨s', h1, h2⟩ := removeEntryF_tree hi ht hall (s.next + 1) s d nm e ld hi hw (Shrink.refl s) hN.loc (by omega) ha
    have k2 := removeEntryF_inside (s.next + 1) hi ht hlt ha
    unfold wp at k2 ⊢
    have e1 : removeEntry d nm true s = removeEntryF (s.next + 1) d nm true s := rfl
    rw [e1]
    rw [h1] at k2 ⊢
    dsimp only at k2 ⊢
    have hi' := h2.post.good.inv
    have hsh := h2.post.shrink
    refine ⟨rfl, ld, nm, d, e, hN, ha, hsh.onlyBelow hi hi' ?_, ?_, h2.here, h2.below, h2.other, ?_⟩
    · exact outside_walk hi hi' hsh hN.loc ha (Or.inr h2.here) k2.2
    · intro rest
      cases hw : walk s'.heap rootRef (ld ++ nm :: rest) with
      | none => rfl
      | some x =>
        rw [walk_append, Option.bind_eq_some_iff] at hw
        obtain ⟨y, hy, hx⟩ := hw
        have hy2 := (hsh.sub hi).walk hi' (by rw [hsh.next]; exact root_lt hi) hy
        rw [hN.loc] at hy2; injection hy2 with hy2; subst hy2
        rw [walk, h2.here, alookup_aerase, if_pos rfl] at hx
        simp at hx
    · intro x hx hd
      have := (hi'.t (by rw [hsh.cfg]; exact ht)).nlink x (by rw [hsh.next]; exact hx)
      rw [this, hsh.kind, hd, hsh.next]
      simp)
  unfold wp at h
  rcases hr : removeObject p s with ⟨r, s'⟩
  rw [hr] at h
  dsimp only at h
  rcases h with ⟨x, h1, h2, h3⟩ | ⟨ld, nm, d, e, r0, h1, h2, ⟨h0, ld', nm', d', e', h3, h4, h5⟩, h7⟩
  · exact Or.inl ⟨⟨x, by rw [h1, h2]⟩, h3⟩
  · exact Or.inr ⟨s', ld', nm', d', e', by rw [h7.mpr h0], h3, h4, h5⟩

/-- Root may write every directory. -/
theorem root_mayRemove {s : FS} (h : s.isRoot = true) (x : Ref) : mayRemove s x := Or.inl h

/-- The demo filesystem: `/a` with two entries goes away; `/g`, the other name of the removed file `/a/f`, stays and is then its only one. -/
example : (Reachable demo ∧ demo.cfg.Tree ∧ Within demo ∧ ∀ x < demo.next, (demo.heap x).isDir = true → mayRemove demo x) ∧
    (removeObject ['/', 'a'] demo).1 = .ok () ∧
    (removeObject ['/', 'a'] demo).2.exists_ ['/', 'a', '/', 'd'] = .ok false ∧
    (removeObject ['/', 'a'] demo).2.resolve ['/', 'g'] = .ok 3 ∧ ((removeObject ['/', 'a'] demo).2.heap 3).nlink = 1 :=
  ⟨⟨demo_reachable, demo_tree, demo_within, fun x _ _ => root_mayRemove demo_root x⟩,
    by decide +kernel, by decide +kernel, by decide +kernel, by decide +kernel⟩

/-- Someone who is not root and may not write one of the directories below: the call fails, and part of the tree is gone. -/
theorem removeObject_half_way : ∃ s : FS, Reachable s ∧ s.cfg.Tree ∧ Within s ∧
    s.exists_ ['/', 'a', '/', 'f'] = .ok true ∧ (removeObject ['/', 'a'] s).1 = .error (.os .EACCES) ∧
    (removeObject ['/', 'a'] s).2.exists_ ['/', 'a', '/', 'f'] = .ok false ∧
    (removeObject ['/', 'a'] s).2.exists_ ['/', 'a', '/', 'd', '/', 'x'] = .ok true :=
  ⟨runs (demoOps ++ [.mkdir ['/', 'a', '/', 'd', '/', 'x'] 0o777, .chmod ['/', 'a'] 0o777 true, .chmod ['/', 'a', '/', 'd'] 0o555 true,
      .chmod ['/'] 0o777 true, .setUser 1 1]) (initFS demoCfg 50 0 0 0o022 7 (some 1000)), ⟨_, _, _, _, _, _, _, _, rfl⟩,
    by rw [runs_cfg]; exact demoCfg_tree, by unfold Within; decide +kernel, by decide +kernel, by decide +kernel, by decide +kernel,
    by decide +kernel⟩

end Verif
