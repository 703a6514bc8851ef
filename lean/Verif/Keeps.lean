import Verif.Props.Remove
/-!
# Paths that keep their meaning when an entry is removed
-/

namespace Verif
open Py Spec Cfg

section
variable {s s' : FS} {d e : Ref} {nm : Str} (hi : Inv s) (hi' : Inv s') (ht : s.cfg.Tree) (h : Removed s s' d nm e)
  (hl : (s.heap e).isLnk = false) (he : (s.heap e).entries = [])
include h

theorem Removed.lookup_keep {x y : Ref} {n : Str} (ha : alookup n (s.heap x).entries = some y) (hy : y ≠ e) :
    alookup n (s'.heap x).entries = some y := by
  by_cases e1 : x = d
  · subst e1
    rw [h.parent]
    show alookup n (aerase nm (s.heap x).entries) = _
    rw [alookup_aerase, if_neg, ha]
    rintro rfl
    rw [h.was] at ha; injection ha with ha; exact hy ha.symm
  · by_cases e2 : x = e
    · subst e2; rw [h.child]; exact ha
    · rw [h.others x e1 e2]; exact ha

include he in
theorem Removed.walk_keep : ∀ {l : List Str} {r x : Ref}, walk s.heap r l = some x → x ≠ e → walk s'.heap r l = some x := by
  intro l
  induction l with
  | nil => intro r x hw _; exact hw
  | cons c l ih =>
    intro r x hw hx
    simp only [walk] at hw ⊢
    cases ha : alookup c (s.heap r).entries with
    | none => rw [ha] at hw; simp at hw
    | some y =>
      rw [ha] at hw
      have hw : walk s.heap y l = some x := hw
      have hy : y ≠ e := by
        rintro rfl
        cases l with
        | nil => simp [walk] at hw; exact hx hw.symm
        | cons c l => simp [walk, he, alookup] at hw
      rw [h.lookup_keep ha hy]
      exact ih hw hx

include hi in
theorem Removed.noLink_keep : ∀ {l : List Str} {r : Ref}, r < s.next → NoLink s.heap r l → NoLink s'.heap r l := by
  have hs := h.sub hi
  intro l
  induction l with
  | nil => intro r _ _; trivial
  | cons c l ih =>
    intro r hr hn x hx
    have hx' := hs.ent r (by rw [h.next]; exact hr) _ _ hx
    obtain ⟨h1, h2⟩ := hn x hx'
    have hlt := hi.g.entLt r hr _ (alookup_mem hx')
    exact ⟨by rw [hs.isLnk (by rw [h.next]; exact hlt)]; exact h1, ih hlt h2⟩

include hi ht hl he in
theorem Removed.resolveComps_keep : ∀ n l cs, s.resolveComps n l = .ok cs → s'.resolveComps n l = .ok cs := by
  have hs := h.sub hi
  have ht' : s'.cfg.Tree := by rw [hs.cfg]; exact ht
  have hdone : ∀ l res, s.scan rootRef [] l = .done res → s'.scan rootRef [] l = .done res := by
    intro l res h1
    have := scan_done h1
    simp at this; subst this
    exact (scan_done_iff ht'.cs (acc := [])).mpr (h.noLink_keep hi (root_lt hi) ((scan_done_iff ht.cs (acc := [])).mp h1))
  have hlink : ∀ l res t rest, s.scan rootRef [] l = .link res t rest →
      s'.scan rootRef [] l = .link res t rest ∧ s'.followLink res t = s.followLink res t := by
    intro l res t rest h1
    obtain ⟨pre, c, e2, e1, hn, hw, hlk⟩ := scan_link ht.cs h1
    have hte : t ≠ e := by rintro rfl; rw [hl] at hlk; simp at hlk
    have htlt := walk_lt hi _ (root_lt hi) hw
    have hlk' : (s'.heap t).isLnk = true := by rw [hs.isLnk (by rw [h.next]; exact htlt)]; exact hlk
    constructor
    · have := scan_link_iff ht'.cs l rootRef [] pre rest c t e1 (h.noLink_keep hi (root_lt hi) hn) (h.walk_keep he hw hte) hlk'
      rw [this, e2]
    · have hf := hs.target t (by rw [h.next]; exact htlt) hlk'
      unfold FS.followLink
      rw [hf, hs.cfg]
  intro n
  induction n with
  | zero =>
    intro l cs h1
    unfold FS.resolveComps at h1 ⊢
    split at h1
    · rename_i res hres
      injection h1 with h1; subst h1
      rw [hdone l _ hres]
    · simp at h1
  | succ n ih =>
    intro l cs h1
    unfold FS.resolveComps at h1 ⊢
    split at h1
    · rename_i res hres
      injection h1 with h1; subst h1
      rw [hdone l _ hres]
    · rename_i res t rest hres
      obtain ⟨k1, k2⟩ := hlink l res t rest hres
      rw [k1]
      simp only
      rw [k2, hs.cfg]
      exact ih _ _ h1

include hi he in
theorem Removed.through_keep {l : List Str} : ∀ {r x : Ref}, r < s.next → walk s.heap r l = some x → x ≠ e → Through s.heap r l → Through s'.heap r l := by
  have hs := h.sub hi
  induction l with
  | nil => intro r x _ _ _ _; trivial
  | cons c l ih =>
    intro r x hr hw hx hth
    refine ⟨by have := hth.1; simpa [Obj.isDirMode, hs.mode r (by rw [h.next]; exact hr)] using this, ?_⟩
    intro z hz
    have hz' := hs.ent r (by rw [h.next]; exact hr) _ _ hz
    simp only [walk, hz', Option.bind_some] at hw
    exact ih (hi.g.entLt r hr _ (alookup_mem hz')) hw hx (hth.2 z hz')

include hi hi' ht hl he in
/-- Removing the name of a file or an empty directory leaves every other path (without `..`) with its meaning. -/
theorem Removed.resolve_keep {names : List Str} (hn : ∀ w ∈ names, Plain s.cfg.sep w) {c : Bool} {x : Ref}
    (hr : s.resolve (absPath s.cfg.sep names) true c = .ok x) (hx : x ≠ devNullRef) (hxe : x ≠ e) :
    s'.resolve (absPath s.cfg.sep names) true c = .ok x := by
  have hs := h.sub hi
  have hcfg : s'.cfg = s.cfg := hs.cfg
  have ht' : s'.cfg.Tree := by rw [hcfg]; exact ht
  unfold FS.resolve FS.resolveFG at *
  simp only [if_true] at *
  obtain ⟨h1, h2, h3⟩ := (resolveG_ok hi ht _).mp hr
  have hv : s'.validRelG s'.rc (absPath s.cfg.sep names) = .ok true := by
    rw [← hcfg]; exact validRel_plain ht'.posix _ (by rw [hcfg]; exact hn)
  refine (resolveG_ok hi' ht' _).mpr ⟨h1, hv, ?_⟩
  rw [hs.absnorm, hs.cfg, hs.devName]
  rcases h3 with h3 | h3 | ⟨h3, h4, cs, h5, h6⟩
  · exact Or.inl h3
  · exact Or.inr (Or.inl h3)
  · refine Or.inr (Or.inr ⟨h3, h4, cs, h.resolveComps_keep hi ht hl he _ _ _ h5, ?_⟩)
    unfold FS.leads at *
    rw [hs.cfg, hs.devName]
    rcases h6 with ⟨_, _, h6⟩ | ⟨k1, k2, k3, k4⟩
    · exact absurd h6 hx
    · refine Or.inr ⟨k1, h.walk_keep he k2 hxe, h.through_keep hi he (root_lt hi) k2 hxe k3, ?_⟩
      have hw' : (walk s'.heap rootRef cs).isSome := by rw [h.walk_keep he k2 hxe]; rfl
      rw [hs.walked hi' (root_lt hi') hw']
      intro y hy
      have hylt := walked_lt hi _ (root_lt hi) y hy
      exact (hs.readable (by rw [h.next]; exact hylt)).mpr (k4 y hy)
end

end Verif
