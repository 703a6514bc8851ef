import Verif.Props.Tree
import Verif.Props.Links
/-!
# C79: the size of a directory
-/

namespace Verif
open Py Spec Cfg

namespace Spec
/-- `L` lists the paths (as lists of names) below `r` that lead to files or links, each path once, with the object there -/
structure FilesBelow (hp : Ref → Obj) (r : Ref) (L : List (List Str × Ref)) : Prop where
  all : ∀ names x, (names, x) ∈ L ↔ walk hp r names = some x ∧ (hp x).isDir = false
  once : (L.map Prod.fst).Nodup
end Spec

theorem filesBelow_file {hp : Ref → Obj} {r : Ref} (h : (hp r).isDir = false) : FilesBelow hp r [([], r)] := by
  refine ⟨fun names x => ?_, by simp⟩
  have he : (hp r).entries = [] := by
    unfold Obj.isDir at h; unfold Obj.entries
    cases hc : (hp r).content with
    | dir es => rw [hc] at h; simp at h
    | file b => rfl
  cases names with
  | nil =>
    simp only [List.mem_singleton, Prod.mk.injEq, true_and, walk, Option.some.injEq]
    exact ⟨fun e => ⟨e.symm, e ▸ h⟩, fun e => e.1.symm⟩
  | cons a l => simp [walk, he, alookup]

theorem filesBelow_dir {hp : Ref → Obj} {r : Ref} (hd : (hp r).isDir = true) (hk : ((hp r).entries.map Prod.fst).Nodup) {L : Str × Ref → List (List Str × Ref)}
    (hL : ∀ e ∈ (hp r).entries, FilesBelow hp e.2 (L e)) :
    FilesBelow hp r ((hp r).entries.flatMap fun e => (L e).map fun w => (e.1 :: w.1, w.2)) := by
  constructor
  · intro names x
    simp only [List.mem_flatMap, List.mem_map, Prod.mk.injEq]
    constructor
    · rintro ⟨e, he, w, hw, rfl, rfl⟩
      obtain ⟨h1, h2⟩ := ((hL e he).all w.1 w.2).mp hw
      refine ⟨?_, h2⟩
      rw [walk, alookup_of_mem hk (k := e.1) (v := e.2) he]
      exact h1
    · rintro ⟨h1, h2⟩
      cases names with
      | nil => simp only [walk, Option.some.injEq] at h1; subst h1; rw [hd] at h2; cases h2
      | cons a l =>
        simp only [walk, Option.bind_eq_some_iff] at h1
        obtain ⟨y, hy, h1⟩ := h1
        exact ⟨(a, y), alookup_some hy, (l, x), ((hL _ (alookup_some hy)).all l x).mpr ⟨h1, h2⟩, rfl, rfl⟩
  · rw [List.map_flatMap, List.nodup_flatMap]
    constructor
    · intro e he
      rw [List.map_map]
      have := (hL e he).once
      rw [show (Prod.fst ∘ fun w : List Str × Ref => (e.1 :: w.1, w.2)) = (fun w => e.1 :: w) ∘ Prod.fst from rfl, ← List.map_map]
      exact this.map (fun a b h => by simpa using h)
    · have h2 : (hp r).entries.Pairwise fun a b => a.1 ≠ b.1 := List.pairwise_map.mp hk
      refine h2.imp ?_
      intro a b hab c hc hc'
      simp only [List.mem_map] at hc hc'
      obtain ⟨w, ⟨w1, _, rfl⟩, rfl⟩ := hc
      obtain ⟨v, ⟨v1, _, rfl⟩, hv⟩ := hc'
      simp only [List.cons.injEq] at hv
      exact hab hv.1.symm

theorem sizeOf_below {s : FS} (hi : Inv s) : ∀ (n : Nat) (r : Ref), r < s.next → (∀ rel x, walk s.heap r rel = some x → rel.length < n) →
    ∃ L, FilesBelow s.heap r L ∧ s.sizeOf n r = (L.map fun e => s.stSize (s.heap e.2)).sum := by
  intro n
  induction n with
  | zero => intro r _ h; exact absurd (h [] r rfl) (by simp)
  | succ n ih =>
    intro r hr h
    cases hc : (s.heap r).content with
    | file b =>
      refine ⟨_, filesBelow_file (by unfold Obj.isDir; rw [hc]), ?_⟩
      rw [FS.sizeOf, hc]
      simp
    | dir es =>
      have hes : (s.heap r).entries = es := by unfold Obj.entries; rw [hc]
      have hd : (s.heap r).isDir = true := by unfold Obj.isDir; rw [hc]
      have hk := hi.g.keys r hr
      have key : ∀ e : Str × Ref, ∃ L, e ∈ es → FilesBelow s.heap e.2 L ∧ s.sizeOf n e.2 = (L.map fun e => s.stSize (s.heap e.2)).sum := by
        intro e
        by_cases he : e ∈ es
        · obtain ⟨L, hL⟩ := ih e.2 (hi.g.entLt r hr e (hes ▸ he)) (fun rel x hx => by
            have : walk s.heap r (e.1 :: rel) = some x := by
              rw [walk, alookup_of_mem hk (k := e.1) (v := e.2) (hes ▸ he)]; exact hx
            have := h _ _ this
            simp only [List.length_cons] at this
            omega)
          exact ⟨L, fun _ => hL⟩
        · exact ⟨[], fun h => absurd h he⟩
      choose L hL using key
      refine ⟨_, filesBelow_dir hd hk (L := L) (fun e he => (hL e (hes ▸ he)).1), ?_⟩
      rw [FS.sizeOf, hc, hes]
      dsimp only
      have : ∀ (l : List (Str × Ref)), (∀ e ∈ l, e ∈ es) → (l.map fun e => s.sizeOf n e.2).sum =
          ((l.flatMap fun e => (L e).map fun w => (e.1 :: w.1, w.2)).map fun e => s.stSize (s.heap e.2)).sum := by
        intro l
        induction l with
        | nil => intro _; rfl
        | cons e l ihl =>
          intro hl
          rw [List.map_cons, List.sum_cons, ihl (fun x hx => hl x (by simp [hx])), (hL e (hl e (by simp))).2]
          simp [List.flatMap_cons, List.map_map, Function.comp_def]
      exact this es (fun _ h => h)

/-- C79: the size of a directory of the tree is the sum of the sizes of the files and links below it, one summand for each path that leads to one (a file
with several hard links below the directory counts several times). -/
theorem dir_size {s : FS} (hs : Reachable s) {l : List Str} {d : Ref} (hl : walk s.heap rootRef l = some d) (hd : (s.heap d).isDir = true) :
    ∃ L, FilesBelow s.heap d L ∧ s.sizeOf (s.next + 1) d = (L.map fun e => s.stSize (s.heap e.2)).sum := by
  have hi := reachable_inv hs
  refine sizeOf_below hi _ d (walk_lt hi l (root_lt hi) hl) ?_
  intro rel x hx
  rcases List.eq_nil_or_concat rel with rfl | ⟨m, c, rfl⟩
  · simp
  · rw [List.concat_eq_append] at hx ⊢
    obtain ⟨y, hy, he⟩ := walk_snoc hx
    have hyd : (s.heap y).isDir = true := isDir_of_entry (alookup_mem he)
    have hw : walk s.heap rootRef (l ++ m) = some y := by rw [walk_append, hl]; exact hy
    have := depth_lt hi hw hyd
    simp only [List.length_append, List.length_cons, List.length_nil] at this ⊢
    omega

/-- The list is determined up to its order, and so is the sum. -/
theorem Spec.FilesBelow.unique {hp : Ref → Obj} {r : Ref} {L L' : List (List Str × Ref)} (h : FilesBelow hp r L) (h' : FilesBelow hp r L') : L.Perm L' := by
  apply (List.perm_ext_iff_of_nodup (List.Nodup.of_map _ h.once) (List.Nodup.of_map _ h'.once)).mpr
  rintro ⟨a, b⟩
  rw [h.all, h'.all]

/-- C79: so for every list of the paths below the directory. -/
theorem dir_size_all {s : FS} (hs : Reachable s) {l : List Str} {d : Ref} (hl : walk s.heap rootRef l = some d) (hd : (s.heap d).isDir = true)
    {L : List (List Str × Ref)} (hL : FilesBelow s.heap d L) : s.sizeOf (s.next + 1) d = (L.map fun e => s.stSize (s.heap e.2)).sum := by
  obtain ⟨L', h1, h2⟩ := dir_size hs hl hd
  rw [h2]
  exact ((hL.unique h1).map _).sum_eq.symm

/-- `/a/f` and `/g` are one file of two bytes, `/l` is a link with three -/
example : demo.sizeOf (demo.next + 1) 0 = 7 ∧ demo.sizeOf (demo.next + 1) 2 = 2 ∧ walk demo.heap rootRef [['a']] = some 2 ∧ (demo.heap 2).isDir = true := by decide +kernel
end Verif
