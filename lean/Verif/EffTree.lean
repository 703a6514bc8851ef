import Verif.EffRemove
import Verif.Props.Remove
/-!
# Recursive removal: exact effects
-/

namespace Verif
open Py Spec Cfg

namespace Spec
/-- `x` is `e` or lies below `e`. -/
def Below (s : FS) (e x : Ref) : Prop := ∃ l, walk s.heap e l = some x
end Spec

theorem no_cycles {s : FS} (h : Inv s) (ht : s.cfg.Tree) {m : List Str} {d : Ref} (hlt : d < s.next)
    (h2 : walk s.heap d m = some d) : m = [] := by
  rcases List.eq_nil_or_concat m with rfl | ⟨m, c, rfl⟩
  · rfl
  · rw [List.concat_eq_append] at h2
    obtain ⟨y, hy, he⟩ := walk_snoc h2
    have hm := alookup_mem he
    have hylt := walk_lt h _ hlt hy
    have hd : (s.heap d).isDir = true := by
      cases m with
      | nil => simp [walk] at hy; subst hy; exact isDir_of_entry hm
      | cons a m =>
        simp only [walk, Option.bind_eq_some_iff] at hy
        obtain ⟨z, hz, _⟩ := hy
        exact isDir_of_entry (alookup_mem hz)
    exact absurd (walk_anc h m hlt hy (isDir_of_entry hm))
      (Rooted.noCycle ((h.t ht).rooted d hlt) (h.g.dirEnt y hylt _ hm hd).1)

theorem Spec.Below.trans {s : FS} {a b c : Ref} (h : Below s a b) (k : Below s b c) : Below s a c := by
  obtain ⟨l, h⟩ := h
  obtain ⟨m, k⟩ := k
  exact ⟨l ++ m, by rw [walk_append, h]; exact k⟩

theorem Spec.Below.refl {s : FS} (a : Ref) : Below s a a := ⟨[], rfl⟩

theorem below_entry {s : FS} {a b : Ref} {c : Str} (h : alookup c (s.heap a).entries = some b) : Below s a b :=
  ⟨[c], by simp [walk, h]⟩

/-- A walk survives when the entries it uses do. -/
theorem walk_keep {hp hp' : Ref → Obj} : ∀ {l : List Str} {r x : Ref}, walk hp r l = some x →
    (∀ y l1 l2 c z, l = l1 ++ c :: l2 → walk hp r l1 = some y → alookup c (hp y).entries = some z → walk hp z l2 = some x →
      alookup c (hp' y).entries = some z) → walk hp' r l = some x := by
  intro l
  induction l with
  | nil => intro r x h _; exact h
  | cons c l ih =>
    intro r x h hk
    simp only [walk, Option.bind_eq_some_iff] at h
    obtain ⟨z, hz, hx⟩ := h
    have h1 := hk r [] l c z rfl rfl hz hx
    simp only [walk, h1, Option.bind_some]
    refine ih hx ?_
    intro y l1 l2 c' z' e hy hz' hx'
    exact hk y (c :: l1) l2 c' z' (by rw [e]; rfl) (by simp only [walk, hz, Option.bind_some]; exact hy) hz' hx'

theorem within_shrink {s s' : FS} (h : Shrink s s') (hw : Within s) (hq : ∀ m' ∈ s'.mounts, ∀ t, m'.total = some t → m'.used ≤ t ∨
    ∃ m ∈ s.mounts, m.total = m'.total ∧ m'.used ≤ m.used) : Within s' := by
  intro m hm t ht
  rcases hq m hm t ht with h | ⟨m', h1, h2, h3⟩
  · exact h
  · have := hw m' h1 t (by rw [h2]; exact ht)
    omega

theorem changeUsed_within {i : Nat} {c : Int} (hc : c ≤ 0) : ∀ {ms : List Mount}, (∀ m ∈ ms, ∀ t, m.total = some t → m.used ≤ t) →
    ∀ m ∈ changeUsed i c ms, ∀ t, m.total = some t → m.used ≤ t := by
  intro ms
  induction ms with
  | nil => intro h; exact h
  | cons a ms ih =>
    intro h m hm t ht
    unfold changeUsed at hm
    split at hm
    · rcases List.mem_cons.mp hm with rfl | hm
      · have := h a (by simp) t ht
        show a.used + c ≤ t
        omega
      · exact h m (by simp [hm]) t ht
    · rcases List.mem_cons.mp hm with rfl | hm
      · exact h _ (by simp) t ht
      · exact ih (fun m' h' => h m' (by simp [h'])) m hm t ht

theorem charge_within {dev : Option Nat} {c : Int} (hc : c ≤ 0) {s : FS} (h : Within s) :
    ∀ m ∈ charge dev c s.mounts, ∀ t, m.total = some t → m.used ≤ t := by
  unfold charge
  split
  · exact h
  · exact changeUsed_within hc h

/-- What a successful recursive removal of the entry `nm`, which is `e`, from `d` gives. -/
structure TreeRem (s s' : FS) (d : Ref) (nm : Str) (e : Ref) : Prop where
  post : RemPost s s' d
  within : Within s'
  here : (s'.heap d).entries = aerase nm (s.heap d).entries
  below : ∀ x, x ≠ d → Below s e x → (s'.heap x).entries = []
  other : ∀ x, x ≠ d → ¬ Below s e x → (s'.heap x).entries = (s.heap x).entries

/-- What a successful removal of everything below `e` gives. -/
structure TreeCleared (s s' : FS) (e : Ref) : Prop where
  post : RemPost s s' e
  within : Within s'
  below : ∀ x, Below s e x → (s'.heap x).entries = []
  other : ∀ x, ¬ Below s e x → (s'.heap x).entries = (s.heap x).entries

theorem sublist_nil {α : Type} {l : List α} (h : List.Sublist l []) : l = [] := List.sublist_nil.mp h

theorem removeCheck_may {s : FS} (ht : s.cfg.Tree) {d e : Ref} (h : mayRemove s d) : removeCheck s d e = .ok () := by
  unfold removeCheck
  rw [ht.posix.win]
  simp only [Bool.false_eq_true, if_false]
  rw [if_neg]
  rintro ⟨h1, h2⟩
  rcases h with h | h
  · rw [h] at h1; simp at h1
  · exact h2 h

theorem isRoot_shrink {s s' : FS} (h : Shrink s s') : s'.isRoot = s.isRoot := by
  unfold FS.isRoot; rw [h.ext.uid]

theorem mayRemove_shrink {s s' : FS} (h : Shrink s s') {d : Ref} (hm : mayRemove s d) : mayRemove s' d := by
  unfold mayRemove at *
  rw [isRoot_shrink h, h.mode]; exact hm

/-- The loop of a recursive removal. -/
theorem removeLoop_tree {rm : Ref → Str → M Unit} {e : Ref} {s0 : FS}
    (hrm : ∀ s, Inv s → Within s → Shrink s0 s → ∀ nm x, alookup nm (s.heap e).entries = some x →
      ∃ s', rm e nm s = (.ok (), s') ∧ TreeRem s s' e nm x)
    (ht : s0.cfg.Tree) (he : e < s0.next) :
    ∀ k s, Inv s → Within s → Shrink s0 s → (s.heap e).entries.length ≤ k →
      ∃ s', removeLoop rm e k s = (.ok (), s') ∧ TreeCleared s s' e := by
  intro k
  induction k with
  | zero =>
    intro s hi hw hsh hl
    have hnil : (s.heap e).entries = [] := List.length_eq_zero_iff.mp (Nat.le_zero.mp hl)
    refine ⟨s, rfl, RemPost.refl hi e, hw, ?_, fun _ _ => rfl⟩
    rintro x ⟨l, hx⟩
    cases l with
    | nil => simp [walk] at hx; subst hx; exact hnil
    | cons c l => simp [walk, hnil, alookup] at hx
  | succ k ih =>
    intro s hi hw hsh hl
    have hlt : e < s.next := by rw [hsh.next]; exact he
    have ht' : s.cfg.Tree := by rw [hsh.cfg]; exact ht
    unfold removeLoop
    cases hes : (s.heap e).entries with
    | nil =>
      refine ⟨s, rfl, RemPost.refl hi e, hw, ?_, fun _ _ => rfl⟩
      rintro x ⟨l, hx⟩
      cases l with
      | nil => simp [walk] at hx; subst hx; exact hes
      | cons c l => simp [walk, hes, alookup] at hx
    | cons a es =>
      obtain ⟨nm, e1⟩ := a
      have hal : alookup nm (s.heap e).entries = some e1 := by rw [hes]; simp [alookup]
      obtain ⟨s1, h1, h2⟩ := hrm s hi hw hsh nm e1 hal
      have hsh1 := h2.post.shrink
      obtain ⟨s2, h3, h4⟩ := ih s1 h2.post.good.inv h2.within (hsh.trans hsh1) (by
        rw [h2.here]
        have := (aerase_perm (hi.g.keys e hlt) (alookup_mem hal)).length_eq
        simp only [List.length_cons] at this
        omega)
      refine ⟨s2, ?_, h2.post.trans h4.post, h4.within, ?_, ?_⟩
      · dsimp only
        unfold M.bind
        rw [h1]
        exact h3
      · intro x hx
        by_cases hxe : x = e
        · subst hxe
          exact h4.below x (Below.refl x)
        by_cases hb : Below s e1 x
        · have := h2.below x hxe hb
          have hs := h4.post.shrink.entries x
          rw [this] at hs
          exact sublist_nil hs
        · apply h4.below x
          obtain ⟨l, hx⟩ := hx
          refine ⟨l, walk_keep hx ?_⟩
          intro y l1 l2 c z hl hy hz hzx
          by_cases hye : y = e
          · subst hye
            have hl1 := no_cycles hi ht' hlt hy
            rw [h2.here, alookup_aerase, if_neg]
            · exact hz
            · rintro rfl
              rw [hal] at hz; injection hz with hz; subst hz
              exact hb ⟨l2, hzx⟩
          · rw [h2.other y hye]
            · exact hz
            · intro hby
              exact hb ((hby.trans (below_entry hz)).trans ⟨l2, hzx⟩)
      · intro x hx
        have hb : ¬ Below s e1 x := fun h => hx ((below_entry hal).trans h)
        have hxe : x ≠ e := fun h => hx (h ▸ Below.refl _)
        rw [h4.other x, h2.other x hxe hb]
        rintro ⟨l, hl⟩
        exact hx ⟨l, (hsh1.sub hi).walk h2.post.good.inv (by rw [hsh1.next]; exact hlt) hl⟩

/-- Recursive removal of an entry, when every directory's entries may be removed. -/
theorem removeEntryF_tree {s0 : FS} (hi0 : Inv s0) (ht : s0.cfg.Tree)
    (hall : ∀ x < s0.next, (s0.heap x).isDir = true → mayRemove s0 x) :
    ∀ n (s : FS) (d : Ref) (nm : Str) (e : Ref) (names : List Str), Inv s → Within s → Shrink s0 s →
      walk s0.heap rootRef names = some d → s0.next + 1 ≤ n + names.length → alookup nm (s.heap d).entries = some e →
      ∃ s', removeEntryF n d nm true s = (.ok (), s') ∧ TreeRem s s' d nm e := by
  intro n
  induction n with
  | zero =>
    intro s d nm e names hi hw hsh hwk hf ha
    have hdir := isDir_of_entry (alookup_mem ha)
    rw [hsh.kind] at hdir
    have := depth_lt hi0 hwk hdir
    omega
  | succ n ih =>
    intro s d nm e names hi hw hsh hwk hf ha
    have ht' : s.cfg.Tree := by rw [hsh.cfg]; exact ht
    have hdlt0 := walk_lt hi0 _ (root_lt hi0) hwk
    have hdlt : d < s.next := by rw [hsh.next]; exact hdlt0
    have hmem := alookup_mem ha
    have hdir := isDir_of_entry hmem
    have helt := hi.g.entLt d hdlt _ hmem
    have hne := entry_ne hi ht' hdlt ha
    have hmay : mayRemove s d := mayRemove_shrink hsh (hall d hdlt0 (by rw [← hsh.kind]; exact hdir))
    have hpost := removeEntryF_post (n + 1) s d nm true hi hdlt
    unfold wp at hpost
    -- what is left is to run it
    have key : ∃ s', removeEntryF (n + 1) d nm true s = (.ok (), s') ∧ Within s' ∧
        (s'.heap d).entries = aerase nm (s.heap d).entries ∧
        (∀ x, x ≠ d → Below s e x → (s'.heap x).entries = []) ∧
        (∀ x, x ≠ d → ¬ Below s e x → (s'.heap x).entries = (s.heap x).entries) := by
      unfold removeEntryF
      rw [if_neg (by rw [hdir]; simp)]
      dsimp only
      rw [normEntry_caseSens ht', getEntry_tree ht'.cs, ha]
      dsimp only
      rw [removeCheck_may ht' hmay]
      dsimp only
      have hdetE : ∀ t : FS, ∀ x, ((t.detached d nm e).heap x).entries =
          if x = d then aerase nm (t.heap d).entries else (t.heap x).entries := by
        intro t x; rw [detached_heap]; by_cases h : x = d <;> simp [Obj.entries, h]
      by_cases hed : (s.heap e).isDir = true
      · rw [hed]
        simp only [Bool.and_self, if_true]
        have hwe : walk s0.heap rootRef (names ++ [nm]) = some e := by
          rw [walk_append, hwk, Option.bind_some]
          have := (hsh.sub hi0).ent d hdlt nm e ha
          simp [walk, this]
        obtain ⟨s1, h1, h2⟩ := removeLoop_tree (rm := fun d' nm' => removeEntryF n d' nm' true) (e := e) (s0 := s0)
          (fun t ht1 hw1 hs1 nm1 x hx => ih t e nm1 x (names ++ [nm]) ht1 hw1 hs1 hwe (by simp; omega) hx) ht
          (by rw [← hsh.next]; exact helt) _ s hi hw hsh (Nat.le_refl _)
        have hnb : ¬ Below s e d := by
          rintro ⟨l, hl⟩
          have : walk s.heap e (l ++ [nm]) = some e := by
            rw [walk_append, hl]; simp [walk, ha]
          have := no_cycles hi ht' helt this
          simp at this
        have hent1 : (s1.heap d).entries = (s.heap d).entries := h2.other d hnb
        have hdet := detach_ok h2.post.good.inv (by rw [h2.post.shrink.cfg]; exact ht') (d := d) (e := e) (nm := nm)
          (by rw [h2.post.shrink.next]; exact hdlt) (by rw [hent1]; exact hmem)
        refine ⟨s1.detached d nm e, ?_, ?_, ?_, ?_, ?_⟩
        · unfold M.bind
          rw [h1]
          exact hdet
        · exact h2.within
        · rw [hdetE, if_pos rfl, hent1]
        · intro x hx hb
          rw [hdetE, if_neg hx]
          exact h2.below x hb
        · intro x hx hb
          rw [hdetE, if_neg hx]
          exact h2.other x hb
      · have hed : (s.heap e).isDir = false := by simpa using hed
        rw [hed]
        simp only [Bool.and_false, Bool.false_eq_true, if_false]
        have hbe : ∀ x, Below s e x → x = e := by
          rintro x ⟨l, hl⟩
          cases l with
          | nil => simp [walk] at hl; exact hl.symm
          | cons c l => simp [walk, mem_entries_nil hed, alookup] at hl
        have fin : ∀ s1 : FS, s1.heap = s.heap → Within s1 → ∀ s' : FS, s' = s1.detached d nm e →
            Within s' ∧ (s'.heap d).entries = aerase nm (s.heap d).entries ∧
            (∀ x, x ≠ d → Below s e x → (s'.heap x).entries = []) ∧
            (∀ x, x ≠ d → ¬ Below s e x → (s'.heap x).entries = (s.heap x).entries) := by
          rintro s1 hh hw1 s' rfl
          refine ⟨hw1, ?_, ?_, ?_⟩
          · rw [hdetE, if_pos rfl, hh]
          · intro x hx hb
            rw [hdetE, if_neg hx, hh, hbe x hb]
            exact mem_entries_nil hed
          · intro x hx _
            rw [hdetE, if_neg hx, hh]
        have hdet := detach_ok hi ht' hdlt hmem
        by_cases hnl : (s.heap e).nlink = 1
        · simp only [hnl, if_true]
          have hsz : (-(s.sizeOf (s.next + 1) e : Int)) ≤ 0 := by omega
          have hcd := changeDiskUsage_nonpos hw hsz (s.heap e).dev
          have hcg := changeDiskUsage_good (-(s.sizeOf (s.next + 1) e : Int)) (s.heap e).dev hi
          unfold wp at hcg
          rw [hcd] at hcg
          have hdet1 := detach_ok (s := { s with mounts := charge (s.heap e).dev (-(s.sizeOf (s.next + 1) e : Int)) s.mounts })
            hcg.1.inv ht' (d := d) (e := e) (nm := nm) hdlt hmem
          refine ⟨_, ?_, fin { s with mounts := charge (s.heap e).dev (-(s.sizeOf (s.next + 1) e : Int)) s.mounts } rfl
            (charge_within hsz hw) _ rfl⟩
          unfold M.bind
          rw [hcd]
          exact hdet1
        · simp only [hnl, if_false]
          exact ⟨_, hdet, fin s rfl hw _ rfl⟩
    obtain ⟨s', h1, h2, h3, h4, h5⟩ := key
    rw [h1] at hpost
    exact ⟨s', h1, hpost, h2, h3, h4, h5⟩

/-- Whatever happens, a recursive removal of the entry `nm`, which is `e`, from `d` changes entries only at `d`, where
only `nm` may vanish, and at descendants of `e`. -/
theorem removeEntryF_inside (n : Nat) {s : FS} (hi : Inv s) (ht : s.cfg.Tree) {d e : Ref} {nm : Str} (hdlt : d < s.next)
    (ha : alookup nm (s.heap d).entries = some e) :
    wp (removeEntryF n d nm true) (fun r s' => ((s'.heap d).entries = (s.heap d).entries ∧ r ≠ .ok () ∨
        (s'.heap d).entries = aerase nm (s.heap d).entries ∧ r = .ok ()) ∧
      ∀ x, x ≠ d → (s'.heap x).entries ≠ (s.heap x).entries → Anc s.heap e x) s := by
  let Q : Except Err Unit → FS → Prop := fun r s' => ((s'.heap d).entries = (s.heap d).entries ∧ r ≠ .ok () ∨
        (s'.heap d).entries = aerase nm (s.heap d).entries ∧ r = .ok ()) ∧
      ∀ x, x ≠ d → (s'.heap x).entries ≠ (s.heap x).entries → Anc s.heap e x
  have hmem := alookup_mem ha
  have hdir := isDir_of_entry hmem
  have helt : e < s.next := hi.g.entLt d hdlt _ hmem
  have hdetE : ∀ t : FS, ∀ x, ((t.detached d nm e).heap x).entries =
      if x = d then aerase nm (t.heap d).entries else (t.heap x).entries := by
    intro t x; rw [detached_heap]; by_cases h : x = d <;> simp [Obj.entries, h]
  cases n with
  | zero => exact ⟨Or.inl ⟨rfl, by simp [removeEntryF, M.throw]⟩, fun x _ hx => absurd rfl hx⟩
  | succ n =>
    unfold wp removeEntryF
    rw [if_neg (by rw [hdir]; simp)]
    dsimp only
    rw [normEntry_caseSens ht, getEntry_tree ht.cs, ha]
    dsimp only
    have det : ∀ s1 : FS, Inv s1 → Shrink s s1 → (s1.heap d).entries = (s.heap d).entries →
        (∀ x, x ≠ d → (s1.heap x).entries ≠ (s.heap x).entries → Anc s.heap e x) →
        wp (detach d nm e) (fun r s' => ((s'.heap d).entries = (s.heap d).entries ∧ r ≠ .ok () ∨
          (s'.heap d).entries = aerase nm (s.heap d).entries ∧ r = .ok ()) ∧
          ∀ x, x ≠ d → (s'.heap x).entries ≠ (s.heap x).entries → Anc s.heap e x) s1 := by
      intro s1 h1 sh h2 h3
      unfold wp
      rw [detach_ok h1 (by rw [sh.cfg]; exact ht) (by rw [sh.next]; exact hdlt) (by rw [h2]; exact hmem)]
      refine ⟨Or.inr ⟨?_, rfl⟩, ?_⟩
      · show ((s1.detached d nm e).heap d).entries = _
        rw [hdetE, if_pos rfl, h2]
      · intro x hx
        show ((s1.detached d nm e).heap x).entries ≠ _ → _
        rw [hdetE, if_neg hx]
        exact h3 x hx
    split
    · exact ⟨Or.inl ⟨rfl, by simp⟩, fun x _ hx => absurd rfl hx⟩
    · split
      · rename_i hre
        have hed : (s.heap e).isDir = true := by simpa using hre
        have hpar := (hi.g.dirEnt d hdlt _ hmem hed).1
        have hno : ¬ Anc s.heap e d := ((hi.t ht).rooted e helt).noCycle hpar
        show wp (removeLoop (fun d' nm' => removeEntryF n d' nm' true) e (s.heap e).entries.length >>= fun _ => detach d nm e) Q s
        apply wp_seq (fun _ s' => RemPost s s' e)
        · exact removeLoop_post (fun s1 h1 hn1 nm1 => removeEntryF_post n s1 e nm1 true h1 (hn1 ▸ helt)) _ s hi rfl
        · intro x s' hx
          refine ⟨Or.inl ⟨?_, by simp⟩, fun y _ hy => hx.only y hy⟩
          exact Classical.byContradiction fun h => hno (hx.only d h)
        · intro _ s1 h1
          exact det s1 h1.good.inv h1.shrink (Classical.byContradiction fun h => hno (h1.only d h)) (fun y _ hy => h1.only y hy)
      · split
        · show wp (changeDiskUsage (-(s.sizeOf (s.next + 1) e : Int)) (s.heap e).dev >>= fun _ => detach d nm e) Q s
          have c1 := changeDiskUsage_good (-(s.sizeOf (s.next + 1) e : Int)) (s.heap e).dev hi
          have c2 := changeDiskUsage_shrink (-(s.sizeOf (s.next + 1) e : Int)) (s.heap e).dev s
          apply wp_seq (fun _ s1 => Inv s1 ∧ Shrink s s1 ∧ s1.heap = s.heap)
          · exact ⟨c1.1.inv, c2⟩
          · intro x s1 h1
            exact ⟨Or.inl ⟨by rw [h1.2.2], by simp⟩, fun y _ hy => absurd (by rw [h1.2.2]) hy⟩
          · intro _ s1 h1
            exact det s1 h1.1 h1.2.1 (by rw [h1.2.2]) (fun y _ hy => absurd (by rw [h1.2.2]) hy)
        · exact det s hi (Shrink.refl s) rfl (fun y _ hy => absurd rfl hy)

/-- A directory of the tree below another one, by parents, is below it by path. -/
theorem anc_prefix {s : FS} (hi : Inv s) {e x : Ref} (h : Anc s.heap e x) {le : List Str}
    (hle : walk s.heap rootRef le = some e) : ∀ {l : List Str}, walk s.heap rootRef l = some x →
    (s.heap x).isDir = true → le <+: l := by
  induction h with
  | refl =>
    intro l hl hd
    rw [walk_dir_unique hi _ _ hl hle hd]
  | @up x p hp _ ih =>
    intro l hl hd
    rcases List.eq_nil_or_concat l with rfl | ⟨l, c, rfl⟩
    · simp [walk] at hl
      rw [← hl, hi.g.rootPar] at hp; simp at hp
    · rw [List.concat_eq_append] at hl ⊢
      obtain ⟨y, hy, hc⟩ := walk_snoc hl
      have hylt := walk_lt hi _ (root_lt hi) hy
      have := (hi.g.dirEnt y hylt _ (alookup_mem hc) hd).1
      rw [hp] at this
      injection this with this; subst this
      exact (ih hy (isDir_of_entry (alookup_mem hc))).trans (List.prefix_append _ _)

/-- Names outside the removed part stay. -/
theorem outside_walk {s s' : FS} (hi : Inv s) (hi' : Inv s') (hsh : Shrink s s') {d e : Ref} {nm : Str} {ld : List Str}
    (hld : walk s.heap rootRef ld = some d) (ha : alookup nm (s.heap d).entries = some e)
    (h1 : (s'.heap d).entries = (s.heap d).entries ∨ (s'.heap d).entries = aerase nm (s.heap d).entries)
    (h2 : ∀ x, x ≠ d → (s'.heap x).entries ≠ (s.heap x).entries → Anc s.heap e x) :
    ∀ l, ¬ (ld ++ [nm]) <+: l → walk s'.heap rootRef l = walk s.heap rootRef l := by
  intro l hl
  have hdir := isDir_of_entry (alookup_mem ha)
  have hle : walk s.heap rootRef (ld ++ [nm]) = some e := by
    rw [walk_append, hld]; simp [walk, ha]
  cases hw : walk s.heap rootRef l with
  | none =>
    cases hw' : walk s'.heap rootRef l with
    | none => rfl
    | some x =>
      have := (hsh.sub hi).walk hi' (by rw [hsh.next]; exact root_lt hi) hw'
      rw [hw] at this; simp at this
  | some x =>
    refine walk_keep hw ?_
    intro y l1 l2 c z e1 hy hz hzx
    have hylt := walk_lt hi _ (root_lt hi) hy
    have hyd := isDir_of_entry (alookup_mem hz)
    by_cases hyd' : y = d
    · subst hyd'
      rcases h1 with h1 | h1
      · rw [h1]; exact hz
      · rw [h1, alookup_aerase, if_neg]
        · exact hz
        · rintro rfl
          have := walk_dir_unique hi _ _ hy hld hyd
          subst this
          exact hl ⟨l2, by rw [e1]; simp⟩
    · by_cases he : (s'.heap y).entries = (s.heap y).entries
      · rw [he]; exact hz
      · have hanc := h2 y hyd' he
        have := anc_prefix hi hanc hle hy hyd
        exact absurd (this.trans ⟨c :: l2, e1.symm⟩) hl

end Verif
