import Verif.InTree
import Verif.Held
import Verif.Props.RefineIO
import Verif.Props.Dirs
import Verif.Props.RemoveTree
/-!
# C74, continued: `makedirs`, `create_dir`, `create_file`, `remove_object`, `samefile`, `lexists`
-/

namespace Verif
open Py Spec Cfg

theorem dirBit {m : Nat} (h : ifmt m = S_IFDIR) : m &&& S_IFDIR = S_IFDIR := by
  have h2 : m &&& S_IFMT &&& S_IFDIR = S_IFDIR := by
    have : m &&& S_IFMT = S_IFDIR := h
    rw [this]; rfl
  rwa [Nat.and_assoc, show S_IFMT &&& S_IFDIR = S_IFDIR from rfl] at h2

/-- an operation that forgets its result -/
theorem void_next {α : Type} {m : M α} {o : Op} (ho : o.run = m.void) (s : FS) : o.next s = (m s).2 := by
  unfold Op.next
  rw [ho]
  unfold M.void
  rw [M.bind_eq]
  rcases m s with ⟨_ | _, _⟩ <;> rfl

section
variable {k : Cfg} {u : Nat} {s : FS} (hk : Linux k) (h : RefSt k u s)
include hk h

theorem RefSt.dirBit {l : List Str} {x : Ref} (hx : walk s.heap rootRef l = some x) :
    ((s.heap x).mode &&& S_IFDIR = S_IFDIR) ↔ (s.heap x).isDir = true := by
  constructor
  · intro e
    by_contra hc
    have := (h.bit hk hx).mpr (by simpa using hc)
    rw [this] at e
    exact absurd e (by decide)
  · intro e
    have := h.mode_dir hk hx
    rw [e, beq_iff_eq] at this
    exact Verif.dirBit this

theorem RefSt.blocked_iff (l : List Str) : Ref.Blocked (treeOf s) l ↔
    ∃ pre rest x, l = pre ++ rest ∧ rest ≠ [] ∧ walk s.heap rootRef pre = some x ∧ (s.heap x).isDir = false := by
  constructor
  · rintro ⟨pre, rest, e, hne, hf⟩
    obtain ⟨x, h1, h2⟩ := (h.isFile_iff hk pre).mp hf
    exact ⟨pre, rest, x, e, hne, h1, h2⟩
  · rintro ⟨pre, rest, x, e, hne, h1, h2⟩
    exact ⟨pre, rest, e, hne, (h.isFile_iff hk pre).mpr ⟨x, h1, h2⟩⟩

/-! ## Directories -/

/-- A file on the way: the loop of `create_dir` raises ENOTDIR. -/
theorem RefSt.loop_blocked : ∀ (cs pre : List Str) (cur : Ref), walk s.heap rootRef pre = some cur →
    (∃ m rest x, cs = m ++ rest ∧ m ≠ [] ∧ walk s.heap cur m = some x ∧ (s.heap x).isDir = false) →
    createDirLoop cur cs [] s = (.error (.os .ENOTDIR), s) := by
  intro cs
  induction cs with
  | nil =>
    rintro pre cur _ ⟨m, rest, x, e, hm, _⟩
    exact absurd (List.append_eq_nil_iff.mp e.symm).1 hm
  | cons c cs ih =>
    rintro pre cur hpre ⟨m, rest, x, e, hm, hx, hf⟩
    cases m with
    | nil => exact absurd rfl hm
    | cons c' m =>
      simp only [List.cons_append, List.cons.injEq] at e
      obtain ⟨rfl, e⟩ := e
      simp only [walk] at hx
      cases hy : alookup c (s.heap cur).entries with
      | none => rw [hy] at hx; simp at hx
      | some y =>
        rw [hy, Option.bind_some] at hx
        have hwy : walk s.heap rootRef (pre ++ [c]) = some y := by rw [walk_append, hpre]; simp [walk, hy]
        rw [createDirLoop_cons, dirContent_tree (h.tree hk).cs, hy]
        simp only [Option.map_some, h.notLnk hk hwy, Bool.false_eq_true, if_false]
        rw [M.bind_eq]
        dsimp only [M.pure]
        rw [M.bind_eq]
        dsimp only [M.get]
        cases hd : (s.heap y).isDir with
        | false =>
          rw [if_pos (fun e => by have := (h.dirBit hk hwy).mp e; rw [hd] at this; simp at this)]
          rfl
        | true =>
          rw [if_neg (fun e => e ((h.dirBit hk hwy).mpr hd))]
          refine ih (pre ++ [c]) y hwy ⟨m, rest, x, e, ?_, hx, hf⟩
          rintro rfl
          simp [walk] at hx
          subst hx
          rw [hd] at hf; simp at hf

/-- No file on the way: the loop succeeds. -/
theorem RefSt.loop_free : ∀ (cs pre : List Str) (cur : Ref), walk s.heap rootRef pre = some cur → (s.heap cur).isDir = true →
    (∀ w ∈ cs, Proper s.cfg.sep w) →
    (¬ ∃ m rest x, cs = m ++ rest ∧ walk s.heap cur m = some x ∧ (s.heap x).isDir = false) →
    ∃ r s', createDirLoop cur cs [] s = (.ok r, s') := by
  intro cs
  induction cs with
  | nil => intro pre cur _ _ _ _; exact ⟨_, _, rfl⟩
  | cons c cs ih =>
    intro pre cur hpre hdir hpr hnb
    have hi := h.inv
    rw [createDirLoop_cons, dirContent_tree (h.tree hk).cs]
    cases hy : alookup c (s.heap cur).entries with
    | none =>
      simp only [Option.map_none]
      rcases mkOne hi (h.within hk) (h.tree hk) (walk_lt hi _ (root_lt hi) hpre) (hpr c (by simp)) (fun x => createDirLoop x cs ([] ++ [x])) with
        ⟨e, s', h1, h2, ⟨_, h3⟩ | ⟨_, h3, _⟩ | ⟨_, h3⟩⟩ | ⟨s1, he, hm, hi1⟩
      · rw [hdir] at h3; simp at h3
      · rw [h.isRoot hk] at h3; simp at h3
      · rw [hy] at h3; simp at h3
      · have ho := hm.obj
        obtain ⟨s', x, ns, h1, h2⟩ := grow cs s1 s.next ([] ++ [s.next]) hi1 (hm.within (h.within hk)) (by rw [hm.cfg]; exact h.tree hk)
          (by rw [hm.next]; exact Nat.lt_succ_self _) (by rw [ho]; rfl) (by rw [ho]; rfl) (by
            rw [ho]; show (S_IFDIR ||| PERM_DEF) &&& PERM_WRITE ≠ 0; decide) (by rw [hm.cfg]; exact fun w hw => hpr w (by simp [hw]))
        exact ⟨_, _, by rw [he, h1]⟩
    | some y =>
      have hwy : walk s.heap rootRef (pre ++ [c]) = some y := by rw [walk_append, hpre]; simp [walk, hy]
      have hd : (s.heap y).isDir = true := by
        by_contra hc
        exact hnb ⟨[c], cs, y, rfl, by simp [walk, hy], by simpa using hc⟩
      simp only [Option.map_some, h.notLnk hk hwy, Bool.false_eq_true, if_false]
      rw [M.bind_eq]
      dsimp only [M.pure]
      rw [M.bind_eq]
      dsimp only [M.get]
      rw [if_neg (fun e => e ((h.dirBit hk hwy).mpr hd))]
      refine ih (pre ++ [c]) y hwy hd (fun w hw => hpr w (by simp [hw])) ?_
      rintro ⟨m, rest, x, e, hx, hf⟩
      exact hnb ⟨c :: m, rest, x, by rw [e]; rfl, by simp [walk, hy, hx], hf⟩

omit hk in
theorem RefSt.root_dir : (s.heap rootRef).isDir = true := by
  have := h.inv.g.rootDir
  exact this

/-- a chain of new directories is the growth of the tree -/
theorem RefSt.newDirs {s' : FS} (hb : RefBase k u s') {d : Ref} {pre post : List Str} {c : Str} {perm : Nat} (hp : Usable (pre ++ c :: post))
    (hn : NewDirs s s' d pre (c :: post) perm) (hperm : perm &&& PERM_READ ≠ 0) :
    RefSt k u s' ∧ treeOf s' = (treeOf s).grow (pre ++ c :: post) := by
  have hi := h.inv
  have hlt : ∀ {l x}, walk s.heap rootRef l = some x → x < s.next := fun hx => walk_lt hi _ (root_lt hi) hx
  have hdir := hn.isDir (by simp)
  obtain ⟨x0, hx0⟩ := hn.dir c post rfl
  have hnode : ∀ y < s.next, nodeOf y (s'.heap y) = nodeOf y (s.heap y) ∧ (Kind (s.heap y) → Kind (s'.heap y)) := by
    intro y hy
    by_cases e : y = d
    · subst e
      have hd' : (s'.heap y).isDir = true := by rw [hx0]; rfl
      refine ⟨by rw [nodeOf_dir hd', nodeOf_dir hdir], fun hkd => ⟨?_, Or.inl hd'⟩⟩
      rw [hx0]
      exact hkd.1
    · rw [hn.others y hy (Or.inr e)]; exact ⟨rfl, id⟩
  have hnew : ∀ l, (∃ j, 0 < j ∧ j ≤ (c :: post).length ∧ l = pre ++ (c :: post).take j) → walk s.heap rootRef l = none ∧
      ∃ x, s.next ≤ x ∧ walk s'.heap rootRef l = some x ∧ (s'.heap x).isDir = true ∧ (s'.heap x).mode = S_IFDIR ||| perm := by
    rintro l ⟨j, h1, h2, rfl⟩
    obtain ⟨x, g1, g2, g3, g4, _⟩ := hn.made j h1 h2
    exact ⟨hn.absent j h1 h2, x, g1, g2, g3, g4⟩
  have hold : ∀ l, (¬ ∃ j, 0 < j ∧ j ≤ (c :: post).length ∧ l = pre ++ (c :: post).take j) → walk s'.heap rootRef l = walk s.heap rootRef l :=
    fun l hl => hn.elsewhere l fun j h1 h2 e => hl ⟨j, h1, h2, e⟩
  have hiff : ∀ l, (∃ j, 0 < j ∧ j ≤ (c :: post).length ∧ l = pre ++ (c :: post).take j) ↔
      l.isPrefixOf (pre ++ c :: post) = true ∧ walk s.heap rootRef l = none := by
    intro l
    constructor
    · intro hl
      refine ⟨?_, (hnew l hl).1⟩
      obtain ⟨j, _, _, rfl⟩ := hl
      rw [List.isPrefixOf_iff_prefix]
      exact (List.prefix_append_right_inj pre).mpr (List.take_prefix _ _)
    · rintro ⟨h1, h2⟩
      rw [List.isPrefixOf_iff_prefix] at h1
      rcases List.prefix_or_prefix_of_prefix h1 (List.prefix_append pre (c :: post)) with hpre | ⟨m, rfl⟩
      · obtain ⟨m, rfl⟩ := hpre
        have hbase := hn.base
        rw [walk_append, h2] at hbase
        simp at hbase
      · have hm : m <+: c :: post := (List.prefix_append_right_inj pre).mp h1
        refine ⟨m.length, ?_, hm.length_le, by rw [← List.prefix_iff_eq_take.mp hm]⟩
        cases m with
        | nil => rw [List.append_nil, hn.base] at h2; simp at h2
        | cons a m => simp
  refine ⟨⟨hb, ?_, ?_, fun l y hy => ?_⟩, ?_⟩
  · have := h.devName
    unfold FS.devName at this ⊢
    rw [hn.others _ (devNull_lt hi) (Or.inr (isDir_ne_devNull hi hdir).symm)]; exact this
  · rw [hold _ (fun hl => ?_)]
    · exact h.noDev
    · have := ((hiff _).mp hl).1
      rw [List.isPrefixOf_iff_prefix] at this
      obtain ⟨m, hm⟩ := this
      exact hp.dev (by rw [← hm]; rfl)
  · by_cases hl : ∃ j, 0 < j ∧ j ≤ (c :: post).length ∧ l = pre ++ (c :: post).take j
    · obtain ⟨_, x, g1, g2, g3, g4⟩ := hnew l hl
      rw [g2] at hy
      injection hy with hy; subst hy
      refine ⟨fun e => ?_, ?_, Or.inl g3⟩
      · have := devNull_lt hi; rw [← e] at this; exact Nat.not_lt.mpr g1 this
      · rw [g4]
        intro e
        rw [Nat.and_or_distrib_right] at e
        exact hperm (Nat.or_eq_zero_iff.mp e).2
    · rw [hold l hl] at hy
      exact ⟨(h.kind l y hy).1, (hnode y (hlt hy)).2 (h.kind l y hy).2⟩
  · funext l
    unfold Ref.Tree.grow
    simp only [h.treeAt hk]
    by_cases hl : ∃ j, 0 < j ∧ j ≤ (c :: post).length ∧ l = pre ++ (c :: post).take j
    · rw [if_pos ((hiff l).mp hl)]
      obtain ⟨_, x, g1, g2, g3, g4⟩ := hnew l hl
      unfold treeOf
      rw [g2, Option.map_some, nodeOf_dir g3]
    · rw [if_neg (fun e => hl ((hiff l).mpr e))]
      unfold treeOf
      rw [hold l hl]
      cases hy : walk s.heap rootRef l with
      | none => rfl
      | some y => simp only [Option.map_some]; rw [(hnode y (hlt hy)).1]

/-- `create_dir` -/
theorem RefSt.dirs {p : List Str} (hp : Usable p) {perm : Nat} (hperm : perm < 0o10000) (hr : perm &&& PERM_READ ≠ 0) :
    ((walk s.heap rootRef p).isSome ∧ createDir (absPath s.cfg.sep p) perm s = (.error (.os .EEXIST), s)) ∨
    (walk s.heap rootRef p = none ∧ Ref.Blocked (treeOf s) p ∧ createDir (absPath s.cfg.sep p) perm s = (.error (.os .ENOTDIR), s)) ∨
    (walk s.heap rootRef p = none ∧ ¬ Ref.Blocked (treeOf s) p ∧ ∃ x s', createDir (absPath s.cfg.sep p) perm s = (.ok x, s') ∧
      RefSt k u s' ∧ treeOf s' = (treeOf s).grow p) := by
  have ht := h.tree hk
  have hpl := plain_proper (h.plain hk hp)
  have e0 : createDir (absPath s.cfg.sep p) perm s =
      if (walk s.heap rootRef p).isSome then (.error (.os .EEXIST), s) else
      (createDirLoop rootRef p [] >>= fun r => (M.modify fun s => r.2.foldl (fun s d => s.setObj d fun o => { o with mode := S_IFDIR ||| perm }) s) >>=
        fun _ => M.pure r.1) s := by
    unfold createDir createDirG
    rw [M.bind_eq]
    dsimp only [M.get]
    rw [makeStringPath_slash (h.sep hk), h.canon hk hp, M.bind_eq, autoMount_posix ht.posix]
    dsimp only
    rw [M.bind_eq, rd_eq (f := fun x => x.existsL (absPath s.cfg.sep p)) (h.existsL hk hp)]
    cases (walk s.heap rootRef p).isSome with
    | true => rfl
    | false =>
      dsimp only
      rw [if_neg (by simp), if_neg (by simp), pathComponents_absPath ht.posix hpl]
  cases hw : walk s.heap rootRef p with
  | some x => left; rw [e0, hw]; exact ⟨rfl, rfl⟩
  | none =>
    right
    rw [hw, if_neg (by simp)] at e0
    have hroot : walk s.heap rootRef [] = some rootRef := rfl
    by_cases hbl : Ref.Blocked (treeOf s) p
    · left
      refine ⟨rfl, hbl, ?_⟩
      obtain ⟨pre, rest, x, e, hne, h1, h2⟩ := (h.blocked_iff hk p).mp hbl
      rw [e0, M.bind_eq, h.loop_blocked hk p [] rootRef hroot ⟨pre, rest, x, e, ?_, h1, h2⟩]
      rintro rfl
      simp [walk] at h1
      subst h1
      rw [h.root_dir] at h2; simp at h2
    · right
      refine ⟨rfl, hbl, ?_⟩
      obtain ⟨r, s1, hok⟩ := h.loop_free hk p [] rootRef hroot h.root_dir hpl (by
        rintro ⟨m, rest, x, e, hx, hf⟩
        apply hbl
        refine (h.blocked_iff hk p).mpr ⟨m, rest, x, e, ?_, hx, hf⟩
        rintro rfl
        rw [List.append_nil] at e
        rw [e, hx] at hw; simp at hw)
      have hb : RefBase k u (createDir (absPath s.cfg.sep p) perm s).2 :=
        void_next (o := .createDir (absPath s.cfg.sep p) perm) rfl s ▸
          h.toRefBase.next hk (.createDir (absPath s.cfg.sep p) perm) rfl hperm (by simp)
      rw [M.bind_eq, hok] at e0
      rcases createDir_spec h.inv (h.within hk) ht perm hpl (p := absPath s.cfg.sep p) (by rw [makeStringPath_slash (h.sep hk)]; exact h.canon hk hp) with
        ⟨e, s', h1, _⟩ | ⟨_, ⟨d, h1, h2⟩ | ⟨pre, c, post, d, ld, s', x, rfl, h2, h3, h4, _⟩⟩
      · rw [e0] at h1
        injection h1 with h1 _
        simp [bind, M.bind, M.modify, M.pure] at h1
      · have := h2.walk (h.noLink hk p)
        rw [hw] at this; simp at this
      · have hd := h2.walk (h.noLink hk pre)
        have : ld = pre := walk_dir_unique h.inv _ _ h4.base hd (h4.isDir (by simp))
        subst this
        rw [h3] at hb
        exact ⟨x, s', h3, h.newDirs hk hb hp h4 hr⟩

theorem RefSt.createDir {p : List Str} (hp : Usable p) : Refines k u s (.createDir p) := by
  refine h.did hk (f := fun _ => .done) (m := Verif.createDir (absPath s.cfg.sep p)) (by rw [h.sep hk]; rfl) ?_
  rw [Ref.Step]
  rcases h.dirs hk hp (perm := PERM_DEF) (by decide) (by decide) with ⟨h1, h2⟩ | ⟨h1, h2, h3⟩ | ⟨h1, h2, x, s', h3, h4, h5⟩
  · rw [h2]
    refine ⟨h, ?_⟩
    obtain ⟨x, hx⟩ := Option.isSome_iff_exists.mp h1
    rw [h.at hk hx]
    exact ⟨rfl, rfl⟩
  · rw [h3, (h.treeAt hk p).mpr h1]
    exact ⟨h, Or.inl ⟨h2, rfl, rfl⟩⟩
  · rw [h3, (h.treeAt hk p).mpr h1]
    exact ⟨h4, Or.inr ⟨h2, rfl, h5⟩⟩

theorem RefSt.makedirs (hu : u &&& PERM_READ = 0) {p : List Str} (hp : Usable p) (ok : Bool) : Refines k u s (.makedirs p ok) := by
  refine h.did hk (f := fun _ => .done) (m := Verif.makedirs (absPath s.cfg.sep p) 0o777 ok) (by rw [h.sep hk]; rfl) ?_
  have run := makedirs_run (h.mac hk) (absPath_ne_nil (c := s.cfg.sep) (l := p)) 0o777 ok
  rw [h.canon hk hp] at run
  rw [Ref.Step]
  have hperm : andNot 0o777 s.umask < 0o10000 := Nat.lt_of_le_of_lt (andNot_le _ _) (by decide)
  rcases h.dirs hk hp hperm (by rw [h.umask]; exact read_kept (by decide) hu) with ⟨h1, h2⟩ | ⟨h1, h2, h3⟩ | ⟨h1, h2, x, s', h3, h4, h5⟩
  · rw [h2] at run
    obtain ⟨x, hx⟩ := Option.isSome_iff_exists.mp h1
    have hbad : s.makedirsBad (absPath s.cfg.sep p) ok = .ok (!(ok && (s.heap x).isDir)) := by
      unfold FS.makedirsBad
      cases ok with
      | false => rfl
      | true => rw [if_neg (by simp), h.res hk hp hx]; rfl
    dsimp only at run
    rw [if_pos (by rfl), if_neg (by simp), hbad] at run
    rw [run, h.at hk hx]
    rcases h.cases hk p with ⟨c1, c2⟩ | ⟨y, c1, c2, _, c3⟩ | ⟨y, b, c1, c2, c4, _, _, _, c3⟩
    · rw [hx] at c1; simp at c1
    · rw [hx] at c1; injection c1 with c1; subst c1
      rw [nodeOf_dir c2, c2]
      cases ok with
      | true => exact ⟨h, by dsimp only; rw [if_pos ⟨rfl, rfl⟩]; exact ⟨rfl, rfl⟩⟩
      | false =>
        rw [(h.tree hk).posix.win]
        exact ⟨h, by dsimp only; rw [if_neg (by simp)]; exact ⟨rfl, rfl⟩⟩
    · rw [hx] at c1; injection c1 with c1; subst c1
      rw [nodeOf_file c4, c2, (h.tree hk).posix.win]
      cases ok <;> exact ⟨h, by dsimp only; rw [if_neg (by simp)]; exact ⟨rfl, rfl⟩⟩
  · rw [h3] at run
    dsimp only at run
    rw [if_pos (by rfl), if_neg (by simp)] at run
    rw [(h.treeAt hk p).mpr h1]
    have hbad : s.makedirsBad (absPath s.cfg.sep p) ok = if ok then .error (.os .ENOTDIR) else .ok true := by
      unfold FS.makedirsBad
      cases ok with
      | false => rfl
      | true =>
        obtain ⟨e, he, ha⟩ := h.absent hk hp h1 true
        rw [if_neg (by simp), he]
        rcases ha with ⟨_, rfl⟩ | ⟨ha, _⟩
        · rfl
        · exact absurd h2 ha
    rw [hbad] at run
    rw [run]
    cases ok with
    | true => exact ⟨h, Or.inl ⟨h2, rfl, rfl⟩⟩
    | false =>
      dsimp only
      rw [(h.tree hk).posix.win]
      exact ⟨h, Or.inl ⟨h2, rfl, rfl⟩⟩
  · rw [h3] at run
    rw [run, (h.treeAt hk p).mpr h1]
    exact ⟨h4, Or.inr ⟨h2, rfl, h5⟩⟩

/-! ## Files -/

theorem RefSt.fresh_id {x : Nat} (hx : s.next ≤ x) : ∀ l c, treeOf s l ≠ some (.file x c) := by
  intro l c hl
  unfold treeOf at hl
  cases hy : walk s.heap rootRef l with
  | none => rw [hy] at hl; simp at hl
  | some y =>
    rw [hy] at hl
    simp only [Option.map_some, Option.some.injEq] at hl
    have : y = x := by
      unfold nodeOf at hl
      split at hl
      · simp at hl
      · simp only [Ref.Node.file.injEq] at hl; exact hl.1
    exact Nat.not_lt.mpr hx (by rw [← this]; exact walk_lt h.inv _ (root_lt h.inv) hy)

/-- the tree does not grow where everything is -/
theorem RefSt.grow_id {p : List Str} {d : Ref} (hd : walk s.heap rootRef p = some d) : (treeOf s).grow p = treeOf s := by
  funext l
  unfold Ref.Tree.grow
  split
  · rename_i hl
    exfalso
    obtain ⟨hl, hn⟩ := hl
    rw [List.isPrefixOf_iff_prefix] at hl
    obtain ⟨m, rfl⟩ := hl
    rw [walk_append, (h.treeAt hk l).mp hn] at hd
    simp at hd
  · rfl

/-- `create_file` when the parent is there -/
theorem RefSt.fileHere {p : List Str} {n : Str} {d : Ref} (hp : Usable (p ++ [n])) (hw : walk s.heap rootRef (p ++ [n]) = none)
    (hd : walk s.heap rootRef p = some d) (b : Bytes) {mode : Nat} (hm : mode &&& PERM_READ ≠ 0) (hreg : ifmt mode = S_IFREG) {s' : FS} {r : Except Err Ref}
    (hr : Verif.createFile (absPath s.cfg.sep (p ++ [n])) mode (some b) none true false s = (r, s')) (hb : RefBase k u s') :
    ((s.heap d).isDir = false ∧ r = .error (.os .ENOTDIR) ∧ RefSt k u s' ∧ treeOf s' = treeOf s ∧ Held s s') ∨
    ((s.heap d).isDir = true ∧ ∃ x, r = .ok x ∧ s.next ≤ x ∧ RefSt k u s' ∧ treeOf s' = (treeOf s).set (p ++ [n]) (some (.file x b)) ∧ Held s s') := by
  have e0 : Verif.createFile (absPath s.cfg.sep (p ++ [n])) mode (some b) none true false s =
      createFileTail (absPath s.cfg.sep p) n (absPath s.cfg.sep (p ++ [n])) mode (some b) none false s := by
    unfold Verif.createFile
    rw [h.createFront hk hp hw, if_neg (by rw [hd]; simp)]
  cases hdir : (s.heap d).isDir with
  | false =>
    left
    rw [e0, h.createTail_file hk hp hd hdir] at hr
    injection hr with hr1 hr2
    subst hr1 hr2
    obtain ⟨g1, g2⟩ := h.unchanged hk hb ((new_same s _).unchanged h.inv)
    exact ⟨rfl, rfl, g1, g2, OpRel.new s _ trivial⟩
  | true =>
    right
    obtain ⟨s1, h1, _⟩ := h.createTail hk hp hw hd hdir mode b false
    rcases createFile_effect h.reach (h.tree hk) (h.within hk) (absPath s.cfg.sep (p ++ [n])) mode b (cm := true) false
      (Or.inr (fun names nm hn hnm e => by
        rw [makeStringPath_slash (h.sep hk), h.canon hk hp] at e
        have hpl := plain_proper (h.plain hk hp)
        have := absPath_inj (h.tree hk).posix (a := p ++ [n]) (b := names ++ [nm]) hpl (by
          simp only [List.mem_append, List.mem_singleton]; rintro w (hw | rfl); exacts [hn w hw, hnm]) e
        have := (List.append_inj' this rfl).1
        rw [← this, h.ex hk hp.init, hd]; rfl))
      (fun _ _ d _ => h.may hk d) with ⟨e, s2, g1, _⟩ | ⟨s2, ld, nm, d', x, g1, g2, g3, g4, g5, g6, _⟩
    · rw [e0, h1] at g1
      injection g1 with g1 _; simp at g1
    · rw [makeStringPath_slash (h.sep hk)] at g2
      obtain ⟨rfl, rfl, hd'⟩ := h.names hk hp g2
      rw [hr] at g1
      injection g1 with g1 g1'; subst g1 g1'
      have hkd : Kind (s'.heap x) := by
        rw [if_neg (by simp)] at g6
        refine ⟨by rw [g6]; exact hm, Or.inr ⟨b, g4, ?_, g5⟩⟩
        unfold Obj.isRegMode
        rw [g6, hreg]; rfl
      obtain ⟨k1, k2⟩ := h.newEntry hk hb hp g2.dir g3 hkd
      refine ⟨rfl, x, rfl, g3.fresh, k1, ?_, ?_⟩
      · rw [k2, nodeOf_file g4]
      · have hlt : x < s'.next := walk_lt k1.inv _ (root_lt k1.inv) g3.name.here
        have hd2 : (s'.heap d').isDir = true := isDir_of_entry (e := (nm, x)) (by rw [g3.listed]; simp)
        refine ⟨Nat.le_of_lt (Nat.lt_of_le_of_lt g3.fresh hlt), fun y hy => ?_, fun y hy hf => ?_⟩
        · by_cases e : y = d'
          · subst e; rw [hd2, g2.dir]
          · rw [g3.others y hy e]
        · by_cases e : y = d'
          · subst e; rw [g2.dir] at hf; simp at hf
          · rw [g3.others y hy e]; exact ⟨rfl, rfl, rfl⟩

theorem RefSt.createFile_all {p : List Str} {n : Str} (hp : Usable (p ++ [n])) (b : Bytes) {m : M Ref}
    (hm : m = Verif.createFile (absPath s.cfg.sep (p ++ [n])) (S_IFREG ||| PERM_DEF_FILE) (some b) none true false) :
    (RefSt k u (m s).2 ∧ Ref.Step (treeOf s) (.createFile (p ++ [n]) b) (resOf (fun _ => .done) (m s).1) (treeOf (m s).2)) ∧
    Held s (m s).2 ∧ ∀ i < s.next, InTree (treeOf (m s).2) i → InTree (treeOf s) i := by
  subst hm
  have hb : RefBase k u (Verif.createFile (absPath s.cfg.sep (p ++ [n])) (S_IFREG ||| PERM_DEF_FILE) (some b) none true false s).2 :=
    void_next (o := .createFile (absPath s.cfg.sep (p ++ [n])) (S_IFREG ||| PERM_DEF_FILE) (some b) none true false) rfl s ▸
      h.toRefBase.next hk (.createFile (absPath s.cfg.sep (p ++ [n])) (S_IFREG ||| PERM_DEF_FILE) (some b) none true false) rfl
        (show (S_IFREG ||| PERM_DEF_FILE) &&& S_IFDIR = 0 by decide) (by simp)
  rw [Ref.Step]
  cases hw : walk s.heap rootRef (p ++ [n]) with
  | some x =>
    have e0 : Verif.createFile (absPath s.cfg.sep (p ++ [n])) (S_IFREG ||| PERM_DEF_FILE) (some b) none true false s = (.error (.os .EEXIST), s) := by
      unfold Verif.createFile createFileI
      rw [M.bind_eq]
      dsimp only [M.get]
      rw [makeStringPath_slash (h.sep hk), h.canon hk hp, M.bind_eq,
        rd_eq (f := fun x => x.existsL (absPath s.cfg.sep (p ++ [n]))) (h.existsL hk hp), hw]
      rfl
    rw [e0, h.at hk hw]
    exact ⟨⟨h, rfl, rfl⟩, Held.heap rfl rfl, fun _ _ hi => hi⟩
  | none =>
    rw [(h.treeAt hk _).mpr hw, Ref.parent, List.dropLast_concat]
    dsimp only
    cases hd : walk s.heap rootRef p with
    | some d =>
      rcases hr : Verif.createFile (absPath s.cfg.sep (p ++ [n])) (S_IFREG ||| PERM_DEF_FILE) (some b) none true false s with ⟨r, s'⟩
      rw [hr] at hb
      have hbl : Ref.Blocked (treeOf s) (p ++ [n]) ↔ (s.heap d).isDir = false := by
        have := h.absent_last hk (n := n) hd
        cases hdir : (s.heap d).isDir with
        | false => rw [hdir, if_neg (by simp)] at this; rcases this with ⟨g, _⟩ | ⟨_, g⟩; exacts [by simp [g], by simp at g]
        | true => rw [hdir, if_pos rfl] at this; rcases this with ⟨_, g⟩ | ⟨g, _⟩; exacts [by simp at g, by simp [g]]
      rcases h.fileHere hk hp hw hd b (by decide) (by decide) hr hb with ⟨h1, rfl, h2, h3, h4⟩ | ⟨h1, x, rfl, hx, h2, h3, h4⟩
      · exact ⟨⟨h2, Or.inl ⟨hbl.mpr h1, rfl, h3⟩⟩, h4, fun i _ hi => by rw [h3] at hi; exact hi⟩
      · refine ⟨⟨h2, Or.inr ⟨fun e => ?_, rfl, x, h.fresh_id hk hx, ?_⟩⟩, h4, fun i hlt hi => ?_⟩
        · rw [hbl.mp e] at h1; simp at h1
        · rw [h.grow_id hk hd]; exact h3
        · rw [h3] at hi
          rcases inTree_set hi with hi | ⟨_, hi⟩
          · exact hi
          · simp only [Option.some.injEq, Ref.Node.file.injEq] at hi
            exact absurd hlt (Nat.not_lt.mpr (hi.1 ▸ hx))
    | none =>
      have hbl : Ref.Blocked (treeOf s) (p ++ [n]) ↔ Ref.Blocked (treeOf s) p := by
        obtain ⟨e, _, ha⟩ := h.absent hk hp.init hd true
        have hb2 := h.absent_snoc hk (n := n) ((h.treeAt hk p).mpr hd) ha
        rcases ha with ⟨g1, rfl⟩ | ⟨g1, rfl⟩ <;> rcases hb2 with ⟨g2, g⟩ | ⟨g2, g⟩
        · simp [g1, g2]
        · simp at g
        · simp at g
        · simp [g1, g2]
      have e0 : Verif.createFile (absPath s.cfg.sep (p ++ [n])) (S_IFREG ||| PERM_DEF_FILE) (some b) none true false s =
          (Verif.createDir (absPath s.cfg.sep p) >>= fun _ =>
          createFileTail (absPath s.cfg.sep p) n (absPath s.cfg.sep (p ++ [n])) (S_IFREG ||| PERM_DEF_FILE) (some b) none false) s := by
        unfold Verif.createFile
        rw [h.createFront hk hp hw, if_pos hd, if_pos rfl]
      rw [M.bind_eq] at e0
      rcases h.dirs hk hp.init (perm := PERM_DEF) (by decide) (by decide) with ⟨h1, h2⟩ | ⟨h1, h2, h3⟩ | ⟨h1, h2, x, s1, h3, h4, h5⟩
      · rw [hd] at h1; simp at h1
      · rw [h3] at e0
        rw [e0]
        exact ⟨⟨h, Or.inl ⟨hbl.mpr h2, rfl, rfl⟩⟩, Held.heap rfl rfl, fun _ _ hi => hi⟩
      · rw [h3] at e0
        dsimp only at e0
        have hcfg : s1.cfg.sep = s.cfg.sep := by rw [h4.sep hk, h.sep hk]
        -- the tree after the directories
        have hd1 : treeOf s1 p = some .dir := by
          rw [h5]
          unfold Ref.Tree.grow
          rw [if_pos ⟨by rw [List.isPrefixOf_iff_prefix], (h.treeAt hk p).mpr hd⟩]
        have hw1 : treeOf s1 (p ++ [n]) = none := by
          rw [h5]
          unfold Ref.Tree.grow
          rw [if_neg]
          · exact (h.treeAt hk _).mpr hw
          · rintro ⟨g, _⟩
            rw [List.isPrefixOf_iff_prefix] at g
            have := g.length_le
            simp at this
        rw [h4.treeAt hk] at hw1
        obtain ⟨d1, hd1w⟩ : ∃ d1, walk s1.heap rootRef p = some d1 := by
          cases g : walk s1.heap rootRef p with
          | none => rw [(h4.treeAt hk p).mpr g] at hd1; simp at hd1
          | some d1 => exact ⟨d1, rfl⟩
        have hdir1 : (s1.heap d1).isDir = true := by
          rcases h4.cases hk p with ⟨c1, _⟩ | ⟨y, c1, c2, _, _⟩ | ⟨y, b, c1, _, _, _, _, _, c3⟩
          · rw [hd1w] at c1; simp at c1
          · rw [hd1w] at c1; injection c1 with c1; subst c1; exact c2
          · rw [hd1] at c3; simp at c3
        have e1 : Verif.createFile (absPath s1.cfg.sep (p ++ [n])) (S_IFREG ||| PERM_DEF_FILE) (some b) none true false s1 =
            createFileTail (absPath s1.cfg.sep p) n (absPath s1.cfg.sep (p ++ [n])) (S_IFREG ||| PERM_DEF_FILE) (some b) none false s1 := by
          unfold Verif.createFile
          rw [h4.createFront hk hp hw1, if_neg (by rw [hd1w]; simp)]
        rw [hcfg] at e1
        rw [← e1] at e0
        rw [e0] at hb ⊢
        rcases hr : Verif.createFile (absPath s.cfg.sep (p ++ [n])) (S_IFREG ||| PERM_DEF_FILE) (some b) none true false s1 with ⟨r, s'⟩
        rw [hr] at hb
        rw [← hcfg] at hr
        rcases h4.fileHere hk hp hw1 hd1w b (by decide) (by decide) hr hb with ⟨g1, _⟩ | ⟨_, x, rfl, hx, g2, g3, g4⟩
        · rw [hdir1] at g1; simp at g1
        · have hd4 : Held s s1 := by
            have := fo_createDir (R := Held) (absPath s.cfg.sep p) PERM_DEF trivial s
            rw [h3] at this
            exact this
          refine ⟨⟨g2, Or.inr ⟨fun e => h2 (hbl.mp e), rfl, x, ?_, by rw [g3, h5]⟩⟩, Held.trans hd4 g4, fun i hlt hi => ?_⟩
          · intro l c hl
            apply h4.fresh_id hk hx l c
            rw [h5]
            unfold Ref.Tree.grow
            rw [if_neg (by rw [hl]; simp)]
            exact hl
          · rw [g3] at hi
            rcases inTree_set hi with hi | ⟨_, hi⟩
            · rw [h5] at hi; exact inTree_grow hi
            · simp only [Option.some.injEq, Ref.Node.file.injEq] at hi
              exact absurd hlt (Nat.not_lt.mpr (hi.1 ▸ Nat.le_trans hd4.next hx))

theorem RefSt.createFile {p : List Str} {n : Str} (hp : Usable (p ++ [n])) (b : Bytes) : Refines k u s (.createFile (p ++ [n]) b) := by
  refine h.did hk (f := fun _ => .done) (m := Verif.createFile (absPath s.cfg.sep (p ++ [n])) (S_IFREG ||| PERM_DEF_FILE) (some b) none true false)
    (by rw [h.sep hk]; rfl) ?_
  exact (h.createFile_all hk hp b rfl).1

/-! ## Removing a tree -/

theorem RefSt.removeObject_absent {p : List Str} {n : Str} (hp : Usable (p ++ [n])) (hw : walk s.heap rootRef (p ++ [n]) = none) :
    ∃ e, removeObject (absPath s.cfg.sep (p ++ [n])) s = (.error (.os e), s) ∧ Ref.Absent (treeOf s) (p ++ [n]) e := by
  have ht := h.tree hk
  have hpl := plain_proper (h.plain hk hp)
  have e0 : removeObject (absPath s.cfg.sep (p ++ [n])) s = M.tryCatch (do
      let d ← rd (fun x => x.resolve (absPath s.cfg.sep p) true false)
      removeEntry d n true) (fun e =>
        match e with
        | .keyError => M.raise .ENOENT
        | .attributeError => M.raise .ENOTDIR
        | e => M.throw e) s := by
    unfold removeObject
    rw [M.bind_eq]
    dsimp only [M.get]
    rw [originalPath_tree ht.cs, h.canon hk hp]
    rw [if_neg (by rw [isRootPath_tree ht]; simpa using absPath_snoc_ne_root (fun w hw => hpl w (by simp [hw])) (hpl n (by simp)))]
    rw [splitpath_absPath ht.posix (fun w hw => hpl w (by simp [hw])) (hpl n (by simp))]
    rfl
  rw [e0]
  unfold M.tryCatch
  cases hd : walk s.heap rootRef p with
  | none =>
    obtain ⟨e, he, ha⟩ := h.absent hk hp.init hd false
    refine ⟨e, ?_, h.absent_snoc hk ((h.treeAt hk p).mpr hd) ha⟩
    rw [M.bind_eq, rd_eq (f := fun x => x.resolve (absPath s.cfg.sep p) true false) he]
    rfl
  | some d =>
    refine ⟨_, ?_, h.absent_last hk hd⟩
    rw [M.bind_eq, rd_eq (f := fun x => x.resolve (absPath s.cfg.sep p) true false) (h.res hk hp.init hd false)]
    dsimp only
    have hno : alookup n (s.heap d).entries = none := by rw [← h.child hk hd]; exact hw
    have e1 : removeEntry d n true s = (.error (if (s.heap d).isDir then .keyError else .attributeError), s) := by
      unfold removeEntry removeEntryF
      cases hdir : (s.heap d).isDir with
      | false => rfl
      | true =>
        dsimp only
        rw [if_neg (by simp)]
        have : s.normEntry (s.heap d).entries n = n := by unfold FS.normEntry; rw [ht.cs]; rfl
        rw [this, getEntry_tree ht.cs, hno]
        rfl
    rw [e1]
    cases (s.heap d).isDir <;> rfl

theorem RefSt.removeAll {p : List Str} {n : Str} (hp : Usable (p ++ [n])) : Refines k u s (.removeAll (p ++ [n])) := by
  refine h.did hk (f := fun _ => .done) (m := removeObject (absPath s.cfg.sep (p ++ [n]))) (by rw [h.sep hk]; rfl) ?_
  have hb : RefBase k u (removeObject (absPath s.cfg.sep (p ++ [n])) s).2 :=
    h.toRefBase.next hk (.removeObject (absPath s.cfg.sep (p ++ [n]))) rfl trivial (by simp)
  rw [Ref.Step]
  cases hw : walk s.heap rootRef (p ++ [n]) with
  | none =>
    obtain ⟨e, h1, h2⟩ := h.removeObject_absent hk hp hw
    rw [h1, (h.treeAt hk _).mpr hw]
    exact ⟨h, e, h2, rfl, rfl⟩
  | some x =>
    rw [h.at hk hw]
    dsimp only
    obtain ⟨d, hd, hx⟩ := walk_snoc hw
    rcases removeObject_tree h.reach (h.tree hk) (h.within hk) (fun x _ _ => h.may hk x) (p := absPath s.cfg.sep (p ++ [n])) with
      ⟨_, h2⟩ | ⟨s', ld, nm, d', e, h1, h2, h3, h4⟩
    · exact absurd hx (h2 p n d x ⟨⟨p, fun w hw => plain_proper (h.plain hk hp) w (by simp [hw]), plain_proper (h.plain hk hp) n (by simp), h.canon hk hp,
        h.res hk hp.init hd false⟩, isDir_of_entry (alookup_mem hx), hd⟩)
    · obtain ⟨rfl, rfl, hd'⟩ := h.names hk hp h2
      rw [h1] at hb ⊢
      have hi := h.inv
      have hnext : s'.next = s.next := by rw [h4.only.rest]
      have hkind : ∀ y < s.next, nodeOf y (s'.heap y) = nodeOf y (s.heap y) ∧ (Kind (s.heap y) → Kind (s'.heap y)) := by
        intro y hy
        obtain ⟨nl, c, ho⟩ := h4.only.object y
        have hdir : (s'.heap y).isDir = (s.heap y).isDir := by
          rw [h.genuine hk y hy, hb.sane.genuine y (by rw [hnext]; exact hy), ho]
          rfl
        cases hyd : (s.heap y).isDir with
        | true =>
          rw [hyd] at hdir
          exact ⟨by rw [nodeOf_dir hdir, nodeOf_dir hyd], fun hk' => ⟨by rw [ho]; exact hk'.1, Or.inl hdir⟩⟩
        | false =>
          have hc := h4.only.content y hyd
          refine ⟨by unfold nodeOf; rw [hc], fun hk' => hk'.congr hc (by rw [ho]) (by rw [ho])⟩
      refine ⟨⟨hb, ?_, ?_, fun l y hy => ?_⟩, rfl, ?_⟩
      · have := h.devName
        unfold FS.devName at this ⊢
        obtain ⟨nl, c, ho⟩ := h4.only.object devNullRef
        rw [ho]; exact this
      · cases hv : walk s'.heap rootRef [devDir] with
        | none => rfl
        | some y => have := h4.only.below _ _ hv; rw [h.noDev] at this; simp at this
      · have hy' := h4.only.below l y hy
        exact ⟨(h.kind l y hy').1, (hkind y (walk_lt hi _ (root_lt hi) hy')).2 (h.kind l y hy').2⟩
      · funext l
        unfold Ref.Tree.cut treeOf
        by_cases hl : (ld ++ [nm]).isPrefixOf l = true
        · rw [if_pos hl]
          rw [List.isPrefixOf_iff_prefix] at hl
          obtain ⟨rest, rfl⟩ := hl
          have := h4.gone rest
          rw [List.append_assoc]
          rw [show [nm] ++ rest = nm :: rest from rfl, this]
          rfl
        · rw [if_neg hl, h4.only.elsewhere l (fun e => hl (List.isPrefixOf_iff_prefix.mpr e))]
          cases hy : walk s.heap rootRef l with
          | none => rfl
          | some y => simp only [Option.map_some]; rw [(hkind y (walk_lt hi _ (root_lt hi) hy)).1]

/-! ## Questions -/

theorem RefSt.lexists {p : List Str} (hp : Usable p) : Refines k u s (.lexists p) := by
  refine h.ask hk rfl ?_
  rw [← h.sep hk, h.existsL hk hp]
  refine ⟨?_, rfl⟩
  unfold treeOf
  simp [resOf]

theorem RefSt.stat {p : List Str} (hp : Usable p) : (∃ x, walk s.heap rootRef p = some x ∧ s.stat (absPath s.cfg.sep p) = .ok (s.statOf x)) ∨
    (walk s.heap rootRef p = none ∧ ∃ e, s.stat (absPath s.cfg.sep p) = .error (.os e) ∧ Ref.Absent (treeOf s) p e) := by
  unfold FS.stat
  cases hw : walk s.heap rootRef p with
  | none =>
    obtain ⟨e, he, ha⟩ := h.absent hk hp hw false
    exact Or.inr ⟨rfl, e, by rw [he]; rfl, ha⟩
  | some x =>
    refine Or.inl ⟨x, rfl, ?_⟩
    rw [h.res hk hp hw]
    simp only [bind, Except.bind, h.isRoot hk, Bool.not_true, Bool.false_eq_true, if_false]
    unfold FS.raiseForSep FS.raiseForSepG
    rw [h.noSep hk hp]
    rfl

theorem RefSt.samefile {p q : List Str} (hp : Usable p) (hq : Usable q) : Refines k u s (.samefile p q) := by
  refine h.ask hk rfl ?_
  rw [← h.sep hk, Ref.Step]
  rcases h.stat hk hp with ⟨x, h1, h2⟩ | ⟨h1, e, h2, h3⟩
  · rcases h.stat hk hq with ⟨y, g1, g2⟩ | ⟨g1, e, g2, g3⟩
    · have hok : s.samefile (absPath s.cfg.sep p) (absPath s.cfg.sep q) =
          .ok (decide ((s.statOf x).ino = (s.statOf y).ino) && decide ((s.statOf x).dev = (s.statOf y).dev)) := by
        unfold FS.samefile; rw [h2, g2]; rfl
      obtain ⟨x', y', e1, e2, e3⟩ := samefile_iff h.reach hok
      rw [h.res hk hp h1] at e1
      rw [h.res hk hq g1] at e2
      injection e1 with e1; subst e1
      injection e2 with e2; subst e2
      rw [hok]
      generalize (decide ((s.statOf x).ino = (s.statOf y).ino) && decide ((s.statOf x).dev = (s.statOf y).dev)) = r at e3
      rw [h.at hk h1, h.at hk g1]
      rcases h.cases hk p with ⟨c1, c2⟩ | ⟨z, c1, c2, _, c3⟩ | ⟨z, b, c1, c2, c4, _, _, _, c3⟩
      · rw [h1] at c1; simp at c1
      · rw [h1] at c1; injection c1 with c1; subst c1
        rcases h.cases hk q with ⟨d1, d2⟩ | ⟨z, d1, d2, _, d3⟩ | ⟨z, b, d1, d2, d4, _, _, _, d3⟩
        · rw [g1] at d1; simp at d1
        · rw [g1] at d1; injection d1 with d1; subst d1
          rw [nodeOf_dir c2, nodeOf_dir d2]
          refine ⟨?_, rfl⟩
          show Ref.Res.bool r = _
          congr 1
          rw [Bool.eq_iff_iff, e3, decide_eq_true_eq]
          constructor
          · rintro rfl; exact walk_dir_unique h.inv _ _ h1 g1 c2
          · rintro rfl; rw [h1] at g1; injection g1
        · rw [g1] at d1; injection d1 with d1; subst d1
          rw [nodeOf_dir c2, nodeOf_file d4]
          refine ⟨?_, rfl⟩
          show Ref.Res.bool r = _
          congr 1
          rw [← Bool.not_eq_true, e3]
          rintro rfl; rw [c2] at d2; simp at d2
      · rw [h1] at c1; injection c1 with c1; subst c1
        rcases h.cases hk q with ⟨d1, d2⟩ | ⟨z, d1, d2, _, d3⟩ | ⟨z, b', d1, d2, d4, _, _, _, d3⟩
        · rw [g1] at d1; simp at d1
        · rw [g1] at d1; injection d1 with d1; subst d1
          rw [nodeOf_dir d2, nodeOf_file c4]
          refine ⟨?_, rfl⟩
          show Ref.Res.bool r = _
          congr 1
          rw [← Bool.not_eq_true, e3]
          rintro rfl; rw [c2] at d2; simp at d2
        · rw [g1] at d1; injection d1 with d1; subst d1
          rw [nodeOf_file c4, nodeOf_file d4]
          refine ⟨?_, rfl⟩
          show Ref.Res.bool r = _
          congr 1
          rw [Bool.eq_iff_iff, e3, decide_eq_true_eq]
    · have : s.samefile (absPath s.cfg.sep p) (absPath s.cfg.sep q) = .error (.os e) := by unfold FS.samefile; rw [h2, g2]; rfl
      rw [this, h.at hk h1, (h.treeAt hk q).mpr g1]
      exact ⟨e, g3, rfl, rfl⟩
  · have : s.samefile (absPath s.cfg.sep p) (absPath s.cfg.sep q) = .error (.os e) := by unfold FS.samefile; rw [h2]; rfl
    rw [this, (h.treeAt hk p).mpr h1]
    exact ⟨e, h3, rfl, rfl⟩

end

end Verif
