import Verif.Joined
import Verif.Walk
import Verif.DemoFacts
/-!
# C24: os.walk
-/

namespace Verif
open Py Spec Cfg

namespace Spec
/-- No name in the filesystem starts with two dots. -/
def PlainNames (s : FS) : Prop := ∀ x < s.next, ∀ e ∈ (s.heap x).entries, Plain s.cfg.sep e.1

/-- What is reported for the directory reached by the names `rel` from the directory `d` the walk started at: the path `top`
joined with these names, the entries for which `os.path.isdir` is true, and the other entries, in the order of the directory. -/
structure Reported (s : FS) (top : Str) (d : Ref) (rel : List Str) (item : WalkItem) : Prop where
  path : item.path = s.cfg.joinpaths (top :: rel)
  dirs : ∃ x, Spec.walk s.heap d rel = some x ∧
    item.dirs = ((s.heap x).entries.map (·.1)).filter (fun n => decide (s.isDir (s.cfg.joinpaths [item.path, n]) = .ok true)) ∧
    item.files = ((s.heap x).entries.map (·.1)).filter (fun n => !decide (s.isDir (s.cfg.joinpaths [item.path, n]) = .ok true))

/-- `a` is (the same as or) an ancestor of `b` -/
def Above (a b : List Str) : Prop := a <+: b
end Spec

/-- what the theorems about walking need of the filesystem -/
structure WalkOk (s : FS) : Prop where
  inv : Inv s
  tree : s.cfg.Tree
  genuine : Genuine s
  readable : Readable s
  dirs : ∀ x < s.next, (s.heap x).isDir = true → (s.heap x).mode &&& PERM_READ ≠ 0
  noDev : NoDev s
  names : PlainNames s

theorem walk_names {s : FS} (hi : Inv s) (hn : PlainNames s) : ∀ {l : List Str} {r x : Ref}, r < s.next → Spec.walk s.heap r l = some x → ∀ w ∈ l, Plain s.cfg.sep w := by
  intro l
  induction l with
  | nil => intro r x _ _ w hw; simp at hw
  | cons c l ih =>
    intro r x hr h w hw
    simp only [Spec.walk] at h
    cases hc : alookup c (s.heap r).entries with
    | none => rw [hc] at h; simp at h
    | some y =>
      rw [hc] at h
      rcases List.mem_cons.mp hw with rfl | hw
      · exact hn r hr _ (alookup_mem hc)
      · exact ih (hi.g.entLt r hr _ (alookup_mem hc)) h w hw

theorem walk_isDir {hp : Ref → Obj} {y x : Ref} {r : List Str} (h : Spec.walk hp y r = some x) (hx : (hp x).isDir = true) : (hp y).isDir = true := by
  cases r with
  | nil => simp only [Spec.walk, Option.some.injEq] at h; rw [h]; exact hx
  | cons c r =>
    simp only [Spec.walk] at h
    cases ha : alookup c (hp y).entries with
    | none => rw [ha] at h; simp at h
    | some z => exact isDir_of_entry (alookup_mem ha)

theorem dirMode_bit {o : Obj} (h : o.isDirMode = true) : ¬ o.mode &&& S_IFDIR = 0 := by
  unfold Obj.isDirMode at h
  simp only [beq_iff_eq] at h
  have e : S_IFDIR = S_IFMT &&& S_IFDIR := by decide
  rw [e, ← Nat.and_assoc]
  unfold ifmt at h
  rw [h]; decide

section
variable {s : FS} (W : WalkOk s)
include W

theorem dirMode_of_isDir {x : Ref} (hx : x < s.next) (h : (s.heap x).isDir = true) : (s.heap x).isDirMode = true := by
  rw [← W.genuine x hx]; exact h

theorem DirAt.lt {q : Str} {names : List Str} {d : Ref} (h : DirAt s q names d) : d < s.next := resolve_lt W.inv h.res

/-- the entry `c` of the directory `q` -/
theorem DirAt.child {q : Str} {names : List Str} {d : Ref} (h : DirAt s q names d) {c : Str} {y : Ref}
    (hc : alookup c (s.heap d).entries = some y) (hl : (s.heap y).isLnk = false) (hdev : absPath s.cfg.sep (names ++ [c]) ≠ s.devName) :
    s.resolve (s.cfg.joinpaths [q, c]) true true = .ok y := by
  have hi := W.inv
  have ht := W.tree
  have hcp : Plain s.cfg.sep c := W.names d (h.lt W) _ (alookup_mem hc)
  have hall : ∀ w ∈ names ++ [c], Plain s.cfg.sep w := by
    intro w hw
    rcases List.mem_append.mp hw with hw | hw
    · exact h.plain w hw
    · simp at hw; rw [hw]; exact hcp
  obtain ⟨ld, hld⟩ := resolve_loc hi ht h.res (isDir_ne_devNull hi h.dir)
  have hwc : Spec.walk s.heap rootRef (ld ++ [c]) = some y := by rw [walk_append, hld]; simp [Spec.walk, hc]
  have hdev2 : absPath s.cfg.sep (ld ++ [c]) ≠ s.devName := by
    intro e
    have := W.noDev (ld ++ [c]) (plain_proper (walk_names hi W.names (root_lt hi) hwc)) e
    rw [hwc] at this; simp at this
  have h1 := (resolve_norm hi ht h.tidy.1 h.valid h.norm h.plain).mp (resolve_weaken hi ht h.res)
  have h2 := resolve_child hi ht hall h1 (dirMode_of_isDir W (h.lt W) h.dir) h.dir hld hc hl hdev hdev2
  refine resolve_check hi ht W.readable ?_
  refine (resolve_norm hi ht (join_ne_nil ht.posix hcp.1.1) ?_ (absnorm_join hi ht.posix (plain_proper h.plain) hcp.1 h.tidy.1 h.norm) hall).mpr h2
  rw [validRel_join ht.posix _ hcp h.tidy.1 h.tidy.2]
  exact h.valid

theorem DirAt.sub {q : Str} {names : List Str} {d : Ref} (h : DirAt s q names d) {c : Str} {y : Ref}
    (hc : alookup c (s.heap d).entries = some y) (hl : (s.heap y).isLnk = false) (hdev : absPath s.cfg.sep (names ++ [c]) ≠ s.devName)
    (hy : (s.heap y).isDir = true) : DirAt s (s.cfg.joinpaths [q, c]) (names ++ [c]) y := by
  have hcp : Plain s.cfg.sep c := W.names d (h.lt W) _ (alookup_mem hc)
  refine ⟨tidy_join W.tree.posix h.tidy hcp.1, ?_, absnorm_join W.inv W.tree.posix (plain_proper h.plain) hcp.1 h.tidy.1 h.norm, ?_, hy,
    h.child W hc hl hdev⟩
  · rw [validRel_join W.tree.posix _ hcp h.tidy.1 h.tidy.2]; exact h.valid
  · intro w hw
    rcases List.mem_append.mp hw with hw | hw
    · exact h.plain w hw
    · simp at hw; rw [hw]; exact hcp

theorem DirAt.isDir_child {q : Str} {names : List Str} {d : Ref} (h : DirAt s q names d) {c : Str} {y : Ref}
    (hc : alookup c (s.heap d).entries = some y) (hl : (s.heap y).isLnk = false) (hdev : absPath s.cfg.sep (names ++ [c]) ≠ s.devName) :
    s.isDir (s.cfg.joinpaths [q, c]) = .ok (s.heap y).isDir := by
  have hcp : Plain s.cfg.sep c := W.names d (h.lt W) _ (alookup_mem hc)
  have hr : s.resolveFG s.rc (s.cfg.joinpaths [q, c]) true true = .ok y := h.child W hc hl hdev
  unfold FS.isDir FS.isDirG FS.isOfTypeG
  rw [hr]
  simp only [bind, Except.bind, FS.raiseForSepG, endsWithSep_join W.tree.posix h.tidy hcp.1, Bool.false_eq_true, if_false, pure, Except.pure]
  rw [W.genuine y (W.inv.g.entLt d (h.lt W) _ (alookup_mem hc))]
  rfl

theorem DirAt.isLink_child {q : Str} {names : List Str} {d : Ref} (h : DirAt s q names d) {c : Str} {y : Ref}
    (hc : alookup c (s.heap d).entries = some y) : s.isLink (s.cfg.joinpaths [q, c]) = .ok (s.heap y).isLnk := by
  have hcp : Plain s.cfg.sep c := W.names d (h.lt W) _ (alookup_mem hc)
  have hr : s.lresolveG s.rc (s.cfg.joinpaths [q, c]) = .ok y :=
    lresolve_join W.inv W.tree h.tidy hcp.1 h.res (W.dirs d (h.lt W) h.dir) hc
  unfold FS.isLink FS.isLinkG FS.isOfTypeG FS.resolveFG
  simp only [Bool.false_eq_true, if_false, hr]
  simp only [bind, Except.bind, FS.raiseForSepG, endsWithSep_join W.tree.posix h.tidy hcp.1, Bool.false_eq_true, if_false, pure, Except.pure]
  rfl

theorem DirAt.listdir (hs : Reachable s) {q : Str} {names : List Str} {d : Ref} (h : DirAt s q names d) :
    s.listdir q = .ok ((s.heap d).entries.map (·.1)) := by
  have hi := W.inv
  have ht := W.tree
  obtain ⟨cs, h1, h2, h3⟩ := resolve_object hs ht h.res (isDir_ne_devNull hi h.dir)
  have hcs := walk_names hi W.names (root_lt hi) h2
  have hnd : absPath s.cfg.sep cs ≠ s.devName := by
    intro e
    have := W.noDev cs (plain_proper hcs) e
    rw [h2] at this; simp at this
  have hnl := resolvePath_noLink hi ht h1 (fun w hw => proper_compOk (hcs w hw).1) hnd
  have h4 : s.resolve (absPath s.cfg.sep cs) true true = .ok d :=
    (resolve_plain hi ht s.rc hcs hnl hnd).mpr ⟨h2, through_genuine hi W.genuine (root_lt hi) h2,
      fun y hy => W.readable.readable (walked_lt hi _ (root_lt hi) y hy) true⟩
  unfold FS.listdir FS.confirmdir
  have hd := h.dir
  unfold Obj.isDir at hd
  unfold Obj.entries
  simp only [h1, h4, bind, Except.bind]
  rw [if_neg (dirMode_bit (dirMode_of_isDir W (h.lt W) h.dir))]
  dsimp only
  cases hc : (s.heap d).content with
  | file _ => rw [hc] at hd; simp at hd
  | dir es => rfl

omit W in
theorem unlessLink_ok {check : Bool} {p : Str} {m : Except Err (List WalkItem)} {out : List WalkItem}
    (h : s.unlessLink check p m = .ok out) : (check = true ∧ s.isLink p = .ok true ∧ out = []) ∨ ((check = true → s.isLink p = .ok false) ∧ m = .ok out) := by
  unfold FS.unlessLink at h
  cases check with
  | false => exact Or.inr ⟨by simp, h⟩
  | true =>
    rw [if_pos rfl] at h
    obtain ⟨b, hb, h⟩ := except_bind_ok h
    cases b with
    | true => rw [if_pos rfl] at h; injection h with h; exact Or.inl ⟨rfl, hb, h.symm⟩
    | false => rw [if_neg (by simp)] at h; exact Or.inr ⟨fun _ => hb, h⟩

omit W in
theorem isDir_error {p : Str} {f : Bool} {e : Err} (h : s.isDir p f = .error e) : e.isOS = false := by
  unfold FS.isDir FS.isDirG FS.isOfTypeG at h
  split at h
  · simp at h
  · split at h
    · simp at h
    · rename_i h1
      injection h with h
      rw [← h]; simpa using h1

omit W in
theorem classifyLoop_error {root : Str} : ∀ (ns dirs files : List Str) {e : Err}, s.classifyLoop root ns dirs files = .error e → e.isOS = false := by
  intro ns
  induction ns with
  | nil => intro dirs files e h; simp [FS.classifyLoop] at h
  | cons n ns ih =>
    intro dirs files e h
    simp only [FS.classifyLoop] at h
    cases hb : s.isDir (s.cfg.joinpaths [root, n]) with
    | error x =>
      rw [hb] at h
      simp only [bind, Except.bind, Except.error.injEq] at h
      rw [← h]; exact isDir_error hb
    | ok b =>
      rw [hb] at h
      simp only [bind, Except.bind] at h
      split at h
      · exact ih _ _ h
      · exact ih _ _ h

theorem classifyLoop_ok {root : Str} : ∀ (ns dirs files : List Str) {item : WalkItem}, s.classifyLoop root ns dirs files = .ok item →
    item.path = root ∧ item.dirs = dirs ++ ns.filter (fun n => decide (s.isDir (s.cfg.joinpaths [root, n]) = .ok true)) ∧
    item.files = files ++ ns.filter (fun n => !decide (s.isDir (s.cfg.joinpaths [root, n]) = .ok true)) := by
  intro ns
  induction ns with
  | nil =>
    intro dirs files item h
    simp only [FS.classifyLoop, Except.ok.injEq] at h
    subst h
    simp
  | cons n ns ih =>
    intro dirs files item h
    simp only [FS.classifyLoop] at h
    obtain ⟨b, hb, h⟩ := except_bind_ok h
    cases b with
    | true =>
      rw [if_pos rfl] at h
      obtain ⟨h1, h2, h3⟩ := ih _ _ h
      refine ⟨h1, ?_, ?_⟩
      · rw [h2]; simp [hb]
      · rw [h3]; simp [hb]
    | false =>
      rw [if_neg (by simp)] at h
      obtain ⟨h1, h2, h3⟩ := ih _ _ h
      refine ⟨h1, ?_, ?_⟩
      · rw [h2]; simp [hb]
      · rw [h3]; simp [hb]

/-- what `walkSubs` and `walkDir` report: the directories `rels` below `d` -/
structure Covers (s : FS) (td : Bool) (top : Str) (d : Ref) (mine : List Str → Prop) (rels : List (List Str)) (out : List WalkItem) : Prop where
  items : List.Forall₂ (Reported s top d) rels out
  nodup : rels.Nodup
  all : ∀ rel, rel ∈ rels ↔ mine rel ∧ ∃ x, Spec.walk s.heap d rel = some x ∧ (s.heap x).isDir = true
  order : rels.Pairwise (fun a b => if td then ¬ Above b a else ¬ Above a b)

theorem walkSubs_ok {td : Bool} {k : Str → Except Err (List WalkItem)} {q : Str} {names : List Str} {d : Ref} (h : DirAt s q names d)
    (hdev : ∀ rel x, Spec.walk s.heap d rel = some x → absPath s.cfg.sep (names ++ rel) ≠ s.devName)
    (hk : ∀ c y out, alookup c (s.heap d).entries = some y → (s.heap y).isLnk = false → (s.heap y).isDir = true →
      k (s.cfg.joinpaths [q, c]) = .ok out → ∃ rels, Covers s td (s.cfg.joinpaths [q, c]) y (fun _ => True) rels out) :
    ∀ (ds : List Str) {out : List WalkItem}, ds.Nodup → (∀ c ∈ ds, c ∈ (s.heap d).entries.map (·.1) ∧ s.isDir (s.cfg.joinpaths [q, c]) = .ok true) →
      s.walkSubs false k q ds = .ok out → ∃ rels, Covers s td q d (fun rel => ∃ c ∈ ds, ∃ r, rel = c :: r) rels out := by
  intro ds
  induction ds with
  | nil =>
    intro out _ _ ho
    simp only [FS.walkSubs, Except.ok.injEq] at ho
    subst ho
    exact ⟨[], ⟨List.Forall₂.nil, List.nodup_nil, by simp, List.Pairwise.nil⟩⟩
  | cons c ds ih =>
    intro out hnd hds ho
    simp only [FS.walkSubs, Bool.not_false] at ho
    obtain ⟨here, hh, ho⟩ := except_bind_ok ho
    obtain ⟨tl, htl, ho⟩ := except_bind_ok ho
    simp only [pure, Except.pure, Except.ok.injEq] at ho
    subst ho
    obtain ⟨hcn, hnd⟩ := List.nodup_cons.mp hnd
    obtain ⟨hcm, hcd⟩ := hds c (by simp)
    obtain ⟨rels, hR⟩ := ih hnd (fun c' hc' => hds c' (by simp [hc'])) htl
    obtain ⟨⟨c', y⟩, he, hc'⟩ := List.mem_map.mp hcm
    simp only at hc'
    subst hc'
    have hcy : alookup c' (s.heap d).entries = some y := alookup_of_mem (W.inv.g.keys d (h.lt W)) he
    have hlk := h.isLink_child W hcy
    have hylt := W.inv.g.entLt d (h.lt W) _ (alookup_mem hcy)
    cases hl : (s.heap y).isLnk with
    | true =>
      rw [hl] at hlk
      have hh : here = [] := by
        rcases unlessLink_ok hh with ⟨_, _, hh⟩ | ⟨hf, _⟩
        · exact hh
        · rw [hlk] at hf; simp at hf
      subst hh
      refine ⟨rels, ⟨hR.items, hR.nodup, ?_, hR.order⟩⟩
      intro rel
      rw [hR.all]
      constructor
      · rintro ⟨⟨c, hc, r, rfl⟩, h2⟩; exact ⟨⟨c, by simp [hc], r, rfl⟩, h2⟩
      · rintro ⟨⟨c, hc, r, rfl⟩, x, h2, h3⟩
        rcases List.mem_cons.mp hc with rfl | hc
        · exfalso
          have h2 : Spec.walk s.heap y r = some x := by simpa [Spec.walk, hcy] using h2
          have hyd : (s.heap y).isDir = true := walk_isDir h2 h3
          have := dirMode_of_isDir W hylt hyd
          rw [lnk_not_dirMode hl] at this
          simp at this
        · exact ⟨⟨c, hc, r, rfl⟩, x, h2, h3⟩
    | false =>
      rw [hl] at hlk
      have hh : k (s.cfg.joinpaths [q, c']) = .ok here := by
        rcases unlessLink_ok hh with ⟨_, hf, _⟩ | ⟨_, hh⟩
        · rw [hlk] at hf; simp at hf
        · exact hh
      have hdv : absPath s.cfg.sep (names ++ [c']) ≠ s.devName := hdev [c'] y (by simp [Spec.walk, hcy])
      have hyd : (s.heap y).isDir = true := by
        have := h.isDir_child W hcy hl hdv
        rw [hcd] at this
        injection this with this
        exact this.symm
      obtain ⟨rc, hC⟩ := hk c' y here hcy hl hyd hh
      refine ⟨rc.map (c' :: ·) ++ rels, ⟨?_, ?_, ?_, ?_⟩⟩
      · refine List.rel_append ?_ hR.items
        rw [List.forall₂_map_left_iff]
        refine hC.items.imp ?_
        intro rel item hr
        refine ⟨?_, ?_⟩
        · rw [hr.path]; exact (join_fold W.tree.posix q c' rel).symm
        · obtain ⟨x, h1, h2⟩ := hr.dirs
          exact ⟨x, by simp [Spec.walk, hcy, h1], h2⟩
      · rw [List.nodup_append]
        refine ⟨hC.nodup.map (fun a b e => by injection e), hR.nodup, ?_⟩
        intro a ha b hb e
        subst e
        obtain ⟨r, _, rfl⟩ := List.mem_map.mp ha
        obtain ⟨⟨c, hc, r', e⟩, _⟩ := (hR.all _).mp hb
        injection e with e _
        subst e
        exact hcn hc
      · intro rel
        rw [List.mem_append, hR.all, List.mem_map]
        constructor
        · rintro (⟨r, hr, rfl⟩ | ⟨⟨c, hc, r, rfl⟩, h2⟩)
          · obtain ⟨_, x, h1, h2⟩ := (hC.all r).mp hr
            exact ⟨⟨c', by simp, r, rfl⟩, x, by simp [Spec.walk, hcy, h1], h2⟩
          · exact ⟨⟨c, by simp [hc], r, rfl⟩, h2⟩
        · rintro ⟨⟨c, hc, r, rfl⟩, x, h2, h3⟩
          rcases List.mem_cons.mp hc with rfl | hc
          · refine Or.inl ⟨r, (hC.all r).mpr ⟨trivial, x, ?_, h3⟩, rfl⟩
            simpa [Spec.walk, hcy] using h2
          · exact Or.inr ⟨⟨c, hc, r, rfl⟩, x, h2, h3⟩
      · rw [List.pairwise_append]
        refine ⟨?_, hR.order, ?_⟩
        · rw [List.pairwise_map]
          refine hC.order.imp ?_
          intro a b hab
          cases td <;> simpa [Above, List.cons_prefix_cons] using hab
        · intro a ha b hb
          obtain ⟨r, _, rfl⟩ := List.mem_map.mp ha
          obtain ⟨⟨c, hc, r', rfl⟩, _⟩ := (hR.all _).mp hb
          have hne : c ≠ c' := fun e => hcn (e ▸ hc)
          cases td <;> simp [Above, List.cons_prefix_cons, hne, Ne.symm hne]

theorem walkDir_ok (hs : Reachable s) (td : Bool) : ∀ (n : Nat) {q : Str} {names : List Str} {d : Ref} {most : Bool} {out : List WalkItem},
    DirAt s q names d → (∀ rel x, Spec.walk s.heap d rel = some x → absPath s.cfg.sep (names ++ rel) ≠ s.devName) →
    (most = true ∨ s.isLink q = .ok false) → s.walkDir td false n q most = .ok out → ∃ rels, Covers s td q d (fun _ => True) rels out := by
  intro n
  induction n with
  | zero => intro q names d most out _ _ _ h; simp [FS.walkDir] at h
  | succ n ih =>
    intro q names d most out h hdev hm ho
    simp only [FS.walkDir] at ho
    rcases unlessLink_ok ho with ⟨hf1, hf2, _⟩ | ⟨_, ho⟩
    · exfalso
      rcases hm with hm | hm
      · rw [hm] at hf1; simp at hf1
      · rw [hm] at hf2; simp at hf2
    have hcl : s.classify q = s.classifyLoop q ((s.heap d).entries.map (·.1)) [] [] := by
      unfold FS.classify
      rw [h.listdir W hs]
      rfl
    cases hc : s.classify q with
    | error e =>
      exfalso
      rw [hc] at ho
      rw [hcl] at hc
      have := classifyLoop_error _ _ _ hc
      simp only [this, Bool.false_eq_true, if_false] at ho
      cases ho
    | ok item =>
      rw [hc] at ho
      obtain ⟨subs, hsub, ho⟩ := except_bind_ok ho
      simp only [pure, Except.pure, Except.ok.injEq] at ho
      rw [hcl] at hc
      obtain ⟨h1, h2, h3⟩ := classifyLoop_ok W _ _ _ hc
      have hnd : ((s.heap d).entries.map (·.1)).Nodup := W.inv.g.keys d (h.lt W)
      obtain ⟨rels, hR⟩ := walkSubs_ok W (td := td) h hdev (fun c y out' hcy hl hyd hk => by
        have hdv : absPath s.cfg.sep (names ++ [c]) ≠ s.devName := hdev [c] y (by simp [Spec.walk, hcy])
        refine ih (h.sub W hcy hl hdv hyd) ?_ (Or.inr ?_) hk
        · intro rel x hx
          rw [List.append_assoc]
          exact hdev (c :: rel) x (by simp [Spec.walk, hcy, hx])
        · rw [h.isLink_child W hcy, hl]) item.dirs (by rw [h2]; exact hnd.filter _) (by
          intro c hc'
          rw [h2] at hc'
          simp only [List.nil_append, List.mem_filter, decide_eq_true_eq] at hc'
          exact hc') hsub
      have hitem : Reported s q d [] item := by
        refine ⟨by rw [h1]; rfl, d, rfl, ?_, ?_⟩
        · rw [h1, h2]; rfl
        · rw [h1, h3]; rfl
      have hall : ∀ rel, (rel = [] ∨ rel ∈ rels) ↔ True ∧ ∃ x, Spec.walk s.heap d rel = some x ∧ (s.heap x).isDir = true := by
        intro rel
        rw [hR.all]
        constructor
        · rintro (rfl | ⟨_, h5⟩)
          · exact ⟨trivial, d, rfl, h.dir⟩
          · exact ⟨trivial, h5⟩
        · rintro ⟨_, x, h5, h6⟩
          cases rel with
          | nil => exact Or.inl rfl
          | cons c r =>
            refine Or.inr ⟨⟨c, ?_, r, rfl⟩, x, h5, h6⟩
            simp only [Spec.walk] at h5
            cases hcy : alookup c (s.heap d).entries with
            | none => rw [hcy] at h5; simp at h5
            | some y =>
              have h5 : Spec.walk s.heap y r = some x := by simpa [Spec.walk, hcy] using h5
              have hylt := W.inv.g.entLt d (h.lt W) _ (alookup_mem hcy)
              have hyd : (s.heap y).isDir = true := walk_isDir h5 h6
              have hl : (s.heap y).isLnk = false := by
                cases hl : (s.heap y).isLnk with
                | false => rfl
                | true =>
                  have := dirMode_of_isDir W hylt hyd
                  rw [lnk_not_dirMode hl] at this
                  simp at this
              have hdv : absPath s.cfg.sep (names ++ [c]) ≠ s.devName := hdev [c] y (by simp [Spec.walk, hcy])
              rw [h2]
              simp only [List.nil_append, List.mem_filter, decide_eq_true_eq]
              refine ⟨List.mem_map.mpr ⟨(c, y), alookup_mem hcy, rfl⟩, ?_⟩
              rw [h.isDir_child W hcy hl hdv, hyd]
      have hne : ∀ rel ∈ rels, rel ≠ [] := by
        intro rel hrel e
        obtain ⟨⟨c, _, r, e'⟩, _⟩ := (hR.all rel).mp hrel
        rw [e] at e'; simp at e'
      cases td with
      | true =>
        simp only [if_true] at ho
        subst ho
        refine ⟨[] :: rels, ⟨List.Forall₂.cons hitem hR.items, List.nodup_cons.mpr ⟨fun hm => hne _ hm rfl, hR.nodup⟩, ?_, ?_⟩⟩
        · intro rel; rw [List.mem_cons]; exact hall rel
        · refine List.Pairwise.cons ?_ hR.order
          intro b hb
          simp only [if_true, Above, List.prefix_nil]
          exact hne b hb
      | false =>
        simp only [Bool.false_eq_true, if_false] at ho
        subst ho
        refine ⟨rels ++ [[]], ⟨List.rel_append hR.items (List.Forall₂.cons hitem List.Forall₂.nil), ?_, ?_, ?_⟩⟩
        · rw [List.nodup_append]
          refine ⟨hR.nodup, by simp, ?_⟩
          intro a ha b hb
          simp only [List.mem_singleton] at hb
          rw [hb]; exact hne a ha
        · intro rel
          rw [List.mem_append, List.mem_singleton, or_comm]; exact hall rel
        · rw [List.pairwise_append]
          refine ⟨hR.order, by simp, ?_⟩
          intro a ha b hb
          simp only [List.mem_singleton] at hb
          rw [hb]
          simp only [Bool.false_eq_true, if_false, Above, List.prefix_nil]
          exact hne a ha

omit W in
theorem objLoop_error (ht : s.cfg.Tree) (hi : Inv s) (hg : Genuine s) (k : FS.Rec) (check : Bool) :
    ∀ l r {e : Err}, r < s.next → (s.heap r).isLnk = false → NoLink s.heap r l → s.objLoop k check r l = .error e → e.isOS = true := by
  intro l
  induction l with
  | nil => intro r e _ _ _ h; simp [FS.objLoop] at h
  | cons c l ih =>
    intro r e hr hl hn h
    simp only [FS.objLoop, FS.deref, hl, Bool.false_eq_true, if_false, bind, Except.bind] at h
    cases hd : (s.heap r).isDirMode with
    | false =>
      rw [hd] at h
      simp only [Bool.not_false, if_true] at h
      injection h with h; rw [← h]; rfl
    | true =>
      rw [hd] at h
      simp only [Bool.not_true, Bool.false_eq_true, if_false] at h
      have hid := hg r hr
      rw [hd] at hid
      cases hc : (s.heap r).content with
      | file b => unfold Obj.isDir at hid; rw [hc] at hid; simp at hid
      | dir es =>
        rw [hc] at h
        simp only [getEntry_tree ht.cs] at h
        cases ha : alookup c es with
        | none => rw [ha] at h; simp only at h; injection h with h; rw [← h]; rfl
        | some y =>
          rw [ha] at h
          simp only at h
          have ha' : alookup c (s.heap r).entries = some y := by rw [mem_entries hc]; exact ha
          split at h
          · injection h with h; rw [← h]; rfl
          · exact ih y (hi.g.entLt r hr _ (alookup_mem ha')) (hn y ha').1 (hn y ha').2 h

/-- a lookup whose `..` components have been checked raises nothing but `OSError` -/
theorem resolve_error {p : Str} {b check : Bool} {e : Err} (hv : s.validRelG s.rc p = .ok b) (h : s.resolveG s.rc p check = .error e) : e.isOS = true := by
  have hi := W.inv
  have ht := W.tree
  unfold FS.resolveG at h
  obtain ⟨q, hq⟩ := resolvePath_total ht ⟨b, hv⟩
  rcases hq with hq | ⟨x, hq⟩
  · rw [hq] at h
    have h : s.getObjNormG s.rc q check = .error e := h
    obtain ⟨_, _, h3⟩ := (resolvePathG_ok ht (hi.n.cwd ht.posix) _).mp hq
    unfold FS.getObjNormG at h
    by_cases e1 : q = s.cfg.root
    · rw [if_pos e1] at h; cases h
    rw [if_neg e1] at h
    by_cases e2 : q = s.devName
    · rw [if_pos e2] at h; cases h
    rw [if_neg e2, originalPath_tree ht.cs] at h
    rcases h3 with ⟨_, h3⟩ | ⟨_, _, h3⟩ | ⟨_, _, cs, _, h6, h7, rfl⟩
    · exact absurd h3 e1
    · exact absurd h3 e2
    · have := (pathComponents_toPath ht.posix h6)
      rw [this.2] at this
      rw [this.1] at h
      exact objLoop_error ht hi W.genuine _ _ _ _ (root_lt hi) (root_not_lnk hi) h7 h
  · rw [hq] at h
    have h : (Except.error (.os x) : Except Err Ref) = .error e := h
    injection h with h; rw [← h]; rfl

theorem DirAt.isDir_total {q : Str} {names : List Str} {d : Ref} (h : DirAt s q names d) {c : Str} (hcp : Plain s.cfg.sep c) :
    ∃ b, s.isDir (s.cfg.joinpaths [q, c]) = .ok b := by
  have hv : s.validRelG s.rc (s.cfg.joinpaths [q, c]) = .ok true := by
    rw [validRel_join W.tree.posix _ hcp h.tidy.1 h.tidy.2]; exact h.valid
  unfold FS.isDir FS.isDirG FS.isOfTypeG FS.resolveFG
  simp only [if_true, FS.raiseForSepG, endsWithSep_join W.tree.posix h.tidy hcp.1, Bool.false_eq_true, if_false]
  cases hr : s.resolveG s.rc (s.cfg.joinpaths [q, c]) true with
  | ok x => exact ⟨_, rfl⟩
  | error e =>
    have := resolve_error W hv hr
    simp only [bind, Except.bind, this, if_true]
    exact ⟨_, rfl⟩

theorem classifyLoop_total {q : Str} {names : List Str} {d : Ref} (h : DirAt s q names d) : ∀ (ns dirs files : List Str),
    (∀ n ∈ ns, Plain s.cfg.sep n) → ∃ item, s.classifyLoop q ns dirs files = .ok item := by
  intro ns
  induction ns with
  | nil => intro dirs files _; exact ⟨_, rfl⟩
  | cons n ns ih =>
    intro dirs files hn
    obtain ⟨b, hb⟩ := h.isDir_total W (hn n (by simp))
    simp only [FS.classifyLoop, hb, bind, Except.bind]
    cases b with
    | true => exact ih _ _ (fun m hm => hn m (by simp [hm]))
    | false => exact ih _ _ (fun m hm => hn m (by simp [hm]))

theorem walkDir_total (hs : Reachable s) (td : Bool) : ∀ (n : Nat) {q : Str} {names : List Str} {d : Ref} {most : Bool},
    DirAt s q names d → (∀ rel x, Spec.walk s.heap d rel = some x → absPath s.cfg.sep (names ++ rel) ≠ s.devName) →
    (∀ rel x, Spec.walk s.heap d rel = some x → (s.heap x).isDir = true → rel.length < n) →
    (most = true ∨ s.isLink q = .ok false) → ∃ out, s.walkDir td false n q most = .ok out := by
  intro n
  induction n with
  | zero => intro q names d most h _ hn _; exact absurd (hn [] d rfl h.dir) (by simp)
  | succ n ih =>
    intro q names d most h hdev hlen hm
    simp only [FS.walkDir]
    have hcl : s.classify q = s.classifyLoop q ((s.heap d).entries.map (·.1)) [] [] := by
      unfold FS.classify
      rw [h.listdir W hs]
      rfl
    have hul : ∀ m, s.unlessLink (!most && !false) q m = m := by
      intro m
      unfold FS.unlessLink
      rcases hm with hm | hm
      · rw [hm]; rfl
      · cases most with
        | true => rfl
        | false => simp only [Bool.not_false, Bool.and_self, if_true, hm]; rfl
    rw [hul]
    obtain ⟨item, hit⟩ := classifyLoop_total W h ((s.heap d).entries.map (·.1)) [] [] (by
      intro c hc
      obtain ⟨e, he, rfl⟩ := List.mem_map.mp hc
      exact W.names d (h.lt W) e he)
    rw [hcl, hit]
    dsimp only
    obtain ⟨_, h2, _⟩ := classifyLoop_ok W _ _ _ hit
    have hsubs : ∀ ds : List Str, (∀ c ∈ ds, c ∈ item.dirs) → ∃ out, s.walkSubs false (fun p => s.walkDir td false n p false) q ds = .ok out := by
      intro ds
      induction ds with
      | nil => intro _; exact ⟨_, rfl⟩
      | cons c ds ihd =>
        intro hds
        obtain ⟨tl, htl⟩ := ihd (fun x hx => hds x (by simp [hx]))
        have hc := hds c (by simp)
        rw [h2] at hc
        simp only [List.nil_append, List.mem_filter, decide_eq_true_eq] at hc
        obtain ⟨⟨c', y⟩, he, hc'⟩ := List.mem_map.mp hc.1
        simp only at hc'
        subst hc'
        have hcy : alookup c' (s.heap d).entries = some y := alookup_of_mem (W.inv.g.keys d (h.lt W)) he
        have hlk := h.isLink_child W hcy
        simp only [FS.walkSubs, FS.unlessLink, Bool.not_false, if_true, hlk]
        cases hl : (s.heap y).isLnk with
        | true => simp only [bind, Except.bind, if_true, htl]; exact ⟨_, rfl⟩
        | false =>
          have hdv : absPath s.cfg.sep (names ++ [c']) ≠ s.devName := hdev [c'] y (by simp [Spec.walk, hcy])
          have hyd : (s.heap y).isDir = true := by
            have := h.isDir_child W hcy hl hdv
            rw [hc.2] at this
            injection this with this
            exact this.symm
          obtain ⟨out, ho⟩ := ih (most := false) (h.sub W hcy hl hdv hyd) (by
            intro rel x hx
            rw [List.append_assoc]
            exact hdev (c' :: rel) x (by simp [Spec.walk, hcy, hx])) (by
            intro rel x hx hxd
            have := hlen (c' :: rel) x (by simp [Spec.walk, hcy, hx]) hxd
            simpa using this) (Or.inr (by rw [hlk, hl]))
          simp only [bind, Except.bind, Bool.false_eq_true, if_false, ho, htl]; exact ⟨_, rfl⟩
    obtain ⟨subs, hsub⟩ := hsubs item.dirs (fun _ h => h)
    rw [hsub]
    exact ⟨_, rfl⟩
end


namespace Spec
/-- The filesystem can be walked: directories are what their mode says, everything may be read, nothing hides behind the path of
the null device, and no name starts with two dots. -/
structure Walkable (s : FS) : Prop where
  genuine : Genuine s
  readable : Readable s
  dirs : ∀ x < s.next, (s.heap x).isDir = true → (s.heap x).mode &&& PERM_READ ≠ 0
  noDev : NoDev s
  names : PlainNames s

/-- `top` names the directory `d`: it resolves to it, has no trailing separator, its normalized absolute form consists of the plain
names `names`, and nothing below it has the path of the null device. -/
structure WalkTop (s : FS) (top : Str) (names : List Str) (d : Ref) : Prop where
  dir : (s.heap d).isDir = true
  res : s.resolve top = .ok d
  nonempty : top ≠ []
  noTrail : ∀ r, top = r ++ [s.cfg.sep] → r = []
  norm : s.absnorm top = absPath s.cfg.sep names
  plain : ∀ w ∈ names, Plain s.cfg.sep w
  dev : ∀ rel x, Spec.walk s.heap d rel = some x → absPath s.cfg.sep (names ++ rel) ≠ s.devName

/-- `out` reports every directory below `d` (found by the names `rel` without following links) exactly once, and parents before
their descendants if `topdown`, after them otherwise. -/
structure WalkResult (s : FS) (topdown : Bool) (top : Str) (d : Ref) (out : List WalkItem) : Prop where
  exact : ∃ rels : List (List Str), List.Forall₂ (Reported s top d) rels out ∧ rels.Nodup ∧
    (∀ rel, rel ∈ rels ↔ ∃ x, Spec.walk s.heap d rel = some x ∧ (s.heap x).isDir = true) ∧
    rels.Pairwise (fun a b => if topdown then ¬ Above b a else ¬ Above a b)
end Spec

theorem WalkTop.dirAt {s : FS} (hi : Inv s) (ht : s.cfg.Tree) {top : Str} {names : List Str} {d : Ref} (h : WalkTop s top names d) :
    DirAt s top names d :=
  ⟨⟨h.nonempty, h.noTrail⟩, ((resolveG_ok hi ht _).mp h.res).2.1, h.norm, h.plain, h.dir, h.res⟩

/-- C24: `os.walk(top)` without following links, in any reachable state and for any tree: if the directories are nested less deeply
than the interpreter allows it ends without an error (whatever the symlinks point to, cycles included), and it reports
every directory below `top` exactly once with its entries, in the right order. -/
theorem osWalk_spec {s : FS} (hs : Reachable s) (ht : s.cfg.Tree) (W : Walkable s) {top : Str} {names : List Str} {d : Ref}
    (h : WalkTop s top names d) (td : Bool)
    (hdepth : ∀ rel x, Spec.walk s.heap d rel = some x → (s.heap x).isDir = true → rel.length < s.limit) :
    ∃ out, s.osWalk top td false = .ok out ∧ WalkResult s td top d out := by
  have hi := reachable_inv hs
  have W : WalkOk s := ⟨hi, ht, W.genuine, W.readable, W.dirs, W.noDev, W.names⟩
  have hd := WalkTop.dirAt hi ht h
  obtain ⟨out, ho⟩ := walkDir_total W hs td s.limit hd h.dev hdepth (most := true) (Or.inl rfl)
  obtain ⟨rels, hR⟩ := walkDir_ok W hs td s.limit hd h.dev (Or.inl rfl) ho
  exact ⟨out, ho, rels, hR.items, hR.nodup, fun rel => by rw [hR.all]; simp, hR.order⟩

/-- C24: an entry that is not a symlink is reported among the directories exactly if it is one; symlinks are reported among the directories
if they lead to one (`os.path.isdir` follows links), but they are not walked into. -/
theorem reported_dirs {s : FS} (hs : Reachable s) (ht : s.cfg.Tree) (W : Walkable s) {top : Str} {names : List Str} {d : Ref}
    (h : WalkTop s top names d) {c : Str} {y : Ref} (hc : alookup c (s.heap d).entries = some y) (hl : (s.heap y).isLnk = false) :
    s.isDir (s.cfg.joinpaths [top, c]) = .ok (s.heap y).isDir := by
  have hi := reachable_inv hs
  have W : WalkOk s := ⟨hi, ht, W.genuine, W.readable, W.dirs, W.noDev, W.names⟩
  exact (WalkTop.dirAt hi ht h).isDir_child W hc hl (h.dev [c] y (by simp [Spec.walk, hc]))

theorem demo_walkable : Walkable demo := by
  refine ⟨demo_genuine, Or.inl demo_root, ?_, demo_noDev, ?_⟩
  · rw [demo_next]; decide +kernel
  · unfold PlainNames
    rw [demo_next, demo_sep]
    decide +kernel

theorem demo_top : WalkTop demo ['/'] [] 0 := by
  refine ⟨by decide +kernel, by decide +kernel, by simp, ?_, by decide +kernel, by simp, ?_⟩
  · intro r h
    cases r with
    | nil => rfl
    | cons a r => simp at h
  · intro rel x hx
    have hp := walk_proper demo_inv demo_tree.posix demo_mac (root_lt demo_inv) hx
    intro e
    have h0 : Spec.walk demo.heap rootRef rel = some x := hx
    rw [demo_noDev rel hp e] at h0; simp at h0

example : demo.osWalk ['/'] true false = .ok [⟨['/'], [['a']], [['g'], ['l']]⟩, ⟨['/', 'a'], [['d']], [['f']]⟩, ⟨['/', 'a', '/', 'd'], [], []⟩] := by
  decide +kernel
example : demo.osWalk ['/'] false false = .ok [⟨['/', 'a', '/', 'd'], [], []⟩, ⟨['/', 'a'], [['d']], [['f']]⟩, ⟨['/'], [['a']], [['g'], ['l']]⟩] := by
  decide +kernel

example : ∃ out, demo.osWalk ['/'] true false = .ok out ∧ WalkResult demo true ['/'] 0 out :=
  osWalk_spec demo_reachable demo_tree demo_walkable demo_top true (fun rel x hx hd => by
    have := depth_lt demo_inv (l := rel) (d := x) hx hd
    have h1 : demo.limit = 50 := by decide +kernel
    rw [demo_next] at this
    rw [h1]
    omega)

/-! ## Errors -/

theorem isOfType_error {s : FS} {k : FS.Rec} {p : Str} {m : Nat} {f : Bool} {e : Err} (h : s.isOfTypeG k p m f = .error e) : e.isOS = false := by
  unfold FS.isOfTypeG at h
  split at h
  · cases h
  · split at h
    · cases h
    · cases h
      rename_i _ hk
      simpa using hk

theorem classifyLoop_noOS {s : FS} {root : Str} : ∀ (ns dirs files : List Str) {e : Err}, s.classifyLoop root ns dirs files = .error e → e.isOS = false := by
  intro ns
  induction ns with
  | nil => intro dirs files e h; cases h
  | cons n ns ih =>
    intro dirs files e h
    rw [FS.classifyLoop] at h
    cases hd : s.isDir (s.cfg.joinpaths [root, n]) with
    | error e' => rw [hd] at h; cases h; exact isOfType_error hd
    | ok b =>
      rw [hd] at h
      cases b
      · exact ih _ _ h
      · exact ih _ _ h

theorem unlessLink_error {s : FS} {c : Bool} {p : Str} {m : Except Err (List WalkItem)} {e : Err} (hm : ∀ e, m = .error e → e.isOS = false)
    (h : s.unlessLink c p m = .error e) : e.isOS = false := by
  unfold FS.unlessLink at h
  split at h
  · cases hl : s.isLink p with
    | error e' => rw [hl] at h; cases h; exact isOfType_error hl
    | ok b =>
      rw [hl] at h
      cases b
      · exact hm e h
      · cases h
  · exact hm e h

theorem walkSubs_error {s : FS} {fl : Bool} {k : Str → Except Err (List WalkItem)} (hk : ∀ p e, k p = .error e → e.isOS = false) {top : Str} :
    ∀ (ds : List Str) {e : Err}, s.walkSubs fl k top ds = .error e → e.isOS = false := by
  intro ds
  induction ds with
  | nil => intro e h; cases h
  | cons d ds ih =>
    intro e h
    rw [FS.walkSubs] at h
    cases hu : s.unlessLink (!fl) (s.cfg.joinpaths [top, d]) (k (s.cfg.joinpaths [top, d])) with
    | error e' => simp only [hu, bind, Except.bind] at h; cases h; exact unlessLink_error (hk _) hu
    | ok here =>
      simp only [hu, bind, Except.bind] at h
      cases hr : s.walkSubs fl k top ds with
      | error e' => rw [hr] at h; cases h; exact ih hr
      | ok rest => rw [hr] at h; cases h

/-- C24: whatever the filesystem looks like (any permissions, broken or cyclic links, files instead of directories, on any
platform), `os.walk` without `onerror` raises no OSError. -/
theorem osWalk_no_oserror (s : FS) (top : Str) (td fl : Bool) {e : Err} (h : s.osWalk top td fl = .error e) : e.isOS = false := by
  unfold FS.osWalk at h
  revert h
  generalize s.limit = n
  generalize true = most
  revert e most top
  induction n with
  | zero => intro top most e h; rw [FS.walkDir] at h; cases h; rfl
  | succ n ih =>
    intro top most e h
    rw [FS.walkDir] at h
    refine unlessLink_error (fun e h => ?_) h
    cases hc : s.classify top with
    | error e' =>
      rw [hc] at h
      dsimp only at h
      split at h
      · cases h
      · rename_i hk
        cases h
        simpa using hk
    | ok item =>
      rw [hc] at h
      dsimp only at h
      cases hw : s.walkSubs fl (fun p => s.walkDir td fl n p false) top item.dirs with
      | error e' => rw [hw] at h; cases h; exact walkSubs_error (fun p e => ih p false) _ hw
      | ok l => rw [hw] at h; cases h

/-- C24: nothing is reported for a directory that cannot be listed. -/
theorem osWalk_unlisted (s : FS) (hl : 0 < s.limit) (top : Str) (td fl : Bool) {e : Errno} (h : s.listdir top = .error (.os e)) : s.osWalk top td fl = .ok [] := by
  unfold FS.osWalk
  obtain ⟨n, hn⟩ : ∃ n, s.limit = n + 1 := ⟨s.limit - 1, by omega⟩
  rw [hn, FS.walkDir]
  unfold FS.unlessLink FS.classify
  rw [h]
  rfl

example : demo.listdir ['/', 'n'] = .error (.os .ENOENT) ∧ demo.osWalk ['/', 'n'] = .ok [] ∧ 0 < demo.limit := by decide +kernel

/-- calls making `/a` with the link `/a/b → /a` in it, and then making `/a` unreadable -/
def unreadFS : FS := runs [.mkdir ['/', 'a'] 0o777, .createSymlink ['/', 'a', '/', 'b'] ['/', 'a'] false, .chmod ['/', 'a'] 0 true]
  (initFS demoCfg 50 0 0 0o022 7 none)

theorem unread_reachable : Reachable unreadFS := ⟨_, _, _, _, _, _, _, _, rfl⟩

/-- C24 without the condition `dirs`: in a directory without read permission `islink` is false even for the superuser, so `os.walk`
enters symlinks although it is told not to follow them: the only directory below `/a` is reported also as `/a/b`. -/
theorem osWalk_unreadable_counterexample : unreadFS.isRoot = true ∧
    (match unreadFS.osWalk ['/', 'a'] true false with | .ok out => decide (⟨['/', 'a', '/', 'b'], [['b']], []⟩ ∈ out) | .error _ => false) = true := by
  decide +kernel

end Verif
