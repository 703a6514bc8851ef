import Verif.Props.Walk
import Verif.Props.Alias
import Verif.Props.PlatformOpen
/-!
# C84: os.walk on every platform, with and without following links
-/

namespace Verif
open Py Spec Cfg

namespace Spec
/-- what `os.walk` says about the directory `p` with the names `ns` in it -/
def itemOf (s : FS) (p : Str) (ns : List Str) : WalkItem :=
  ⟨p, ns.filter fun n => decide (s.isDir (s.cfg.joinpaths [p, n]) = .ok true), ns.filter fun n => !decide (s.isDir (s.cfg.joinpaths [p, n]) = .ok true)⟩

/-- the name `n` in the directory `p` is entered -/
def enters (s : FS) (fl : Bool) (p n : Str) : Bool :=
  decide (s.isDir (s.cfg.joinpaths [p, n]) = .ok true) && (fl || decide (s.isLink (s.cfg.joinpaths [p, n]) = .ok false))

mutual
/-- `Yields s td fl p out`: walking from `p` yields `out`. A directory that cannot be listed (OSError) yields nothing; any other yields its own item before (`td`) or after
what its subdirectories yield, one after the other in the order of `os.listdir`. Links to directories are entered only if `fl`. -/
inductive Yields (s : FS) (td fl : Bool) : Str → List WalkItem → Prop
  | unlisted {p : Str} {e : Err} : s.listdir p = .error e → e.isOS = true → Yields s td fl p []
  | listed {p : Str} {ns : List Str} {subs : List WalkItem} : s.listdir p = .ok ns → YieldsBelow s td fl p (ns.filter (enters s fl p)) subs →
      Yields s td fl p (if td then itemOf s p ns :: subs else subs ++ [itemOf s p ns])
/-- the same for a list of subdirectories of `p` -/
inductive YieldsBelow (s : FS) (td fl : Bool) : Str → List Str → List WalkItem → Prop
  | nil {p : Str} : YieldsBelow s td fl p [] []
  | cons {p d : Str} {ds : List Str} {out outs : List WalkItem} : Yields s td fl (s.cfg.joinpaths [p, d]) out → YieldsBelow s td fl p ds outs →
      YieldsBelow s td fl p (d :: ds) (out ++ outs)
end

/-- `q` is reached from `p` by going into directories only (through links only if `fl`) -/
inductive WalkedTo (s : FS) (fl : Bool) (p : Str) : Str → Prop
  | here : WalkedTo s fl p p
  | into {q n : Str} {ns : List Str} : WalkedTo s fl p q → s.listdir q = .ok ns → n ∈ ns → enters s fl q n = true → WalkedTo s fl p (s.cfg.joinpaths [q, n])
end Spec

section
variable {s : FS}

theorem classifyLoop_item {root : Str} : ∀ (ns dirs files : List Str) {item : WalkItem}, s.classifyLoop root ns dirs files = .ok item →
    item = ⟨root, dirs ++ (itemOf s root ns).dirs, files ++ (itemOf s root ns).files⟩ := by
  intro ns
  induction ns with
  | nil => intro dirs files item h; simp only [FS.classifyLoop, Except.ok.injEq] at h; subst h; simp [itemOf]
  | cons n ns ih =>
    intro dirs files item h
    simp only [FS.classifyLoop] at h
    obtain ⟨b, hb, h⟩ := except_bind_ok h
    cases b with
    | true => rw [if_pos rfl] at h; rw [ih _ _ h]; simp [itemOf, hb]
    | false => rw [if_neg (by simp)] at h; rw [ih _ _ h]; simp [itemOf, hb]

theorem walkSubs_yields {td fl : Bool} {k : Str → Except Err (List WalkItem)} {top : Str} {g : Str → Bool}
    (hk : ∀ c out, g c = true → k (s.cfg.joinpaths [top, c]) = .ok out → Yields s td fl (s.cfg.joinpaths [top, c]) out)
    (hg : ∀ c, g c = true → fl = false → s.isLink (s.cfg.joinpaths [top, c]) = .ok false)
    (hg' : ∀ c, g c = false → fl = false ∧ s.isLink (s.cfg.joinpaths [top, c]) ≠ .ok false) :
    ∀ (ds : List Str) {out : List WalkItem}, s.walkSubs fl k top ds = .ok out → YieldsBelow s td fl top (ds.filter g) out := by
  intro ds
  induction ds with
  | nil => intro out ho; simp only [FS.walkSubs, Except.ok.injEq] at ho; subst ho; exact .nil
  | cons c ds ih =>
    intro out ho
    simp only [FS.walkSubs] at ho
    obtain ⟨here, hh, ho⟩ := except_bind_ok ho
    obtain ⟨tl, htl, ho⟩ := except_bind_ok ho
    simp only [pure, Except.pure, Except.ok.injEq] at ho
    subst ho
    cases hc : g c with
    | true =>
      rw [List.filter_cons_of_pos hc]
      rcases unlessLink_ok hh with ⟨h1, h2, _⟩ | ⟨_, h2⟩
      · rw [hg c hc (by simpa using h1)] at h2; cases h2
      · exact .cons (hk c _ hc h2) (ih htl)
    | false =>
      rw [List.filter_cons_of_neg (by simp [hc])]
      obtain ⟨h1, h2⟩ := hg' c hc
      rcases unlessLink_ok hh with ⟨_, _, h3⟩ | ⟨h3, _⟩
      · rw [h3]; exact ih htl
      · exact absurd (h3 (by simp [h1])) h2

theorem walkDir_yields (td fl : Bool) : ∀ (n : Nat) {p : Str} {most : Bool} {out : List WalkItem},
    (most = true ∨ fl = true ∨ s.isLink p = .ok false) → s.walkDir td fl n p most = .ok out → Yields s td fl p out := by
  intro n
  induction n with
  | zero => intro p most out _ h; simp [FS.walkDir] at h
  | succ n ih =>
    intro p most out hm ho
    simp only [FS.walkDir] at ho
    rcases unlessLink_ok ho with ⟨hf1, hf2, _⟩ | ⟨_, ho⟩
    · exfalso
      rcases hm with hm | hm | hm
      · rw [hm] at hf1; simp at hf1
      · rw [hm] at hf1; simp at hf1
      · rw [hm] at hf2; cases hf2
    cases hl : s.listdir p with
    | error e =>
      have hc : s.classify p = .error e := by unfold FS.classify; rw [hl]; rfl
      rw [hc] at ho
      dsimp only at ho
      cases he : e.isOS with
      | false => rw [he] at ho; simp at ho
      | true =>
        rw [he, if_pos rfl] at ho
        injection ho with ho
        subst ho
        exact .unlisted hl he
    | ok ns =>
      cases hc : s.classify p with
      | error e =>
        rw [hc] at ho
        have : e.isOS = false := by
          unfold FS.classify at hc
          rw [hl] at hc
          exact classifyLoop_error _ _ _ hc
        simp only [this, Bool.false_eq_true, if_false] at ho
        cases ho
      | ok item =>
        rw [hc] at ho
        obtain ⟨subs, hsub, ho⟩ := except_bind_ok ho
        simp only [pure, Except.pure, Except.ok.injEq] at ho
        have hitem : item = itemOf s p ns := by
          unfold FS.classify at hc
          rw [hl] at hc
          rw [classifyLoop_item _ _ _ hc]
          rfl
        subst hitem
        have hY := walkSubs_yields (td := td) (g := fun c => fl || decide (s.isLink (s.cfg.joinpaths [p, c]) = .ok false)) (fun c out hc hk => ih (by
            cases fl with
            | true => exact Or.inr (Or.inl rfl)
            | false => right; right; simpa using hc) hk) (fun c hc hf => by rw [hf] at hc; simpa using hc) (fun c hc => by
            cases fl with
            | true => simp at hc
            | false => exact ⟨rfl, by simpa using hc⟩) _ hsub
        rw [← ho]
        refine .listed hl ?_
        have e : (itemOf s p ns).dirs.filter (fun c => fl || decide (s.isLink (s.cfg.joinpaths [p, c]) = .ok false)) = ns.filter (enters s fl p) := by
          unfold itemOf
          rw [List.filter_filter]
          congr 1
          funext c
          unfold enters
          rw [Bool.and_comm]
        rw [← e]
        exact hY

/-- C84: whatever the platform and the state, `os.walk` (with every combination of its options) yields what the specification says, if it ends. -/
theorem osWalk_yields (s : FS) {top : Str} {td fl : Bool} {out : List WalkItem} (h : s.osWalk top td fl = .ok out) : Yields s td fl top out :=
  walkDir_yields td fl s.limit (Or.inl rfl) h

/-- C84: the specification determines what is yielded. -/
theorem yields_unique {td fl : Bool} {p : Str} {a : List WalkItem} (h : Yields s td fl p a) : ∀ {b}, Yields s td fl p b → a = b := by
  refine Yields.rec (motive_1 := fun p a _ => ∀ {b}, Yields s td fl p b → a = b) (motive_2 := fun p ds a _ => ∀ {b}, YieldsBelow s td fl p ds b → a = b)
    ?_ ?_ ?_ ?_ h
  · intro p e he _ b hb
    cases hb with
    | unlisted _ _ => rfl
    | listed hl _ => rw [he] at hl; cases hl
  · intro p ns subs hl _ ih b hb
    cases hb with
    | unlisted he _ => rw [he] at hl; cases hl
    | listed hl' hb' =>
      rw [hl] at hl'
      injection hl' with hl'
      subst hl'
      rw [ih hb']
  · intro p b hb; cases hb; rfl
  · intro p d ds out outs _ _ ih1 ih2 b hb
    cases hb with
    | cons h1 h2 => rw [ih1 h1, ih2 h2]

theorem WalkedTo.trans {fl : Bool} {a b c : Str} (h1 : WalkedTo s fl a b) (h2 : WalkedTo s fl b c) : WalkedTo s fl a c := by
  induction h2 with
  | here => exact h1
  | into _ hl hn he ih => exact .into ih hl hn he

/-- C84: the paths yielded are exactly those of the directories that can be reached and listed. -/
theorem yields_paths {td fl : Bool} {p : Str} {out : List WalkItem} (h : Yields s td fl p out) (q : Str) :
    (∃ i ∈ out, i.path = q) ↔ WalkedTo s fl p q ∧ ∃ ns, s.listdir q = .ok ns := by
  constructor
  · refine Yields.rec (motive_1 := fun p out _ => (∃ i ∈ out, i.path = q) → WalkedTo s fl p q ∧ ∃ ns, s.listdir q = .ok ns)
      (motive_2 := fun p ds out _ => (∃ i ∈ out, i.path = q) → ∃ d ∈ ds, WalkedTo s fl (s.cfg.joinpaths [p, d]) q ∧ ∃ ns, s.listdir q = .ok ns) ?_ ?_ ?_ ?_ h
    · rintro p e _ _ ⟨i, hi, _⟩; simp at hi
    · rintro p ns subs hl _ ih ⟨i, hi, hq⟩
      have : i = itemOf s p ns ∨ i ∈ subs := by
        cases td <;> simp at hi <;> tauto
      rcases this with rfl | hi
      · rw [← hq]; exact ⟨.here, ns, hl⟩
      · obtain ⟨d, hd, h1, h2⟩ := ih ⟨i, hi, hq⟩
        rw [List.mem_filter] at hd
        exact ⟨WalkedTo.trans (.into .here hl hd.1 hd.2) h1, h2⟩
    · rintro p ⟨i, hi, _⟩; simp at hi
    · rintro p d ds out outs _ _ ih1 ih2 ⟨i, hi, hq⟩
      rcases List.mem_append.mp hi with hi | hi
      · exact ⟨d, by simp, ih1 ⟨i, hi, hq⟩⟩
      · obtain ⟨d', hd', h'⟩ := ih2 ⟨i, hi, hq⟩
        exact ⟨d', by simp [hd'], h'⟩
  · rintro ⟨hw, ns, hl⟩
    -- every reached directory has its own walk inside this one
    have sub : ∀ {r}, WalkedTo s fl p r → ∃ o, Yields s td fl r o ∧ ∀ i ∈ o, i ∈ out := by
      intro r hr
      induction hr with
      | here => exact ⟨out, h, fun _ hi => hi⟩
      | @into r n ns _ hl hn he ih =>
        obtain ⟨o, ho, hin⟩ := ih
        cases ho with
        | unlisted e _ => rw [e] at hl; cases hl
        | @listed _ ns' subs hl' hb =>
          rw [hl] at hl'
          injection hl' with hl'
          subst hl'
          have : ∀ {ds subs}, YieldsBelow s td fl r ds subs → n ∈ ds → ∃ o, Yields s td fl (s.cfg.joinpaths [r, n]) o ∧ ∀ i ∈ o, i ∈ subs := by
            intro ds
            induction ds with
            | nil => intro subs _ hm; simp at hm
            | cons d ds ihd =>
              intro subs hb hm
              cases hb with
              | cons h1 h2 =>
                rcases List.mem_cons.mp hm with rfl | hm
                · exact ⟨_, h1, fun i hi => by simp [hi]⟩
                · obtain ⟨o, ho, hi⟩ := ihd h2 hm
                  exact ⟨o, ho, fun i hi' => by simp [hi i hi']⟩
          obtain ⟨o, ho, hi⟩ := this hb (List.mem_filter.mpr ⟨hn, he⟩)
          refine ⟨o, ho, fun i hi' => hin i ?_⟩
          have hmem := hi i hi'
          cases td <;> simp [hmem]
    obtain ⟨o, ho, hin⟩ := sub hw
    cases ho with
    | unlisted e _ => rw [e] at hl; cases hl
    | @listed _ ns' subs hl' hb =>
      refine ⟨itemOf s q ns', hin _ ?_, rfl⟩
      cases td <;> simp

end

/-! ## Ending -/

section
variable {s : FS} (W : WalkOk s)
include W

/-- a name in a directory for which `os.path.isdir` is true, whether a link or not -/
theorem DirAt.enter {q : Str} {names : List Str} {d : Ref} (h : DirAt s q names d) {c : Str} (hcp : Plain s.cfg.sep c)
    (hd : s.isDir (s.cfg.joinpaths [q, c]) = .ok true) : ∃ y, DirAt s (s.cfg.joinpaths [q, c]) (names ++ [c]) y := by
  have hv : s.validRelG s.rc (s.cfg.joinpaths [q, c]) = .ok true := by
    rw [validRel_join W.tree.posix _ hcp h.tidy.1 h.tidy.2]; exact h.valid
  unfold FS.isDir FS.isDirG FS.isOfTypeG FS.resolveFG at hd
  simp only [if_true, FS.raiseForSepG, endsWithSep_join W.tree.posix h.tidy hcp.1, Bool.false_eq_true, if_false] at hd
  cases hr : s.resolveG s.rc (s.cfg.joinpaths [q, c]) true with
  | error e =>
    have := resolve_error W hv hr
    rw [hr] at hd
    simp only [bind, Except.bind, this, if_true] at hd
    cases hd
  | ok x =>
    rw [hr] at hd
    simp only [bind, Except.bind, pure, Except.pure, Except.ok.injEq] at hd
    have hres : s.resolve (s.cfg.joinpaths [q, c]) true true = .ok x := hr
    have hx : x < s.next := resolve_lt W.inv hres
    refine ⟨x, tidy_join W.tree.posix h.tidy hcp.1, hv, absnorm_join W.inv W.tree.posix (plain_proper h.plain) hcp.1 h.tidy.1 h.norm, ?_, ?_, hres⟩
    · intro w hw
      rcases List.mem_append.mp hw with hw | hw
      · exact h.plain w hw
      · simp at hw; rw [hw]; exact hcp
    · rw [W.genuine x hx]; exact hd

/-- the components of a directory that is found: where they lead without links -/
theorem DirAt.comps {q : Str} {names : List Str} {d : Ref} (h : DirAt s q names d) :
    ∃ r, s.resolveComps FS.maxLinks names = .ok r ∧ NoLink s.heap rootRef r ∧ Spec.walk s.heap rootRef r = some d := by
  have hi := W.inv
  have ht := W.tree
  have hp := plain_proper h.plain
  obtain ⟨_, _, h3⟩ := (resolveG_ok hi ht _).mp h.res
  rw [h.norm, pathComponents_absPath ht.posix hp] at h3
  have hnd := isDir_ne_devNull hi h.dir
  rcases h3 with ⟨h3, rfl⟩ | ⟨_, _, h3⟩ | ⟨_, _, cs, h5, h6⟩
  · have : names = [] := (absPath_eq_root (k := s.cfg) (fun w hw => proper_compOk (hp w hw))).mp h3
    subst this
    exact ⟨[], rfl, trivial, rfl⟩
  · exact absurd h3 hnd
  · have hok := resolveComps_ok ht.cs ht.posix _ _ _ (fun w hw => proper_compOk (hp w hw)) h5
    rcases h6 with ⟨_, _, h6⟩ | ⟨_, h6, _, _⟩
    · exact absurd h6 hnd
    · exact ⟨cs, h5, hok.2, h6⟩

theorem walkDir_ends (hs : Reachable s) (td : Bool) : ∀ (n : Nat) {q : Str} {names r : List Str} {d : Ref} {m : Nat} {most : Bool}, DirAt s q names d →
    (∀ b, s.resolveComps FS.maxLinks (names ++ b) = s.resolveComps m (r ++ b)) → Spec.walk s.heap rootRef r = some d → 
    m * s.next + (s.next - r.length) ≤ n → ∃ out, s.walkDir td true n q most = .ok out := by
  intro n
  induction n with
  | zero =>
    intro q names r d m most h _ hw hn
    have := depth_lt W.inv hw h.dir
    omega
  | succ n ih =>
    intro q names r d m most h hm hw hn
    have hdep := depth_lt W.inv hw h.dir
    simp only [FS.walkDir, FS.unlessLink, Bool.not_true, Bool.and_false, Bool.false_eq_true, if_false]
    have hcl : s.classify q = s.classifyLoop q ((s.heap d).entries.map (·.1)) [] [] := by
      unfold FS.classify
      rw [h.listdir W hs]
      rfl
    have hpl : ∀ c ∈ (s.heap d).entries.map (·.1), Plain s.cfg.sep c := by
      intro c hc
      obtain ⟨e, he, rfl⟩ := List.mem_map.mp hc
      exact W.names d (h.lt W) e he
    obtain ⟨item, hit⟩ := classifyLoop_total W h ((s.heap d).entries.map (·.1)) [] [] hpl
    rw [hcl, hit]
    dsimp only
    obtain ⟨_, h2, _⟩ := classifyLoop_ok W _ _ _ hit
    have hsubs : ∀ ds : List Str, (∀ c ∈ ds, c ∈ item.dirs) → ∃ out, s.walkSubs true (fun p => s.walkDir td true n p false) q ds = .ok out := by
      intro ds
      induction ds with
      | nil => intro _; exact ⟨_, rfl⟩
      | cons c ds ihd =>
        intro hds
        obtain ⟨tl, htl⟩ := ihd (fun x hx => hds x (by simp [hx]))
        have hc := hds c (by simp)
        rw [h2] at hc
        simp only [List.nil_append, List.mem_filter, decide_eq_true_eq] at hc
        obtain ⟨y, hy⟩ := h.enter W (hpl c hc.1) hc.2
        obtain ⟨r', hr', hnl', hw'⟩ := hy.comps W
        have hdep' := depth_lt W.inv hw' hy.dir
        have hr'' := hr'
        rw [hm [c]] at hr''
        have key : ∃ m', (∀ b, s.resolveComps m (r ++ [c] ++ b) = s.resolveComps m' (r' ++ b)) ∧
            m' * s.next + (s.next - r'.length) < m * s.next + (s.next - r.length) := by
          rcases scan_cases W.tree.cs (r ++ [c]) with ⟨hno, hsc⟩ | ⟨pre, c', t, rest, hf, hsc⟩
          · have : r' = r ++ [c] := by
              rw [resolveComps_eq, hsc] at hr''
              injection hr'' with hr''
              exact hr''.symm
            refine ⟨m, fun b => by rw [this], ?_⟩
            rw [this, List.length_append]
            simp only [List.length_cons, List.length_nil]
            omega
          · cases m with
            | zero => rw [resolveComps_eq, hsc] at hr''; cases hr''
            | succ m =>
              rw [resolveComps_first W.tree.cs m hf] at hr''
              obtain ⟨m', hm', hb⟩ := resolveComps_more W.tree.cs _ _ _ hr''
              refine ⟨m', fun b => ?_, ?_⟩
              · rw [resolveComps_first W.tree.cs m (firstLink_more hf), ← hb b, List.append_assoc]
              · have : m' * s.next ≤ m * s.next := Nat.mul_le_mul_right _ hm'
                have e : (m + 1) * s.next = m * s.next + s.next := Nat.succ_mul _ _
                rw [e]
                omega
        obtain ⟨m', hm', hlt⟩ := key
        obtain ⟨out, ho⟩ := ih (most := false) hy (fun b => by rw [List.append_assoc, hm, ← hm' b, List.append_assoc]) hw' (by omega)
        simp only [FS.walkSubs, FS.unlessLink, Bool.not_true, Bool.false_eq_true, if_false, ho, htl, bind, Except.bind, pure, Except.pure]
        exact ⟨_, rfl⟩
    obtain ⟨subs, hsub⟩ := hsubs item.dirs (fun _ h => h)
    rw [hsub]
    exact ⟨_, rfl⟩
end

/-- C84: `os.walk(top, followlinks=True)` ends without an error and yields what the specification says, whatever the links are, circles of links included, if the
interpreter allows 42 times as many nested calls as there are objects. -/
theorem osWalk_follow_ends {s : FS} (hs : Reachable s) (ht : s.cfg.Tree) (W : Walkable s) {top : Str} {names : List Str} {d : Ref}
    (hd : (s.heap d).isDir = true) (hr : s.resolve top = .ok d) (hne : top ≠ []) (hno : ∀ r, top = r ++ [s.cfg.sep] → r = [])
    (hn : s.absnorm top = absPath s.cfg.sep names) (hpl : ∀ w ∈ names, Plain s.cfg.sep w) (hlim : 42 * s.next ≤ s.limit) (td : Bool) :
    ∃ out, s.osWalk top td true = .ok out ∧ Yields s td true top out := by
  have hi := reachable_inv hs
  have W : WalkOk s := ⟨hi, ht, W.genuine, W.readable, W.dirs, W.noDev, W.names⟩
  have h : DirAt s top names d := ⟨⟨hne, hno⟩, ((resolveG_ok hi ht _).mp hr).2.1, hn, hpl, hd, hr⟩
  obtain ⟨r, h1, _, h3⟩ := h.comps W
  obtain ⟨m, hm, hb⟩ := resolveComps_more ht.cs _ _ _ h1
  have hm : m ≤ 41 := hm
  have : m * s.next ≤ 41 * s.next := Nat.mul_le_mul_right _ hm
  obtain ⟨out, ho⟩ := walkDir_ends W hs td s.limit (most := true) h hb h3 (by omega)
  exact ⟨out, ho, osWalk_yields s ho⟩

/-! ## Cases -/

/-- `/a` with a link to `/a` and an empty directory in it -/
def circleFS : FS := runs [.mkdir ['/', 'a'] 0o777, .createSymlink ['/', 'a', '/', 'l'] ['/', 'a'] false, .mkdir ['/', 'a', '/', 'd'] 0o777]
  (initFS demoCfg 1000 0 0 0o022 7 none)
theorem circle_reachable : Reachable circleFS := ⟨_, _, _, _, _, _, _, _, rfl⟩
theorem circle_cfg : circleFS.cfg = demoCfg := runs_cfg
theorem circle_tree : circleFS.cfg.Tree := by rw [circle_cfg]; exact demoCfg_tree
theorem circle_next : circleFS.next = 5 := by decide +kernel

theorem circle_walkable : Walkable circleFS := by
  have hr : circleFS.isRoot = true := by decide +kernel
  have hsep : circleFS.cfg.sep = '/' := by rw [circle_cfg]; rfl
  refine ⟨?_, Or.inl hr, ?_, ?_, ?_⟩
  · unfold Genuine; rw [circle_next]; decide +kernel
  · rw [circle_next]; decide +kernel
  · intro l hl e
    have h0 : circleFS.devName = absPath circleFS.cfg.sep [['d', 'e', 'v'], ['n', 'u', 'l', 'l']] := by decide +kernel
    rw [h0] at e
    have := absPath_inj circle_tree.posix hl (by rw [hsep]; decide +kernel) e
    subst this
    decide +kernel
  · unfold PlainNames
    rw [circle_next, hsep]
    decide +kernel

example : ∃ out, circleFS.osWalk ['/', 'a'] true true = .ok out ∧ Yields circleFS true true ['/', 'a'] out :=
  osWalk_follow_ends circle_reachable circle_tree circle_walkable (d := 2) (names := [['a']]) (by decide +kernel) (by decide +kernel) (by simp)
    (by rw [circle_cfg]
        intro r h
        have := congrArg List.getLast? h
        simp [demoCfg, posixCfg] at this)
    (by decide +kernel) (by rw [circle_cfg]; decide +kernel) (by decide +kernel) true

/-- The walk ends because a path through more than 41 links is not found: here it reports the 42 paths `/a`, `/a/l`, `/a/l/l`, … and the empty directory `d` in each of them. -/
example : (circleFS.osWalk ['/', 'a'] true true).map List.length = .ok 84 := by decide +kernel

example : (onWindows.osWalk ['\\'] false true).map (List.map (·.path)) = .ok [['\\', 'a', '\\', 'd'], ['\\', 'a'], ['\\', 'k', '\\', 'd'], ['\\', 'k'], ['\\']] ∧
    (onWindows.osWalk ['\\'] false false).map (List.map (·.path)) = .ok [['\\', 'a', '\\', 'd'], ['\\', 'a'], ['\\']] := by decide +kernel
end Verif
