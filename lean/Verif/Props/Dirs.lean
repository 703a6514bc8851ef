import Verif.EffDirs
import Verif.Props.Links
import Verif.Sane
/-!
# C42: makedirs
-/

namespace Verif
open Py Spec Cfg

theorem Sub.trans {a b c : FS} (h : Sub a b) (k : Sub b c) (hle : a.next ≤ b.next) : Sub a c where
  cfg := h.cfg.trans k.cfg
  limit := h.limit.trans k.limit
  cwd := h.cwd.trans k.cwd
  uid := h.uid.trans k.uid
  devName := h.devName.trans k.devName
  ent := fun d hd n x hx => k.ent d (Nat.lt_of_lt_of_le hd hle) n x (h.ent d hd n x hx)
  mode := fun x hx => (h.mode x hx).trans (k.mode x (Nat.lt_of_lt_of_le hx hle))
  kind := fun x hx => (h.kind x hx).trans (k.kind x (Nat.lt_of_lt_of_le hx hle))
  target := fun x hx hl => by
    rw [h.target x hx hl]
    refine k.target x (Nat.lt_of_lt_of_le hx hle) ?_
    unfold Obj.isLnk at hl ⊢
    rw [← h.mode x hx]; exact hl

theorem Sub.refl (s : FS) : Sub s s :=
  ⟨rfl, rfl, rfl, rfl, rfl, fun _ _ _ _ h => h, fun _ _ => rfl, fun _ _ => rfl, fun _ _ _ => rfl⟩

namespace Spec

/-- The directories `cs` are made one below the other, starting below the directory `d` at `ld`; nothing else changes:
every other location means what it meant, no old object is touched except that `d` has one more entry, and every
path that led to something still leads to it. -/
structure NewDirs (s s' : FS) (d : Ref) (ld cs : List Str) (perm : Nat) : Prop where
  base : walk s.heap rootRef ld = some d
  isDir : cs ≠ [] → (s.heap d).isDir = true
  absent : ∀ k, 0 < k → k ≤ cs.length → walk s.heap rootRef (ld ++ cs.take k) = none
  made : ∀ k, 0 < k → k ≤ cs.length → ∃ x, s.next ≤ x ∧ walk s'.heap rootRef (ld ++ cs.take k) = some x ∧
    (s'.heap x).isDir = true ∧ (s'.heap x).mode = S_IFDIR ||| perm ∧ (s'.heap x).uid = s.uid ∧ (s'.heap x).gid = s.gid ∧
    (s'.heap x).dev = (s.heap d).dev
  elsewhere : ∀ l, (∀ k, 0 < k → k ≤ cs.length → l ≠ ld ++ cs.take k) → walk s'.heap rootRef l = walk s.heap rootRef l
  dir : ∀ c rest, cs = c :: rest → ∃ x, s'.heap d = { s.heap d with
    content := .dir ((s.heap d).entries ++ [(c, x)]), nlink := (s.heap d).nlink + 1 }
  others : ∀ x < s.next, (cs = [] ∨ x ≠ d) → s'.heap x = s.heap x
  resolves : ∀ q f c y, s.resolve q f c = .ok y → y ≠ devNullRef → s'.resolve q f c = .ok y
  mounts : s'.mounts = s.mounts
  rest : s' = { s with heap := s'.heap, next := s'.next, lastIno := s'.lastIno, mounts := s'.mounts }

end Spec

/-- What the chain of new directories does, before the modes are set. -/
structure Chain (s s' : FS) (d : Ref) (ld cs : List Str) (ns : List Ref) : Prop where
  inv : Inv s'
  isDir : cs ≠ [] → (s.heap d).isDir = true
  env : Env s s'
  next : s'.next = s.next + cs.length
  refs : ∀ x, x ∈ ns ↔ s.next ≤ x ∧ x < s'.next
  mounts : s'.mounts = s.mounts
  absent : ∀ k, 0 < k → k ≤ cs.length → walk s.heap rootRef (ld ++ cs.take k) = none
  made : ∀ k, 0 < k → k ≤ cs.length → ∃ x, s.next ≤ x ∧ x < s'.next ∧ walk s'.heap rootRef (ld ++ cs.take k) = some x
  elsewhere : ∀ l, (∀ k, 0 < k → k ≤ cs.length → l ≠ ld ++ cs.take k) → walk s'.heap rootRef l = walk s.heap rootRef l
  dir : ∀ c rest, cs = c :: rest → s'.heap d = { s.heap d with
    content := .dir ((s.heap d).entries ++ [(c, s.next)]), nlink := (s.heap d).nlink + 1 }
  others : ∀ x < s.next, (cs = [] ∨ x ≠ d) → s'.heap x = s.heap x
  obj : ∀ x, s.next ≤ x → x < s'.next → (s'.heap x).isDir = true ∧ (s'.heap x).uid = s.uid ∧ (s'.heap x).gid = s.gid ∧
    (s'.heap x).dev = (s.heap d).dev
  sub : Sub s s'

theorem Grown.chain {s s' : FS} {d x : Ref} {cs : List Str} {ns : List Ref} (h : Grown s s' d cs x ns) :
    ∀ {ld : List Str}, Inv s → walk s.heap rootRef ld = some d → Chain s s' d ld cs ns := by
  induction h with
  | nil s d =>
    intro ld hi hld
    refine ⟨hi, fun h => absurd rfl h, rfl, rfl, fun x => ?_, rfl, ?_, ?_, fun _ _ => rfl, ?_, fun _ _ _ => rfl, ?_, Sub.refl s⟩
    · simp
    · intro k h1 h2; simp at h2; omega
    · intro k h1 h2; simp at h2; omega
    · intro c rest e; simp at e
    · intro x h1 h2; exact absurd h2 (by omega)
  | @cons s s1 s' d x c cs ns hm hi1 hg ih =>
    intro ld hi hld
    have hN := hm.newName hi hld rfl
    have ho := hm.obj
    obtain ⟨inv, isd, env, next, refs, mounts, absent, made, elsewhere, dir, others, obj, sub⟩ := ih hi1 hN.here
    have hdlt := hm.added.dLt
    have hne : s.next ≠ devNullRef := fun e => by have := devNull_lt hi; rw [e] at this; exact Nat.lt_irrefl _ this
    have e0 : ∀ k, (ld ++ [c]) ++ cs.take k = ld ++ (c :: cs).take (k + 1) := by intro k; simp
    have hnx : s1.next = s.next + 1 := hm.next
    have hs1 : s'.heap d = s1.heap d := others d (by rw [hnx]; exact Nat.lt_succ_of_lt hdlt) (Or.inr (Nat.ne_of_lt hdlt))
    refine ⟨inv, fun _ => hm.added.dir, hm.added.env.trans env, ?_, ?_, mounts.trans hm.mounts, ?_, ?_, ?_, ?_, ?_, ?_, ?_⟩
    · rw [next, hnx, List.length_cons]; omega
    · intro y
      rw [List.mem_cons, refs y]
      constructor
      · rintro (h | h)
        · rw [h]; constructor
          · exact Nat.le_refl _
          · rw [next, hnx]; exact Nat.lt_of_lt_of_le (Nat.lt_succ_self _) (Nat.le_add_right _ _)
        · exact ⟨by have := h.1; rw [hnx] at this; exact Nat.le_of_succ_le this, h.2⟩
      · intro h
        by_cases e : y = s.next
        · exact Or.inl e
        · exact Or.inr ⟨by have := h.1; rw [hnx]; exact Nat.lt_of_le_of_ne this (Ne.symm e), h.2⟩
    · intro k h1 h2
      obtain ⟨j, rfl⟩ : ∃ j, k = j + 1 := ⟨k - 1, by omega⟩
      have : ld ++ (c :: cs).take (j + 1) = (ld ++ [c]) ++ cs.take j := (e0 j).symm
      rw [this, walk_append, hN.absent]; rfl
    · intro k h1 h2
      obtain ⟨j, rfl⟩ : ∃ j, k = j + 1 := ⟨k - 1, by omega⟩
      rw [← e0 j]
      by_cases hj : j = 0
      · subst hj
        refine ⟨s.next, Nat.le_refl _, by rw [next, hnx]; omega, ?_⟩
        rw [List.take_zero, List.append_nil, elsewhere (ld ++ [c])]
        · exact hN.here
        · intro k h1 h2 e
          have := congrArg List.length e
          rw [List.length_append (as := ld ++ [c]), List.length_take] at this; omega
      · obtain ⟨y, h3, h4, h5⟩ := made j (by omega) (by simpa using h2)
        exact ⟨y, by omega, h4, h5⟩
    · intro l hl
      have h1 : l ≠ ld ++ [c] := by have := hl 1 (by omega) (by simp); simpa using this
      rw [elsewhere l (fun k a b => by rw [e0]; exact hl (k + 1) (by omega) (by simpa using b)), hN.elsewhere l h1]
    · intro c' rest e
      injection e with e1 e2; subst e1
      rw [hs1, hm.added.parent]
    · intro y hy hyd
      have hyd : y ≠ d := by rcases hyd with h | h; · simp at h
                             · exact h
      rw [others y (by omega) (Or.inr (Nat.ne_of_lt hy)), hm.added.others y hy hyd (Nat.ne_of_lt hy)]
    · intro y h1 h2
      have hu : s1.uid = s.uid ∧ s1.gid = s.gid := by rw [hm.added.env]; exact ⟨rfl, rfl⟩
      by_cases e : y = s.next
      · subst e
        have h1 : (s1.heap s.next).isDir = true ∧ (s1.heap s.next).uid = s.uid ∧ (s1.heap s.next).gid = s.gid ∧
            (s1.heap s.next).dev = (s.heap d).dev := by
          rw [ho]; exact ⟨rfl, rfl, rfl, rfl⟩
        cases cs with
        | nil =>
          rw [others s.next (by rw [hnx]; exact Nat.lt_succ_self _) (Or.inl rfl)]; exact h1
        | cons c2 cs2 =>
          rw [dir c2 cs2 rfl]; exact ⟨rfl, h1.2⟩
      · obtain ⟨h3, h4, h5, h6⟩ := obj y (by rw [hnx]; exact Nat.lt_of_le_of_ne h1 (Ne.symm e)) h2
        exact ⟨h3, by rw [h4, hu.1], by rw [h5, hu.2], by rw [h6, ho]; rfl⟩
    · exact (hm.added.sub hi hne (fun h => absurd h (Nat.lt_irrefl _))).trans sub (by omega)

/-- Walking only looks at the entries. -/
theorem walk_same {hp hp' : Ref → Obj} (h : ∀ x, (hp' x).entries = (hp x).entries) : ∀ (l : List Str) (r : Ref), walk hp' r l = walk hp r l := by
  intro l
  induction l with
  | nil => intro r; rfl
  | cons c l ih => intro r; simp only [walk, h]; cases alookup c (hp r).entries <;> simp [ih]

/-- The directory returned is the last one made. -/
theorem Grown.last {s s' : FS} {d x : Ref} {cs : List Str} {ns : List Ref} (h : Grown s s' d cs x ns) :
    ∀ {ld : List Str}, Inv s → walk s.heap rootRef ld = some d → walk s'.heap rootRef (ld ++ cs) = some x := by
  induction h with
  | nil s d => intro ld hi hld; rw [List.append_nil]; exact hld
  | @cons s s1 s' d x c cs ns hm hi1 hg ih =>
    intro ld hi hld
    have := ih hi1 (hm.newName hi hld rfl).here
    rwa [List.append_assoc] at this

/-- Setting the modes of the objects in `ns`. -/
theorem setModes_eq (perm : Nat) : ∀ (ns : List Ref) (s : FS),
    let s' := ns.foldl (fun s d => s.setObj d fun o => { o with mode := S_IFDIR ||| perm }) s
    Env s s' ∧ s'.next = s.next ∧ s'.mounts = s.mounts ∧
      ∀ x, s'.heap x = if x ∈ ns then { s.heap x with mode := S_IFDIR ||| perm } else s.heap x := by
  intro ns
  induction ns with
  | nil => intro s; exact ⟨rfl, rfl, rfl, fun x => by simp⟩
  | cons r ns ih =>
    intro s
    obtain ⟨h1, h2, h3, h4⟩ := ih (s.setObj r fun o => { o with mode := S_IFDIR ||| perm })
    refine ⟨Env.trans (b := s.setObj r fun o => { o with mode := S_IFDIR ||| perm }) rfl h1, h2, h3, fun x => ?_⟩
    simp only [List.foldl_cons]
    rw [h4 x]
    have : (s.setObj r fun o => { o with mode := S_IFDIR ||| perm }).heap x =
        if x = r then { s.heap x with mode := S_IFDIR ||| perm } else s.heap x := by
      show upd s.heap r _ x = _
      rw [upd_apply]
      split
      · rename_i e; rw [e]
      · rfl
    rw [this]
    by_cases h1 : x ∈ ns <;> by_cases h2 : x = r <;> simp [h1, h2]

theorem Chain.newDirs {s s1 : FS} (hi : Inv s) (ht : s.cfg.Tree) {d : Ref} {ld cs : List Str} {ns : List Ref} {perm : Nat} (h : Chain s s1 d ld cs ns)
    (hld : walk s.heap rootRef ld = some d)
    (hi' : Inv (ns.foldl (fun s d => s.setObj d fun o => { o with mode := S_IFDIR ||| perm }) s1)) :
    NewDirs s (ns.foldl (fun s d => s.setObj d fun o => { o with mode := S_IFDIR ||| perm }) s1) d ld cs perm := by
  have hset := setModes_eq perm ns s1
  revert hset hi'
  generalize (ns.foldl (fun s d => s.setObj d fun o => { o with mode := S_IFDIR ||| perm }) s1) = s'
  rintro hi' ⟨m1, m2, m3, m4⟩
  obtain ⟨inv, isd, env, next, refs, mounts, absent, made, elsewhere, dir, others, obj, sub⟩ := h
  have hent : ∀ x, (s'.heap x).entries = (s1.heap x).entries := by intro x; rw [m4 x]; split <;> rfl
  have hwalk : ∀ l r, walk s'.heap r l = walk s1.heap r l := by
    intro l
    induction l with
    | nil => intro r; rfl
    | cons c l ih => intro r; simp only [walk, hent]; cases alookup c (s1.heap r).entries <;> simp [ih]
  have hold : ∀ x < s.next, s'.heap x = s1.heap x := by
    intro x hx
    rw [m4 x, if_neg]
    intro hc
    have := ((refs x).mp hc).1
    exact absurd hx (Nat.not_lt.mpr this)
  have hcfg : s'.cfg = s.cfg := by rw [env.trans m1]
  have hlk : ∀ o, s'.linkTarget o = s1.linkTarget o := by
    intro o; unfold FS.linkTarget; rw [show s'.cfg = s1.cfg by rw [m1]]
  have hsub : Sub s s' := by
    refine ⟨sub.cfg.trans (by rw [m1]), sub.limit.trans (by rw [m1]), sub.cwd.trans (by rw [m1]), sub.uid.trans (by rw [m1]), ?_, ?_, ?_, ?_, ?_⟩
    · rw [sub.devName]; unfold FS.devName; rw [hold _ (devNull_lt hi)]
    · intro d hd c x hx; rw [hent]; exact sub.ent d hd c x hx
    · intro x hx; rw [hold x hx]; exact sub.mode x hx
    · intro x hx; rw [hold x hx]; exact sub.kind x hx
    · intro x hx hl; rw [hold x hx, hlk]; exact sub.target x hx hl
  refine ⟨hld, isd, absent, ?_, ?_, ?_, ?_, ?_, m3.trans mounts, env.trans m1⟩
  · intro k h1 h2
    obtain ⟨x, h3, h4, h5⟩ := made k h1 h2
    have hin : x ∈ ns := (refs x).mpr ⟨h3, h4⟩
    obtain ⟨o1, o2, o3, o4⟩ := obj x h3 h4
    refine ⟨x, h3, by rw [hwalk]; exact h5, ?_, ?_, ?_, ?_, ?_⟩ <;> rw [m4 x, if_pos hin]
    · exact o1
    · exact o2
    · exact o3
    · exact o4
  · intro l hl; rw [hwalk]; exact elsewhere l hl
  · intro c rest e
    exact ⟨s.next, by rw [hold d (walk_lt hi _ (root_lt hi) hld), dir c rest e]⟩
  · intro x hx hxd; rw [hold x hx]; exact others x hx hxd
  · intro q f c y hr hy
    cases f with
    | true => exact hsub.resolve hi hi' (by rw [hcfg]; exact ht) hr hy
    | false =>
      have hr' : s.lresolve q = .ok y := hr
      exact hsub.lresolve hi hi' (by rw [hcfg]; exact ht) hr'


/-! ## makedirs -/

/-- `create_dir` on a POSIX filesystem. -/
theorem createDir_spec {s : FS} (hi : Inv s) (hw : Within s) (ht : s.cfg.Tree) {p : Str} (perm : Nat) {names : List Str}
    (hn : ∀ w ∈ names, Proper s.cfg.sep w) (hp : s.absnorm (s.cfg.makeStringPath p) = absPath s.cfg.sep names) :
    (∃ e s', createDir p perm s = (.error e, s') ∧ Same s s') ∨
    (s.existsL (absPath s.cfg.sep names) = .ok false ∧
      ((∃ d, createDir p perm s = (.ok d, s) ∧ Follows s rootRef names d) ∨
      ∃ pre c post d ld s' x, names = pre ++ c :: post ∧ Follows s rootRef pre d ∧ createDir p perm s = (.ok x, s') ∧
        NewDirs s s' d ld (c :: post) perm ∧ walk s'.heap rootRef (ld ++ c :: post) = some x)) := by
  have hgood := createDirG_good (auto := autoMount) autoMount_pres p perm hi
  change wp (createDir p perm) _ s at hgood
  unfold wp at hgood
  have hrun : createDir p perm s = (rd (·.existsL (absPath s.cfg.sep names)) >>= fun b => if b then M.raise .EEXIST else
      createDirLoop rootRef (s.cfg.pathComponents (absPath s.cfg.sep names)) [] >>= fun x =>
      M.modify (fun s => x.2.foldl (fun s d => s.setObj d fun o => { o with mode := S_IFDIR ||| perm }) s) >>= fun _ =>
      M.pure x.1) s := by
    unfold createDir createDirG
    rw [M.bind_eq]
    dsimp only [M.get]
    rw [hp, M.bind_eq, autoMount_posix ht.posix]
    rfl
  rw [hrun] at hgood ⊢
  rw [M.bind_eq] at hgood ⊢
  cases hex : s.existsL (absPath s.cfg.sep names) with
  | error e => 
    refine Or.inl ⟨e, s, ?_, Same.refl s⟩
    rw [rd_eq (f := (·.existsL (absPath s.cfg.sep names))) hex]
  | ok b =>
    rw [rd_eq (f := (·.existsL (absPath s.cfg.sep names))) hex] at hgood ⊢
    cases b with
    | true => exact Or.inl ⟨_, s, rfl, Same.refl s⟩
    | false =>
      rw [pathComponents_absPath ht.posix hn] at hgood ⊢
      simp only [Bool.false_eq_true, if_false] at hgood ⊢
      rcases createDirLoop_spec hi hw ht names rootRef (root_lt hi) (fun _ => ⟨[], rfl⟩) hn with
        ⟨e, s', h1, h2⟩ | ⟨d, h1, h2⟩ | ⟨pre, c, post, d, ld, s', x, ns, h1, h2, h3, h4, h5, h6⟩
      · exact Or.inl ⟨e, s', by rw [M.bind_eq, h1], h2⟩
      · exact Or.inr ⟨trivial, Or.inl ⟨d, by rw [M.bind_eq, h1]; rfl, h2⟩⟩
      · refine Or.inr ⟨trivial, Or.inr ⟨pre, c, post, d, ld, _, x, h1, h2, by rw [M.bind_eq, h5]; rfl, ?_, ?_⟩⟩
        · rw [M.bind_eq, h5] at hgood
          exact (h6.chain hi h3).newDirs hi ht h3 hgood.1.inv
        · obtain ⟨-, -, -, m4⟩ := setModes_eq perm ns s'
          rw [← h6.last hi h3]
          refine walk_same (fun y => ?_) _ _
          dsimp only
          rw [m4 y]; split <;> rfl

/-- `makedirs` runs `create_dir` on the absolute path and looks at the errors. -/
theorem makedirs_run {s : FS} (hm : s.cfg.isMac = false) {p : Str} (hp : p ≠ []) (mode : Nat) (ok : Bool) :
    makedirs p mode ok s = match createDir (s.absnorm p) (andNot mode s.umask) s with
      | (.ok _, s') => (.ok (), s')
      | (.error e, s') => if e.isOS then (if e = .os .EACCES then (.error e, s') else
          match s'.makedirsBad (s.absnorm p) ok with
          | .error e' => (.error e', s')
          | .ok true => (.error (if s.cfg.isWin ∧ e = .os .ENOTDIR then .os .ENOENT else e), s')
          | .ok false => (.ok (), s')) else (.error e, s') := by
  have h1 : makedirs p mode ok s = makedirsTail (s.absnorm p) mode ok s := by
    unfold makedirs
    rw [if_neg hp]
    simp only [M.bind_eq, M.get, hm, Bool.and_false, Bool.false_eq_true, if_false]
  rw [h1]
  unfold makedirsTail
  rw [M.bind_eq]
  dsimp only [M.get, catchOS, M.tryCatch]
  rw [M.bind_eq]
  rcases createDir (s.absnorm p) (andNot mode s.umask) s with ⟨r, s'⟩
  cases r with
  | ok x => rfl
  | error e =>
    simp only
    cases he : e.isOS with
    | false => rfl
    | true =>
      simp only [if_true]
      by_cases hE : e = .os .EACCES
      · rw [if_pos hE, if_pos hE]; rfl
      · rw [if_neg hE, if_neg hE, M.bind_eq]
        cases hb : s'.makedirsBad (s.absnorm p) ok with
        | error e' => rw [rd_eq (f := (·.makedirsBad (s.absnorm p) ok)) hb]
        | ok b =>
          rw [rd_eq (f := (·.makedirsBad (s.absnorm p) ok)) hb]
          cases b <;> rfl

/-- C42: `makedirs` fails without a trace, or finds everything there and changes nothing, or makes a chain of
directories below the place its leading names lead to, and changes nothing else. -/
theorem makedirs_effect {s : FS} (hs : Reachable s) (ht : s.cfg.Tree) (hm : s.cfg.isMac = false) (hsep : s.cfg.sep = '/') (hw : Within s)
    (p : Str) (mode : Nat) (ok : Bool) :
    (∃ e s', makedirs p mode ok s = (.error e, s') ∧ Unchanged s s') ∨
    ∃ s' names, makedirs p mode ok s = (.ok (), s') ∧ s.absnorm p = absPath s.cfg.sep names ∧ (∀ w ∈ names, Proper s.cfg.sep w) ∧
      ((Unchanged s s' ∧ ((ok = true ∧ ∃ r, s.resolve (absPath s.cfg.sep names) = .ok r ∧ (s.heap r).isDir = true) ∨
        (s.existsL (absPath s.cfg.sep names) = .ok false ∧ ∃ d, Follows s rootRef names d))) ∨
      (s.existsL (absPath s.cfg.sep names) = .ok false ∧ ∃ pre c post d ld, names = pre ++ c :: post ∧ Follows s rootRef pre d ∧
        NewDirs s s' d ld (c :: post) (andNot mode s.umask))) := by
  have hi := reachable_inv hs
  by_cases hp : p = []
  · subst hp
    exact Or.inl ⟨_, s, rfl, Unchanged.refl s⟩
  obtain ⟨names, hn, hq⟩ := hi.absnorm ht.posix p
  have hrun := makedirs_run hm hp mode ok
  have hq2 : s.absnorm (s.cfg.makeStringPath (s.absnorm p)) = absPath s.cfg.sep names := by
    rw [makeStringPath_slash hsep, hq, absnorm_canon hi ht.posix (absCanon_names hn)]
  rcases createDir_spec hi hw ht (andNot mode s.umask) hn hq2 with ⟨e, s', h1, h2⟩ | ⟨hex, ⟨d, h1, h2⟩ | ⟨pre, c, post, d, ld, s', x, h1, h2, h3, h4⟩⟩
  · rw [h1] at hrun
    simp only at hrun
    have hu := h2.unchanged hi
    split at hrun
    · split at hrun
      · exact Or.inl ⟨e, s', hrun, hu⟩
      · cases hb : s'.makedirsBad (s.absnorm p) ok with
        | error e' => rw [hb] at hrun; exact Or.inl ⟨e', s', hrun, hu⟩
        | ok b =>
          rw [hb] at hrun
          cases b with
          | true => exact Or.inl ⟨_, s', hrun, hu⟩
          | false =>
            refine Or.inr ⟨s', names, hrun, hq, hn, Or.inl ⟨hu, Or.inl ?_⟩⟩
            rw [hq] at hb
            unfold FS.makedirsBad at hb
            cases ok with
            | false => simp at hb
            | true =>
              simp only [Bool.not_true, Bool.false_eq_true, if_false] at hb
              obtain ⟨r, hr, hb⟩ := except_bind_ok hb
              refine ⟨rfl, r, ?_, ?_⟩
              · rw [← hu.resolve]; exact hr
              · injection hb with hb
                have hr' : s.resolve (absPath s.cfg.sep names) = .ok r := by rw [← hu.resolve]; exact hr
                rw [← hu.obj r (resolve_lt hi hr')]
                simpa using hb
    · exact Or.inl ⟨e, s', hrun, hu⟩
  · rw [h1] at hrun
    exact Or.inr ⟨s, names, hrun, hq, hn, Or.inl ⟨Unchanged.refl s, Or.inr ⟨hex, d, h2⟩⟩⟩
  · rw [h3] at hrun
    exact Or.inr ⟨s', names, hrun, hq, hn, Or.inr ⟨hex, pre, c, post, d, ld, h1, h2, h4.1⟩⟩

/-! ### paths without links -/

theorem walk_take {hp : Ref → Obj} {l : List Str} {r x : Ref} (h : walk hp r l = some x) (k : Nat) (hk : k ≤ l.length) :
    ∃ y, walk hp r (l.take k) = some y ∧ (k < l.length → (hp y).isDir = true) ∧ (k = l.length → y = x) := by
  have h' := h
  rw [← List.take_append_drop k l, walk_append] at h
  cases hw : walk hp r (l.take k) with
  | none => rw [hw] at h; simp at h
  | some y =>
    rw [hw] at h
    refine ⟨y, rfl, ?_, ?_⟩
    · intro hlt
      cases hd : l.drop k with
      | nil => have := congrArg List.length hd; simp at this; omega
      | cons c cs =>
        rw [hd] at h
        simp only [Option.bind_some, walk] at h
        cases ha : alookup c (hp y).entries with
        | none => rw [ha] at h; simp at h
        | some z => exact isDir_of_entry (alookup_some ha)
    · intro e
      rw [e, List.take_length, h'] at hw
      injection hw with hw; exact hw.symm

theorem noLink_of_take {hp : Ref → Obj} : ∀ {l : List Str} {r : Ref},
    (∀ k, 0 < k → k ≤ l.length → ∀ x, walk hp r (l.take k) = some x → (hp x).isLnk = false) → NoLink hp r l := by
  intro l
  induction l with
  | nil => intro r _; trivial
  | cons c cs ih =>
    intro r h x hx
    refine ⟨h 1 (by omega) (by simp) x (by simp [walk, hx]), ih fun k h1 h2 y hy => ?_⟩
    exact h (k + 1) (by omega) (by simpa using h2) y (by simpa [walk, hx] using hy)

theorem Spec.Follows.walk {s : FS} {r x : Ref} {l : List Str} (h : Follows s r l x) (hn : NoLink s.heap r l) :
    walk s.heap r l = some x := by
  induction h with
  | nil r => rfl
  | entry h1 h2 h3 h4 ih => simp only [Spec.walk, h1, Option.bind_some]; exact ih (hn _ h1).2
  | link h1 h2 h3 h4 h5 ih => rw [(hn _ h1).1] at h2; simp at h2

namespace Spec
/-- Every prefix of `names` is a directory (also for `stat`), none is a link. -/
def AllDirs (s : FS) (names : List Str) : Prop := ∀ k ≤ names.length, ∃ x, walk s.heap rootRef (names.take k) = some x ∧
  (s.heap x).isDir = true ∧ (s.heap x).isDirMode = true
end Spec

theorem Spec.AllDirs.noLink {s : FS} {names : List Str} (h : AllDirs s names) : NoLink s.heap rootRef names := by
  refine noLink_of_take fun k h1 h2 x hx => ?_
  obtain ⟨y, h3, _, h4⟩ := h k h2
  rw [hx] at h3; injection h3 with h3; subst h3
  by_contra hc
  rw [lnk_not_dirMode (by simpa using hc)] at h4; simp at h4

/-- Where all prefixes are directories, the paths of all prefixes lead to them. -/
theorem Spec.AllDirs.resolves {s : FS} (hi : Inv s) (ht : s.cfg.Tree) {names : List Str} (h : AllDirs s names)
    (hn : ∀ w ∈ names, Plain s.cfg.sep w) {k : Nat} (hk : k ≤ names.length) (hd : absPath s.cfg.sep (names.take k) ≠ s.devName)
    {c : Bool} (hc : c = false ∨ Readable s) :
    ∃ x, s.resolve (absPath s.cfg.sep (names.take k)) true c = .ok x ∧ (s.heap x).isDir = true := by
  obtain ⟨x, h1, h2, h3⟩ := h k hk
  have hnl := h.noLink
  rw [← List.take_append_drop k names] at hnl
  refine ⟨x, (resolve_plain hi ht s.rc (fun w hw => hn w (List.mem_of_mem_take hw)) (noLink_prefix hnl) hd).mpr ⟨h1, ?_, ?_⟩, h2⟩
  · have key : ∀ (l : List Str) (r : Ref), (∀ j ≤ l.length, ∃ y, walk s.heap r (l.take j) = some y ∧ (s.heap y).isDirMode = true) → Through s.heap r l := by
      intro l
      induction l with
      | nil => intro r _; trivial
      | cons c cs ih =>
        intro r hh
        refine ⟨?_, fun y hy => ih y fun j hj => ?_⟩
        · obtain ⟨y, a, b⟩ := hh 0 (by omega)
          simp [walk] at a; rw [a]; exact b
        · obtain ⟨z, a, b⟩ := hh (j + 1) (by simpa using hj)
          exact ⟨z, by simpa [walk, hy] using a, b⟩
    refine key _ _ fun j hj => ?_
    rw [List.take_take]
    obtain ⟨y, a, _, b⟩ := h (min j k) (by omega)
    exact ⟨y, a, b⟩
  · intro y hy
    rcases hc with hc | hc
    · exact Or.inr (Or.inl hc)
    · exact hc.readable (walked_lt hi _ (root_lt hi) y hy) _

theorem existsL_false {s : FS} {q : Str} (h : s.existsL q = .ok false) : s.exists_ q = .ok false := by
  unfold FS.existsL FS.existsLG at h
  obtain ⟨b, _, hb⟩ := except_bind_ok h
  cases b with
  | true => simp at hb
  | false => simpa [FS.exists_] using hb

/-- In a genuine filesystem the prefixes of the location of a directory are directories. -/
theorem allDirs_of_walk {s : FS} (hi : Inv s) (hg : Genuine s) {l : List Str} {r : Ref} (hwk : walk s.heap rootRef l = some r)
    (hdir : (s.heap r).isDir = true) : AllDirs s l := by
  intro k hk
  obtain ⟨y, h1, h2, h3⟩ := walk_take hwk k hk
  have hy : (s.heap y).isDir = true := by
    by_cases e : k = l.length
    · rw [h3 e]; exact hdir
    · exact h2 (by omega)
  exact ⟨y, h1, hy, by rw [← hg y (walk_lt hi _ (root_lt hi) h1)]; exact hy⟩

theorem Spec.NewDirs.allDirs {s s' : FS} (hi : Inv s) (hg : Genuine s) {d : Ref} {ld post names : List Str} {c : Str} {perm : Nat}
    (hN : NewDirs s s' d ld (c :: post) perm) (e : names = ld ++ c :: post) (hperm : perm < 0o10000) : AllDirs s' names := by
  have hwk := hN.base
  have hdir := hN.isDir (by simp)
  have old := @allDirs_of_walk s hi hg
  intro k hk
  by_cases hkl : k ≤ ld.length
  · obtain ⟨y, a, b, c'⟩ := old hwk hdir k hkl
    have htk : (names.take k) = ld.take k := by rw [e, List.take_append_of_le_length hkl]
    have hyl := walk_lt hi _ (root_lt hi) a
    have hob : (s'.heap y).isDir = (s.heap y).isDir ∧ (s'.heap y).mode = (s.heap y).mode := by
      by_cases hyd : y = d
      · subst hyd
        obtain ⟨x, hx⟩ := hN.dir c post rfl
        rw [hx]; exact ⟨b.symm, rfl⟩
      · rw [hN.others y hyl (Or.inr hyd)]; exact ⟨rfl, rfl⟩
    refine ⟨y, ?_, by rw [hob.1]; exact b, by unfold Obj.isDirMode at c' ⊢; rw [hob.2]; exact c'⟩
    rw [htk, hN.elsewhere]
    · exact a
    · intro j h1 h2 e2
      have := congrArg List.length e2
      rw [List.length_append, List.length_take, List.length_take] at this
      omega
  · obtain ⟨x, a, b, c', m, _⟩ := hN.made (k - ld.length) (by omega) (by rw [e] at hk; simp only [List.length_append] at hk; omega)
    refine ⟨x, ?_, c', ?_⟩
    · rw [e, List.take_append, List.take_of_length_le (by omega)]; exact b
    · rw [isDirMode_iff, m]
      exact ifmt_dir hperm

/-- C42: after a successful `makedirs` on a path without links, the path and all its ancestors are directories. -/
theorem makedirs_dirs {s : FS} (hs : Reachable s) (ht : s.cfg.Tree) (hm : s.cfg.isMac = false) (hsep : s.cfg.sep = '/') (hw : Within s)
    (hg : Genuine s) {p : Str} {names : List Str} (hp : s.absnorm p = absPath s.cfg.sep names) (hn : ∀ w ∈ names, Plain s.cfg.sep w)
    (hl : NoLink s.heap rootRef names) (hd : absPath s.cfg.sep names ≠ s.devName) {mode : Nat} (hmode : mode < 0o10000) {ok : Bool} {s' : FS}
    (h : makedirs p mode ok s = (.ok (), s')) : AllDirs s' names := by
  have hi := reachable_inv hs
  have old := @allDirs_of_walk s hi hg
  rcases makedirs_effect hs ht hm hsep hw p mode ok with ⟨e, s1, h1, _⟩ | ⟨s1, names1, h1, h2, h3, h4⟩
  · rw [h] at h1; simp at h1
  · rw [h] at h1; injection h1 with _ h1; subst h1
    have hnn : names1 = names := absPath_inj ht.posix h3 (plain_proper hn) (by rw [← h2, hp])
    subst hnn
    rcases h4 with ⟨hu, ⟨_, r, hr, hdir⟩ | ⟨hex, d, hf⟩⟩ | ⟨hex, pre, c, post, d, ld, e, hf, hN⟩
    · have hwk := ((resolve_plain hi ht s.rc hn hl hd).mp hr).1
      intro k hk
      obtain ⟨y, a, b, c⟩ := old hwk hdir k hk
      have hyl := walk_lt hi _ (root_lt hi) a
      refine ⟨y, ?_, by rw [hu.obj y hyl]; exact b, by rw [hu.obj y hyl]; exact c⟩
      rw [walk_congr hi.g.entLt (fun x hx => by rw [hu.obj x hx]) _ _ (root_lt hi)]; exact a
    · have hwk := hf.walk hl
      have hx := exists_plain hi ht s.rc hn hl hd
      have hx2 := existsL_false hex
      rw [show s.exists_ = s.existsG s.rc from rfl, hx, hwk] at hx2
      simp at hx2
    · have hwk := hf.walk (noLink_prefix (by rw [← e]; exact hl))
      have hdir := hN.isDir (by simp)
      have hld : ld = pre := walk_dir_unique hi _ _ hN.base hwk hdir
      subst hld
      exact hN.allDirs hi hg e (Nat.lt_of_le_of_lt (andNot_le _ _) hmode)

/-- C42: `makedirs(p, exist_ok=True)` on a path all of whose prefixes are directories succeeds and changes nothing. -/
theorem makedirs_again {s : FS} (hi : Inv s) (ht : s.cfg.Tree) (hm : s.cfg.isMac = false) (hsep : s.cfg.sep = '/') (hrd : Readable s)
    {p : Str} (hpe : p ≠ []) {names : List Str} (hp : s.absnorm p = absPath s.cfg.sep names) (hn : ∀ w ∈ names, Plain s.cfg.sep w)
    (hd : ∀ k ≤ names.length, absPath s.cfg.sep (names.take k) ≠ s.devName) (h : AllDirs s names) (mode : Nat) :
    ∃ s', makedirs p mode true s = (.ok (), s') ∧ s' = s := by
  have hpr := plain_proper hn
  have hcan := absCanon_names hpr
  have hex : s.exists_ (absPath s.cfg.sep names) = .ok true := by
    have := exists_plain hi ht s.rc hn h.noLink (by have := hd _ (Nat.le_refl _); rwa [List.take_length] at this)
    obtain ⟨x, h1, _⟩ := h names.length (Nat.le_refl _)
    rw [List.take_length] at h1
    rw [h1] at this; exact this
  obtain ⟨x, hr, hdir⟩ := h.resolves hi ht hn (Nat.le_refl _) (hd _ (Nat.le_refl _)) (Or.inr hrd : true = false ∨ _)
  rw [List.take_length] at hr
  have hlk : s.existsL (absPath s.cfg.sep names) = .ok true := by
    rcases List.eq_nil_or_concat names with rfl | ⟨l, n, e⟩
    · rw [absPath_nil]; exact existsL_root hi ht.posix
    · rw [List.concat_eq_append] at e
      have hpl : ∀ w ∈ l, Plain s.cfg.sep w := fun w hw => hn w (by rw [e]; simp [hw])
      have hnn : Proper s.cfg.sep n := (hn n (by rw [e]; simp)).1
      have htk : names.take l.length = l := by rw [e]; simp
      obtain ⟨d, hres, _⟩ := h.resolves hi ht hn (k := l.length) (by rw [e]; simp) (hd _ (by rw [e]; simp)) (Or.inr hrd : true = false ∨ _)
      rw [htk] at hres
      have hwx : ∃ x, walk s.heap rootRef (l ++ [n]) = some x ∧ (s.heap x).isLnk = false := by
        obtain ⟨x, h1, _, h2⟩ := h names.length (Nat.le_refl _)
        rw [List.take_length] at h1
        refine ⟨x, by rw [← e]; exact h1, ?_⟩
        by_contra hc
        rw [lnk_not_dirMode (by simpa using hc)] at h2; simp at h2
      obtain ⟨x, hwx, hlx⟩ := hwx
      have hwd : walk s.heap rootRef l = some d := ((resolve_plain hi ht s.rc hpl (noLink_prefix (by rw [← e]; exact h.noLink)) (by
        have := hd l.length (by rw [e]; simp); rwa [htk] at this)).mp hres).1
      rw [walk_append, hwd] at hwx
      have hal : alookup n (s.heap d).entries = some x := by
        simp only [Option.bind_some, walk] at hwx
        cases ha : alookup n (s.heap d).entries with
        | none => rw [ha] at hwx; simp at hwx
        | some y => rw [ha] at hwx; simpa using hwx
      have hnl : s.isLink (absPath s.cfg.sep names) = .ok false := by
        unfold FS.isLink FS.isLinkG FS.isOfTypeG FS.resolveFG
        simp only [Bool.false_eq_true, if_false]
        have hcan' := absCanon_names hpr
        have hlr : (∃ e, s.lresolveG s.rc (absPath s.cfg.sep names) = .error (.os e)) ∨ s.lresolveG s.rc (absPath s.cfg.sep names) = .ok x := by
          unfold FS.lresolveG
          rw [if_neg absPath_ne_nil, if_neg (by rw [e]; exact absPath_snoc_ne_root (plain_proper hpl) hnn)]
          have hlp : s.lparent (absPath s.cfg.sep names) = (absPath s.cfg.sep l, n) := by
            unfold FS.lparent
            simp only [stripTrailing_canon ht.posix hcan', absPath_ne_dot ht.posix, if_false, originalPath_tree ht.cs]
            rw [e]
            simp only [splitpath_absPath ht.posix (plain_proper hpl) hnn, absPath_ne_nil, if_false]
          have hr' : s.resolveG s.rc (absPath s.cfg.sep l) true = .ok d := hres
          rw [hlp, hr']
          simp only [bind, Except.bind]
          unfold FS.lentry
          cases hc : (s.heap d).content with
          | file b => exact Or.inl ⟨_, rfl⟩
          | dir es =>
            rw [mem_entries hc] at hal
            by_cases hpm : (s.heap d).mode &&& PERM_READ = 0
            · simp [hpm]
            · simp [hpm, hnn.1, getEntry_tree ht.cs, hal]
        rcases hlr with ⟨e, hlr⟩ | hlr
        · simp only [hlr, bind, Except.bind, Err.isOS, if_true]
        · simp only [hlr, bind, Except.bind, FS.raiseForSepG, absCanon_not_endsWithSep ht.posix hcan', Bool.false_eq_true, if_false,
            pure, Except.pure]
          unfold Obj.isLnk at hlx
          rw [hlx]
      unfold FS.existsL FS.existsLG
      rw [show s.isLinkG s.rc = s.isLink from rfl, hnl]
      exact hex
  have hcr : createDir (s.absnorm p) (andNot mode s.umask) s = (.error (.os .EEXIST), s) := by
    unfold createDir createDirG
    rw [M.bind_eq]
    dsimp only [M.get]
    rw [makeStringPath_slash hsep, hp, absnorm_canon hi ht.posix hcan, M.bind_eq, autoMount_posix ht.posix]
    dsimp only
    rw [M.bind_eq, rd_eq (f := (·.existsL (absPath s.cfg.sep names))) hlk]
    rfl
  refine ⟨s, ?_, rfl⟩
  rw [makedirs_run hm hpe, hcr]
  have hb : s.makedirsBad (s.absnorm p) true = .ok false := by
    unfold FS.makedirsBad
    rw [hp]
    show (s.resolve (absPath s.cfg.sep names) >>= _) = _
    rw [hr]
    simp [bind, Except.bind, hdir]
  simp only [hb]
  rfl

/-- C42: a successful `makedirs` on a path without links followed by `makedirs(p, exist_ok=True)`: the second call
succeeds and changes nothing (the caller being allowed to read the result). -/
theorem makedirs_idempotent {s : FS} (hs : Reachable s) (ht : s.cfg.Tree) (hm : s.cfg.isMac = false) (hsep : s.cfg.sep = '/') (hw : Within s)
    (hg : Genuine s) {p : Str} {names : List Str} (hp : s.absnorm p = absPath s.cfg.sep names) (hn : ∀ w ∈ names, Plain s.cfg.sep w)
    (hl : NoLink s.heap rootRef names) (hd : ∀ k ≤ names.length, absPath s.cfg.sep (names.take k) ≠ s.devName)
    {mode : Nat} (hmode : mode < 0o10000) {ok : Bool} {s' : FS} (h : makedirs p mode ok s = (.ok (), s')) (hrd : Readable s') (mode2 : Nat) :
    makedirs p mode2 true s' = (.ok (), s') := by
  have hi := reachable_inv hs
  have hg' := makedirs_pres p mode ok s hi
  unfold wp at hg'
  rw [h] at hg'
  have hpe : p ≠ [] := by
    intro e; subst e
    have : makedirs [] mode ok s = (.error (.os .ENOENT), s) := rfl
    rw [h] at this; simp at this
  have hall := makedirs_dirs hs ht hm hsep hw hg hp hn hl (by have := hd _ (Nat.le_refl _); rwa [List.take_length] at this) hmode h
  have hdn : s'.devName = s.devName := by
    rcases makedirs_effect hs ht hm hsep hw p mode ok with ⟨e, s1, h1, _⟩ | ⟨s1, names1, h1, h2, h3, h4⟩
    · rw [h] at h1; simp at h1
    · rw [h] at h1; injection h1 with _ h1; subst h1
      have : s'.heap devNullRef = s.heap devNullRef := by
        rcases h4 with ⟨hu, _⟩ | ⟨_, pre, c, post, d, ld, _, _, hN⟩
        · exact hu.obj _ (devNull_lt hi)
        · exact hN.others _ (devNull_lt hi) (Or.inr (isDir_ne_devNull hi (hN.isDir (by simp))).symm)
      unfold FS.devName; rw [this]
  have hcfg := hg'.ext.cfg
  obtain ⟨s2, h1, h2⟩ := makedirs_again hg'.inv (by rw [hcfg]; exact ht) (by rw [hcfg]; exact hm) (by rw [hcfg]; exact hsep) hrd hpe
    (names := names) (by
      rw [hcfg, ← hp]
      unfold FS.absnorm
      rw [hcfg, hg'.ext.cwd]) (by rw [hcfg]; exact hn) (by rw [hcfg, hdn]; exact hd) hall mode2
  rw [h2] at h1; exact h1

/-- The hypotheses hold for the demo filesystem and `makedirs("/a/x/y")`, which makes two directories. -/
example : (Reachable demo ∧ demo.cfg.Tree ∧ demo.cfg.isMac = false ∧ demo.cfg.sep = '/' ∧ Within demo ∧ Genuine demo) ∧
    demo.absnorm ['/', 'a', '/', 'x', '/', 'y'] = absPath demo.cfg.sep [['a'], ['x'], ['y']] ∧
    NoLink demo.heap rootRef [['a'], ['x'], ['y']] ∧ (makedirs ['/', 'a', '/', 'x', '/', 'y'] 0o777 false demo).1 = .ok () ∧
    (makedirs ['/', 'a', '/', 'x', '/', 'y'] 0o777 false demo).2.next = demo.next + 2 ∧
    Readable (makedirs ['/', 'a', '/', 'x', '/', 'y'] 0o777 false demo).2 := by
  refine ⟨⟨demo_reachable, demo_tree, demo_mac, demo_sep, demo_within, demo_genuine⟩, by decide +kernel, ?_, by decide +kernel, by decide +kernel,
    Or.inl (by decide +kernel)⟩
  intro x hx
  have : alookup ['a'] (demo.heap rootRef).entries = some 2 := by decide +kernel
  rw [this] at hx; injection hx with hx; subst hx
  refine ⟨by decide +kernel, fun y hy => ?_⟩
  have : alookup ['x'] (demo.heap 2).entries = none := by decide +kernel
  rw [this] at hy; simp at hy

/-- The directories /a, /a/d and /d, and the relative link /a/l → d. -/
def relLinkFS : FS := runs [.mkdir ['/', 'a'] 0o777, .mkdir ['/', 'a', '/', 'd'] 0o777, .createSymlink ['/', 'a', '/', 'l'] ['d'] false,
  .mkdir ['/', 'd'] 0o777] (initFS demoCfg 50 0 0 0o022 7 none)

/-- C42 fails for paths through a relative link: `create_dir` resolves the link's text against the current directory
(fake_filesystem.py 2345-2349), so `makedirs("/a/l/x")` succeeds, making "/d/x", and "/a/l/x" does not exist. -/
theorem makedirs_link_counterexample : ∃ s s' p, Reachable s ∧ s.cfg.Tree ∧ Genuine s ∧ makedirs p 0o777 true s = (.ok (), s') ∧
    s'.exists_ p = .ok false ∧ s'.exists_ ['/', 'd', '/', 'x'] = .ok true := by
  refine ⟨relLinkFS, _, ['/', 'a', '/', 'l', '/', 'x'], ⟨_, _, _, _, _, _, _, _, rfl⟩, (by
    rw [show relLinkFS.cfg = demoCfg from runs_cfg]; exact demoCfg_tree), ?_,
    Prod.ext (by decide +kernel) rfl, by decide +kernel, by decide +kernel⟩
  intro x hx
  have hnx : relLinkFS.next = 6 := by decide +kernel
  rw [hnx] at hx
  have h : ∀ x < 6, (relLinkFS.heap x).isDir = (relLinkFS.heap x).isDirMode := by decide +kernel
  exact h x hx

end Verif
