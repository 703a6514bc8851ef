import Mathlib.Tactic.IntervalCases
import Verif.PathFacts
/-!
# The operations preserve the invariant
-/

namespace Verif
open Py Spec

/-! ## Mount points and create_dir -/

/-- setting the mode of directories made by this operation -/
theorem good_setMode {s0 s : FS} (h : Good s0 s) {r : Ref} (hr : s0.next ≤ r) (hr2 : 2 ≤ r) (perm : Nat) :
    Good s0 (s.setObj r fun o => { o with mode := S_IFDIR ||| perm }) := by
  have hi := h.inv
  have hp : ∀ x, ((s.setObj r fun o => { o with mode := S_IFDIR ||| perm }).heap x) =
      if x = r then { s.heap r with mode := S_IFDIR ||| perm } else s.heap x := fun x => by
    show upd s.heap r _ x = _; rw [upd_apply]
  have f : ∀ {β : Type} (g : Obj → β) (_ : ∀ o m, g { o with mode := m } = g o) (x : Ref),
      g ((s.setObj r fun o => { o with mode := S_IFDIR ||| perm }).heap x) = g (s.heap x) := by
    intro β g hg x
    rw [hp]; split
    · rename_i e; rw [hg, e]
    · rfl
  have hent := f Obj.entries (fun _ _ => rfl)
  have hdir := f Obj.isDir (fun _ _ => rfl)
  have hnl := f Obj.nlink (fun _ _ => rfl)
  have hino := f Obj.ino (fun _ _ => rfl)
  have hpar := f Obj.parent (fun _ _ => rfl)
  have hname := f Obj.name (fun _ _ => rfl)
  have hmode : ∀ x, x ≠ r → ((s.setObj r fun o => { o with mode := S_IFDIR ||| perm }).heap x).mode = (s.heap x).mode := by
    intro x hx; rw [hp, if_neg hx]
  have h0 : rootRef ≠ r := fun e => absurd (e ▸ hr2) (by decide)
  have h1 : devNullRef ≠ r := fun e => absurd (e ▸ hr2) (by decide)
  have g := hi.g
  refine ⟨⟨?_, hi.m, ?_, ?_⟩, ?_⟩
  · constructor
    · exact g.two
    · intro d hd e he; rw [hent] at he; exact g.entLt d hd e he
    · intro d hd e he; rw [hent] at he; exact g.entRoot d hd e he
    · intro d hd; rw [hent]; exact g.keys d hd
    · intro d hd e he hk; rw [hent] at he; rw [hdir] at hk; rw [hpar, hname]; exact g.dirEnt d hd e he hk
    · intro x hx p hpp; rw [hpar] at hpp; rw [hdir]; exact g.parDir x hx p hpp
    · intro x hx hk
      rw [hdir] at hk
      by_cases e : x = r
      · rw [hp, if_pos e]; exact mkDir_mode perm
      · rw [hmode x e]; exact g.dirMode x hx hk
    · intro d hd e he; rw [hent] at he; rw [hino]; exact g.entIno d hd e he
    · intro x hx i; rw [hino]; exact g.inoLe x hx i
    · intro x hx q hq i; rw [hino, hino]; exact g.inoInj x hx q hq i
    · rw [hdir]; exact g.rootDir
    · rw [hpar]; exact g.rootPar
    · rw [hino]; exact g.rootIno
  · constructor
    · rw [hmode _ h0]; exact hi.n.rootMode
    · rw [hdir]; exact hi.n.devFile
    · rw [hmode _ h1]; exact hi.n.devMode
    · exact hi.n.cwd
    · intro p m d hd e he; rw [hent] at he; exact hi.n.names p m d hd e he
    · exact hi.n.rootMount
    · rw [hname]; exact hi.n.rootName
  · intro c
    constructor
    · intro x hx
      rw [hnl, hdir, hent, refs_congr x (fun d _ => hent d)]
      exact (hi.t c).nlink x hx
    · intro x hx; exact ((hi.t c).rooted x hx).congr hpar
  · have e := h.ext
    exact ⟨e.cfg, e.limit, e.uid, e.gid, e.cwd, e.umask, e.clock, e.next, fun x hx => (hdir x).trans (e.kind x hx),
      fun x hx => by rw [hmode x (fun hxr => absurd (hxr ▸ hx) (Nat.not_lt.mpr hr))]; exact e.ftype x hx,
      fun x hx hi' => by rw [hino]; exact e.ino x hx hi', e.quota⟩

theorem good_setModes {s0 : FS} (perm : Nat) : ∀ (news : List Ref) {s : FS}, Good s0 s → (∀ r ∈ news, s0.next ≤ r ∧ 2 ≤ r) →
    Good s0 (news.foldl (fun s d => s.setObj d fun o => { o with mode := S_IFDIR ||| perm }) s) := by
  intro news
  induction news with
  | nil => intro s h _; exact h
  | cons r rs ih =>
    intro s h hr
    exact ih (good_setMode h (hr r (by simp)).1 (hr r (by simp)).2 perm) fun x hx => hr x (by simp [hx])

/-- names of path components are proper on POSIX filesystems -/
def CompsOk (k : Cfg) (cs : List Str) : Prop := k.Posix → ∀ w ∈ cs, Proper k.sep w

theorem createDirLoop_good {s0 : FS} (h2 : 2 ≤ s0.next) : ∀ (cs : List Str) (s : FS) (cur : Ref) (news : List Ref),
    Good s0 s → cur < s.next → CompsOk s.cfg cs → (∀ r ∈ news, s0.next ≤ r) →
    wp (createDirLoop cur cs news) (fun r s' => Good s0 s' ∧ ∀ d ns, r = .ok (d, ns) →
      d < s'.next ∧ ∀ x ∈ ns, s0.next ≤ x) s := by
  intro cs
  induction cs with
  | nil =>
    intro s cur news hg hc _ hn
    exact ⟨hg, fun d ns e => by injection e with e; injection e with e1 e2; subst e1; subst e2; exact ⟨hc, hn⟩⟩
  | cons c cs ih =>
    intro s cur news hg hc hok hn
    have hi := hg.inv
    have herr : ∀ (e : Err) (s' : FS), Good s0 s' → Good s0 s' ∧ ∀ d ns, (Except.error e : Except Err (Ref × List Ref)) = .ok (d, ns) →
        d < s'.next ∧ ∀ x ∈ ns, s0.next ≤ x := fun e s' h => ⟨h, fun _ _ e => by simp at e⟩
    unfold createDirLoop
    apply wp_getBind
    split
    · -- new directory
      apply wp_seq _ (newDir_fresh hi c PERM_DEF)
      · intro e s1 h; exact absurd h.2.1 (by simp)
      · intro d s1 ⟨hg1, hd, hf, hs1⟩
        injection hd with hd; subst hd
        have hne : cur ≠ s.next := Nat.ne_of_lt hc
        have hc1 : cur < s1.next := Nat.lt_of_lt_of_le hc hg1.ext.next
        have hname : NameOk s1 s.next := by
          intro p m
          rw [hs1] at p ⊢
          show Proper s.cfg.sep (upd s.heap s.next (mkDirObj c PERM_DEF s) s.next).name
          rw [upd_same]
          exact hok p c (by simp)
        apply wp_seq _ (addEntry_good hg1.inv (hf.addPre hg1.inv hc1 hne hname))
        · intro e s2 h
          exact herr e s2 (Good.trans hg.ext (Good.trans hg1.ext h))
        · intro _ s2 h
          have hg2 : Good s0 s2 := Good.trans hg.ext (Good.trans hg1.ext h)
          apply ih s2 s.next (news ++ [s.next]) hg2 (Nat.lt_of_lt_of_le hf.lt h.ext.next)
          · rw [h.ext.cfg, hg1.ext.cfg]; exact fun p w hw => hok p w (by simp [hw])
          · intro r hr
            rcases List.mem_append.mp hr with hr | hr
            · exact hn r hr
            · simp at hr; subst hr; exact hg.ext.next
    · rename_i nm r hr
      have hok' : CompsOk s.cfg cs := fun p w hw => hok p w (by simp [hw])
      have step : ∀ x, x < s.next → wp (M.get >>= fun s => if (s.heap x).mode &&& S_IFDIR ≠ S_IFDIR then M.raise .ENOTDIR
          else createDirLoop x cs news) (fun r s' => Good s0 s' ∧ ∀ d ns, r = .ok (d, ns) →
            d < s'.next ∧ ∀ x ∈ ns, s0.next ≤ x) s := by
        intro x hx
        apply wp_getBind
        apply wp_ite
        · intro _; exact herr _ _ hg
        · intro _; exact ih s x news hg hx hok' hn
      split
      · apply wp_readBind
        · intro e _; exact herr e s hg
        · intro a ha; exact step a (resolve_lt hi ha)
      · exact step r (dirContent_lt hi hc hr)

theorem pathComponents_ok {s : FS} (h : Inv s) (p : Str) : CompsOk s.cfg (s.cfg.pathComponents (s.absnorm p)) := by
  intro hp
  obtain ⟨names, hn, e⟩ := h.absnorm hp p
  rw [e, components_of_absPath hp hn]
  exact hn

theorem createDirG_good {auto : Str → M Unit} (ha : ∀ p, Pres (auto p)) (p : Str) (perm : Nat) {s : FS} (h : Inv s) :
    wp (createDirG auto p perm) (fun r s' => Good s s' ∧ ∀ d, r = .ok d → d < s'.next) s := by
  have herr : ∀ (e : Err) (s' : FS), Good s s' → Good s s' ∧ ∀ d, (Except.error e : Except Err Ref) = .ok d → d < s'.next :=
    fun e s' h => ⟨h, fun _ e => by simp at e⟩
  unfold createDirG
  apply wp_getBind
  apply wp_seq _ (ha _ s h)
  · intro e s' hg; exact herr e s' hg
  · intro _ s1 hg1
    apply wp_readBind
    · intro e _; exact herr e s1 hg1
    · intro b _
      apply wp_ite
      · intro _; exact herr _ s1 hg1
      · intro _
        apply wp_seq _ (createDirLoop_good hg1.inv.g.two _ s1 rootRef [] (Good.refl hg1.inv) (root_lt hg1.inv)
          (by rw [hg1.ext.cfg]; exact pathComponents_ok h _) (by simp))
        · intro e s2 h2; exact herr _ s2 (Good.trans hg1.ext h2.1)
        · rintro ⟨cur, news⟩ s2 ⟨hg2, hd⟩
          obtain ⟨hd1, hd2⟩ := hd cur news rfl
          apply wp_modifyBind
          have hg3 := good_setModes perm news hg2 (fun r hr => ⟨hd2 r hr, Nat.le_trans hg1.inv.g.two (hd2 r hr)⟩)
          have hnx : ∀ (l : List Ref) (s : FS), (l.foldl (fun s d => s.setObj d fun o => { o with mode := S_IFDIR ||| perm }) s).next = s.next := by
            intro l
            induction l with
            | nil => intro s; rfl
            | cons a l ih => intro s; exact ih _
          apply wp_pure
          refine ⟨Good.trans hg1.ext hg3, fun d e => ?_⟩
          injection e with e; subst e
          rw [hnx]; exact hd1

theorem addMountG_pres {auto : Str → M Unit} (ha : ∀ p, Pres (auto p)) (p : Str) (total : Option Int) :
    Pres (addMountG auto p total) := by
  intro s h
  unfold addMountG
  apply wp_getBind
  apply wp_ite
  · intro _; exact Good.refl h
  · intro hnew
    have hnew : ∀ m ∈ s.mounts, m.path ≠ s.absnorm p := by
      intro m hm e
      apply hnew
      rw [List.any_eq_true]
      exact ⟨m, hm, by simp [e]⟩
    apply wp_modifyBind
    have hg : Good s { s with lastDev := s.lastDev + 1, mounts := s.mounts ++ [{ path := s.absnorm p, idev := s.lastDev + 1, total := total, used := 0 }] } := by
      refine ⟨⟨h.g, ?_, ?_, h.t⟩, ?_⟩
      · constructor
        · intro m hm
          rcases List.mem_append.mp hm with hm | hm
          · exact Nat.le_succ_of_le (h.m.devLe m hm)
          · simp at hm; rw [hm]
        · show ((s.mounts ++ [_]).map Mount.idev).Nodup
          rw [List.map_append, List.nodup_append]
          refine ⟨h.m.devNodup, by simp, ?_⟩
          intro a ha' b hb
          simp at hb
          obtain ⟨m, hm, e⟩ := List.mem_map.mp ha'
          have := h.m.devLe m hm
          omega
        · show ((s.mounts ++ [_]).map Mount.path).Nodup
          rw [List.map_append, List.nodup_append]
          refine ⟨h.m.pathNodup, by simp, ?_⟩
          intro a ha' b hb
          simp at hb
          obtain ⟨m, hm, e⟩ := List.mem_map.mp ha'
          rw [hb, ← e]; exact hnew m hm
      · have n := h.n
        refine ⟨n.rootMode, n.devFile, n.devMode, n.cwd, n.names, ?_, n.rootName⟩
        obtain ⟨m, hm, e⟩ := n.rootMount
        exact ⟨m, List.mem_append_left _ hm, e⟩
      · refine ⟨rfl, rfl, rfl, rfl, rfl, rfl, rfl, Nat.le_refl _, fun _ _ => rfl, fun _ _ => rfl, fun _ _ _ => rfl, ?_⟩
        intro m hm t ht
        rcases List.mem_append.mp hm with hm | hm
        · exact Or.inr ⟨m, hm, rfl, rfl, le_refl _⟩
        · left; simp at hm; rw [hm]; exact le_max_right _ _
    apply wp_ite
    · intro e
      obtain ⟨m, hm, e'⟩ := h.n.rootMount
      exact absurd (e'.trans e.symm) (hnew m hm)
    · intro _
      apply wp_seq _ (createDirG_good ha _ _ hg.inv)
      · intro e s2 h2; exact Good.trans hg.ext h2.1
      · intro r s2 h2
        apply wp_modifyBind
        apply wp_pure
        exact Good.trans (hg.ext.trans h2.1.ext) (good_setObj h2.1.inv r _ ⟨rfl, rfl, rfl, rfl, rfl, fun _ => rfl, rfl⟩)

theorem mountForPathF_pres : ∀ n p, Pres (mountForPathF n p) := by
  intro n
  induction n with
  | zero => intro p; exact pres_throw _
  | succ n ih =>
    intro p
    unfold mountForPathF
    apply pres_bind pres_get
    intro s
    dsimp only
    split
    · exact pres_pure _
    · apply pres_ite
      · intro _
        apply addMountG_pres
        intro q
        apply pres_ite
        · intro _; exact pres_bind (ih q) fun _ => pres_pure _
        · intro _; exact pres_pure _
      · intro _; exact pres_throw _

theorem mountForPath_pres (p : Str) : Pres (mountForPath p) := fun s h => mountForPathF_pres s.limit p s h

theorem autoMount_pres (p : Str) : Pres (autoMount p) := by
  unfold autoMount
  apply pres_bind pres_get
  intro s
  apply pres_ite
  · intro _; exact pres_bind (mountForPath_pres p) fun _ => pres_pure _
  · intro _; exact pres_pure _

theorem createDir_pres (p : Str) (perm : Nat) : Pres (createDir p perm) := fun _ h =>
  (createDirG_good autoMount_pres p perm h).1

theorem addMountPoint_pres (p : Str) (total : Option Int) : Pres (addMountPoint p total) :=
  addMountG_pres autoMount_pres p total

/-! ## Objects -/

/-- sequencing with a preserved step -/
theorem wp_pres {α β : Type} {m : M α} {f : α → M β} {s0 s : FS} (hg : Good s0 s) (hm : Pres m)
    (hf : ∀ a s', Good s0 s' → Good s s' → wp (f a) (fun _ s' => Good s0 s') s') :
    wp (m >>= f) (fun _ s' => Good s0 s') s := by
  apply wp_seq _ (hm s hg.inv)
  · intro e s' h; exact Good.trans hg.ext h
  · intro a s' h; exact hf a s' (Good.trans hg.ext h) h

theorem wp_rd {α β : Type} {g : FS → Except Err α} {f : α → M β} {s0 s : FS} (hg : Good s0 s)
    (hf : ∀ a, g s = .ok a → wp (f a) (fun _ s' => Good s0 s') s) :
    wp (rd g >>= f) (fun _ s' => Good s0 s') s :=
  wp_readBind (fun _ _ => hg) hf

theorem wp_end {α : Type} {m : M α} {s0 s : FS} (hg : Good s0 s) (h : wp m (fun _ s' => Good s s') s) :
    wp m (fun _ s' => Good s0 s') s := wp_mono h fun _ _ h => Good.trans hg.ext h

theorem splitName_ok {s : FS} (h : Inv s) {q : Str} {b : Bool} (he : s.existsL (s.absnorm q) = .ok b)
    (hb : ¬ b = true) (hp : s.cfg.Posix) : Proper s.cfg.sep (s.cfg.splitpath (s.absnorm q)).2 := by
  rcases absCanon_cases (h.absnorm hp q) with e | ⟨names, w, hn, hw, e⟩
  · rw [e, absPath_nil, existsL_root h hp] at he
    injection he with he
    exact absurd he.symm hb
  · rw [e, splitpath_absPath hp hn hw]; exact hw

theorem removeObject_pres (p : Str) : Pres (removeObject p) := by
  intro s h
  unfold removeObject
  apply wp_getBind
  apply wp_ite
  · intro _; exact Good.refl h
  · intro _
    apply wp_tryCatch
    have : wp (do
        let d ← rd (·.resolve (s.cfg.splitpath (s.absnorm (s.originalPath p))).1 true false)
        removeEntry d (s.cfg.splitpath (s.absnorm (s.originalPath p))).2 true) (fun _ s' => Good s s') s := by
      apply rdBind_wp h
      intro d hd
      exact wp_mono (removeEntry_post h (resolve_lt h hd) _ _) fun _ _ hp => hp.good
    apply wp_mono this
    intro r s' hg
    cases r with
    | ok a => exact hg
    | error e => cases e <;> exact hg

theorem createFileTail_good {s : FS} (h : Inv s) (parent nm p : Str) (mode : Nat) (contents : Option Bytes)
    (size : Option Nat) (um : Bool) (hn : s.cfg.Posix → Proper s.cfg.sep nm) :
    wp (createFileTail parent nm p mode contents size um) (fun _ s' => Good s s') s := by
  unfold createFileTail
  apply wp_getBind
  apply wp_seq _ (newFile_fresh h nm _ none)
  · intro e s1 h1; exact absurd h1.2.1 (by simp)
  · intro r s1 ⟨hg1, hr, hf, hs1⟩
    injection hr with hr; subst hr
    have hname : NameOk s1 s.next := by
      intro p m
      rw [hs1] at p ⊢
      show Proper s.cfg.sep (upd s.heap s.next _ s.next).name
      rw [upd_same]
      exact hn p
    apply wp_seq _ (addObject_fresh hg1.inv parent hf hname)
    · intro e s2 h2; exact Good.trans hg1.ext h2
    · intro _ s2 h2
      have hg2 : Good s s2 := Good.trans hg1.ext h2
      dsimp only
      have cat : ∀ c : Option Bytes, Pres (catchOS (match size with
          | some n => setLargeFileSize s.next n
          | none => do let _ ← setInitialContents s.next (c.getD []); M.pure ())
          fun e => do removeObject p; M.throw e) := by
        intro c
        apply pres_catchOS
        · split
          · exact setLargeFileSize_pres _ _
          · exact pres_bind (setInitialContents_pres _ _) fun _ => pres_pure _
        · intro e; exact pres_bind (removeObject_pres p) fun _ => pres_throw _
      apply wp_ite
      · intro _
        apply wp_pres hg2 (cat _)
        intro _ s3 hg3 _; exact hg3
      · intro _; exact hg2

theorem fileParent_pres (parent : Str) (cm : Bool) : Pres (fileParent parent cm) := by
  unfold fileParent
  apply pres_bind (pres_rd _)
  intro b
  apply pres_ite
  · intro _
    apply pres_ite
    · intro _; exact pres_raise _
    · intro _; exact pres_bind (createDir_pres _ _) fun _ => pres_pure _
  · intro _; exact pres_bind pres_get fun _ => pres_pure _

theorem createFileI_pres (p : Str) (mode : Nat) (contents : Option Bytes) (size : Option Nat) (cm um : Bool) :
    Pres (createFileI p mode contents size cm um) := by
  intro s h
  unfold createFileI
  apply wp_getBind
  apply wp_rd (Good.refl h)
  intro b hb
  apply wp_ite
  · intro _; exact Good.refl h
  · intro hbf
    have hname := splitName_ok h hb hbf
    dsimp only
    apply wp_pres (Good.refl h) (autoMount_pres _)
    intro _ s1 hg1 _
    apply wp_pres hg1 (fileParent_pres _ _)
    intro parent s2 hg2 _
    apply wp_end hg2
    apply createFileTail_good hg2.inv
    rw [hg2.ext.cfg]; exact hname

theorem createFile_pres (p : Str) (mode : Nat) (contents : Option Bytes) (size : Option Nat) (cm um : Bool) :
    Pres (createFile p mode contents size cm um) := createFileI_pres p mode contents size cm um

theorem createSymlink_pres (p target : Str) (cm : Bool) : Pres (createSymlink p target cm) := by
  unfold createSymlink
  apply pres_bind pres_get
  intro s
  dsimp only
  have tail : ∀ q, Pres (do
      let p ← if !(← rd (·.isLink q)) then rd (·.resolvePath q) else M.pure q
      createFileI p (S_IFLNK ||| PERM_DEF) (some (s.cfg.enc (s.cfg.makeStringPath target))) none cm false) := by
    intro q
    apply pres_bind (pres_rd _)
    intro b
    split
    · exact pres_bind (pres_rd _) fun _ => createFileI_pres _ _ _ _ _ _
    · exact pres_bind (pres_pure _) fun _ => createFileI_pres _ _ _ _ _ _
  apply pres_ite
  · intro _
    apply pres_bind (pres_rd _)
    intro b
    apply pres_ite
    · intro _; exact pres_raise _
    · intro _
      apply pres_bind (pres_rd _)
      intro b2
      apply pres_ite
      · intro _
        apply pres_ite
        · intro _; exact pres_raise _
        · intro _; exact tail _
      · intro _
        apply pres_ite
        · intro _; exact pres_raise _
        · intro _
          apply pres_bind (pres_rd _)
          intro b3
          apply pres_ite
          · intro _; exact pres_raise _
          · intro _
            apply pres_ite
            · intro _
              apply pres_bind (pres_rd _)
              intro b4
              apply pres_ite
              · intro _; exact pres_bind (removeObject_pres _) fun _ => tail _
              · intro _; exact tail _
            · intro _; exact pres_raise _
  · intro _; exact tail _

theorem linkParent_pres (parent : Str) (cm : Bool) : Pres (linkParent parent cm) := by
  unfold linkParent
  apply pres_bind (pres_rd _)
  intro b
  apply pres_ite
  · intro _
    apply pres_ite
    · intro _; exact pres_bind (createDir_pres _ _) fun _ => pres_pure' _
    · intro _; exact pres_raise _
  · intro _; exact pres_pure' _

theorem linkTail_good {s : FS} (h : Inv s) (old new parent base : Str) (follow : Bool)
    (hn : s.cfg.Posix → Proper s.cfg.sep base) :
    wp (linkTail old new parent base follow) (fun _ s' => Good s s') s := by
  unfold linkTail
  apply wp_getBind
  apply wp_ite
  · intro _; exact Good.refl h
  intro _
  apply wp_ite
  · intro _; exact Good.refl h
  intro _
  apply wp_seq (fun r s1 => s1 = s ∧ ∀ x, r = .ok x → x < s.next)
  · unfold catchOS
    apply wp_tryCatch
    apply wp_read
    cases hr : s.resolve old follow with
    | ok a => exact ⟨rfl, fun x e => by injection e with e; subst e; exact resolve_lt h hr⟩
    | error e =>
      apply wp_ite
      · intro _; exact ⟨rfl, fun x e => by cases e⟩
      · intro _; exact ⟨rfl, fun x e => by cases e⟩
  · rintro e s1 ⟨rfl, _⟩; exact Good.refl h
  · rintro r s1 ⟨rfl, hr⟩
    have hr := hr r rfl
    apply wp_getBind
    apply wp_ite
    · intro _; exact Good.refl h
    · intro hmode
      have hfile : (s1.heap r).isDir = false := by
        cases hd : (s1.heap r).isDir with
        | false => rfl
        | true => exact absurd (h.g.dirMode r hr hd) hmode
      apply wp_modifyBind
      have hg := good_setObj h r (fun o => { o with name := base })
        ⟨rfl, rfl, rfl, rfl, rfl, fun e => by rw [hfile] at e; simp at e, rfl⟩
      apply wp_seq _ (addObject_file hg.inv parent (Nat.lt_of_lt_of_le hr hg.ext.next) ?_ ?_)
      · intro e s2 h2; exact Good.trans hg.ext h2
      · intro _ s2 h2; exact Good.trans hg.ext h2
      · show (upd s1.heap r _ r).isDir = false
        rw [upd_same]; exact hfile
      · intro p m
        show Proper s1.cfg.sep (upd s1.heap r _ r).name
        rw [upd_same]; exact hn p

theorem createLink_pres (old new : Str) (follow cm : Bool) : Pres (createLink old new follow cm) := by
  intro s h
  unfold createLink
  apply wp_getBind
  apply wp_rd (Good.refl h)
  intro b hb
  apply wp_ite
  · intro _; exact Good.refl h
  · intro hbf
    have hname := splitName_ok h hb hbf
    dsimp only
    apply wp_pres (Good.refl h) (linkParent_pres _ _)
    intro _ s1 hg1 _
    apply wp_end hg1
    apply linkTail_good hg1.inv
    rw [hg1.ext.cfg]; exact hname

theorem mkdirTail_good {s : FS} (h : Inv s) (p : Str) (mode : Nat)
    (hn : s.cfg.Posix → s.cfg.isMac = false → Proper s.cfg.sep (s.cfg.splitpath p).2) :
    wp (mkdirTail p mode) (fun _ s' => Good s s') s := by
  unfold mkdirTail
  apply wp_getBind
  dsimp only
  apply wp_seq _ (newDir_fresh h _ _)
  · intro e s1 h1; exact absurd h1.2.1 (by simp)
  · intro r s1 ⟨hg1, hr, hf, hs1⟩
    injection hr with hr; subst hr
    apply wp_end hg1
    apply addObject_fresh hg1.inv _ hf
    intro p m
    rw [hs1] at p m ⊢
    show Proper s.cfg.sep (upd s.heap s.next _ s.next).name
    rw [upd_same]
    exact hn p m

theorem mkdir_pres (p : Str) (mode : Nat) : Pres (mkdir p mode) := by
  intro s h
  unfold mkdir
  apply wp_getBind
  apply wp_ite
  · intro _; exact Good.refl h
  intro _
  dsimp only
  apply wp_rd (Good.refl h)
  intro _ _
  apply wp_rd (Good.refl h)
  intro b hb
  apply wp_ite
  · intro _
    apply wp_rd (Good.refl h)
    intro b2 hb2
    apply wp_ite
    · intro hm
      apply wp_pres (Good.refl h) (removeObject_pres _)
      intro _ s1 hg1 _
      apply wp_end hg1
      apply mkdirTail_good hg1.inv
      intro _ m
      rw [hg1.ext.cfg] at m
      unfold FS.mkdirBroken at hb2
      rw [m, Bool.and_false, if_neg (by simp)] at hb2
      injection hb2 with hb2
      exact absurd (hb2.trans hm) (by simp)
    · intro _; exact Good.refl h
  · intro hbf
    exact mkdirTail_good h _ _ fun p _ => splitName_ok h hb hbf p

theorem makedirsTail_pres (p : Str) (mode : Nat) (ok : Bool) : Pres (makedirsTail p mode ok) := by
  unfold makedirsTail
  apply pres_bind pres_get
  intro s'
  apply pres_catchOS
  · exact pres_bind (createDir_pres _ _) fun _ => pres_pure _
  · intro e
    apply pres_ite
    · intro _; exact pres_throw _
    · intro _
      apply pres_bind (pres_rd _)
      intro bad
      apply pres_ite
      · intro _; exact pres_throw _
      · intro _; exact pres_pure' _

theorem makedirs_pres (p : Str) (mode : Nat) (ok : Bool) : Pres (makedirs p mode ok) := by
  unfold makedirs
  apply pres_ite
  · intro _; exact pres_raise _
  intro _
  apply pres_bind pres_get
  intro s
  dsimp only
  have tail := makedirsTail_pres (s.absnorm p) mode ok
  apply pres_ite
  · intro _
    apply pres_bind (pres_rd _)
    intro b
    apply pres_ite
    · intro _
      apply pres_bind (pres_rd _)
      intro b2
      apply pres_ite
      · intro _; exact pres_bind (removeObject_pres _) fun _ => tail
      · intro _; exact tail
    · intro _; exact tail
  · intro _; exact tail

theorem remove_pres (p : Str) : Pres (remove p) := by
  unfold remove
  apply pres_bind (pres_rd _)
  intro _
  exact pres_bind pres_get fun _ => removeObject_pres _

theorem rmdir_pres (p : Str) (a : Bool) : Pres (rmdir p a) := by
  unfold rmdir
  apply pres_bind (pres_rd _)
  intro go
  apply pres_bind pres_get
  intro s
  apply pres_ite
  · intro _; exact removeObject_pres _
  · intro _; exact pres_pure _

theorem removedirsLoop_pres : ∀ n h t, Pres (removedirsLoop n h t) := by
  intro n
  induction n with
  | zero => intro h t; exact pres_pure _
  | succ n ih =>
    intro h t
    unfold removedirsLoop
    apply pres_ite
    · intro _; exact pres_pure _
    intro _
    apply pres_bind (pres_rd _)
    intro d
    apply pres_bind pres_get
    intro s
    apply pres_ite
    · intro _; exact pres_pure _
    · intro _; exact pres_bind (rmdir_pres _ _) fun _ => ih _ _

theorem removedirs_pres (p : Str) : Pres (removedirs p) := by
  unfold removedirs
  apply pres_bind pres_get
  intro s
  apply pres_bind (pres_rd _)
  intro d
  apply pres_bind pres_get
  intro s'
  apply pres_ite
  · intro _; exact pres_raise _
  · intro _; exact pres_bind (rmdir_pres _ _) fun _ => removedirsLoop_pres _ _ _

theorem mknod_pres (p : Str) (mode : Nat) : Pres (mknod p mode) := by
  intro s h
  unfold mknod
  apply wp_getBind
  apply wp_ite
  · intro _; exact Good.refl h
  intro _
  apply wp_ite
  · intro _; exact Good.refl h
  intro _
  dsimp only
  apply wp_ite
  · intro _
    apply wp_rd (Good.refl h)
    intro b _
    apply wp_ite
    · intro _; exact Good.refl h
    · intro _; exact Good.refl h
  intro h1
  apply wp_ite
  · intro _; exact Good.refl h
  intro h2
  apply wp_rd (Good.refl h)
  intro b _
  apply wp_ite
  · intro _; exact Good.refl h
  intro _
  apply wp_seq _ (newFile_fresh h _ _ _)
  · intro e s1 h1; exact absurd h1.2.1 (by simp)
  · intro r s1 ⟨hg1, hr, hf, hs1⟩
    injection hr with hr; subst hr
    apply wp_end hg1
    apply addObject_fresh hg1.inv _ hf
    intro p' m
    rw [hs1] at p' m ⊢
    show Proper s.cfg.sep (upd s.heap s.next _ s.next).name
    rw [upd_same]
    exact ⟨h1, fun e => h2 (Or.inl e), fun e => h2 (Or.inr e), split_tail_no_sep p' p⟩

/-! ## Attributes -/

theorem ifmt_or {a b : Nat} : ifmt (a ||| b) = ifmt a ||| ifmt b := by
  unfold ifmt; apply Nat.eq_of_testBit_eq; intro i
  simp only [Nat.testBit_and, Nat.testBit_or]
  cases a.testBit i <;> cases b.testBit i <;> simp

theorem ifmt_and {a b : Nat} (h : ∀ i, S_IFMT.testBit i = true → b.testBit i = true) : ifmt (a &&& b) = ifmt a := by
  unfold ifmt; apply Nat.eq_of_testBit_eq; intro i
  simp only [Nat.testBit_and]
  cases hi : S_IFMT.testBit i
  · simp
  · rw [h i hi]; simp

theorem testBit_andNot (a b i : Nat) : (andNot a b).testBit i = (a.testBit i && !b.testBit i) := by
  unfold andNot
  rw [Nat.testBit_bitwise (by rfl)]

theorem S_IFMT_bits (i : Nat) : S_IFMT.testBit i = true → 12 ≤ i ∧ i < 16 := by
  intro h
  by_cases hi : i < 16
  · refine ⟨?_, hi⟩
    interval_cases i <;> first | omega | (exact absurd h (by decide))
  · have : S_IFMT < 2 ^ i := Nat.lt_of_lt_of_le (by decide : S_IFMT < 2 ^ 16) (Nat.pow_le_pow_right (by decide) (by omega))
    rw [Nat.testBit_lt_two_pow this] at h
    simp at h

theorem chmod_ftype (m mode : Nat) : ifmt (andNot m PERM_ALL ||| (mode &&& PERM_ALL)) = ifmt m := by
  unfold ifmt; apply Nat.eq_of_testBit_eq; intro i
  simp only [Nat.testBit_and, Nat.testBit_or, testBit_andNot]
  cases hi : S_IFMT.testBit i
  · simp
  · have := S_IFMT_bits i hi
    have hp : PERM_ALL.testBit i = false := by
      obtain ⟨h1, h2⟩ := this
      interval_cases i <;> decide
    simp [hp]

theorem chmodWin_ftype (m mode : Nat) :
    ifmt (if mode &&& PERM_WRITE ≠ 0 then m ||| 0o222 else m &&& 0o777555) = ifmt m := by
  split
  · rw [ifmt_or]
    have : ifmt 0o222 = 0 := by decide
    rw [this, Nat.or_zero]
  · apply ifmt_and
    intro i hi
    obtain ⟨h1, h2⟩ := S_IFMT_bits i hi
    interval_cases i <;> decide

theorem chmod_pres (p : Str) (mode : Nat) (f : Bool) : Pres (chmod p mode f) := by
  unfold chmod
  apply pres_bind (pres_rd _)
  intro r
  apply pres_setObj r (f := fun s o => _)
  intro s o
  refine ⟨rfl, rfl, rfl, rfl, rfl, fun _ => rfl, ?_⟩
  show ifmt (if s.cfg.isWin = true then _ else _) = _
  split
  · exact chmodWin_ftype _ _
  · exact chmod_ftype _ _

theorem utime_pres (p : Str) (ns : Option (Int × Int)) (f : Bool) : Pres (utime p ns f) := by
  unfold utime
  apply pres_bind (pres_rd _)
  intro r
  apply pres_setObj r (f := fun s o => _)
  intro s o
  split <;> exact ⟨rfl, rfl, rfl, rfl, rfl, fun _ => rfl, rfl⟩

theorem chown_pres (p : Str) (u g : Int) (f : Bool) : Pres (chown p u g f) := by
  unfold chown
  apply pres_bind (pres_rd _)
  intro r
  apply pres_setObj r (f := fun s o => _)
  intro s o
  exact ⟨rfl, rfl, rfl, rfl, rfl, fun _ => rfl, rfl⟩

theorem truncate_pres (p : Str) (n : Nat) : Pres (truncate p n) :=
  pres_bind (pres_rd _) fun r => setSize_pres r n

theorem removexattr_pres (p a : Str) (f : Bool) : Pres (removexattr p a f) := by
  unfold removexattr
  apply pres_bind pres_get
  intro s
  apply pres_ite
  · intro _; exact pres_throw _
  intro _
  apply pres_bind (pres_rd _)
  intro r
  apply pres_setObj r (f := fun s o => _)
  intro s o
  exact ⟨rfl, rfl, rfl, rfl, rfl, fun _ => rfl, rfl⟩

theorem setxattr_pres (p a : Str) (v : Bytes) (fl : Nat) (f : Bool) : Pres (setxattr p a v fl f) := by
  unfold setxattr
  apply pres_bind pres_get
  intro s
  apply pres_ite
  · intro _; exact pres_throw _
  intro _
  apply pres_bind (pres_rd _)
  intro r
  apply pres_ite
  · intro _; exact pres_raise _
  intro _
  apply pres_ite
  · intro _; exact pres_raise _
  intro _
  apply pres_setObj r (f := fun s o => _)
  intro s o
  exact ⟨rfl, rfl, rfl, rfl, rfl, fun _ => rfl, rfl⟩

end Verif
