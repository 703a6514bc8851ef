import Verif.Props.Refine
/-!
# C74, continued: `write_bytes` and `read_bytes`
-/

namespace Verif
open Py Spec Cfg

theorem fits_limitless {ms : List Mount} (h : ∀ m ∈ ms, m.total = none) (dev : Option Nat) (c : Int) : fits dev c ms = true := by
  unfold fits
  cases dev with
  | none => rfl
  | some i =>
    cases hf : ms.find? (fun m => m.idev == i) with
    | none => simp [hf]
    | some m => simp [hf, h m (List.mem_of_find?_eq_some hf)]

theorem Spec.Shape.ents {s t : FS} (k : Shape s t) (x : Ref) : (t.heap x).entries = (s.heap x).entries := by
  cases hd : (s.heap x).isDir with
  | true => unfold Obj.entries; rw [(k.objs x).dir hd]
  | false => rw [mem_entries_nil hd, mem_entries_nil ((k.objs x).file hd)]

theorem openPath_opens {s s1 : FS} {p q : Str} {a : Option Ref} {r : Ref} {md : OpenModes} (bf : Option Nat) (raw del : Bool)
    (ha : s.fileArg p = .ok (a, q)) (ho : openObject a p q md s = (.ok r, s1)) (hd : (s1.heap r).isDir = false) :
    ∃ h s', openPath p md bf raw del s = (.ok h, s') := by
  unfold openPath
  rw [M.bind_eq, rd_eq (f := fun x => x.fileArg p) ha]
  dsimp only
  rw [M.bind_eq, ho]
  dsimp only
  rw [M.bind_eq]
  dsimp only [M.get]
  rw [if_neg (by rw [hd]; simp)]
  have e1 : ∀ H : Handle, newHandle H s1 = (.ok s1.hnext, { s1 with handles := upd s1.handles s1.hnext H, hnext := s1.hnext + 1 }) := fun _ => rfl
  have e2 : ∀ (t : FS) (i : Nat), ∃ fd t', addOpenFile i t = (.ok fd, t') := by
    intro t i
    unfold addOpenFile
    cases minFd t.freeFds <;> exact ⟨_, _, rfl⟩
  rw [M.bind_eq, e1]
  dsimp only
  obtain ⟨fd, t', e3⟩ := e2 { s1 with handles := upd s1.handles s1.hnext (mkHandle s1 r md bf true raw del 0), hnext := s1.hnext + 1 } s1.hnext
  rw [M.bind_eq, e3]
  exact ⟨_, _, rfl⟩

theorem openPath_err {s s1 : FS} {p q : Str} {a : Option Ref} {e : Err} {md : OpenModes} (bf : Option Nat) (raw del : Bool)
    (ha : s.fileArg p = .ok (a, q)) (ho : openObject a p q md s = (.error e, s1)) :
    openPath p md bf raw del s = (.error e, s1) := by
  unfold openPath
  rw [M.bind_eq, rd_eq (f := fun x => x.fileArg p) ha]
  dsimp only
  rw [M.bind_eq, ho]

section
variable {k : Cfg} {u : Nat} {s : FS} (hk : Linux k) (h : RefSt k u s)
include hk h

theorem RefSt.arg {p : List Str} (hp : Usable p) : s.fileArg (absPath s.cfg.sep p) = .ok (walk s.heap rootRef p, absPath s.cfg.sep p) := by
  have hq : s.resolvePath (absPath s.cfg.sep p) = .ok (absPath s.cfg.sep p) :=
    resolvePath_plain h.inv (h.tree hk) s.rc (h.plain hk hp) (h.noLink hk p)
  cases hw : walk s.heap rootRef p with
  | none =>
    rcases fileArg_missing (h.ne_dev hk hp) (by rw [h.ex hk hp, hw]; rfl) with ⟨e, _, h2⟩ | ⟨q, h1, h2⟩
    · rw [hq] at h2; simp at h2
    · rw [hq] at h1; injection h1 with h1; subst h1; exact h2
  | some x =>
    obtain ⟨q, h1, h2⟩ := fileArg_existing (h.ne_dev hk hp) (by rw [h.ex hk hp, hw]; rfl) (h.res hk hp hw false)
    rw [hq] at h1; injection h1 with h1; subst h1; exact h2

theorem RefSt.leads {p : List Str} (hp : Usable p) {x : Ref} {b : Bytes} (hw : walk s.heap rootRef p = some x) (hc : (s.heap x).content = .file (some b))
    (hr : (s.heap x).isRegMode = true) (hn : x ≠ devNullRef) : LeadsTo s (absPath s.cfg.sep p) x b :=
  ⟨h.ne_dev hk hp, by rw [h.ex hk hp, hw]; rfl, h.res hk hp hw false, hc, hr, hn⟩

theorem RefSt.notDenied (x : Ref) (md : OpenModes) : ¬ OpenDenied s x md := by
  rintro ⟨h1, _⟩
  rw [h.isRoot hk] at h1; simp at h1

theorem RefSt.dirMode {l : List Str} {x : Ref} (hx : walk s.heap rootRef l = some x) : (s.heap x).isDirMode = (s.heap x).isDir := h.mode_dir hk hx

theorem RefSt.readBytes {p : List Str} (hp : Usable p) : Refines k u s (.readBytes p) := by
  refine h.did hk (f := fun b => .bytes b) (m := Verif.readBytes (absPath s.cfg.sep p)) (by rw [h.sep hk]; rfl) ?_
  have ha := h.arg hk hp
  have e0 : Verif.readBytes (absPath s.cfg.sep p) s =
    (openPath (absPath s.cfg.sep p) rbMode none false false >>= fun h => withFile h (read h none)) s := rfl
  rw [Ref.Step]
  rcases h.cases hk p with ⟨h1, h2⟩ | ⟨x, h1, h2, _, h3⟩ | ⟨x, b, h1, h2, h4, h5, hz, hn, h3⟩
  · rw [h1] at ha
    have : openObject none (absPath s.cfg.sep p) (absPath s.cfg.sep p) rbMode s = (.error (.os .ENOENT), s) := rfl
    rw [e0, M.bind_eq, openPath_err none false false ha this, h2]
    exact ⟨h, rfl, rfl⟩
  · rw [h1] at ha
    have : openObject (some x) (absPath s.cfg.sep p) (absPath s.cfg.sep p) rbMode s = (.error (.os .EISDIR), s) := by
      unfold openObject
      rw [if_neg (by simp [rbMode])]
      dsimp only
      rw [M.bind_eq]
      have e : initFileObject (some x) (absPath s.cfg.sep p) (absPath s.cfg.sep p) rbMode s = (.ok x, s) := by
        unfold initFileObject
        dsimp only
        rw [M.bind_eq]
        dsimp only [M.get]
        rw [h.isRoot hk]
        rfl
      rw [e]
      dsimp only
      rw [M.bind_eq]
      dsimp only [M.get]
      rw [h.dirMode hk h1, h2, if_pos rfl, (h.tree hk).posix.win]
      rfl
    rw [e0, M.bind_eq, openPath_err none false false ha this, h3]
    exact ⟨h, rfl, rfl⟩
  · have hl := h.leads hk hp h1 h4 h5 hn
    have hr := readBytes_existing h.reach hl
    have ho := open_rb h.reach hl
    have hb := h.toRefBase.open hk (absPath s.cfg.sep p) rbMode none false false
    rw [e0, M.bind_eq] at hr
    rw [e0, M.bind_eq]
    rcases hop : openPath (absPath s.cfg.sep p) rbMode none false false s with ⟨e | hh, s1⟩
    · rw [hop] at ho
      exact absurd ho.2.2 (h.notDenied hk x _)
    · rw [hop] at ho hb hr
      dsimp only at hb hr ho ⊢
      obtain ⟨_, _, hlt, ⟨fd, hH⟩, _⟩ := ho
      have hb2 := hb.withFile hk (m := read hh none) (o := .hRead hh none) hlt (by rw [hH]; rfl) rfl rfl trivial (by simp)
      rcases hwf : withFile hh (read hh none) s1 with ⟨e | c, s2⟩
      · rw [hwf] at hr
        exact absurd hr.2.1 (h.notDenied hk x _)
      · rw [hwf] at hr hb2
        dsimp only at hr hb2 ⊢
        obtain ⟨k1, k2⟩ := h.onlyRead hk hb2 hr.2.2.2
        refine ⟨k1, ?_⟩
        rw [k2, h3, hr.1]
        exact ⟨rfl, rfl⟩

/-- creating a file where nothing is -/
theorem RefSt.createFront {p : List Str} {n : Str} (hp : Usable (p ++ [n])) (hw : walk s.heap rootRef (p ++ [n]) = none) (mode : Nat) (b : Bytes)
    (cm um : Bool) :
    createFileI (absPath s.cfg.sep (p ++ [n])) mode (some b) none cm um s =
      if walk s.heap rootRef p = none then
        (if cm then (createDir (absPath s.cfg.sep p) >>= fun _ =>
          createFileTail (absPath s.cfg.sep p) n (absPath s.cfg.sep (p ++ [n])) mode (some b) none um) s else (.error (.os .ENOENT), s))
      else createFileTail (absPath s.cfg.sep p) n (absPath s.cfg.sep (p ++ [n])) mode (some b) none um s := by
  have ht := h.tree hk
  have hbp := plain_proper (h.plain hk hp)
  have hsp : s.cfg.splitpath (absPath s.cfg.sep (p ++ [n])) = (absPath s.cfg.sep p, n) :=
    splitpath_absPath ht.posix (fun w hw => hbp w (by simp [hw])) (hbp n (by simp))
  unfold createFileI
  rw [M.bind_eq]
  dsimp only [M.get]
  rw [makeStringPath_slash (h.sep hk), h.canon hk hp, M.bind_eq,
    rd_eq (f := fun x => x.existsL (absPath s.cfg.sep (p ++ [n]))) (h.existsL hk hp), hw]
  dsimp only
  rw [if_neg (by simp), hsp]
  dsimp only
  rw [if_neg absPath_ne_nil, M.bind_eq, autoMount_posix ht.posix]
  dsimp only
  rw [M.bind_eq]
  unfold fileParent
  rw [M.bind_eq, rd_eq (f := fun x => x.exists_ (absPath s.cfg.sep p)) (h.ex hk hp.init)]
  cases hd : walk s.heap rootRef p with
  | none =>
    cases cm with
    | false => rfl
    | true =>
      simp only [Option.isSome_none, Bool.not_false, Bool.not_true, if_true, Bool.false_eq_true, if_false]
      rw [M.bind_eq, M.bind_eq]
      rcases createDir (absPath s.cfg.sep p) PERM_DEF s with ⟨_ | _, _⟩ <;> rfl
  | some d =>
    dsimp only
    rw [if_neg (by simp), M.bind_eq]
    dsimp only [M.get, M.pure]
    rw [originalPath_tree ht.cs, if_neg (by simp)]

theorem RefSt.openObject_none {p : List Str} (hp : Usable p) :
    openObject none (absPath s.cfg.sep p) (absPath s.cfg.sep p) wbMode s =
      (createFileI (absPath s.cfg.sep p) (S_IFREG ||| PERM_DEF_FILE) (some []) none false true >>= fun r => M.get >>= fun s =>
        if (s.heap r).isDirMode then M.raise (if s.cfg.isWin then .EACCES else .EISDIR)
        else (M.modify fun s => s.setObj r fun o => { o with mtime := s.clock, ctime := if s.cfg.isWin then o.ctime else s.clock }) >>= fun _ => M.pure r) s := by
  have e : initFileObject none (absPath s.cfg.sep p) (absPath s.cfg.sep p) wbMode s =
      createFileI (absPath s.cfg.sep p) (S_IFREG ||| PERM_DEF_FILE) (some []) none false true s := by
    unfold initFileObject
    dsimp only
    rw [if_neg (by simp [wbMode]), M.bind_eq, rd_eq (f := fun x => x.isLink (absPath s.cfg.sep p)) (h.isLink hk hp)]
    dsimp only
    rw [if_neg (by simp), M.bind_eq]
    dsimp only [M.pure]
    rw [M.bind_eq]
    dsimp only [M.get]
    rw [h.noSep hk hp, if_neg (by simp)]
  unfold openObject
  rw [if_neg (by simp [wbMode])]
  dsimp only
  rw [M.bind_eq, M.bind_eq, e]
  rcases createFileI (absPath s.cfg.sep p) (S_IFREG ||| PERM_DEF_FILE) (some []) none false true s with ⟨e | r, s1⟩
  · rfl
  · dsimp only
    rw [M.bind_eq, M.bind_eq]
    dsimp only [M.get]
    split <;> rfl

/-- creating a file in a directory succeeds -/
theorem RefSt.createTail {p : List Str} {n : Str} {d : Ref} (hp : Usable (p ++ [n])) (hw : walk s.heap rootRef (p ++ [n]) = none)
    (hd : walk s.heap rootRef p = some d) (hdir : (s.heap d).isDir = true) (mode : Nat) (b : Bytes) (um : Bool) :
    ∃ s', createFileTail (absPath s.cfg.sep p) n (absPath s.cfg.sep (p ++ [n])) mode (some b) none um s = (.ok s.next, s') ∧
      (s'.heap s.next).mode = (if um then andNot mode s.umask else mode) ∧ (s'.heap s.next).isDir = false := by
  have hi := h.inv
  have hne : s.next ≠ devNullRef := fun e => by have := devNull_lt hi; rw [e] at this; exact Nat.lt_irrefl _ this
  unfold createFileTail
  rw [M.bind_eq]
  dsimp only [M.get]
  generalize (if um = true then andNot mode s.umask else mode) = m
  rw [M.bind_eq]
  unfold newObj
  dsimp only
  rw [M.bind_eq]
  rcases addObject_new hi (h.within hk) (h.tree hk) (o := mkFileObj n m none s) rfl rfl rfl rfl rfl (names := p) with
    ⟨e, _, g⟩ | ⟨s1, d', ld, g1, g2, _, _, g3⟩
  · exfalso
    rw [h.res hk hp.init hd true] at g
    rcases g with g | ⟨d', g, g'⟩
    · simp at g
    · injection g with g; subst g
      rw [h.dirMode hk hd, hdir] at g'
      rcases g' with ⟨_, g'⟩ | ⟨_, ⟨_, g'⟩ | ⟨_, g', _⟩ | ⟨_, g'⟩⟩
      · simp at g'
      · rw [hdir] at g'; simp at g'
      · rw [h.isRoot hk] at g'; simp at g'
      · rw [← h.child hk hd] at g'
        have : walk s.heap rootRef (p ++ [n]) = none := hw
        have e : (mkFileObj n m none s).name = n := rfl
        rw [e, this] at g'; simp at g'
  · rw [g1]
    dsimp only
    have hc : (s1.heap s.next).content = .file none := by rw [g3.obj]; rfl
    have hset := setInitialContents_eq hc hne b
    rw [g3.mounts, fits_limitless h.limitless, if_pos rfl] at hset
    rw [if_pos (by simp), M.bind_eq]
    unfold catchOS M.tryCatch
    dsimp only
    rw [M.bind_eq]
    rw [show (if (none : Option Nat) = none ∧ some b = none then some ([] : Bytes) else some b).getD [] = b from by simp, hset]
    refine ⟨_, rfl, ?_, ?_⟩
    · unfold FS.withContents
      simp only [upd_same, FS.setObj]
      rw [g3.obj]; rfl
    · unfold FS.withContents Obj.isDir
      simp only [upd_same, FS.setObj]

/-- creating a file in a file fails -/
theorem RefSt.createTail_file {p : List Str} {n : Str} {d : Ref} (hp : Usable (p ++ [n])) (c1 : walk s.heap rootRef p = some d)
    (c2 : (s.heap d).isDir = false) (mode : Nat) (b : Bytes) (um : Bool) :
    createFileTail (absPath s.cfg.sep p) n (absPath s.cfg.sep (p ++ [n])) mode (some b) none um s =
      (.error (.os .ENOTDIR), { s with
        heap := upd s.heap s.next (mkFileObj n (if um then andNot mode s.umask else mode) none s), next := s.next + 1 }) := by
  unfold createFileTail
  rw [M.bind_eq]
  dsimp only [M.get]
  generalize (if um = true then andNot mode s.umask else mode) = m
  rw [M.bind_eq]
  unfold newObj
  dsimp only
  rw [M.bind_eq]
  rcases addObject_new h.inv (h.within hk) (h.tree hk) (o := mkFileObj n m none s) rfl rfl rfl rfl rfl (names := p) with
    ⟨e, g1, g⟩ | ⟨s1, d', ld, g1, g2, _, g3, _⟩
  · rw [g1]
    rw [h.res hk hp.init c1 true] at g
    rcases g with g | ⟨d', g, g'⟩
    · simp at g
    · injection g with g; subst g
      rw [h.dirMode hk c1, c2] at g'
      rcases g' with ⟨rfl, _⟩ | ⟨g', _⟩
      · rfl
      · simp at g'
  · rw [h.res hk hp.init c1 true] at g2
    injection g2 with g2; subst g2
    rw [c2] at g3; simp at g3

theorem RefSt.opens {p : List Str} {n : Str} {d : Ref} (hu : u < 0o10000) (hp : Usable (p ++ [n])) (hw : walk s.heap rootRef (p ++ [n]) = none)
    (hd : walk s.heap rootRef p = some d) (hdir : (s.heap d).isDir = true) :
    ∃ i s', openPath (absPath s.cfg.sep (p ++ [n])) wbMode none false false s = (.ok i, s') := by
  have ha := h.arg hk hp
  rw [hw] at ha
  obtain ⟨s1, h1, h2, h3⟩ := h.createTail hk hp hw hd hdir (S_IFREG ||| PERM_DEF_FILE) [] true
  have hobj := h.openObject_none hk hp
  rw [M.bind_eq, h.createFront hk hp hw, if_neg (by rw [hd]; simp), h1] at hobj
  dsimp only at hobj
  rw [M.bind_eq] at hobj
  dsimp only [M.get] at hobj
  have hm : (s1.heap s.next).isDirMode = false := by
    refine (reg_notDir ?_).1
    unfold Obj.isRegMode
    rw [h2, if_pos rfl, h.umask, newFile_reg hu]; rfl
  rw [hm, if_neg (by simp), M.bind_eq] at hobj
  dsimp only [M.modify, M.pure] at hobj
  exact openPath_opens none false false ha hobj (by unfold FS.setObj; simp only [upd_same]; exact h3)

theorem RefSt.writeBytes (hu : u < 0o10000) (hu2 : u &&& PERM_READ = 0) {p : List Str} {n : Str} (hp : Usable (p ++ [n])) (b : Bytes) :
    Refines k u s (.writeBytes (p ++ [n]) b) := by
  refine h.did hk (f := fun n => .num n) (m := Verif.writeBytes (absPath s.cfg.sep (p ++ [n])) b) (by rw [h.sep hk]; rfl) ?_
  have ha := h.arg hk hp
  have e0 : Verif.writeBytes (absPath s.cfg.sep (p ++ [n])) b s =
    (openPath (absPath s.cfg.sep (p ++ [n])) wbMode none false false >>= fun h => withFile h (write h b)) s := rfl
  have hb := h.toRefBase.open hk (absPath s.cfg.sep (p ++ [n])) wbMode none false false
  rw [Ref.Step]
  rcases h.cases hk (p ++ [n]) with ⟨h1, h2⟩ | ⟨x, h1, h2, _, h3⟩ | ⟨x, c, h1, h2, h4, h5, hz, hn, h3⟩
  · rw [h2]
    dsimp only
    rw [Ref.parent, List.dropLast_concat]
    rw [h1] at ha
    have hobj := h.openObject_none hk hp
    rw [M.bind_eq, h.createFront hk hp h1] at hobj
    rcases h.cases hk p with ⟨c1, c2⟩ | ⟨d, c1, c2, _, c3⟩ | ⟨d, db, c1, c2, c4, _, _, _, c3⟩
    · rw [if_pos c1, if_neg (by simp)] at hobj
      rw [e0, M.bind_eq, openPath_err none false false ha hobj, c2]
      exact ⟨h, rfl, rfl⟩
    · obtain ⟨i, s1, ho⟩ := h.opens hk hu hp h1 c1 c2
      have hnew := open_wb_new h.reach (h.tree hk) (h.within hk) (by rw [h.umask]; exact hu) (h.ne_dev hk hp) (by rw [h.ex hk hp, h1]; rfl)
        (fun _ _ _ d _ => h.may hk d)
      rw [ho] at hnew hb
      obtain ⟨s0, q, ld, nm, d', x, k1, k2, k3, _, k5, k6, k7, k8⟩ := hnew
      have hq : s.resolvePath (absPath s.cfg.sep (p ++ [n])) = .ok (absPath s.cfg.sep (p ++ [n])) :=
        resolvePath_plain h.inv (h.tree hk) s.rc (h.plain hk hp) (h.noLink hk _)
      rw [hq] at k1; injection k1 with k1; subst k1
      rw [makeStringPath_slash (h.sep hk)] at k2
      obtain ⟨rfl, rfl, hd'⟩ := h.names hk hp k2
      have hst := store_fresh k6 b
      have hb2 := hb.withFile hk (m := write i b) (o := .hWrite i b) k6.lt k6.kind rfl rfl trivial (by simp)
      rw [e0, M.bind_eq, ho]
      dsimp only
      rcases hwf : withFile i (write i b) s1 with ⟨e | m, s2⟩
      · rw [hwf] at hst
        have := hst.2.1
        rw [k8, fits_limitless h.limitless] at this
        simp at this
      · rw [hwf] at hst hb2
        dsimp only at hst hb2 ⊢
        obtain ⟨rfl, _, hh⟩ := hst
        have hH := Holds.trans k7 hh
        have hwk : ∀ l, walk s2.heap rootRef l = walk s0.heap rootRef l := by
          intro l
          have := hH.shape.ents
          generalize rootRef = r
          induction l generalizing r with
          | nil => rfl
          | cons w l ih => simp only [walk, this]; cases alookup w (s0.heap r).entries <;> simp [ih]
        have hxd : x ≠ d' := fun e => Nat.not_lt.mpr k3.fresh (by rw [e]; exact walk_lt h.inv _ (root_lt h.inv) hd')
        have hkd : Kind (s2.heap x) := by
          have hm : (s2.heap x).mode = andNot (S_IFREG ||| PERM_DEF_FILE) u := by rw [(hH.shape.objs x).mode, k5, h.umask]
          refine ⟨?_, Or.inr ⟨b, hH.data, ?_, hH.size⟩⟩
          · rw [hm]; exact read_kept (by decide) hu2
          · unfold Obj.isRegMode; rw [hm, newFile_reg hu]; rfl
        obtain ⟨g1, g2⟩ := h.newNode hk hb2 hp k2.dir ⟨k3.name.absent, by rw [hwk]; exact k3.name.here, fun l hl => by rw [hwk]; exact k3.name.elsewhere l hl⟩
          k3.fresh (by rw [hH.others _ hxd.symm]; exact k3.listed) (by rw [hH.others _ hxd.symm]; exact k3.dir)
          (fun y hy hyd => by rw [hH.others y (fun e => Nat.not_lt.mpr k3.fresh (by rw [← e]; exact hy))]; exact k3.others y hy hyd) hkd
        refine ⟨g1, ?_⟩
        rw [g2, c3, nodeOf_file hH.data]
        refine ⟨rfl, x, ?_, rfl⟩
        intro l c hl
        unfold treeOf at hl
        cases hy : walk s.heap rootRef l with
        | none => rw [hy] at hl; simp at hl
        | some y =>
          rw [hy] at hl
          simp only [Option.map_some, Option.some.injEq] at hl
          have : y = x := by
            unfold nodeOf at hl
            split at hl
            · simp at hl
            · simp only [Ref.Node.file.injEq] at hl; exact hl.1
          exact Nat.not_lt.mpr k3.fresh (by rw [← this]; exact walk_lt h.inv _ (root_lt h.inv) hy)
    · rw [if_neg (by rw [c1]; simp)] at hobj
      rw [h.createTail_file hk hp c1 c2] at hobj
      have hop := openPath_err none false false ha hobj
      rw [hop] at hb
      rw [e0, M.bind_eq, hop, c3]
      obtain ⟨g1, g2⟩ := h.unchanged hk hb ((new_same s _).unchanged h.inv)
      exact ⟨g1, rfl, g2⟩
  · rw [h1] at ha
    have : openObject (some x) (absPath s.cfg.sep (p ++ [n])) (absPath s.cfg.sep (p ++ [n])) wbMode s = (.error (.os .EISDIR), s) := by
      unfold openObject
      rw [if_neg (by simp [wbMode])]
      dsimp only
      rw [M.bind_eq]
      have e : initFileObject (some x) (absPath s.cfg.sep (p ++ [n])) (absPath s.cfg.sep (p ++ [n])) wbMode s = (.error (.os .EISDIR), s) := by
        unfold initFileObject
        dsimp only
        rw [M.bind_eq]
        dsimp only [M.get]
        rw [if_neg (by rw [h.isRoot hk]; simp), if_pos (by simp [wbMode]), M.bind_eq]
        unfold setContents
        rw [if_pos h2]
      rw [e]
    rw [e0, M.bind_eq, openPath_err none false false ha this, h3]
    exact ⟨h, rfl, rfl⟩
  · have hl := h.leads hk hp h1 h4 h5 hn
    have hwr := writeBytes_existing h.reach hl b
    have ho := open_wb h.reach hl
    rw [e0, M.bind_eq] at hwr
    rw [e0, M.bind_eq]
    rcases hop : openPath (absPath s.cfg.sep (p ++ [n])) wbMode none false false s with ⟨e | hh, s1⟩
    · rw [hop] at ho
      rcases ho.2 with ⟨_, g⟩ | ⟨_, g⟩
      · exact absurd g (h.notDenied hk x _)
      · rw [fits_limitless h.limitless] at g; simp at g
    · rw [hop] at ho hb hwr
      dsimp only at hb hwr ho ⊢
      have hb2 := hb.withFile hk (m := write hh b) (o := .hWrite hh b) ho.2.1.lt ho.2.1.kind rfl rfl trivial (by simp)
      rcases hwf : withFile hh (write hh b) s1 with ⟨e | c, s2⟩
      · rw [hwf] at hwr
        rcases hwr with ⟨_, g, _⟩ | ⟨_, g, _⟩
        · exact absurd g (h.notDenied hk x _)
        · rw [fits_limitless h.limitless] at g; simp at g
      · rw [hwf] at hwr hb2
        dsimp only at hwr hb2 ⊢
        obtain ⟨k1, k2⟩ := h.holds hk hb2 hn h4 hwr.2.2.1
        refine ⟨k1, ?_⟩
        rw [k2, h3, hwr.1]
        exact ⟨rfl, rfl⟩

end

end Verif
