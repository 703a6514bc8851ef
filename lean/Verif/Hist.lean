import Verif.PresIO
/-!
# Histories: arbitrary sequences of API calls from a fresh filesystem
-/

namespace Verif
open Py Spec Cfg

/-- The calls a history is made of: methods of `FakeFilesystem`, `FakeOsModule`, open files, plus the
environment changing the clock and `set_uid`/`set_gid`.  Calls that only read the state are not listed: they
do not change it. -/
inductive Op
  | mkdir (p : Str) (mode : Nat)
  | makedirs (p : Str) (mode : Nat) (existOk : Bool)
  | createDir (p : Str) (perm : Nat)
  | createFile (p : Str) (mode : Nat) (contents : Option Bytes) (size : Option Nat) (createMissing applyUmask : Bool)
  | createSymlink (p target : Str) (createMissing : Bool)
  | createLink (old new : Str) (follow createMissing : Bool)
  | remove (p : Str)
  | removeObject (p : Str)
  | rmdir (p : Str)
  | removedirs (p : Str)
  | rename (old new : Str) (force : Bool)
  | chmod (p : Str) (mode : Nat) (follow : Bool)
  | utime (p : Str) (ns : Option (Int × Int)) (follow : Bool)
  | chown (p : Str) (uid gid : Int) (follow : Bool)
  | truncate (p : Str) (n : Nat)
  | mknod (p : Str) (mode : Nat)
  | setxattr (p attr : Str) (value : Bytes) (flags : Nat) (follow : Bool)
  | removexattr (p attr : Str) (follow : Bool)
  | addMountPoint (p : Str) (total : Option Int)
  | setDiskUsage (total : Int) (p : Str)
  | umask (m : Nat)
  | chdir (p : Str)
  | openPath (p : Str) (md : OpenModes) (buffering : Option Nat) (rawIo del : Bool)
  | openFd (fd : Nat) (md : OpenModes) (buffering : Option Nat) (closefd : Bool)
  | osOpen (p : Str) (f : OFlags) (mode : Nat)
  | osClose (fd : Int)
  | osRead (fd : Int) (n : Nat)
  | osWrite (fd : Int) (b : Bytes)
  | ftruncate (fd : Int) (n : Nat)
  | hRead (h : Nat) (n : Option Nat)
  | hWrite (h : Nat) (b : Bytes)
  | hSeek (h : Nat) (off : Int) (whence : Nat)
  | hTell (h : Nat)
  | hTruncate (h : Nat) (n : Option Nat)
  | hFlush (h : Nat)
  | hClose (h : Nat)
  | setUser (uid gid : Nat)
  | setClock (t : Int)

/-- forget the result -/
def M.void {α : Type} (m : M α) : M Unit := m >>= fun _ => M.pure ()

/-- a method of the object returned by `open` (a user has no other handles) -/
def onFile {α : Type} (h : Nat) (m : M α) : M Unit := do
  let s ← M.get
  if h < s.hnext ∧ (s.handles h).kind = .file then m.void else M.throw .attributeError

/-- The effect of a call. -/
def Op.run : Op → M Unit
  | .mkdir p m => Verif.mkdir p m
  | .makedirs p m e => Verif.makedirs p m e
  | .createDir p m => (Verif.createDir p m).void
  | .createFile p m c z cm um => (Verif.createFile p m c z cm um).void
  | .createSymlink p t cm => (Verif.createSymlink p t cm).void
  | .createLink o n f cm => (Verif.createLink o n f cm).void
  | .remove p => Verif.remove p
  | .removeObject p => Verif.removeObject p
  | .rmdir p => Verif.rmdir p
  | .removedirs p => Verif.removedirs p
  | .rename o n f => Verif.rename o n f
  | .chmod p m f => Verif.chmod p m f
  | .utime p ns f => Verif.utime p ns f
  | .chown p u g f => Verif.chown p u g f
  | .truncate p n => Verif.truncate p n
  | .mknod p m => Verif.mknod p m
  | .setxattr p a v fl f => Verif.setxattr p a v fl f
  | .removexattr p a f => Verif.removexattr p a f
  | .addMountPoint p t => (Verif.addMountPoint p t).void
  | .setDiskUsage t p => Verif.setDiskUsage t p
  | .umask m => (Verif.umask m).void
  | .chdir p => Verif.chdir p
  | .openPath p md b r d => (Verif.openPath p md b r d).void
  | .openFd fd md b c => (Verif.openFd fd md b c).void
  | .osOpen p f m => (Verif.osOpen p f m).void
  | .osClose fd => Verif.osClose fd
  | .osRead fd n => (Verif.osRead fd n).void
  | .osWrite fd b => (Verif.osWrite fd b).void
  | .ftruncate fd n => Verif.ftruncate fd n
  | .hRead h n => onFile h (read h n)
  | .hWrite h b => onFile h (write h b)
  | .hSeek h o w => onFile h (seek h o w)
  | .hTell h => onFile h (tell h)
  | .hTruncate h n => onFile h (Verif.hTruncate h n)
  | .hFlush h => onFile h (flush h)
  | .hClose h => onFile h (Verif.hClose h)
  | .setUser u g => M.modify fun s => { s with uid := u, gid := g }
  | .setClock t => M.modify fun s => { s with clock := t }

/-- The state after a call, whether it raised or not. -/
def Op.next (o : Op) (s : FS) : FS := (o.run s).2

/-- The state after a sequence of calls. -/
def runs (ops : List Op) (s : FS) : FS := ops.foldl (fun s o => o.next s) s

/-- States reachable from a fresh filesystem (any configuration, recursion limit, user, umask, clock and disk
size) by any sequence of calls. -/
def Reachable (s : FS) : Prop :=
  ∃ (k : Cfg) (limit uid gid umask : Nat) (clock : Int) (total : Option Int) (ops : List Op),
    s = runs ops (initFS k limit uid gid umask clock total)

theorem pres_void {α : Type} {m : M α} (h : Pres m) : Pres m.void := pres_bind h fun _ => pres_pure _

theorem pres_onFile {α : Type} {h : Nat} {m : M α} (hm : Pres m) : Pres (onFile h m) := by
  unfold onFile
  apply pres_bind pres_get
  intro s
  apply pres_ite
  · intro _; exact pres_void hm
  · intro _; exact pres_throw _

/-- `resolve_path` returns an absolute path. -/
theorem resolvePath_isAbs {s : FS} (h : Inv s) (hp : s.cfg.Posix) {p q : Str} (hq : s.resolvePath p = .ok q) :
    isAbs s.cfg.sep q := by
  unfold FS.resolvePath FS.resolvePathG at hq
  split at hq
  · simp at hq
  · obtain ⟨b, _, hq⟩ := except_bind_ok hq
    split at hq
    · simp at hq
    · have ha := absCanon_isAbs (h.absnorm hp (s.originalPath p))
      dsimp only at hq
      split at hq
      · injection hq with e; rw [← e]; exact ha
      · split at hq
        · injection hq with e; rw [← e]; exact ha
        · obtain ⟨cs, _, hq⟩ := except_bind_ok hq
          injection hq with e
          rw [← e]
          unfold Cfg.componentsToPath
          dsimp only
          rw [hp.startsWithRoot]
          split
          · exact ⟨_, rfl⟩
          · rename_i hn
            rw [← startsWithC_iff]; simpa using hn

/-- What every call keeps: the configuration, the existing objects, their kinds, file types and inode numbers. -/
structure Pers (s s' : FS) : Prop where
  cfg : s'.cfg = s.cfg
  limit : s'.limit = s.limit
  next : s.next ≤ s'.next
  kind : ∀ r < s.next, (s'.heap r).isDir = (s.heap r).isDir
  ftype : ∀ r < s.next, ifmt (s'.heap r).mode = ifmt (s.heap r).mode
  ino : ∀ r < s.next, (s.heap r).ino ≠ none → (s'.heap r).ino = (s.heap r).ino

theorem Pers.refl (s : FS) : Pers s s := ⟨rfl, rfl, Nat.le_refl _, fun _ _ => rfl, fun _ _ => rfl, fun _ _ _ => rfl⟩
theorem Pers.trans {a b c : FS} (h : Pers a b) (k : Pers b c) : Pers a c :=
  ⟨k.cfg.trans h.cfg, k.limit.trans h.limit, Nat.le_trans h.next k.next,
    fun r hr => (k.kind r (Nat.lt_of_lt_of_le hr h.next)).trans (h.kind r hr),
    fun r hr => (k.ftype r (Nat.lt_of_lt_of_le hr h.next)).trans (h.ftype r hr),
    fun r hr hi => (k.ino r (Nat.lt_of_lt_of_le hr h.next) (by rw [h.ino r hr hi]; exact hi)).trans (h.ino r hr hi)⟩
theorem Ext.pers {s s' : FS} (h : Ext s s') : Pers s s' := ⟨h.cfg, h.limit, h.next, h.kind, h.ftype, h.ino⟩

/-- Outcome of a call: the invariant and persistence. -/
structure Step (s s' : FS) : Prop where
  inv : Inv s'
  pers : Pers s s'

theorem chdir_step (p : Str) {s : FS} (h : Inv s) : Step s (chdir p s).2 ∧ (chdir p s).2.mounts = s.mounts := by
  show wp (chdir p) (fun _ s' => Step s s' ∧ s'.mounts = s.mounts) s
  have h0 : Step s s ∧ s.mounts = s.mounts := ⟨⟨h, Pers.refl s⟩, rfl⟩
  unfold chdir
  apply wp_readBind
  · intro e _; exact h0
  · intro q hq
    apply wp_readBind
    · intro e _; exact h0
    · intro r _
      apply wp_readBind
      · intro e _; exact h0
      · intro r' _
        apply wp_modify
        have n := h.n
        exact ⟨⟨⟨h.g, h.m, ⟨n.rootMode, n.devFile, n.devMode, fun hp => resolvePath_isAbs h hp hq, n.names, n.rootMount, n.rootName⟩, h.t⟩,
          ⟨rfl, rfl, Nat.le_refl _, fun _ _ => rfl, fun _ _ => rfl, fun _ _ _ => rfl⟩⟩, rfl⟩

theorem setDiskUsage_step (t : Int) (p : Str) {s : FS} (h : Inv s) : Step s (setDiskUsage t p s).2 := by
  show wp (setDiskUsage t p) (fun _ s' => Step s s') s
  unfold setDiskUsage
  apply wp_seq _ (mountForPath_pres p s h)
  · intro e s' g; exact ⟨g.inv, g.ext.pers⟩
  · intro dev s' g
    apply wp_getBind
    have hi := g.inv
    have h1 : Step s s' := ⟨g.inv, g.ext.pers⟩
    split
    · exact h1
    · apply wp_ite
      · intro _; exact h1
      · intro _
        apply wp_modify
        have e1 : ∀ {β : Type} (f : Mount → β), (∀ m t, f { m with total := t } = f m) →
            (s'.mounts.map fun m => if m.idev = dev then { m with total := some t } else m).map f = s'.mounts.map f := by
          intro β f hf
          rw [List.map_map]
          apply List.map_congr_left
          intro m _
          simp only [Function.comp]
          split
          · exact hf m _
          · rfl
        exact ⟨hi.same (fun _ => SameS.refl _) rfl rfl (invM_map hi.m (e1 _ fun _ _ => rfl) (e1 _ fun _ _ => rfl)) rfl rfl
          (e1 _ fun _ _ => rfl), h1.pers.trans ⟨rfl, rfl, Nat.le_refl _, fun _ _ => rfl, fun _ _ => rfl, fun _ _ _ => rfl⟩⟩

/-- The calls that change the environment of a history: disk size, umask, current directory, user, clock. -/
def Op.env : Op → Bool
  | .setDiskUsage _ _ | .umask _ | .chdir _ | .setUser _ _ | .setClock _ => true
  | _ => false

/-- Every other call keeps the invariant and the environment. -/
theorem run_pres (o : Op) (ho : o.env = false) : Pres o.run := by
  cases o with
  | mkdir p m => exact (mkdir_pres p m)
  | makedirs p m e => exact (makedirs_pres p m e)
  | createDir p m => exact (pres_void (createDir_pres p m))
  | createFile p m c z cm um => exact (pres_void (createFile_pres p m c z cm um))
  | createSymlink p t cm => exact (pres_void (createSymlink_pres p t cm))
  | createLink o n f cm => exact (pres_void (createLink_pres o n f cm))
  | remove p => exact (remove_pres p)
  | removeObject p => exact (removeObject_pres p)
  | rmdir p => exact (rmdir_pres p false)
  | removedirs p => exact (removedirs_pres p)
  | rename o n f => exact (rename_pres o n f)
  | chmod p m f => exact (chmod_pres p m f)
  | utime p ns f => exact (utime_pres p ns f)
  | chown p u g f => exact (chown_pres p u g f)
  | truncate p n => exact (truncate_pres p n)
  | mknod p m => exact (mknod_pres p m)
  | setxattr p a v fl f => exact (setxattr_pres p a v fl f)
  | removexattr p a f => exact (removexattr_pres p a f)
  | addMountPoint p t => exact (pres_void (addMountPoint_pres p t))
  | openPath p md b r d => exact (pres_void (openPath_pres p md b r d))
  | openFd fd md b c => exact (pres_void (openFd_pres fd md b c))
  | osOpen p f m => exact (pres_void (osOpen_pres p f m))
  | osClose fd => exact (osClose_pres fd)
  | osRead fd n => exact (pres_void (osRead_pres fd n))
  | osWrite fd b => exact (pres_void (osWrite_pres fd b))
  | ftruncate fd n => exact (ftruncate_pres fd n)
  | hRead h' n => exact (pres_onFile (read_pres h' n))
  | hWrite h' b => exact (pres_onFile (write_pres h' b))
  | hSeek h' o w => exact (pres_onFile (seek_pres h' o w))
  | hTell h' => exact (pres_onFile (tell_pres h'))
  | hTruncate h' n => exact (pres_onFile (hTruncate_pres h' n))
  | hFlush h' => exact (pres_onFile (flush_pres h'))
  | hClose h' => exact (pres_onFile (hClose_pres h'))
  | setDiskUsage t p => simp [Op.env] at ho
  | umask m => simp [Op.env] at ho
  | chdir p => simp [Op.env] at ho
  | setUser u g => simp [Op.env] at ho
  | setClock t => simp [Op.env] at ho

/-- Every call keeps the invariant; no call but `set_disk_usage` makes disk usage exceed its limit; no call but
`chdir` changes the current directory. -/
theorem next_step' (o : Op) {s : FS} (h : Inv s) :
    Step s (o.next s) ∧ ((∀ t p, o ≠ .setDiskUsage t p) → Quota s.mounts (o.next s).mounts) ∧
    ((∀ p, o ≠ .chdir p) → (o.next s).cwd = s.cwd) := by
  cases ho : o.env with
  | false =>
    have hm := run_pres o ho
    exact ⟨⟨(hm s h).inv, (hm s h).ext.pers⟩, fun _ => (hm s h).ext.quota, fun _ => (hm s h).ext.cwd⟩
  | true =>
    have n := h.n
    cases o with
    | setDiskUsage t p =>
      refine ⟨setDiskUsage_step t p h, fun hn => absurd rfl (hn t p), fun _ => ?_⟩
      show wp (setDiskUsage t p) (fun _ s' => s'.cwd = s.cwd) s
      unfold setDiskUsage
      apply wp_seq _ (mountForPath_pres p s h)
      · intro e s' g; exact g.ext.cwd
      · intro dev s' g
        apply wp_getBind
        split
        · exact g.ext.cwd
        · apply wp_ite
          · intro _; exact g.ext.cwd
          · intro _; apply wp_modify; exact g.ext.cwd
    | chdir p =>
      exact ⟨(chdir_step p h).1, fun _ => by show Quota _ (chdir p s).2.mounts; rw [(chdir_step p h).2]; exact Quota.refl _,
        fun hn => absurd rfl (hn p)⟩
    | umask m =>
      exact ⟨⟨⟨h.g, h.m, ⟨n.rootMode, n.devFile, n.devMode, n.cwd, n.names, n.rootMount, n.rootName⟩, h.t⟩,
        ⟨rfl, rfl, Nat.le_refl _, fun _ _ => rfl, fun _ _ => rfl, fun _ _ _ => rfl⟩⟩, fun _ => Quota.refl _, fun _ => rfl⟩
    | setUser u g =>
      exact ⟨⟨⟨h.g, h.m, ⟨n.rootMode, n.devFile, n.devMode, n.cwd, n.names, n.rootMount, n.rootName⟩, h.t⟩,
        ⟨rfl, rfl, Nat.le_refl _, fun _ _ => rfl, fun _ _ => rfl, fun _ _ _ => rfl⟩⟩, fun _ => Quota.refl _, fun _ => rfl⟩
    | setClock t =>
      exact ⟨⟨⟨h.g, h.m, ⟨n.rootMode, n.devFile, n.devMode, n.cwd, n.names, n.rootMount, n.rootName⟩, h.t⟩,
        ⟨rfl, rfl, Nat.le_refl _, fun _ _ => rfl, fun _ _ => rfl, fun _ _ _ => rfl⟩⟩, fun _ => Quota.refl _, fun _ => rfl⟩
    | _ => simp [Op.env] at ho

theorem next_step (o : Op) {s : FS} (h : Inv s) :
    Step s (o.next s) ∧ ((∀ t p, o ≠ .setDiskUsage t p) → Quota s.mounts (o.next s).mounts) :=
  ⟨(next_step' o h).1, (next_step' o h).2.1⟩

theorem next_cwd (o : Op) {s : FS} (h : Inv s) (ho : ∀ p, o ≠ .chdir p) : (o.next s).cwd = s.cwd :=
  (next_step' o h).2.2 ho

theorem next_inv (o : Op) {s : FS} (h : Inv s) : Inv (o.next s) := (next_step o h).1.inv

theorem init_heap (k : Cfg) (limit uid gid um : Nat) (clock : Int) (total : Option Int) (r : Ref) :
    ((initFS k limit uid gid um clock total).heap r).entries = [] ∧
    ((initFS k limit uid gid um clock total).heap r).parent = none ∧
    (((initFS k limit uid gid um clock total).heap r).ino ≠ none → r = rootRef) ∧
    (((initFS k limit uid gid um clock total).heap r).isDir = true ↔ r = rootRef) := by
  show (_ : Obj).entries = [] ∧ _
  simp only [initFS, FS.setObj, upd_apply]
  by_cases h1 : r = devNullRef
  · subst h1
    simp [mkFileObj, Obj.entries, Obj.isDir, devNullRef, rootRef]
  · rw [if_neg h1]
    by_cases h2 : r = rootRef
    · subst h2; simp [mkDirObj, Obj.entries, Obj.isDir]
    · rw [if_neg h2]
      simp [Obj.entries, Obj.isDir, h2]

theorem init_inv (k : Cfg) (limit uid gid um : Nat) (clock : Int) (total : Option Int) :
    Inv (initFS k limit uid gid um clock total) := by
  have H := init_heap k limit uid gid um clock total
  have hr : (initFS k limit uid gid um clock total).heap rootRef =
      { mkDirObj k.root PERM_DEF (initFS k limit uid gid um clock total) with ino := some 1, dev := some 1 } := rfl
  have hd : (initFS k limit uid gid um clock total).heap devNullRef =
      mkFileObj k.devNull (S_IFREG ||| PERM_DEF_FILE) (some []) (initFS k limit uid gid um clock total) := rfl
  have hn : (initFS k limit uid gid um clock total).next = 2 := rfl
  have hl : (initFS k limit uid gid um clock total).lastIno = 1 := rfl
  have hc : (initFS k limit uid gid um clock total).cfg = k := rfl
  have hw : (initFS k limit uid gid um clock total).cwd = k.root := rfl
  have hm : (initFS k limit uid gid um clock total).mounts = [{ path := k.root, idev := 1, total := total, used := 0 }] := rfl
  have hld : (initFS k limit uid gid um clock total).lastDev = 1 := rfl
  generalize initFS k limit uid gid um clock total = s at *
  refine ⟨?_, ?_, ?_, ?_⟩
  · refine ⟨by omega, ?_, ?_, ?_, ?_, ?_, ?_, ?_, ?_, ?_, ?_, ?_, ?_⟩
    · intro d _ e he; rw [(H d).1] at he; simp at he
    · intro d _ e he; rw [(H d).1] at he; simp at he
    · intro d _; rw [(H d).1]; simp
    · intro d _ e he; rw [(H d).1] at he; simp at he
    · intro r _ p hp; rw [(H r).2.1] at hp; simp at hp
    · intro r _ hd
      rw [((H r).2.2.2).mp hd, hr]; exact mkDir_mode _
    · intro d _ e he; rw [(H d).1] at he; simp at he
    · intro r _ i hi
      have := (H r).2.2.1 (by rw [hi]; simp)
      subst this; rw [hr] at hi; simp at hi; omega
    · intro r _ q _ i hi hj
      rw [(H r).2.2.1 (by rw [hi]; simp), (H q).2.2.1 (by rw [hj]; simp)]
    · exact ((H rootRef).2.2.2).mpr rfl
    · exact (H rootRef).2.1
    · rw [hr]; simp
  · rw [hm, hld]; constructor <;> simp
  · refine ⟨by rw [hr]; show ifmt (S_IFDIR ||| PERM_DEF) = _; decide, by rw [hd]; rfl,
      by rw [hd]; show ifmt (S_IFREG ||| PERM_DEF_FILE) = _; decide, ?_, ?_, ?_, by rw [hr, hc]; rfl⟩
    · intro _; rw [hc, hw]; exact ⟨[], rfl⟩
    · intro _ _ d _ e he; rw [(H d).1] at he; simp at he
    · rw [hm, hc]; exact ⟨_, List.mem_singleton.mpr rfl, rfl⟩
  · intro _
    refine ⟨?_, fun r _ => .top (H r).2.1⟩
    intro r hr2
    rw [refs_zero (fun d _ e he => by rw [(H d).1] at he; simp at he), (H r).1]
    have : r = 0 ∨ r = 1 := by omega
    rcases this with rfl | rfl
    · have e : (s.heap 0) = _ := hr
      rw [e]; simp [mkDirObj, Obj.isDir]
    · have e : (s.heap 1) = _ := hd
      rw [e]; simp [mkFileObj, Obj.isDir]

theorem runs_step (ops : List Op) {s : FS} (h : Inv s) : Step s (runs ops s) := by
  induction ops generalizing s with
  | nil => exact ⟨h, Pers.refl s⟩
  | cons o ops ih =>
    have h1 := (next_step o h).1
    have h2 := ih h1.inv
    exact ⟨h2.inv, h1.pers.trans h2.pers⟩

/-- Every reachable state satisfies the invariant. -/
theorem reachable_inv {s : FS} (h : Reachable s) : Inv s := by
  obtain ⟨k, l, u, g, um, c, t, ops, rfl⟩ := h
  exact (runs_step ops (init_inv k l u g um c t)).inv

theorem reachable_runs {s : FS} (h : Reachable s) (ops : List Op) : Reachable (runs ops s) := by
  obtain ⟨k, l, u, g, um, c, t, ops0, rfl⟩ := h
  exact ⟨k, l, u, g, um, c, t, ops0 ++ ops, by simp [runs, List.foldl_append]⟩

theorem runs_cfg {k : Cfg} {limit uid gid um : Nat} {clock : Int} {total : Option Int} {ops : List Op} :
    (runs ops (initFS k limit uid gid um clock total)).cfg = k :=
  (runs_step ops (init_inv k limit uid gid um clock total)).pers.cfg

end Verif
