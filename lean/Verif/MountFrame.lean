import Verif.Epoch
import Verif.OsPath
/-!
# The table of mount points changes only when mount points are added or limits are set
-/

namespace Verif
open Py Spec Cfg

/-- paths, device numbers and limits of the mount points -/
def Spec.devices (s : FS) : List (Str × Nat × Option Int) := s.mounts.map fun m => (m.path, m.idev, m.total)

/-- on POSIX filesystems, the devices are the same -/
structure SameDev (s s' : FS) : Prop where
  epoch : Epoch s s'
  cfg : s'.cfg = s.cfg
  cwd : s'.cwd = s.cwd
  last : s.cfg.isWin = false → s'.lastDev = s.lastDev
  devs : s.cfg.isWin = false → devices s' = devices s

theorem SameDev.of {s s' : FS} (h : Epoch s s') (hc : s'.cfg = s.cfg) (hw : s'.cwd = s.cwd) (hl : s'.lastDev = s.lastDev) (hm : s'.mounts = s.mounts) : SameDev s s' :=
  ⟨h, hc, hw, fun _ => hl, fun _ => by unfold devices; rw [hm]⟩

theorem SameDev.trans {a b c : FS} (h : SameDev a b) (k : SameDev b c) : SameDev a c :=
  ⟨h.epoch.trans k.epoch, k.cfg.trans h.cfg, k.cwd.trans h.cwd, fun hw => (k.last (by rw [h.cfg]; exact hw)).trans (h.last hw),
    fun hw => (k.devs (by rw [h.cfg]; exact hw)).trans (h.devs hw)⟩

theorem devices_used (i : Nat) (c : Int) (ms : List Mount) :
    (changeUsed i c ms).map (fun m => (m.path, m.idev, m.total)) = ms.map fun m => (m.path, m.idev, m.total) := by
  induction ms with
  | nil => rfl
  | cons m ms ih =>
    unfold changeUsed
    split
    · rfl
    · simp only [List.map_cons, ih]

theorem detach_mounts (d : Ref) (nm : Str) (e : Ref) (s : FS) : (detach d nm e s).2.cfg = s.cfg ∧ (detach d nm e s).2.cwd = s.cwd ∧
    (detach d nm e s).2.lastDev = s.lastDev ∧ (detach d nm e s).2.mounts = s.mounts := by
  rcases detach_spec s d nm e with h | ⟨y, h, _⟩
  · rw [h]; exact ⟨rfl, rfl, rfl, rfl⟩
  · rw [h]; exact ⟨rfl, rfl, rfl, rfl⟩

instance : OpRelIO SameDev where
  N := fun _ => True
  D := fun _ => True
  A s := s.cfg.isWin = true
  T := False
  refl s := .of (OpRel.refl s) rfl rfl rfl rfl
  trans := SameDev.trans
  le h := h.epoch.next
  kind h := h.epoch.kind
  ino s i := .of (OpRel.ino s i) rfl rfl rfl rfl
  used s i c := ⟨OpRel.used s i c, rfl, rfl, fun _ => rfl, fun _ => devices_used i c s.mounts⟩
  mount s p t hA := ⟨OpRel.mount s p t trivial, rfl, rfl, fun hw => absurd hA (by rw [hw]; simp), fun hw => absurd hA (by rw [hw]; simp)⟩
  total _ _ _ h := h.elim
  winA _ h := h
  hand s hs hn f ff := .of (OpRelIO.hand s hs hn f ff) rfl rfl rfl rfl
  new s o _ := .of (OpRel.new s o trivial) rfl rfl rfl rfl
  dat s r o h := .of (OpRelD.dat s r o h) rfl rfl rfl rfl
  att s d c hd hn := by
    refine .of (OpRel.att s d c hd hn) ?_ ?_ ?_ ?_ <;> (unfold FS.attach; dsimp only; split <;> rfl)
  det s0 s d nm e h hd hc hk := by
    obtain ⟨h1, h2, h3, h4⟩ := detach_mounts d nm e s
    have hE : Epoch s0 (detach d nm e s).2 := OpRel.det s0 s d nm e h.epoch hd hc hk
    exact ⟨hE, h1.trans h.cfg, h2.trans h.cwd, fun hw => h3.trans (h.last hw), fun hw => (by unfold devices at *; rw [h4]; exact h.devs hw)⟩
  dirMode s0 s d perm h hd hk hD := by
    have hE : Epoch s0 (s.setObj d fun o => { o with mode := S_IFDIR ||| perm }) := OpRel.dirMode s0 s d perm h.epoch hd hk trivial
    exact ⟨hE, h.cfg, h.cwd, h.last, h.devs⟩
  dirN _ _ _ _ := trivial
  defD := trivial
  lnkN _ _ := trivial
  regN _ _ _ := trivial

theorem sameDev_chmod (p : Str) (m : Nat) (f : Bool) : Fr SameDev (chmod p m f) := by
  unfold chmod
  refine fo_bind (fo_rd _) fun r s => ?_
  have hE := epoch_meta s r (fun o => { o with
      mode := if s.cfg.isWin then (if m &&& PERM_WRITE ≠ 0 then o.mode ||| 0o222 else o.mode &&& 0o777555)
        else andNot o.mode PERM_ALL ||| (m &&& PERM_ALL)
      ctime := s.clock }) (fun _ => rfl) (fun _ => rfl)
  exact .of hE rfl rfl rfl rfl

theorem sameDev_osOpen (p : Str) (f : OFlags) (m : Nat) : Fr SameDev (osOpen p f m) := by
  unfold osOpen
  dsimp only
  have key : Fr SameDev (do
      let s ← M.get
      match ← rd (·.openDirArg p) with
      | some r => do
        if (!f.modes.mustExist && !s.cfg.isMac) || f.modes.canWrite then M.raise .EISDIR
        let h ← newHandle { mkHandle s r f.modes none true true false 0 with kind := .dir, buf := [], pos := 0 }
        let fd ← addOpenFile h
        hmod h fun H => { H with fd := fd }
        M.pure fd
      | none => do
        let h ← openPath p f.modes none true false
        let H ← hget h
        if H.obj ≠ devNullRef then chmod p m
        M.pure H.fd) := by
    refine fo_bind fo_get fun s => ?_
    refine fo_bind (fo_rd _) fun x => ?_
    cases x with
    | some r =>
      dsimp only
      have tail : Fr SameDev (do
          let h ← newHandle { mkHandle s r f.modes none true true false 0 with kind := .dir, buf := [], pos := 0 }
          let fd ← addOpenFile h
          hmod h fun H => { H with fd := fd }
          M.pure fd) := by
        refine fo_bind (fo_newHandle _) fun h => ?_
        refine fo_bind (fo_addOpenFile _) fun fd => ?_
        exact fo_bind (fo_hmod _ _) fun _ => fo_pure _
      apply fo_ite
      · intro _; exact fo_bind (fo_raise _) fun _ => tail
      · intro _; exact tail
    | none =>
      dsimp only
      refine fo_bind (fo_openPath _ _ _ _ _) fun h => ?_
      refine fo_bind (fo_hget _) fun H => ?_
      apply fo_ite
      · intro _; exact fo_bind (sameDev_chmod _ _ _) fun _ => fo_pure _
      · intro _; exact fo_pure _
  apply fo_ite
  · intro _; exact fo_bind (fo_throw _) fun _ => key
  · intro _; exact key

/-- C39: on a POSIX filesystem no call but `add_mount_point` and `set_disk_usage` changes the mount points (their paths, device numbers and limits). -/
theorem mounts_step (o : Op) {s : FS} (hw : s.cfg.isWin = false) (h1 : ∀ p t, o ≠ .addMountPoint p t) (h2 : ∀ t p, o ≠ .setDiskUsage t p) :
    devices (o.next s) = devices s ∧ (o.next s).lastDev = s.lastDev := by
  by_cases hsp : o.special = false
  · have h : SameDev s (o.next s) := by
      refine fo_run (R := SameDev) o hsp ?_ s
      cases o with
      | addMountPoint p t => exact absurd rfl (h1 p t)
      | setDiskUsage t p => exact absurd rfl (h2 t p)
      | mkdir p m => exact fun _ => trivial
      | makedirs p m e => exact fun _ => trivial
      | createDir p m => exact trivial
      | createFile p m c z cm um => exact fun _ _ _ => trivial
      | mknod p m => exact fun _ _ _ => trivial
      | _ => exact trivial
    exact ⟨h.devs hw, h.last hw⟩
  · cases o with
    | chmod p m f => have h := sameDev_chmod p m f s; exact ⟨h.devs hw, h.last hw⟩
    | osOpen p f m => have h := fo_void (sameDev_osOpen p f m) s; exact ⟨h.devs hw, h.last hw⟩
    | chdir p =>
      have h : (chdir p s).2.mounts = s.mounts ∧ (chdir p s).2.lastDev = s.lastDev := by
        show wp (chdir p) (fun _ s' => s'.mounts = s.mounts ∧ s'.lastDev = s.lastDev) s
        unfold chdir
        apply wp_readBind
        · intro e _; exact ⟨rfl, rfl⟩
        · intro q _
          apply wp_readBind
          · intro e _; exact ⟨rfl, rfl⟩
          · intro _ _
            apply wp_readBind
            · intro e _; exact ⟨rfl, rfl⟩
            · intro _ _
              apply wp_modify
              exact ⟨rfl, rfl⟩
      exact ⟨by unfold devices; exact congrArg _ h.1, h.2⟩
    | umask m => exact ⟨rfl, rfl⟩
    | setUser u g => exact ⟨rfl, rfl⟩
    | setClock t => exact ⟨rfl, rfl⟩
    | _ => exact absurd rfl hsp

end Verif
