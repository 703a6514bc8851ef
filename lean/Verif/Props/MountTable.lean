import Verif.MountFrame
import Verif.Props.Mounts
/-!
# C39: which calls change the table of mount points
-/

namespace Verif
open Py Spec Cfg

/-- C39: `set_disk_usage` keeps paths and device numbers of all mount points -/
theorem setDiskUsage_mounts (t : Int) (p : Str) {s : FS} (hw : s.cfg.isWin = false) :
    (setDiskUsage t p s).2.mounts.map (fun m => (m.path, m.idev)) = s.mounts.map fun m => (m.path, m.idev) := by
  show wp (setDiskUsage t p) (fun _ s' => s'.mounts.map (fun m => (m.path, m.idev)) = s.mounts.map fun m => (m.path, m.idev)) s
  have key : ∀ s' : FS, SameDev s s' → s'.mounts.map (fun m => (m.path, m.idev)) = s.mounts.map fun m => (m.path, m.idev) := by
    intro s' h
    have := congrArg (List.map fun x : Str × Nat × Option Int => (x.1, x.2.1)) (h.devs hw)
    unfold devices at this
    rw [List.map_map, List.map_map] at this
    exact this
  unfold setDiskUsage
  have h1 : wp (mountForPath p) (fun _ s' => SameDev s s') s := fo_mountForPath (R := SameDev) p s
  refine wp_seq _ h1 (fun e s' h => key s' h) fun dev s' h => ?_
  apply wp_getBind
  have hm : wp (M.modify fun s => { s with mounts := s.mounts.map fun m => if m.idev = dev then { m with total := some t } else m })
      (fun _ s' => s'.mounts.map (fun m => (m.path, m.idev)) = s.mounts.map fun m => (m.path, m.idev)) s' := by
    apply wp_modify
    rw [← key s' h]
    show List.map _ (List.map _ _) = _
    rw [List.map_map]
    apply List.map_congr_left
    intro m _
    dsimp only [Function.comp]
    split <;> rfl
  split
  · exact key s' h
  · apply wp_ite
    · intro _; exact key s' h
    · intro _; exact hm

/-- C39: `add_mount_point` adds at most one mount point, at the absolute normalized path, with a new device number, even if it raises. -/
theorem addMountPoint_mounts (p : Str) (t : Option Int) {s : FS} (hi : Inv s) (hw : s.cfg.isWin = false) :
    (addMountPoint p t s).2.cfg = s.cfg ∧ (devices (addMountPoint p t s).2 = devices s ∨
      devices (addMountPoint p t s).2 = devices s ++ [(s.absnorm p, s.lastDev + 1, t)]) := by
  rw [addMountPoint_run hi]
  split
  · exact ⟨rfl, Or.inl rfl⟩
  · have h := fo_createDir (R := SameDev) (s.absnorm p) PERM_DEF trivial (s.mounted (s.absnorm p) t)
    have hd : devices (s.mounted (s.absnorm p) t) = devices s ++ [(s.absnorm p, s.lastDev + 1, t)] := by
      unfold devices FS.mounted; simp
    rcases hr : createDir (s.absnorm p) PERM_DEF (s.mounted (s.absnorm p) t) with ⟨r, s1⟩
    rw [hr] at h
    cases r with
    | error e => exact ⟨h.cfg, Or.inr ((h.devs hw).trans hd)⟩
    | ok r => exact ⟨h.cfg, Or.inr ((h.devs hw).trans hd)⟩

/-- the mount points are at absolute normalized paths -/
theorem mounts_canon {s : FS} (hs : Reachable s) (hp : s.cfg.Posix) : ∀ m ∈ s.mounts, AbsCanon s.cfg.sep m.path := by
  have key : ∀ {a b : FS}, (a.cfg.Posix → ∀ m ∈ a.mounts, AbsCanon a.cfg.sep m.path) → b.cfg = a.cfg →
      b.mounts.map (fun m => (m.path, m.idev)) = a.mounts.map (fun m => (m.path, m.idev)) → b.cfg.Posix → ∀ m ∈ b.mounts, AbsCanon b.cfg.sep m.path := by
    intro a b h hc hm hp m hmem
    rw [hc] at hp ⊢
    have : (m.path, m.idev) ∈ a.mounts.map (fun m => (m.path, m.idev)) := hm ▸ List.mem_map_of_mem (f := fun m : Mount => (m.path, m.idev)) hmem
    obtain ⟨m', hm', e⟩ := List.mem_map.mp this
    have : m'.path = m.path := congrArg Prod.fst e
    rw [← this]; exact h hp m' hm'
  have step : ∀ (o : Op) (a : FS), Inv a → (a.cfg.Posix → ∀ m ∈ a.mounts, AbsCanon a.cfg.sep m.path) →
      ((o.next a).cfg.Posix → ∀ m ∈ (o.next a).mounts, AbsCanon (o.next a).cfg.sep m.path) := by
    intro o a hi h hp'
    have hc : (o.next a).cfg = a.cfg := (next_step o hi).1.pers.cfg
    have hp : a.cfg.Posix := hc ▸ hp'
    have sub : devices (o.next a) = devices a → ∀ m ∈ (o.next a).mounts, AbsCanon (o.next a).cfg.sep m.path := by
      intro e
      refine key h hc ?_ hp'
      have := congrArg (List.map fun x : Str × Nat × Option Int => (x.1, x.2.1)) e
      unfold devices at this
      rw [List.map_map, List.map_map] at this
      exact this
    by_cases h1 : ∃ p t, o = .addMountPoint p t
    · obtain ⟨p, t, rfl⟩ := h1
      have e : (Op.next (.addMountPoint p t) a) = (addMountPoint p t a).2 := by
        show (M.void (addMountPoint p t) a).2 = _
        unfold M.void
        rw [M.bind_eq]
        rcases addMountPoint p t a with ⟨r, s1⟩
        cases r <;> rfl
      obtain ⟨_, h2 | h2⟩ := addMountPoint_mounts p t hi hp.win
      · exact sub (by rw [e]; exact h2)
      · intro m hm
        rw [hc]
        rw [e] at hm
        have : (m.path, m.idev, m.total) ∈ devices (addMountPoint p t a).2 := List.mem_map_of_mem (f := fun m : Mount => (m.path, m.idev, m.total)) hm
        rw [h2] at this
        rcases List.mem_append.mp this with hx | hx
        · obtain ⟨m', hm', e'⟩ := List.mem_map.mp hx
          have : m'.path = m.path := congrArg Prod.fst e'
          rw [← this]; exact h hp m' hm'
        · have : m.path = a.absnorm p := congrArg Prod.fst (List.mem_singleton.mp hx)
          rw [this]
          exact absnormpath_canonical hp (hi.n.cwd hp) p
    · by_cases h2 : ∃ t p, o = .setDiskUsage t p
      · obtain ⟨t, p, rfl⟩ := h2
        exact key h hc (setDiskUsage_mounts t p hp.win) hp'
      · exact sub (mounts_step o hp.win (fun p t e => h1 ⟨p, t, e⟩) (fun t p e => h2 ⟨t, p, e⟩)).1
  have all : ∀ (ops : List Op) (a : FS), Inv a → (a.cfg.Posix → ∀ m ∈ a.mounts, AbsCanon a.cfg.sep m.path) →
      ((runs ops a).cfg.Posix → ∀ m ∈ (runs ops a).mounts, AbsCanon (runs ops a).cfg.sep m.path) := by
    intro ops
    induction ops with
    | nil => intro a _ h; exact h
    | cons o ops ih => intro a hi h; exact ih (o.next a) (next_step o hi).1.inv (step o a hi h)
  obtain ⟨k, l, u, g, um, c, t, ops, rfl⟩ := hs
  refine all ops _ (init_inv k l u g um c t) ?_ hp
  intro _ m hm
  have : m = { path := k.root, idev := 1, total := t, used := 0 } := List.mem_singleton.mp hm
  rw [this]
  exact ⟨[], by simp, (absPath_nil k).symm⟩

end Verif
