import Verif.Mounts
import Verif.Props.Rename
import Verif.Props.Dirs
/-!
# C39: devices and mount points
-/

namespace Verif
open Py Spec Cfg

namespace Spec
/-- The path `p` is the directory `m` or lies below it (`c` is the separator; paths are absolute and normalised). -/
def Inside (c : Char) (m p : Str) : Prop := m = [c] ∨ p = m ∨ m ++ [c] <+: p
end Spec

/-! ## the mount point of a path -/

theorem mountFold_spec (p : Str) : ∀ (ms : List Mount) (acc : Str × Option Nat),
    let r := ms.foldl (fun (acc : Str × Option Nat) m =>
      if ([] : Str).isPrefixOf m.path && m.path.isPrefixOf p && decide (acc.1.length < m.path.length) then
        (m.path, some m.idev) else acc) acc
    (r = acc ∨ ∃ m ∈ ms, m.path <+: p ∧ r = (m.path, some m.idev)) ∧ acc.1.length ≤ r.1.length ∧
      ∀ m ∈ ms, m.path <+: p → m.path.length ≤ r.1.length := by
  intro ms
  induction ms with
  | nil => intro acc; exact ⟨Or.inl rfl, Nat.le_refl _, by simp⟩
  | cons m ms ih =>
    intro acc
    simp only [List.foldl_cons]
    by_cases h : ([] : Str).isPrefixOf m.path && m.path.isPrefixOf p && decide (acc.1.length < m.path.length)
    · rw [if_pos h]
      obtain ⟨h1, h2, h3⟩ := ih (m.path, some m.idev)
      simp only [Bool.and_eq_true, List.isPrefixOf_iff_prefix, decide_eq_true_eq] at h
      refine ⟨Or.inr ?_, Nat.le_trans (Nat.le_of_lt h.2) h2, ?_⟩
      · rcases h1 with h1 | ⟨m', a, b, e⟩
        · exact ⟨m, by simp, h.1.2, h1⟩
        · exact ⟨m', by simp [a], b, e⟩
      · intro m' hm' hp
        rcases List.mem_cons.mp hm' with e | hm'
        · rw [e]; exact h2
        · exact h3 m' hm' hp
    · rw [if_neg h]
      obtain ⟨h1, h2, h3⟩ := ih acc
      refine ⟨?_, h2, ?_⟩
      · rcases h1 with h1 | ⟨m', a, b, e⟩
        · exact Or.inl h1
        · exact Or.inr ⟨m', by simp [a], b, e⟩
      · intro m' hm' hp
        rcases List.mem_cons.mp hm' with e | hm'
        · rw [e] at hp ⊢
          simp only [Bool.and_eq_true, List.isPrefixOf_iff_prefix, decide_eq_true_eq, not_and, Nat.not_lt] at h
          exact Nat.le_trans (h ⟨List.nil_prefix, hp⟩) h2
        · exact h3 m' hm' hp

theorem findMount_spec {s : FS} (hi : Inv s) (hp : s.cfg.Posix) {q : Str} (hq : AbsCanon s.cfg.sep q) :
    ∃ m ∈ s.mounts, s.findMount q = some m.idev ∧ m.path <+: q ∧ ∀ m' ∈ s.mounts, m'.path <+: q → m'.path.length ≤ m.path.length := by
  unfold FS.findMount
  cases hf : s.mounts.find? (fun m => m.path == q) with
  | some m =>
    have h1 := List.mem_of_find?_eq_some hf
    have h2 := List.find?_some hf
    have e : m.path = q := by simpa using h2
    exact ⟨m, h1, rfl, by rw [e], fun m' _ h => by rw [e]; exact h.length_le⟩
  | none =>
    simp only [hp.splitdrive]
    obtain ⟨h1, h2, h3⟩ := mountFold_spec q s.mounts ([], none)
    generalize (s.mounts.foldl _ (([], none) : Str × Option Nat)) = r at h1 h2 h3 ⊢
    rcases h1 with h1 | ⟨m, a, b, e⟩
    · obtain ⟨m, hm, e⟩ := hi.n.rootMount
      obtain ⟨l, -, rfl⟩ := hq
      have : m.path <+: absPath s.cfg.sep l := by rw [e, Cfg.root]; exact ⟨_, rfl⟩
      have := h3 m hm this
      rw [h1, e] at this
      simp [Cfg.root] at this
    · exact ⟨m, a, by rw [e], b, fun m' hm' hp' => by have := h3 m' hm' hp'; rw [e] at this; exact this⟩

theorem find_dev {ms : List Mount} {m : Mount} (hn : (ms.map Mount.idev).Nodup) (hm : m ∈ ms) :
    ms.find? (fun x => x.idev == m.idev) = some m := by
  induction ms with
  | nil => simp at hm
  | cons a ms ih =>
    simp only [List.map_cons, List.nodup_cons] at hn
    rw [List.find?_cons]
    rcases List.mem_cons.mp hm with e | hm
    · rw [e]; simp
    · have : a.idev ≠ m.idev := fun e => hn.1 (e ▸ List.mem_map_of_mem hm)
      simp only [beq_eq_false_iff_ne.mpr this]
      exact ih hn.2 hm

theorem mount_path_inj {ms : List Mount} {m m' : Mount} (hn : (ms.map Mount.path).Nodup) (hm : m ∈ ms) (hm' : m' ∈ ms)
    (e : m.path = m'.path) : m = m' := by
  induction ms with
  | nil => simp at hm
  | cons a ms ih =>
    simp only [List.map_cons, List.nodup_cons] at hn
    rcases List.mem_cons.mp hm with h | hm
    · rcases List.mem_cons.mp hm' with h' | hm'
      · rw [h, h']
      · exact absurd (List.mem_map_of_mem (f := Mount.path) hm') (by rw [← e, h]; exact hn.1)
    · rcases List.mem_cons.mp hm' with h' | hm'
      · exact absurd (List.mem_map_of_mem (f := Mount.path) hm) (by rw [e, h']; exact hn.1)
      · exact ih hn.2 hm hm'

theorem mountForPath_run {s : FS} (hi : Inv s) (ht : s.cfg.Tree) (hlim : 0 < s.limit) (p : Str) {dev : Nat}
    (h : s.findMount (s.absnorm p) = some dev) : mountForPath p s = (.ok dev, s) := by
  unfold mountForPath
  obtain ⟨n, hn⟩ : ∃ n, s.limit = n + 1 := ⟨s.limit - 1, by omega⟩
  rw [hn]
  unfold mountForPathF
  rw [M.bind_eq]
  simp only [M.get, originalPath_tree ht.cs, h]
  rfl

/-- C39: the disk usage reported for a path is that of the deepest mount point containing it, provided that no mount path is
a string prefix of it without containing it. -/
theorem diskUsage_deepest {s : FS} (hs : Reachable s) (ht : s.cfg.Tree) (hlim : 0 < s.limit) (p : Str)
    (hb : ∀ m ∈ s.mounts, m.path <+: s.absnorm p → Inside s.cfg.sep m.path (s.absnorm p)) :
    ∃ m ∈ s.mounts, Inside s.cfg.sep m.path (s.absnorm p) ∧
      (∀ m' ∈ s.mounts, Inside s.cfg.sep m'.path (s.absnorm p) → m' = m ∨ m'.path.length < m.path.length) ∧
      getDiskUsage (some p) s = (.ok m.usage, s) := by
  have hi := reachable_inv hs
  have hq := hi.absnorm ht.posix p
  obtain ⟨m, hm, h1, h2, h3⟩ := findMount_spec hi ht.posix hq
  have hpre : ∀ m', Inside s.cfg.sep m' (s.absnorm p) → m' <+: s.absnorm p := by
    rintro m' (h | h | h)
    · obtain ⟨l, -, e⟩ := hq; rw [e, h]; exact ⟨_, rfl⟩
    · rw [h]
    · exact (List.prefix_append m' [s.cfg.sep]).trans h
  refine ⟨m, hm, hb m hm h2, fun m' hm' hin => ?_, ?_⟩
  · have hp' := hpre _ hin
    have hle := h3 m' hm' hp'
    rcases Nat.lt_or_ge m'.path.length m.path.length with h | h
    · exact Or.inr h
    · left
      refine mount_path_inj hi.m.pathNodup hm' hm ?_
      exact (List.prefix_of_prefix_length_le hp' h2 hle).eq_of_length (Nat.le_antisymm hle h)
  · unfold getDiskUsage
    rw [M.bind_eq]
    simp only [M.get]
    rw [M.bind_eq, mountForPath_run hi ht hlim p h1]
    simp only
    rw [M.bind_eq]
    simp only [M.get, find_dev hi.m.devNodup hm]
    rfl

/-- C39: different mount points have different paths and device numbers. -/
theorem mounts_distinct {s : FS} (hs : Reachable s) {i j : Nat} {m m' : Mount} (hi : s.mounts[i]? = some m) (hj : s.mounts[j]? = some m')
    (h : m.idev = m'.idev ∨ m.path = m'.path) : i = j := by
  have inv := (reachable_inv hs).m
  rcases h with h | h
  · exact List.getElem?_inj (l := s.mounts.map Mount.idev) (by rw [List.length_map]; exact (List.getElem?_eq_some_iff.mp hi).1) inv.devNodup |>.mp
      (by rw [List.getElem?_map, List.getElem?_map, hi, hj, Option.map_some, Option.map_some, h])
  · exact List.getElem?_inj (l := s.mounts.map Mount.path) (by rw [List.length_map]; exact (List.getElem?_eq_some_iff.mp hi).1) inv.pathNodup |>.mp
      (by rw [List.getElem?_map, List.getElem?_map, hi, hj, Option.map_some, Option.map_some, h])

/-! ## add_mount_point -/

/-- registering a mount point -/
def FS.mounted (s : FS) (q : Str) (total : Option Int) : FS :=
  { s with lastDev := s.lastDev + 1, mounts := s.mounts ++ [{ path := q, idev := s.lastDev + 1, total := total, used := 0 }] }

theorem inv_mounted {s : FS} (h : Inv s) {q : Str} (hnew : ∀ m ∈ s.mounts, m.path ≠ q) (total : Option Int) : Inv (s.mounted q total) := by
  refine ⟨h.g, ⟨?_, ?_, ?_⟩, ?_, h.t⟩
  · intro m hm
    rcases List.mem_append.mp hm with hm | hm
    · exact Nat.le_succ_of_le (h.m.devLe m hm)
    · simp at hm; rw [hm]; exact Nat.le_refl _
  · show ((s.mounts ++ [_]).map Mount.idev).Nodup
    rw [List.map_append, List.nodup_append]
    refine ⟨h.m.devNodup, by simp, ?_⟩
    intro a ha' b hb
    simp at hb
    obtain ⟨m, hm, e⟩ := List.mem_map.mp ha'
    have := h.m.devLe m hm
    omega
  · show ((s.mounts ++ [_]).map Mount.path).Nodup
    rw [List.map_append, List.nodup_append]
    refine ⟨h.m.pathNodup, by simp, ?_⟩
    intro a ha' b hb
    simp at hb
    obtain ⟨m, hm, e⟩ := List.mem_map.mp ha'
    rw [hb, ← e]; exact hnew m hm
  · have n := h.n
    refine ⟨n.rootMode, n.devFile, n.devMode, n.cwd, n.names, ?_, n.rootName⟩
    obtain ⟨m, hm, e⟩ := n.rootMount
    exact ⟨m, List.mem_append_left _ hm, e⟩

theorem agree_mounted (s : FS) (q : Str) (total : Option Int) : Agree (fun _ => True) s (s.mounted q total) :=
  ⟨rfl, rfl, rfl, rfl, rfl, fun _ _ => rfl, fun _ _ => rfl, fun _ _ => rfl, fun _ _ _ => rfl⟩

theorem addMountPoint_run {s : FS} (hi : Inv s) (p : Str) (total : Option Int) :
    addMountPoint p total s =
      if s.mounts.any (fun m => m.path == s.absnorm p) then (.error (.os .EEXIST), s)
      else match createDir (s.absnorm p) PERM_DEF (s.mounted (s.absnorm p) total) with
        | (.error e, s') => (.error e, s')
        | (.ok r, s') => (.ok (s.lastDev + 1), s'.setObj r fun o => { o with dev := some (s.lastDev + 1) }) := by
  unfold addMountPoint addMountG
  rw [M.bind_eq]
  simp only [M.get]
  by_cases h : s.mounts.any (fun m => m.path == s.absnorm p)
  · rw [if_pos h, if_pos h]; rfl
  · rw [if_neg h, if_neg h]
    have hroot : s.absnorm p ≠ s.cfg.root := by
      intro e
      obtain ⟨m, hm, e'⟩ := hi.n.rootMount
      exact h (List.any_eq_true.mpr ⟨m, hm, by simp [e, e']⟩)
    rw [M.bind_eq]
    simp only [M.modify]
    rw [if_neg hroot, M.bind_eq]
    rw [show (createDirG autoMount (s.absnorm p) PERM_DEF) = createDir (s.absnorm p) PERM_DEF from rfl]
    unfold FS.mounted
    rcases createDir (s.absnorm p) PERM_DEF _ with ⟨r, s'⟩
    cases r <;> rfl

/-- C39: a mount point gets a device number no other mount point has, it is registered with the total size and nothing used,
and a new directory on the new device appears at the path; the directories made for missing parents carry the device of the
directory they are in, and no other object changes its device. -/
theorem addMountPoint_effect {s : FS} (hs : Reachable s) (ht : s.cfg.Tree) (hsep : s.cfg.sep = '/') (hw : Within s) (hg : Genuine s)
    (hrd : Readable s) {names : List Str} (hn : ∀ w ∈ names, Plain s.cfg.sep w) (hl : NoLink s.heap rootRef names)
    (hd : absPath s.cfg.sep names ≠ s.devName) {total : Option Int} (htot : ∀ t, total = some t → 0 ≤ t) {p : Str}
    (hp : s.absnorm p = absPath s.cfg.sep names) {dev : Nat} {s' : FS} (h : addMountPoint p total s = (.ok dev, s')) :
    (∀ m ∈ s.mounts, m.idev ≠ dev) ∧ s'.mounts = s.mounts ++ [{ path := absPath s.cfg.sep names, idev := dev, total := total, used := 0 }] ∧
    s.existsL (absPath s.cfg.sep names) = .ok false ∧
    (∃ x, s.next ≤ x ∧ walk s'.heap rootRef names = some x ∧ (s'.heap x).isDir = true ∧ (s'.heap x).dev = some dev ∧
      s'.resolve (absPath s.cfg.sep names) true false = .ok x) ∧
    (∀ y < s.next, (s'.heap y).dev = (s.heap y).dev) ∧
    ∀ k < names.length, ∃ x y, walk s'.heap rootRef (names.take k) = some x ∧ walk s'.heap rootRef (names.take (k + 1)) = some y ∧
      (s.next ≤ y → k + 1 < names.length → (s'.heap y).dev = (s'.heap x).dev) := by
  have hi := reachable_inv hs
  rw [addMountPoint_run hi] at h
  by_cases hex : s.mounts.any (fun m => m.path == s.absnorm p)
  · rw [if_pos hex] at h; simp at h
  rw [if_neg hex] at h
  have hnew : ∀ m ∈ s.mounts, m.path ≠ absPath s.cfg.sep names := fun m hm e =>
    hex (List.any_eq_true.mpr ⟨m, hm, by simp [e, hp]⟩)
  rw [hp] at h
  have hi1 := inv_mounted hi hnew total
  have hag := agree_mounted s (absPath s.cfg.sep names) total
  have hw1 : Within (s.mounted (absPath s.cfg.sep names) total) := by
    intro m hm t e
    rcases List.mem_append.mp hm with hm | hm
    · exact hw m hm t e
    · simp at hm; subst hm; exact htot t e
  have hg1 : Genuine (s.mounted (absPath s.cfg.sep names) total) := hg
  have hq : (s.mounted (absPath s.cfg.sep names) total).absnorm ((s.mounted (absPath s.cfg.sep names) total).cfg.makeStringPath
      (absPath s.cfg.sep names)) = absPath (s.mounted (absPath s.cfg.sep names) total).cfg.sep names := by
    rw [makeStringPath_slash (show (s.mounted (absPath s.cfg.sep names) total).cfg.sep = '/' from hsep), hag.absnorm]
    exact absnorm_canon hi ht.posix (absCanon_names (plain_proper hn))
  have hwm : ∀ l, walk (s.mounted (absPath s.cfg.sep names) total).heap rootRef l = walk s.heap rootRef l := fun _ => rfl
  have key := createDir_spec hi1 hw1 ht PERM_DEF (plain_proper hn) hq
  rw [hag.existsL (closed_true s)] at key
  have hgood := addMountPoint_pres p total s hi
  unfold wp at hgood
  rw [addMountPoint_run hi, if_neg hex, hp] at hgood
  have hmd : ∀ m ∈ s.mounts, m.idev ≠ s.lastDev + 1 := fun m hm e => by have := hi.m.devLe m hm; omega
  rcases key with ⟨e, s1, h1, h2⟩ | ⟨hno, ⟨d, h1, h2⟩ | ⟨pre, c, post, d, ld, s1, x, h1, h2, h3, h4, h5⟩⟩
  · rw [h1] at h; simp at h
  · have hwk := h2.walk hl
    have hx := exists_plain hi ht s.rc hn hl hd
    have hx2 : s.existsG s.rc (absPath s.cfg.sep names) = .ok false := existsL_false hno
    rw [hx] at hx2
    rw [hwm] at hwk
    rw [hwk] at hx2; simp at hx2
  · rw [h3] at h hgood
    simp only [Prod.mk.injEq, Except.ok.injEq] at h
    obtain ⟨rfl, rfl⟩ := h
    have hwk := h2.walk (noLink_prefix (by rw [← h1]; exact hl))
    have hdir := h4.isDir (by simp)
    have hld : ld = pre := walk_dir_unique hi1 _ _ h4.base hwk hdir
    subst hld
    have hall := h4.allDirs hi1 hg1 h1 (by decide)
    rw [← h1] at h5
    have hxn : s.next ≤ x ∧ (s1.heap x).isDir = true := by
      obtain ⟨y, a, b, c', -⟩ := h4.made (c :: post).length (by simp) (Nat.le_refl _)
      rw [List.take_length, ← h1, h5] at b
      injection b with b; subst b
      exact ⟨a, c'⟩
    have hset : ∀ y, y ≠ x → (s1.setObj x fun o => { o with dev := some (s.lastDev + 1) }).heap y = s1.heap y := fun y hy => upd_ne _ _ hy
    have hsx : (s1.setObj x fun o => { o with dev := some (s.lastDev + 1) }).heap x = { s1.heap x with dev := some (s.lastDev + 1) } := upd_same _ _ _
    have hent : ∀ y, ((s1.setObj x fun o => { o with dev := some (s.lastDev + 1) }).heap y).entries = (s1.heap y).entries := by
      intro y; by_cases e : y = x
      · rw [e, hsx]; rfl
      · rw [hset y e]
    have hws : ∀ l, walk (s1.setObj x fun o => { o with dev := some (s.lastDev + 1) }).heap rootRef l = walk s1.heap rootRef l :=
      fun l => walk_same hent l _
    have hlt : ∀ y < s.next, y ≠ x := fun y hy e => by rw [e] at hy; exact absurd hy (Nat.not_lt.mpr hxn.1)
    have hdlt : d < s.next := walk_lt hi1 _ (root_lt hi1) h4.base
    have hdd : (s1.heap d).dev = (s.heap d).dev := by
      obtain ⟨z, hz⟩ := h4.dir c post rfl
      rw [hz]; rfl
    refine ⟨hmd, h4.mounts, hno, ⟨x, hxn.1, ?_, ?_, ?_, ?_⟩, ?_, ?_⟩
    · rw [hws]; exact h5
    · rw [hsx]; exact hxn.2
    · rw [hsx]
    · have hi2 := hgood.inv
      have hall2 : AllDirs (s1.setObj x fun o => { o with dev := some (s.lastDev + 1) }) names := by
        intro k hk
        obtain ⟨y, a, b, c'⟩ := hall k hk
        refine ⟨y, by rw [hws]; exact a, ?_⟩
        by_cases e : y = x
        · subst e; rw [hsx]; exact ⟨b, c'⟩
        · rw [hset y e]; exact ⟨b, c'⟩
      have hcfg : (s1.setObj x fun o => { o with dev := some (s.lastDev + 1) }).cfg = s.cfg := by
        show s1.cfg = _; rw [h4.rest]; rfl
      have hdn : (s1.setObj x fun o => { o with dev := some (s.lastDev + 1) }).devName = s.devName := by
        unfold FS.devName
        rw [hset _ (hlt _ (devNull_lt hi)), h4.others _ (devNull_lt hi1) (Or.inr (isDir_ne_devNull hi1 hdir).symm)]; rfl
      obtain ⟨y, r1, r2⟩ := hall2.resolves hi2 (by rw [hcfg]; exact ht) (by rw [hcfg]; exact hn) (Nat.le_refl _)
        (by rw [List.take_length, hcfg, hdn]; exact hd) (c := false) (Or.inl rfl)
      rw [List.take_length, hcfg] at r1
      have := ((resolve_plain hi2 (by rw [hcfg]; exact ht) _ (by rw [hcfg]; exact hn) hall2.noLink (by rw [hcfg, hdn]; exact hd)).mp
        (by rw [hcfg]; exact r1)).1
      rw [hws, h5] at this
      injection this with this; subst this
      exact r1
    · intro y hy
      rw [hset y (hlt y hy)]
      by_cases e : y = d
      · rw [e]; exact hdd
      · rw [h4.others y hy (Or.inr e)]; rfl
    · have old : ∀ k ≤ ld.length, ∃ z, walk s1.heap rootRef (names.take k) = some z ∧ z < s.next ∧ (k = ld.length → z = d) := by
        intro k hk
        have htk : names.take k = ld.take k := by rw [h1, List.take_append_of_le_length hk]
        obtain ⟨z, a, -, b⟩ := walk_take h4.base k hk
        refine ⟨z, ?_, walk_lt hi1 _ (root_lt hi1) a, b⟩
        rw [htk, h4.elsewhere]
        · exact a
        · intro j g1 g2 e2
          have := congrArg List.length e2
          rw [List.length_append, List.length_take, List.length_take] at this
          omega
      have young : ∀ k, ld.length < k → k ≤ names.length → ∃ z, s.next ≤ z ∧ walk s1.heap rootRef (names.take k) = some z ∧
          (s1.heap z).dev = (s.heap d).dev := by
        intro k g1 g2
        obtain ⟨z, a, b, -, -, -, -, e⟩ := h4.made (k - ld.length) (by omega) (by rw [h1] at g2; simp only [List.length_append] at g2; omega)
        refine ⟨z, a, ?_, e⟩
        rw [h1, List.take_append, List.take_of_length_le (by omega)]; exact b
      have notx : ∀ k < names.length, ∀ z, walk s1.heap rootRef (names.take k) = some z → z ≠ x := by
        intro k hk z hz e
        subst e
        have hi3 : Inv s1 := by
          have := createDir_pres (absPath s.cfg.sep names) PERM_DEF _ hi1
          unfold wp at this; rw [h3] at this; exact this.inv
        have := walk_dir_unique hi3 _ _ hz h5 hxn.2
        have := congrArg List.length this
        rw [List.length_take] at this; omega
      intro k hk
      simp only [hws]
      rcases Nat.lt_trichotomy k ld.length with g | g | g
      · obtain ⟨z, a, -⟩ := old k (by omega)
        obtain ⟨w, a2, b2, -⟩ := old (k + 1) (by omega)
        exact ⟨z, w, a, a2, fun g' => absurd b2 (Nat.not_lt.mpr g')⟩
      · obtain ⟨z, a, -, c'⟩ := old k (by omega)
        obtain ⟨w, a2, b2, c2⟩ := young (k + 1) (by omega) hk
        refine ⟨z, w, a, b2, fun _ hlt2 => ?_⟩
        rw [hset z (notx k hk z a), hset w (notx (k + 1) hlt2 w b2), c2, c' g, hdd]
      · obtain ⟨z, a, a', c'⟩ := young k g (by omega)
        obtain ⟨w, a2, b2, c2⟩ := young (k + 1) (by omega) hk
        refine ⟨z, w, a', b2, fun _ hlt2 => ?_⟩
        rw [hset z (notx k hk z a'), hset w (notx (k + 1) hlt2 w b2), c2, c']

/-! ## rename stays on one device -/

/-- C39: a rename between two directories succeeds only if they are on the same device, whatever there is at the new path
(the hypotheses are those of `rename_outcome`). -/
theorem rename_one_device {s : FS} (hs : Reachable s) (ht : s.cfg.Tree) (hm : s.cfg.isMac = false) (hw : Within s) (hg : Genuine s)
    (hrd : Readable s) (hdev : DevInDir s) {force : Bool} {names names' : List Str} {on nn : Str} {od nd : Ref} (ho : Spot s names on od)
    (hn : Spot s names' nn nd) (hndir : (s.heap nd).isDir = true) (hmo : mayRemove s od) (hmn : mayRemove s nd)
    (hdiff : ∀ t, alookup nn (s.heap nd).entries = some t → alookup on (s.heap od).entries ≠ some t)
    (h : (rename (absPath s.cfg.sep (names ++ [on])) (absPath s.cfg.sep (names' ++ [nn])) force s).1 = .ok ()) :
    (s.heap od).dev = (s.heap nd).dev := by
  rw [rename_outcome hs ht hm hw hg hrd hdev ho hn hndir hmo hmn hdiff] at h
  have fits : ∀ r, renameFits s r od nd = .ok () → (s.heap od).dev = (s.heap nd).dev := by
    intro r hr
    by_contra hc
    unfold renameFits at hr
    rw [if_pos hc] at hr; simp at hr
  cases hr : alookup on (s.heap od).entries with
  | none => rw [hr] at h; simp at h
  | some r =>
    rw [hr] at h
    simp only [renameVerdict] at h
    split at h
    · exact fits r h
    · split at h
      · split at h
        · simp at h
        · exact fits r h
      · split at h
        · split at h
          · simp at h
          · split at h
            · simp at h
            · split at h
              · simp at h
              · exact fits r h
        · split at h
          · simp at h
          · exact fits r h

theorem rd_bind_ok {α β : Type} {f : FS → Except Err α} {k : α → M β} {s s' : FS} {b : β} (h : (rd f >>= k) s = (.ok b, s')) :
    ∃ a, f s = .ok a ∧ k a s = (.ok b, s') := by
  rw [M.bind_eq] at h
  cases hf : f s with
  | error e => rw [rd_eq hf] at h; simp at h
  | ok a => rw [rd_eq hf] at h; exact ⟨a, rfl, h⟩

/-- C39: in every state, a rename to a path where nothing exists succeeds only if the directories holding the two paths are on
the same device. -/
theorem rename_new_device {s s' : FS} {po pn : Str} {force : Bool} (h : rename po pn force s = (.ok (), s'))
    (hfree : s.existsL (s.absnorm pn) = .ok false) (hne : s.absnorm pn ≠ []) :
    ∃ od nd, s.resolve (s.cfg.splitpath (s.absnorm po)).1 = .ok od ∧ s.resolve (s.cfg.splitpath (s.absnorm pn)).1 = .ok nd ∧
      (s.heap od).dev = (s.heap nd).dev := by
  have tail : ∀ r, renameTail (s.absnorm po) (s.absnorm pn) r s = (.ok (), s') →
      ∃ od nd, s.resolve (s.cfg.splitpath (s.absnorm po)).1 = .ok od ∧ s.resolve (s.cfg.splitpath (s.absnorm pn)).1 = .ok nd ∧
      (s.heap od).dev = (s.heap nd).dev := by
    intro r h
    unfold renameTail at h
    rw [M.bind_eq] at h
    simp only [M.get] at h
    rw [if_neg hne] at h
    obtain ⟨b, -, h⟩ := rd_bind_ok h
    cases b with
    | false => simp only [Bool.not_false, if_true] at h; rw [M.bind_eq] at h; simp [M.raise, M.throw] at h
    | true =>
      simp only [Bool.not_true, Bool.false_eq_true, if_false] at h
      obtain ⟨od, ho, h⟩ := rd_bind_ok h
      obtain ⟨nd, hn, h⟩ := rd_bind_ok h
      refine ⟨od, nd, ho, hn, ?_⟩
      by_contra hc
      rw [if_pos hc, M.bind_eq] at h
      simp [M.raise, M.throw] at h
  unfold rename at h
  rw [M.bind_eq] at h
  simp only [M.get] at h
  obtain ⟨b, -, h⟩ := rd_bind_ok h
  cases b with
  | false => simp only [Bool.not_false, if_true] at h; rw [M.bind_eq] at h; simp [M.raise, M.throw] at h
  | true =>
    simp only [Bool.not_true, Bool.false_eq_true, if_false] at h
    have fin : ∀ (es : Bool) oldO, (rd (·.existsL (s.absnorm pn)) >>= fun b => if b then
          renameToExisting force (s.absnorm pn) (s.absnorm po) oldO es >>= fun x => match x with
            | none => M.pure ()
            | some new => renameTail (s.absnorm po) new oldO
        else renameTail (s.absnorm po) (s.absnorm pn) oldO) s = (.ok (), s') →
        ∃ od nd, s.resolve (s.cfg.splitpath (s.absnorm po)).1 = .ok od ∧ s.resolve (s.cfg.splitpath (s.absnorm pn)).1 = .ok nd ∧
          (s.heap od).dev = (s.heap nd).dev := by
      intro es oldO h
      obtain ⟨b, hb, h⟩ := rd_bind_ok h
      rw [hfree] at hb; injection hb with hb; subst hb
      exact tail oldO h
    by_cases he : s.cfg.endsWithSep po
    · simp only [he, if_true] at h
      obtain ⟨u, -, h⟩ := rd_bind_ok h
      obtain ⟨oldO, -, h⟩ := rd_bind_ok h
      by_cases hw : s.cfg.isWin
      · simp only [hw, Bool.not_true, Bool.false_eq_true, if_false] at h
        exact fin _ _ h
      · simp only [hw, Bool.not_false, if_true] at h
        obtain ⟨u, -, h⟩ := rd_bind_ok h
        exact fin _ _ h
    · simp only [he, Bool.false_eq_true, if_false] at h
      obtain ⟨oldO, -, h⟩ := rd_bind_ok h
      by_cases hw : s.cfg.isWin
      · simp only [hw, Bool.not_true, Bool.false_eq_true, if_false] at h
        exact fin _ _ h
      · simp only [hw, Bool.not_false, if_true] at h
        obtain ⟨u, -, h⟩ := rd_bind_ok h
        exact fin _ _ h

/-! ## concrete cases -/

/-- the demo filesystem with a mount point -/
def mountFS : FS := runs [.addMountPoint ['/', 'n', '/', 'm'] (some 100),
  .createFile ['/', 'n', '/', 'm', '/', 'f'] (S_IFREG ||| 0o666) (some [1, 2]) none true false] demo

theorem mountFS_reachable : Reachable mountFS := reachable_runs demo_reachable _

/-- `diskUsage_deepest` on a path below the mount point: its hypotheses hold, and the usage is that of the mount point. -/
example : (∀ m ∈ mountFS.mounts, m.path <+: mountFS.absnorm ['/', 'n', '/', 'm', '/', 'f'] →
      Inside mountFS.cfg.sep m.path (mountFS.absnorm ['/', 'n', '/', 'm', '/', 'f'])) ∧
    (getDiskUsage (some ['/', 'n', '/', 'm', '/', 'f']) mountFS).1 = .ok (100, 2, 98) := by
  refine ⟨?_, by decide +kernel⟩
  have h1 : mountFS.mounts.map Mount.path = [['/'], ['/', 'n', '/', 'm']] := by decide +kernel
  have h2 : mountFS.absnorm ['/', 'n', '/', 'm', '/', 'f'] = ['/', 'n', '/', 'm', '/', 'f'] := by decide +kernel
  have h3 : mountFS.cfg.sep = '/' := by decide +kernel
  intro m hm _
  have : m.path ∈ mountFS.mounts.map Mount.path := List.mem_map_of_mem hm
  rw [h1] at this
  rw [h2, h3]
  simp at this
  rcases this with e | e <;> rw [e]
  · exact Or.inl rfl
  · exact Or.inr (Or.inr ⟨['f'], rfl⟩)

/-- the hypotheses of `addMountPoint_effect` hold for this call -/
example : (addMountPoint ['/', 'n', '/', 'm'] (some 100) demo).1 = .ok 2 ∧ demo.cfg.sep = '/' ∧ Within demo ∧ Genuine demo ∧ Readable demo ∧
    (∀ w ∈ [['n'], ['m']], Plain demo.cfg.sep w) ∧ NoLink demo.heap rootRef [['n'], ['m']] ∧ absPath demo.cfg.sep [['n'], ['m']] ≠ demo.devName ∧
    demo.absnorm ['/', 'n', '/', 'm'] = absPath demo.cfg.sep [['n'], ['m']] := by
  refine ⟨by decide +kernel, demo_sep, demo_within, demo_genuine, Or.inl demo_root, by rw [demo_sep]; decide, ?_, by decide +kernel, by decide +kernel⟩
  intro x hx
  have : alookup ['n'] (demo.heap rootRef).entries = none := by decide +kernel
  rw [this] at hx; simp at hx

/-! ## what goes wrong -/

/-- Mount paths are compared as strings: the usage reported for "/foobar" is that of the device mounted at "/foo". -/
theorem diskUsage_prefix_counterexample : ∃ s, Reachable s ∧ s.cfg.Tree ∧ ¬ Inside '/' ['/', 'f', 'o', 'o'] ['/', 'f', 'o', 'o', 'b', 'a', 'r'] ∧
    (getDiskUsage (some ['/', 'f', 'o', 'o', 'b', 'a', 'r']) s).1 = .ok (100, 0, 100) ∧ (getDiskUsage (some ['/']) s).1 = .ok (1000, 5, 995) := by
  refine ⟨runs [.addMountPoint ['/', 'f', 'o', 'o'] (some 100)] demo, reachable_runs demo_reachable _, ?_, ?_, by decide +kernel, by decide +kernel⟩
  · rw [(runs_step _ demo_inv).pers.cfg]; exact demo_tree
  · unfold Inside; decide

/-- Mounting at an existing directory raises EEXIST, but the mount point is registered. -/
theorem addMountPoint_exists_counterexample : ∃ s, Reachable s ∧ s.cfg.Tree ∧ ∃ s', addMountPoint ['/', 'a'] (some 5) s = (.error (.os .EEXIST), s') ∧
    (getDiskUsage (some ['/', 'a', '/', 'f']) s).1 = .ok (1000, 5, 995) ∧ (getDiskUsage (some ['/', 'a', '/', 'f']) s').1 = .ok (5, 0, 5) := by
  refine ⟨demo, demo_reachable, demo_tree, (addMountPoint ['/', 'a'] (some 5) demo).2, Prod.ext (by decide +kernel) rfl, by decide +kernel, by decide +kernel⟩

/-- Renaming a mount point's directory moves it to the device of its new parent, while the files in it stay on the old device. -/
theorem rename_mount_counterexample : ∃ s s', Reachable s ∧ s.cfg.Tree ∧ rename ['/', 'n', '/', 'm'] ['/', 'x'] false s = (.ok (), s') ∧
    (s.stat ['/', 'n', '/', 'm']).map Stat.dev = .ok (some 2) ∧ (s'.stat ['/', 'x']).map Stat.dev = .ok (some 1) ∧
    (s'.stat ['/', 'x', '/', 'f']).map Stat.dev = .ok (some 2) := by
  refine ⟨mountFS, (rename ['/', 'n', '/', 'm'] ['/', 'x'] false mountFS).2, mountFS_reachable, ?_, Prod.ext (by decide +kernel) rfl, by decide +kernel,
    by decide +kernel, by decide +kernel⟩
  rw [mountFS, (runs_step _ demo_inv).pers.cfg]; exact demo_tree

/-- A hard link may be made across devices; it moves the file to the device of the new name without charging it there. -/
theorem link_device_counterexample : ∃ s s' r, Reachable s ∧ s.cfg.Tree ∧ link ['/', 'n', '/', 'm', '/', 'f'] ['/', 'x'] true s = (.ok r, s') ∧
    (s.stat ['/', 'n', '/', 'm', '/', 'f']).map Stat.dev = .ok (some 2) ∧ (s'.stat ['/', 'n', '/', 'm', '/', 'f']).map Stat.dev = .ok (some 1) ∧
    (getDiskUsage (some ['/']) s').1 = (getDiskUsage (some ['/']) s).1 := by
  refine ⟨mountFS, (link ['/', 'n', '/', 'm', '/', 'f'] ['/', 'x'] true mountFS).2, 8, mountFS_reachable, ?_, Prod.ext (by decide +kernel) rfl,
    by decide +kernel, by decide +kernel, by decide +kernel⟩
  rw [mountFS, (runs_step _ demo_inv).pers.cfg]; exact demo_tree

end Verif
