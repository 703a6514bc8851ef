import Verif.InvPrim
/-!
# Attaching and detaching directory entries
-/

namespace Verif
open Py

/-- The heap after `attach`. -/
theorem attach_heap (s : FS) (d c x : Ref) : (s.attach d c).heap x =
    { s.heap x with
      content := if x = d then .dir ((s.heap d).entries ++ [((s.heap c).name, c)]) else (s.heap x).content
      parent := if x = c then some d else (s.heap x).parent
      ino := if x = c ∧ (s.heap c).ino = none then some (s.lastIno + 1) else (s.heap x).ino
      nlink := (s.heap x).nlink + (if x = d then 1 else 0) + (if x = c then 1 else 0)
      dev := if x = c then (s.heap d).dev else (s.heap x).dev } := by
  unfold FS.attach FS.setObj
  by_cases hi : (s.heap c).ino = none
  · by_cases h1 : x = c <;> by_cases h2 : x = d <;> by_cases h3 : c = d <;>
      simp_all [upd_apply, eq_comm]
  · by_cases h1 : x = c <;> by_cases h2 : x = d <;> by_cases h3 : c = d <;>
      simp_all [upd_apply, eq_comm]

theorem attach_misc (s : FS) (d c : Ref) : (s.attach d c).next = s.next ∧ (s.attach d c).cfg = s.cfg ∧
    (s.attach d c).mounts = s.mounts ∧ (s.attach d c).lastDev = s.lastDev ∧
    (s.attach d c).limit = s.limit ∧ (s.attach d c).uid = s.uid ∧ (s.attach d c).gid = s.gid ∧
    (s.attach d c).cwd = s.cwd ∧ (s.attach d c).umask = s.umask ∧ (s.attach d c).clock = s.clock ∧
    (s.attach d c).lastIno = (if (s.heap c).ino = none then s.lastIno + 1 else s.lastIno) := by
  unfold FS.attach FS.setObj
  by_cases hi : (s.heap c).ino = none <;> by_cases h : c = d <;> simp_all [upd_apply]

theorem alookup_none {α : Type} {k : Str} {l : List (Str × α)} : alookup k l = none ↔ k ∉ l.map Prod.fst := by
  induction l with
  | nil => simp [alookup]
  | cons a l ih =>
    obtain ⟨a, x⟩ := a
    simp only [alookup]
    split
    · rename_i h; simp [h]
    · rename_i h; rw [ih]; simp; exact fun _ => fun e => h e.symm

theorem alookup_some {α : Type} {k : Str} {v : α} {l : List (Str × α)} (h : alookup k l = some v) :
    (k, v) ∈ l := by
  induction l with
  | nil => simp [alookup] at h
  | cons a l ih =>
    obtain ⟨a, x⟩ := a
    simp only [alookup] at h
    split at h
    · rename_i e; simp at h; simp [e, h]
    · exact List.mem_cons_of_mem _ (ih h)

theorem alookup_of_mem {α : Type} {k : Str} {v : α} {l : List (Str × α)} (hn : (l.map Prod.fst).Nodup)
    (h : (k, v) ∈ l) : alookup k l = some v := by
  induction l with
  | nil => simp at h
  | cons a l ih =>
    obtain ⟨a, x⟩ := a
    simp only [List.map_cons, List.nodup_cons] at hn
    simp only [alookup]
    rcases List.mem_cons.mp h with e | e
    · injection e with e1 e2; simp [e1, e2]
    · have : a ≠ k := fun he => hn.1 (he ▸ List.mem_map.mpr ⟨_, e, rfl⟩)
      simp [this, ih hn.2 e]

/-- Ancestors of a directory are directories. -/
theorem Anc.isDir {hp : Ref → Obj} {nx li : Nat} (h : InvG hp nx li) {a d : Ref} (ha : Anc hp a d)
    (hd : d < nx) (hdir : (hp d).isDir = true) : (hp a).isDir = true := by
  induction ha with
  | refl => exact hdir
  | up h0 _ ih => obtain ⟨h1, h2⟩ := h.parDir _ hd _ h0; exact ih h1 h2

/-- What `add_entry(d, c)` needs to keep the invariant. -/
structure AddPre (s : FS) (d c : Ref) : Prop where
  dLt : d < s.next
  cLt : c < s.next
  cRoot : c ≠ rootRef
  noRef : (s.heap c).isDir = true → ∀ x < s.next, ∀ e ∈ (s.heap x).entries, e.2 ≠ c
  noAnc : (s.heap c).isDir = true → s.cfg.Tree → ¬ Anc s.heap c d
  nameOk : s.cfg.Posix → s.cfg.isMac = false → Spec.Proper s.cfg.sep (s.heap c).name

theorem attach_good {s : FS} (h : Inv s) {d c : Ref} (pre : AddPre s d c)
    (hdir : (s.heap d).isDir = true) (hnew : alookup (s.heap c).name (s.heap d).entries = none) :
    Good s (s.attach d c) := by
  have hg := h.g
  obtain ⟨m1, m2, m3, m4, m5, m6, m7, m9, m10, m11, m8⟩ := attach_misc s d c
  have hent : ∀ x, ((s.attach d c).heap x).entries =
      if x = d then (s.heap d).entries ++ [((s.heap c).name, c)] else (s.heap x).entries := by
    intro x; rw [attach_heap]; by_cases e : x = d <;> simp [Obj.entries, e]
  have hkind : ∀ x, ((s.attach d c).heap x).isDir = (s.heap x).isDir := by
    intro x; rw [attach_heap]
    by_cases e : x = d
    · subst e; rw [hdir]; simp [Obj.isDir]
    · simp [Obj.isDir, e]
  have hname : ∀ x, ((s.attach d c).heap x).name = (s.heap x).name := by intro x; rw [attach_heap]
  have hmode : ∀ x, ((s.attach d c).heap x).mode = (s.heap x).mode := by intro x; rw [attach_heap]
  have hpar : ∀ x, ((s.attach d c).heap x).parent = if x = c then some d else (s.heap x).parent := by
    intro x; rw [attach_heap]
  have hino : ∀ x, ((s.attach d c).heap x).ino =
      if x = c ∧ (s.heap c).ino = none then some (s.lastIno + 1) else (s.heap x).ino := by
    intro x; rw [attach_heap]
  have hnl : ∀ x, ((s.attach d c).heap x).nlink =
      (s.heap x).nlink + (if x = d then 1 else 0) + (if x = c then 1 else 0) := by
    intro x; rw [attach_heap]
  -- every entry is an old one or the new one
  have hcase : ∀ x, ∀ e ∈ ((s.attach d c).heap x).entries,
      e ∈ (s.heap x).entries ∨ (x = d ∧ e = ((s.heap c).name, c)) := by
    intro x e he
    rw [hent] at he
    split at he
    · rename_i hx
      rcases List.mem_append.mp he with he | he
      · exact Or.inl (hx ▸ he)
      · exact Or.inr ⟨hx, by simpa using he⟩
    · exact Or.inl he
  have hrefs : ∀ r, refs (s.attach d c).heap s.next r = refs s.heap s.next r + if r = c then 1 else 0 := by
    intro r
    have := refs_upd (hp := s.heap) (hp' := (s.attach d c).heap) r pre.dLt
      (fun x _ hx => by rw [hent, if_neg hx])
    rw [hent, if_pos rfl] at this
    simp only [List.map_append, List.map_cons, List.map_nil, List.count_append, List.count_singleton] at this
    by_cases e : r = c
    · subst e; simp at this ⊢; omega
    · have e' : ¬ c = r := fun x => e x.symm
      simp [e, e'] at this ⊢; omega
  refine ⟨⟨?_, by rw [m3, m4]; exact h.m, ?_, ?_⟩, ⟨m2, m5, m6, m7, m9, m10, m11, by rw [m1], fun r _ => hkind r,
    fun r _ => by rw [hmode], ?_, by rw [m3]; exact Quota.refl _⟩⟩
  · rw [m1]
    constructor
    · exact hg.two
    · intro x hx e he
      rcases hcase x e he with he | ⟨_, rfl⟩
      · exact hg.entLt x hx e he
      · exact pre.cLt
    · intro x hx e he
      rcases hcase x e he with he | ⟨_, rfl⟩
      · exact hg.entRoot x hx e he
      · exact pre.cRoot
    · intro x hx
      rw [hent]
      split
      · rw [List.map_append, List.nodup_append]
        refine ⟨hg.keys d pre.dLt, by simp, ?_⟩
        intro a ha b hb
        simp at hb
        rintro rfl
        exact alookup_none.mp hnew (hb ▸ ha)
      · exact hg.keys x hx
    · intro x hx e he hk
      rw [hkind] at hk
      rw [hpar, hname]
      rcases hcase x e he with he | ⟨rfl, rfl⟩
      · by_cases ec : e.2 = c
        · exact absurd ec (pre.noRef (ec ▸ hk) x hx e he)
        · rw [if_neg ec]; exact hg.dirEnt x hx e he hk
      · simp
    · intro r hr p hp
      rw [hpar] at hp
      rw [hkind]
      split at hp
      · injection hp with hp; subst hp; exact ⟨pre.dLt, hdir⟩
      · exact hg.parDir r hr p hp
    · intro r hr hk
      rw [hkind] at hk
      rw [hmode]
      exact hg.dirMode r hr hk
    · intro x hx e he
      rw [hino]
      split
      · simp
      · rename_i hn
        rcases hcase x e he with he | ⟨rfl, rfl⟩
        · exact hg.entIno x hx e he
        · simpa using hn
    · intro r hr i hi
      rw [hino] at hi
      rw [m8]
      split at hi
      · rename_i hc
        injection hi with hi
        rw [if_pos hc.2]; omega
      · have := hg.inoLe r hr i hi
        split <;> omega
    · intro r hr q hq i hi hj
      rw [hino] at hi hj
      split at hi
      · rename_i hc
        split at hj
        · rename_i hc'; exact hc.1.trans hc'.1.symm
        · injection hi with hi
          have := hg.inoLe q hq i hj
          omega
      · split at hj
        · injection hj with hj
          have := hg.inoLe r hr i hi
          omega
        · exact hg.inoInj r hr q hq i hi hj
    · rw [hkind]; exact hg.rootDir
    · rw [hpar, if_neg (fun e => pre.cRoot e.symm)]; exact hg.rootPar
    · rw [hino, if_neg (fun e => pre.cRoot e.1.symm)]; exact hg.rootIno
  · constructor
    · rw [hmode]; exact h.n.rootMode
    · rw [hkind]; exact h.n.devFile
    · rw [hmode]; exact h.n.devMode
    · rw [m2, m9]; exact h.n.cwd
    · rw [m2, m1]
      intro hp hm x hx e he
      rcases hcase x e he with he | ⟨_, rfl⟩
      · exact h.n.names hp hm x hx e he
      · exact pre.nameOk hp hm
    · rw [m3, m2]; exact h.n.rootMount
    · rw [m2, hname]; exact h.n.rootName
  · intro cs
    rw [m1]
    rw [m2] at cs
    constructor
    · intro r hr
      rw [hnl, hrefs, hkind, hent, (h.t cs).nlink r hr]
      by_cases e1 : r = d
      · subst e1; by_cases e2 : r = c <;> simp [e2, hdir]
        · subst e2; simp [hdir]; omega
        · omega
      · by_cases e2 : r = c
        · rw [if_neg e1, if_neg e1, if_pos e2, if_pos e2]; push_cast; omega
        · rw [if_neg e1, if_neg e1, if_neg e2, if_neg e2]; push_cast; omega
    intro r hr
    have hno : ¬ Anc s.heap c d := by
      by_cases hk : (s.heap c).isDir = true
      · exact pre.noAnc hk cs
      · exact fun ha => hk (ha.isDir hg pre.dLt hdir)
    exact Rooted.reparent ((h.t cs).rooted d pre.dLt) hno (by rw [hpar, if_pos rfl])
      (fun x hx => by rw [hpar, if_neg hx]) ((h.t cs).rooted r hr)
  · intro r _ hi
    rw [hino]
    split
    · rename_i hc; exact absurd (hc.1 ▸ hc.2) hi
    · rfl

theorem addEntry_good {s : FS} (h : Inv s) {d c : Ref} (pre : AddPre s d c) :
    wp (addEntry d c) (fun _ s' => Good s s') s := by
  unfold wp addEntry
  split
  · exact Good.refl h
  · split
    · exact Good.refl h
    · split
      · exact Good.refl h
      · rename_i h1 _ h3
        have hg := attach_good h pre (by simpa using h1) (by simpa using h3)
        simp only
        split
        · have := changeDiskUsage_good ((s.attach d c).sizeOf ((s.attach d c).next + 1) c)
            ((s.attach d c).heap d).dev hg.inv
          exact Good.trans hg.ext this.1
        · exact hg

end Verif
