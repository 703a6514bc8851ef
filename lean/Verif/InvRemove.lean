import Verif.InvAttach
/-!
# Removing directory entries
-/

namespace Verif
open Py

/-- State `s'` differs from `s` only by removed directory entries, link counts and used sizes. -/
structure Shrink (s s' : FS) : Prop where
  rest : ∃ hp ms, s' = { s with heap := hp, mounts := ms }
  obj : ∀ x, ∃ n c, s'.heap x = { s.heap x with nlink := n, content := c }
  kind : ∀ x, (s'.heap x).isDir = (s.heap x).isDir
  file : ∀ x, (s.heap x).isDir = false → (s'.heap x).content = (s.heap x).content
  entries : ∀ x, List.Sublist (s'.heap x).entries (s.heap x).entries
  mpath : s'.mounts.map Mount.path = s.mounts.map Mount.path
  mdev : s'.mounts.map Mount.idev = s.mounts.map Mount.idev
  mtotal : s'.mounts.map Mount.total = s.mounts.map Mount.total
  quota : Quota s.mounts s'.mounts

theorem Shrink.refl (s : FS) : Shrink s s :=
  ⟨⟨s.heap, s.mounts, rfl⟩, fun _ => ⟨_, _, rfl⟩, fun _ => rfl, fun _ _ => rfl,
    fun _ => List.Sublist.refl _, rfl, rfl, rfl, Quota.refl _⟩

theorem Shrink.trans {a b c : FS} (h : Shrink a b) (k : Shrink b c) : Shrink a c := by
  refine ⟨?_, ?_, fun x => (k.kind x).trans (h.kind x), ?_, fun x => (k.entries x).trans (h.entries x),
    k.mpath.trans h.mpath, k.mdev.trans h.mdev, k.mtotal.trans h.mtotal, h.quota.trans k.quota⟩
  · obtain ⟨hp, ms, e⟩ := k.rest
    obtain ⟨hp', ms', e'⟩ := h.rest
    exact ⟨hp, ms, by rw [e, e']⟩
  · intro x
    obtain ⟨n, co, e⟩ := k.obj x
    obtain ⟨n', co', e'⟩ := h.obj x
    exact ⟨n, co, by rw [e, e']⟩
  · intro x hx
    rw [k.file x (by rw [h.kind x]; exact hx), h.file x hx]

theorem Shrink.ext {s s' : FS} (h : Shrink s s') : Ext s s' := by
  obtain ⟨hp, ms, e⟩ := h.rest
  subst e
  refine ⟨rfl, rfl, rfl, rfl, rfl, rfl, rfl, Nat.le_refl _, fun r _ => h.kind r, ?_, ?_, h.quota⟩
  · intro r _; obtain ⟨n, c, e⟩ := h.obj r; rw [e]
  · intro r _ _; obtain ⟨n, c, e⟩ := h.obj r; rw [e]

theorem Shrink.next {s s' : FS} (h : Shrink s s') : s'.next = s.next := by
  obtain ⟨hp, ms, e⟩ := h.rest; rw [e]
theorem Shrink.cfg {s s' : FS} (h : Shrink s s') : s'.cfg = s.cfg := h.ext.cfg
theorem Shrink.parent {s s' : FS} (h : Shrink s s') (x : Ref) : (s'.heap x).parent = (s.heap x).parent := by
  obtain ⟨n, c, e⟩ := h.obj x; rw [e]
theorem Shrink.name {s s' : FS} (h : Shrink s s') (x : Ref) : (s'.heap x).name = (s.heap x).name := by
  obtain ⟨n, c, e⟩ := h.obj x; rw [e]
theorem Shrink.mode {s s' : FS} (h : Shrink s s') (x : Ref) : (s'.heap x).mode = (s.heap x).mode := by
  obtain ⟨n, c, e⟩ := h.obj x; rw [e]
theorem Shrink.ino {s s' : FS} (h : Shrink s s') (x : Ref) : (s'.heap x).ino = (s.heap x).ino := by
  obtain ⟨n, c, e⟩ := h.obj x; rw [e]

theorem Shrink.ofMounts {s : FS} (i : Nat) (c : Int) (hq : Quota s.mounts (changeUsed i c s.mounts)) :
    Shrink s { s with mounts := changeUsed i c s.mounts } :=
  ⟨⟨s.heap, _, rfl⟩, fun _ => ⟨_, _, rfl⟩, fun _ => rfl, fun _ _ => rfl, fun _ => List.Sublist.refl _,
    changeUsed_map _ (fun _ _ => rfl) _ _ _, changeUsed_map _ (fun _ _ => rfl) _ _ _,
    changeUsed_map _ (fun _ _ => rfl) _ _ _, hq⟩

theorem changeDiskUsage_shrink (c : Int) (dev : Option Nat) (s : FS) :
    wp (changeDiskUsage c dev) (fun _ s' => Shrink s s' ∧ s'.heap = s.heap) s := by
  apply wp_mono (changeDiskUsage_spec c dev s)
  rintro _ s' (rfl | ⟨i, rfl, hq⟩)
  · exact ⟨Shrink.refl _, rfl⟩
  · exact ⟨Shrink.ofMounts i c hq, rfl⟩

/-! ## The heap after detaching -/

/-- Both link counts decremented. -/
def FS.decLinks (s : FS) (d e : Ref) : FS :=
  (s.setObj d fun o => { o with nlink := o.nlink - 1 }).setObj e fun o => { o with nlink := o.nlink - 1 }

theorem decLinks_heap (s : FS) (d e x : Ref) : (s.decLinks d e).heap x =
    { s.heap x with
      nlink := (s.heap x).nlink - (if x = d then 1 else 0) - (if x = e then 1 else 0) } := by
  unfold FS.decLinks FS.setObj
  by_cases h1 : x = e <;> by_cases h2 : x = d <;> by_cases h3 : e = d <;>
    simp_all [upd_apply, eq_comm]

/-- The state after a successful `detach`. -/
def FS.detached (s : FS) (d : Ref) (nm : Str) (e : Ref) : FS :=
  ((s.setObj d fun o => { o with nlink := o.nlink - 1 }).setObj e
    fun o => { o with nlink := o.nlink - 1 }).setObj d
    fun o => { o with content := .dir (aerase nm o.entries) }

theorem detached_heap (s : FS) (d : Ref) (nm : Str) (e x : Ref) : (s.detached d nm e).heap x =
    { s.heap x with
      content := if x = d then .dir (aerase nm (s.heap d).entries) else (s.heap x).content
      nlink := (s.heap x).nlink - (if x = d then 1 else 0) - (if x = e then 1 else 0) } := by
  unfold FS.detached FS.setObj
  by_cases h1 : x = e <;> by_cases h2 : x = d <;> by_cases h3 : e = d <;>
    simp_all [upd_apply, eq_comm, Obj.entries]

theorem aerase_sublist {α : Type} (k : Str) (l : List (Str × α)) : List.Sublist (aerase k l) l :=
  List.filter_sublist

theorem mem_aerase {α : Type} {k : Str} {l : List (Str × α)} {e : Str × α} :
    e ∈ aerase k l ↔ e ∈ l ∧ e.1 ≠ k := by simp [aerase]

/-- Removing the only entry with a key. -/
theorem aerase_perm {α : Type} {k : Str} {v : α} {l : List (Str × α)} (hn : (l.map Prod.fst).Nodup)
    (h : (k, v) ∈ l) : l.Perm ((k, v) :: aerase k l) := by
  induction l with
  | nil => simp at h
  | cons a l ih =>
    obtain ⟨a, x⟩ := a
    simp only [List.map_cons, List.nodup_cons] at hn
    rcases List.mem_cons.mp h with e | e
    · injection e with e1 e2
      subst e1; subst e2
      have : aerase k ((k, v) :: l) = l := by
        simp only [aerase, ne_eq, decide_not, List.filter_cons, decide_true, Bool.not_true]
        simp only [Bool.false_eq_true, if_false]
        apply List.filter_eq_self.mpr
        intro y hy
        have : y.1 ≠ k := fun e => hn.1 (e ▸ List.mem_map.mpr ⟨y, hy, rfl⟩)
        simp [this]
      rw [this]
    · have hk : a ≠ k := fun he => hn.1 (he ▸ List.mem_map.mpr ⟨_, e, rfl⟩)
      have : aerase k ((a, x) :: l) = (a, x) :: aerase k l := by simp [aerase, hk]
      rw [this]
      exact ((ih hn.2 e).cons (a, x)).trans (List.Perm.swap _ _ _)

theorem detached_shrink {s : FS} {d : Ref} (nm : Str) (e : Ref) (hdir : (s.heap d).isDir = true) :
    Shrink s (s.detached d nm e) := by
  refine ⟨⟨_, _, rfl⟩, fun x => ⟨_, _, detached_heap s d nm e x⟩, ?_, ?_, ?_, rfl, rfl, rfl, Quota.refl _⟩
  · intro x
    rw [detached_heap]
    by_cases h : x = d
    · subst h; rw [hdir]; simp [Obj.isDir]
    · simp [Obj.isDir, h]
  · intro x hx
    rw [detached_heap]
    have : x ≠ d := fun h => by rw [h, hdir] at hx; simp at hx
    simp [this]
  · intro x
    rw [detached_heap]
    by_cases h : x = d
    · subst h; simp only [Obj.entries, if_true]; exact aerase_sublist _ _
    · simp [Obj.entries, h]

/-- Removing entries keeps the structural part of the invariant. -/
theorem Shrink.invG {s s' : FS} (h : Shrink s s') (hi : Inv s) : InvG s'.heap s'.next s'.lastIno := by
  have hg := hi.g
  have hl : s'.lastIno = s.lastIno := by obtain ⟨hp, ms, e⟩ := h.rest; rw [e]
  rw [h.next, hl]
  have hm : ∀ x e, e ∈ (s'.heap x).entries → e ∈ (s.heap x).entries := fun x e he => (h.entries x).subset he
  constructor
  · exact hg.two
  · exact fun d hd e he => hg.entLt d hd e (hm d e he)
  · exact fun d hd e he => hg.entRoot d hd e (hm d e he)
  · exact fun d hd => ((h.entries d).map _).nodup (hg.keys d hd)
  · intro d hd e he hk
    rw [h.kind] at hk
    rw [h.parent, h.name]
    exact hg.dirEnt d hd e (hm d e he) hk
  · intro r hr p hp
    rw [h.parent] at hp
    rw [h.kind]
    exact hg.parDir r hr p hp
  · intro r hr hk
    rw [h.kind] at hk
    rw [h.mode]
    exact hg.dirMode r hr hk
  · intro d hd e he
    rw [h.ino]; exact hg.entIno d hd e (hm d e he)
  · intro r hr i; rw [h.ino]; exact hg.inoLe r hr i
  · intro r hr q hq i; rw [h.ino, h.ino]; exact hg.inoInj r hr q hq i
  · rw [h.kind]; exact hg.rootDir
  · rw [h.parent]; exact hg.rootPar
  · rw [h.ino]; exact hg.rootIno

theorem Shrink.invM {s s' : FS} (h : Shrink s s') (hi : Inv s) : InvM s'.mounts s'.lastDev := by
  have hl : s'.lastDev = s.lastDev := by obtain ⟨hp, ms, e⟩ := h.rest; rw [e]
  rw [hl]; exact invM_map hi.m h.mdev h.mpath

theorem Shrink.invN {s s' : FS} (h : Shrink s s') (hi : Inv s) : InvN s' where
  rootMode := by rw [h.mode]; exact hi.n.rootMode
  devFile := by rw [h.kind]; exact hi.n.devFile
  devMode := by rw [h.mode]; exact hi.n.devMode
  cwd := by rw [h.cfg, h.ext.cwd]; exact hi.n.cwd
  names := by
    rw [h.cfg, h.next]
    intro hp hm d hd e he
    exact hi.n.names hp hm d hd e ((h.entries d).subset he)
  rootMount := by
    obtain ⟨m, hm, e⟩ := hi.n.rootMount
    have : m.path ∈ s'.mounts.map Mount.path := by rw [h.mpath]; exact List.mem_map.mpr ⟨m, hm, rfl⟩
    obtain ⟨m', hm', e'⟩ := List.mem_map.mp this
    exact ⟨m', hm', by rw [e', e, h.cfg]⟩
  rootName := by rw [h.name, h.cfg]; exact hi.n.rootName

/-- Detaching an entry that is there keeps the invariant. -/
theorem detached_good {s : FS} (h : Inv s) {d e : Ref} {nm : Str} (hd : d < s.next)
    (hdir : (s.heap d).isDir = true) (hm : s.cfg.Tree → (nm, e) ∈ (s.heap d).entries) :
    Good s (s.detached d nm e) := by
  have hs := detached_shrink (s := s) nm e hdir
  refine ⟨⟨hs.invG h, hs.invM h, hs.invN h, ?_⟩, hs.ext⟩
  intro cs
  rw [hs.cfg] at cs
  rw [hs.next]
  have hm := hm cs
  have hent : ∀ x, ((s.detached d nm e).heap x).entries =
      if x = d then aerase nm (s.heap d).entries else (s.heap x).entries := by
    intro x; rw [detached_heap]; by_cases h : x = d <;> simp [Obj.entries, h]
  have hp := aerase_perm (h.g.keys d hd) hm
  have hrefs : ∀ r, refs (s.detached d nm e).heap s.next r + (if r = e then 1 else 0) = refs s.heap s.next r := by
    intro r
    have := refs_upd (hp := s.heap) (hp' := (s.detached d nm e).heap) r hd
      (fun x _ hx => by rw [hent, if_neg hx])
    rw [hent, if_pos rfl, (hp.map Prod.snd).count_eq] at this
    simp only [List.map_cons, List.count_cons] at this
    by_cases er : r = e
    · subst er; simp at this ⊢; omega
    · have e' : ¬ e = r := fun x => er x.symm
      simp [er, e'] at this ⊢; omega
  have hlen : (s.heap d).entries.length = (aerase nm (s.heap d).entries).length + 1 := by
    have := hp.length_eq; simpa using this
  constructor
  · intro r hr
    have hn := (h.t cs).nlink r hr
    rw [hs.kind, hent]
    have h1 : ((s.detached d nm e).heap r).nlink =
      (s.heap r).nlink - (if r = d then 1 else 0) - (if r = e then 1 else 0) := by rw [detached_heap]
    rw [h1, hn, ← hrefs r]
    by_cases e1 : r = d
    · subst e1
      rw [if_pos hdir, if_pos rfl, if_pos rfl, hlen]
      by_cases e2 : r = e
      · rw [if_pos e2, if_pos e2]; simp only [hdir, if_true]; push_cast; omega
      · rw [if_neg e2, if_neg e2]; simp only [hdir, if_true]; push_cast; omega
    · rw [if_neg e1, if_neg e1]
      by_cases e2 : r = e
      · rw [if_pos e2, if_pos e2]; push_cast; omega
      · rw [if_neg e2, if_neg e2]; push_cast; omega
  · intro r hr
    exact ((h.t cs).rooted r hr).congr fun x => hs.parent x

/-- Changing only link counts. -/
theorem Shrink.nlinks {s : FS} (d e : Ref) : Shrink s (s.decLinks d e) := by
  refine ⟨⟨_, _, rfl⟩, ?_, ?_, ?_, ?_, rfl, rfl, rfl, Quota.refl _⟩
  · intro x; exact ⟨_, (s.heap x).content, decLinks_heap s d e x⟩
  · intro x; rw [decLinks_heap]; rfl
  · intro x _; rw [decLinks_heap]
  · intro x; rw [decLinks_heap]; exact List.Sublist.refl _

theorem decLinks_entries (s : FS) (d e x : Ref) : ((s.decLinks d e).heap x).entries = (s.heap x).entries := by
  rw [decLinks_heap]; rfl

theorem detach_spec (s : FS) (d : Ref) (nm : Str) (e : Ref) :
    detach d nm e s = (.ok (), s.detached d nm e) ∨
    (∃ x, detach d nm e s = (.error x, s.decLinks d e) ∧
      ((x = .assertion ∧ ((s.decLinks d e).heap e).nlink < 0) ∨
      (x = .keyError ∧ alookup nm ((s.decLinks d e).heap d).entries = none))) := by
  unfold detach
  simp only
  split
  · rename_i h; exact Or.inr ⟨_, rfl, Or.inl ⟨rfl, h⟩⟩
  · split
    · rename_i h; exact Or.inr ⟨_, rfl, Or.inr ⟨rfl, Option.isNone_iff_eq_none.mp h⟩⟩
    · exact Or.inl rfl

/-- `detach` changes the entries of one directory only. -/
theorem detach_entries (s : FS) (d : Ref) (nm : Str) (e : Ref) {x : Ref} (hx : x ≠ d) :
    ((detach d nm e s).2.heap x).entries = (s.heap x).entries := by
  rcases detach_spec s d nm e with h | ⟨_, h, _⟩
  · rw [h]; show ((s.detached d nm e).heap x).entries = _
    rw [detached_heap]; simp [Obj.entries, hx]
  · rw [h]; exact decLinks_entries s d e x

/-- On a case-sensitive filesystem `detach` of an existing entry never fails. -/
theorem detach_ok {s : FS} (h : Inv s) (cs : s.cfg.Tree) {d e : Ref} {nm : Str} (hd : d < s.next)
    (hm : (nm, e) ∈ (s.heap d).entries) : detach d nm e s = (.ok (), s.detached d nm e) := by
  have he := h.g.entLt d hd _ hm
  have hn := (h.t cs).nlink e he
  have hr := refs_pos (r := e) hd hm rfl
  have hdd : (s.heap d).isDir = true := by
    unfold Obj.isDir; unfold Obj.entries at hm
    split at hm <;> simp_all
  have hsh := Shrink.nlinks (s := s) d e
  rcases detach_spec s d nm e with h1 | ⟨x, _, ⟨_, h2⟩ | ⟨_, h2⟩⟩
  · exact h1
  · exfalso
    rw [decLinks_heap] at h2
    simp only [if_true] at h2
    by_cases hde : e = d
    · subst hde
      rw [hn, if_pos hdd] at h2
      simp at h2
      omega
    · rw [hn, if_neg hde] at h2
      push_cast at h2
      omega
  · exfalso
    rw [decLinks_entries] at h2
    exact alookup_none.mp h2 (List.mem_map.mpr ⟨_, hm, rfl⟩)

theorem detach_good {s : FS} (h : Inv s) {d e : Ref} {nm : Str} (hd : d < s.next)
    (hdir : (s.heap d).isDir = true) (hm : s.cfg.Tree → (nm, e) ∈ (s.heap d).entries) :
    wp (detach d nm e) (fun r s' => Good s s' ∧ Shrink s s' ∧ (r = .ok () → s' = s.detached d nm e)) s := by
  unfold wp
  by_cases cs : s.cfg.Tree
  · rw [detach_ok h cs hd (hm cs)]
    exact ⟨detached_good h hd hdir hm, detached_shrink nm e hdir, fun _ => rfl⟩
  · rcases detach_spec s d nm e with h1 | ⟨x, h1, _⟩
    · rw [h1]; exact ⟨detached_good h hd hdir hm, detached_shrink nm e hdir, fun _ => rfl⟩
    · rw [h1]
      have hs := Shrink.nlinks (s := s) d e
      refine ⟨⟨⟨hs.invG h, hs.invM h, hs.invN h, fun c => absurd (hs.cfg ▸ c) cs⟩, hs.ext⟩, hs, by simp⟩

theorem Anc.trans {hp : Ref → Obj} {a b c : Ref} (h : Anc hp a b) (k : Anc hp b c) : Anc hp a c := by
  induction k with
  | refl => exact h
  | up h0 _ ih => exact .up h0 ih

theorem Anc.congr {hp hp' : Ref → Obj} {a r : Ref} (h : ∀ x, (hp' x).parent = (hp x).parent)
    (k : Anc hp a r) : Anc hp' a r := by
  induction k with
  | refl => exact .refl
  | up h0 _ ih => exact .up (by rw [h]; exact h0) ih

/-- A chain that ends has no cycle. -/
theorem Rooted.noCycle {hp : Ref → Obj} {e d : Ref} (h : Rooted hp e) (hp' : (hp e).parent = some d) :
    ¬ Anc hp e d := by
  induction h generalizing d with
  | top h0 => rw [h0] at hp'; simp at hp'
  | @up r p h0 _ ih =>
    rw [h0] at hp'
    injection hp' with e; subst e
    intro ha
    cases ha with
    | refl => exact ih h0 .refl
    | @up _ q hq ha => exact ih hq (Anc.trans (Anc.up h0 .refl) ha)

/-- the entry found by `get_entry` is an entry -/
theorem getEntry_mem {s : FS} {es : List (Str × Ref)} {nm : Str} {r : Ref} (h : s.getEntry es nm = .ok r) :
    (s.normEntry es nm, r) ∈ es := by
  unfold FS.getEntry at h
  split at h
  · rename_i x hx; injection h with h; subst h; exact alookup_some hx
  · simp at h

theorem normEntry_caseSens {s : FS} (cs : s.cfg.Tree) (es : List (Str × Ref)) (nm : Str) :
    s.normEntry es nm = nm := by simp [FS.normEntry, cs.cs]

/-- What removing an entry below directory `d` may change. -/
structure RemPost (s s' : FS) (d : Ref) : Prop where
  good : Good s s'
  shrink : Shrink s s'
  only : ∀ x, (s'.heap x).entries ≠ (s.heap x).entries → Anc s.heap d x

theorem RemPost.refl {s : FS} (h : Inv s) (d : Ref) : RemPost s s d :=
  ⟨Good.refl h, Shrink.refl s, fun _ hx => absurd rfl hx⟩

theorem RemPost.trans {a b c : FS} {d : Ref} (h : RemPost a b d) (k : RemPost b c d) : RemPost a c d := by
  refine ⟨Good.trans h.good.ext k.good, h.shrink.trans k.shrink, fun x hx => ?_⟩
  by_cases e : (b.heap x).entries = (a.heap x).entries
  · exact (k.only x (by rw [e]; exact hx)).congr fun y => (h.shrink.parent y).symm
  · exact h.only x e

theorem removeLoop_post {rm : Ref → Str → M Unit} {e : Ref} {nx : Nat}
    (hrm : ∀ s, Inv s → s.next = nx → ∀ nm, wp (rm e nm) (fun _ s' => RemPost s s' e) s) :
    ∀ n s, Inv s → s.next = nx → wp (removeLoop rm e n) (fun _ s' => RemPost s s' e) s := by
  intro n
  induction n with
  | zero => intro s h _; exact RemPost.refl h e
  | succ n ih =>
    intro s h hn
    unfold wp removeLoop
    simp only
    split
    · exact RemPost.refl h e
    · rename_i nm _ _ _
      have h1 := hrm s h hn nm
      show wp (rm e nm >>= fun _ => removeLoop rm e n) (fun _ s' => RemPost s s' e) s
      apply wp_seq _ h1
      · intro x s' hx; exact hx
      · intro _ s' hx
        apply wp_mono (ih s' hx.good.inv (hx.shrink.next.trans hn))
        intro _ s'' hy
        exact hx.trans hy

theorem removeEntryF_post : ∀ n (s : FS) (d : Ref) (nm : Str) (rec : Bool), Inv s → d < s.next →
    wp (removeEntryF n d nm rec) (fun _ s' => RemPost s s' d) s := by
  intro n
  induction n with
  | zero => intro s d nm rec h _; exact RemPost.refl h d
  | succ n ih =>
    intro s d nm rec h hd
    unfold wp removeEntryF
    split
    · exact RemPost.refl h d
    · rename_i hdir
      have hdir : (s.heap d).isDir = true := by simpa using hdir
      simp only
      split
      · exact RemPost.refl h d
      · rename_i e he
        have hmem := getEntry_mem he
        have he' : e < s.next := h.g.entLt d hd _ hmem
        have hmem' : s.cfg.Tree → (s.normEntry (s.heap d).entries nm, e) ∈ (s.heap d).entries := by
          intro cs
          rw [normEntry_caseSens cs, normEntry_caseSens cs] at hmem
          rw [normEntry_caseSens cs]; exact hmem
        have det : ∀ s1, Inv s1 → Shrink s s1 → (s.cfg.Tree → (s1.heap d).entries = (s.heap d).entries) →
            wp (detach d (s.normEntry (s.heap d).entries nm) e) (fun _ s' => RemPost s1 s' d) s1 := by
          intro s1 h1 sh heq
          have := detach_good h1 (d := d) (e := e) (nm := s.normEntry (s.heap d).entries nm)
            (sh.next ▸ hd) (by rw [sh.kind]; exact hdir)
            (fun cs => by rw [sh.cfg] at cs; rw [heq cs]; exact hmem' cs)
          obtain ⟨hg, hs, _⟩ := this
          refine ⟨hg, hs, fun x hx => ?_⟩
          by_cases hxd : x = d
          · subst hxd; exact .refl
          · exact absurd (detach_entries s1 d _ e hxd) hx
        split
        · exact RemPost.refl h d
        · split
          · rename_i hre
            have hed : (s.heap e).isDir = true := by simp at hre; exact hre.2
            have hpar := (h.g.dirEnt d hd _ hmem hed).1
            have hae : Anc s.heap d e := .up hpar .refl
            show wp (removeLoop (fun d' nm' => removeEntryF n d' nm' true) e (s.heap e).entries.length >>=
              fun _ => detach d (s.normEntry (s.heap d).entries nm) e) (fun _ s' => RemPost s s' d) s
            apply wp_seq (fun _ s' => RemPost s s' e)
            · exact removeLoop_post (fun s1 h1 hn1 nm1 => ih s1 e nm1 true h1 (hn1 ▸ he')) _ s h rfl
            · intro x s' hx
              exact ⟨hx.good, hx.shrink, fun y hy => hae.trans (hx.only y hy)⟩
            · intro _ s1 h1
              have : RemPost s s1 d := ⟨h1.good, h1.shrink, fun y hy => hae.trans (h1.only y hy)⟩
              apply wp_mono (det s1 h1.good.inv h1.shrink ?_)
              · intro _ s2 h2; exact this.trans h2
              · intro cs
                apply Classical.byContradiction
                intro hne
                exact ((h.t cs).rooted e he').noCycle hpar (h1.only d hne)
          · split
            · show wp (changeDiskUsage (-(s.sizeOf (s.next + 1) e : Int)) (s.heap e).dev >>=
                fun _ => detach d (s.normEntry (s.heap d).entries nm) e) (fun _ s' => RemPost s s' d) s
              have hp : ∀ s1, Shrink s s1 ∧ s1.heap = s.heap → Inv s1 → RemPost s s1 d := fun s1 h1 hi =>
                ⟨⟨hi, h1.1.ext⟩, h1.1, fun x hx => absurd (by rw [h1.2]) hx⟩
              have c1 := changeDiskUsage_good (-(s.sizeOf (s.next + 1) e : Int)) (s.heap e).dev h
              have c2 := changeDiskUsage_shrink (-(s.sizeOf (s.next + 1) e : Int)) (s.heap e).dev s
              apply wp_seq (fun _ s1 => Inv s1 ∧ Shrink s s1 ∧ s1.heap = s.heap)
              · exact ⟨c1.1.inv, c2⟩
              · intro x s1 h1; exact hp s1 h1.2 h1.1
              · intro _ s1 h1
                apply wp_mono (det s1 h1.1 h1.2.1 (fun _ => by rw [h1.2.2]))
                intro _ s2 h2
                exact (hp s1 h1.2 h1.1).trans h2
            · exact det s h (Shrink.refl s) (fun _ => rfl)

theorem removeEntry_post {s : FS} {d : Ref} (h : Inv s) (hd : d < s.next) (nm : Str) (rec : Bool) :
    wp (removeEntry d nm rec) (fun _ s' => RemPost s s' d) s :=
  removeEntryF_post _ s d nm rec h hd

end Verif
