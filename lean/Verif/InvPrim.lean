import Verif.Inv
/-!
# The primitives preserve the invariant
-/

namespace Verif
open Py

/-- Objects that agree on everything the invariant speaks about. -/
structure SameS (o o' : Obj) : Prop where
  content : o'.isDir = o.isDir
  entries : o'.entries = o.entries
  nlink : o'.nlink = o.nlink
  ino : o'.ino = o.ino
  parent : o'.parent = o.parent
  name : o.isDir = true → o'.name = o.name
  ftype : ifmt o'.mode = ifmt o.mode

theorem ifmt_dirBit {m m' : Nat} (h : ifmt m' = ifmt m) : m' &&& S_IFDIR = m &&& S_IFDIR := by
  have e : S_IFDIR = S_IFMT &&& S_IFDIR := by decide
  rw [e, ← Nat.and_assoc, ← Nat.and_assoc]
  exact congrArg (· &&& S_IFDIR) h

theorem SameS.mode {o o' : Obj} (h : SameS o o') (hm : o.mode &&& S_IFDIR ≠ 0) : o'.mode &&& S_IFDIR ≠ 0 := by
  rw [ifmt_dirBit h.ftype]; exact hm

theorem SameS.refl (o : Obj) : SameS o o := ⟨rfl, rfl, rfl, rfl, rfl, fun _ => rfl, rfl⟩
theorem SameS.trans {a b c : Obj} (h : SameS a b) (k : SameS b c) : SameS a c :=
  ⟨k.content.trans h.content, k.entries.trans h.entries, k.nlink.trans h.nlink, k.ino.trans h.ino,
    k.parent.trans h.parent, fun d => (k.name (h.content.trans d)).trans (h.name d),
    k.ftype.trans h.ftype⟩

theorem InvG.congr {hp hp' : Ref → Obj} {nx li : Nat} (h : InvG hp nx li)
    (hs : ∀ x, SameS (hp x) (hp' x)) : InvG hp' nx li where
  two := h.two
  entLt d hd e he := h.entLt d hd e (by rwa [(hs d).entries] at he)
  entRoot d hd e he := h.entRoot d hd e (by rwa [(hs d).entries] at he)
  keys d hd := by rw [(hs d).entries]; exact h.keys d hd
  dirEnt d hd e he hdir := by
    rw [(hs d).entries] at he
    rw [(hs e.2).content] at hdir
    rw [(hs e.2).parent, (hs e.2).name hdir]
    exact h.dirEnt d hd e he hdir
  parDir r hr p hp := by
    rw [(hs r).parent] at hp
    rw [(hs p).content]
    exact h.parDir r hr p hp
  dirMode r hr hd := by
    rw [(hs r).content] at hd
    exact (hs r).mode (h.dirMode r hr hd)
  entIno d hd e he := by
    rw [(hs d).entries] at he
    rw [(hs e.2).ino]
    exact h.entIno d hd e he
  inoLe r hr i hi := h.inoLe r hr i (by rwa [(hs r).ino] at hi)
  inoInj r hr q hq i hi hj := h.inoInj r hr q hq i (by rwa [(hs r).ino] at hi) (by rwa [(hs q).ino] at hj)
  rootDir := by rw [(hs _).content]; exact h.rootDir
  rootPar := by rw [(hs _).parent]; exact h.rootPar
  rootIno := by rw [(hs _).ino]; exact h.rootIno

theorem InvT.congr {hp hp' : Ref → Obj} {nx : Nat} (h : InvT hp nx)
    (hs : ∀ x, SameS (hp x) (hp' x)) : InvT hp' nx where
  nlink r hr := by
    rw [(hs r).nlink, (hs r).content, (hs r).entries, refs_congr r fun d _ => (hs d).entries]
    exact h.nlink r hr
  rooted r hr := (h.rooted r hr).congr fun x => (hs x).parent

theorem InvN.congr {s s' : FS} (h : InvN s) (hs : ∀ x, SameS (s.heap x) (s'.heap x)) (hn : s'.next = s.next)
    (hc : s'.cfg = s.cfg) (hw : s'.cwd = s.cwd) (hp : s'.mounts.map Mount.path = s.mounts.map Mount.path)
    (hd : (s.heap rootRef).isDir = true) : InvN s' where
  rootMode := by rw [(hs _).ftype]; exact h.rootMode
  devFile := by rw [(hs _).content]; exact h.devFile
  devMode := by rw [(hs _).ftype]; exact h.devMode
  cwd := by rw [hc, hw]; exact h.cwd
  names := by
    rw [hc, hn]
    intro hp hm d hd e he
    rw [(hs d).entries] at he
    exact h.names hp hm d hd e he
  rootMount := by
    obtain ⟨m, hm, e⟩ := h.rootMount
    have : m.path ∈ s'.mounts.map Mount.path := by rw [hp]; exact List.mem_map.mpr ⟨m, hm, rfl⟩
    obtain ⟨m', hm', e'⟩ := List.mem_map.mp this
    exact ⟨m', hm', by rw [e', e, hc]⟩
  rootName := by rw [hc, (hs _).name hd]; exact h.rootName

theorem Inv.same {s s' : FS} (h : Inv s) (hh : ∀ x, SameS (s.heap x) (s'.heap x)) (hn : s'.next = s.next)
    (hl : s'.lastIno = s.lastIno) (hm : InvM s'.mounts s'.lastDev) (hc : s'.cfg = s.cfg) (hw : s'.cwd = s.cwd)
    (hp : s'.mounts.map Mount.path = s.mounts.map Mount.path) : Inv s' where
  g := by rw [hn, hl]; exact h.g.congr hh
  m := hm
  n := h.n.congr hh hn hc hw hp h.g.rootDir
  t c := by rw [hn]; exact (h.t (hc ▸ c)).congr hh

/-- Changing attributes of one object. -/
theorem good_setObj {s : FS} (h : Inv s) (r : Ref) (f : Obj → Obj) (hf : SameS (s.heap r) (f (s.heap r))) :
    Good s (s.setObj r f) := by
  have hh : ∀ x, SameS (s.heap x) ((s.setObj r f).heap x) := by
    intro x
    show SameS (s.heap x) (upd s.heap r (f (s.heap r)) x)
    by_cases e : x = r
    · subst e; rw [upd_same]; exact hf
    · rw [upd_ne _ _ e]; exact SameS.refl _
  exact ⟨h.same hh rfl rfl h.m rfl rfl rfl, ⟨rfl, rfl, rfl, rfl, rfl, rfl, rfl, Nat.le_refl _, fun x _ => (hh x).content,
    fun x _ => (hh x).ftype, fun x _ _ => (hh x).ino, Quota.refl _⟩⟩

/-- Changing nothing the invariant speaks about. -/
theorem good_misc {s s' : FS} (h : Inv s) (hh : s'.heap = s.heap) (hn : s'.next = s.next)
    (hl : s'.lastIno = s.lastIno) (hm : s'.mounts = s.mounts) (hld : s'.lastDev = s.lastDev) (hc : s'.cfg = s.cfg)
    (hw : s'.cwd = s.cwd) (hum : s'.umask = s.umask) (hck : s'.clock = s.clock)
    (hlim : s'.limit = s.limit) (hu : s'.uid = s.uid) (hg : s'.gid = s.gid) : Good s s' :=
  ⟨h.same (fun x => hh ▸ SameS.refl _) hn hl (by rw [hm, hld]; exact h.m) hc hw (by rw [hm]),
    ⟨hc, hlim, hu, hg, hw, hum, hck, hn ▸ Nat.le_refl _, fun x _ => by rw [hh], fun x _ => by rw [hh],
      fun x _ _ => by rw [hh], by rw [hm]; exact Quota.refl _⟩⟩

/-! ## Disk usage -/

theorem changeUsed_map {β : Type} (f : Mount → β) (hf : ∀ m (u : Int), f { m with used := u } = f m) (i : Nat)
    (d : Int) (ms : List Mount) : (changeUsed i d ms).map f = ms.map f := by
  induction ms with
  | nil => rfl
  | cons m ms ih => simp only [changeUsed]; split <;> simp [hf, ih]

theorem invM_map {ms ms' : List Mount} {ld : Nat} (h : InvM ms ld)
    (h1 : ms'.map Mount.idev = ms.map Mount.idev) (h2 : ms'.map Mount.path = ms.map Mount.path) :
    InvM ms' ld where
  devLe m hm := by
    have : m.idev ∈ ms'.map Mount.idev := List.mem_map.mpr ⟨m, hm, rfl⟩
    rw [h1] at this
    obtain ⟨m', hm', e⟩ := List.mem_map.mp this
    rw [← e]; exact h.devLe m' hm'
  devNodup := by rw [h1]; exact h.devNodup
  pathNodup := by rw [h2]; exact h.pathNodup

theorem invM_changeUsed {ms : List Mount} {ld : Nat} (h : InvM ms ld) (i : Nat) (d : Int) :
    InvM (changeUsed i d ms) ld :=
  invM_map h (changeUsed_map _ (fun _ _ => rfl) i d ms) (changeUsed_map _ (fun _ _ => rfl) i d ms)

theorem changeUsed_mem {i : Nat} {d : Int} : ∀ {ms : List Mount} {m' : Mount}, m' ∈ changeUsed i d ms →
    m' ∈ ms ∨ ∃ m, ms.find? (fun m => m.idev == i) = some m ∧ m' = { m with used := m.used + d } := by
  intro ms
  induction ms with
  | nil => intro m' h; simp [changeUsed] at h
  | cons m ms ih =>
    intro m' h
    simp only [changeUsed] at h
    split at h
    · rename_i e
      rcases List.mem_cons.mp h with h | h
      · right; exact ⟨m, by simp [e], h⟩
      · left; exact List.mem_cons_of_mem _ h
    · rename_i e
      rcases List.mem_cons.mp h with h | h
      · left; rw [h]; exact List.mem_cons_self
      · rcases ih h with h | ⟨m0, h1, h2⟩
        · left; exact List.mem_cons_of_mem _ h
        · right; exact ⟨m0, by simp [e, h1], h2⟩

/-- `change_disk_usage` only changes the used sizes, within the limits. -/
theorem changeDiskUsage_spec (c : Int) (dev : Option Nat) (s : FS) :
    wp (changeDiskUsage c dev) (fun _ s' => s' = s ∨ ∃ i, s' = { s with mounts := changeUsed i c s.mounts } ∧
      Quota s.mounts s'.mounts) s := by
  unfold wp changeDiskUsage
  split
  · rename_i i m hm
    have hm : s.mounts.find? (fun m => m.idev == i) = some m := hm
    split
    · rename_i t ht
      split
      · exact Or.inl rfl
      · rename_i hlt
        refine Or.inr ⟨_, rfl, ?_⟩
        intro m' hm' t' ht'
        rcases changeUsed_mem hm' with h | ⟨m0, h1, h2⟩
        · exact Or.inr ⟨m', h, rfl, rfl, le_refl _⟩
        · rw [hm] at h1; injection h1 with h1; subst h1
          left
          rw [h2] at ht' ⊢
          have ht' : m.total = some t' := ht'
          rw [ht] at ht'; injection ht' with ht'; subst ht'
          show m.used + c ≤ max t 0
          have := le_max_left t 0
          omega
    · rename_i ht
      refine Or.inr ⟨_, rfl, ?_⟩
      intro m' hm' t' ht'
      rcases changeUsed_mem hm' with h | ⟨m0, h1, h2⟩
      · exact Or.inr ⟨m', h, rfl, rfl, le_refl _⟩
      · rw [hm] at h1; injection h1 with h1; subst h1
        rw [h2] at ht'
        have ht' : m.total = some t' := ht'
        rw [ht] at ht'; simp at ht'
  · exact Or.inl rfl

theorem changeDiskUsage_good (c : Int) (dev : Option Nat) {s : FS} (h : Inv s) :
    wp (changeDiskUsage c dev) (fun _ s' => Good s s' ∧ s'.heap = s.heap ∧ s'.next = s.next) s := by
  apply wp_mono (changeDiskUsage_spec c dev s)
  rintro _ s' (rfl | ⟨i, rfl, hq⟩)
  · exact ⟨Good.refl h, rfl, rfl⟩
  · refine ⟨⟨h.same (fun x => SameS.refl _) rfl rfl (invM_changeUsed h.m i c) rfl rfl
      (changeUsed_map _ (fun _ _ => rfl) i c _), ?_⟩, rfl, rfl⟩
    exact ⟨rfl, rfl, rfl, rfl, rfl, rfl, rfl, Nat.le_refl _, fun _ _ => rfl, fun _ _ => rfl, fun _ _ _ => rfl, hq⟩

/-! ## Allocation -/

theorem newObj_good {s : FS} (h : Inv s) (f : FS → Obj) (hent : (f s).entries = [])
    (hnl : (f s).nlink = if (f s).isDir then 1 else 0) (hino : (f s).ino = none)
    (hpar : (f s).parent = none) (hmode : (f s).isDir = true → (f s).mode &&& S_IFDIR ≠ 0) :
    Good s { s with heap := upd s.heap s.next (f s), next := s.next + 1 } := by
  have hg := h.g
  have hne : ∀ x < s.next, upd s.heap s.next (f s) x = s.heap x := fun x hx => upd_ne _ _ (Nat.ne_of_lt hx)
  have hself : upd s.heap s.next (f s) s.next = f s := upd_same _ _ _
  have hlt : ∀ x, x < s.next + 1 → x = s.next ∨ x < s.next := fun x hx => by omega
  have hold : ∀ d < s.next + 1, ∀ e ∈ (upd s.heap s.next (f s) d).entries, d < s.next ∧ e ∈ (s.heap d).entries := by
    intro d hd e he
    rcases hlt d hd with rfl | hd'
    · rw [hself, hent] at he; simp at he
    · rw [hne d hd'] at he; exact ⟨hd', he⟩
  have hrefs : ∀ r, refs (upd s.heap s.next (f s)) (s.next + 1) r = refs s.heap s.next r := by
    intro r
    rw [refs_succ, hself, hent, refs_congr r fun d hd => by rw [hne d hd]]
    simp
  have hroot : rootRef < s.next := by have := hg.two; show 0 < s.next; omega
  constructor
  · constructor
    · show InvG (upd s.heap s.next (f s)) (s.next + 1) s.lastIno
      constructor
      · have := hg.two; show 2 ≤ s.next + 1; omega
      · intro d hd e he
        obtain ⟨hd', he'⟩ := hold d hd e he
        exact Nat.lt_succ_of_lt (hg.entLt d hd' e he')
      · intro d hd e he
        obtain ⟨hd', he'⟩ := hold d hd e he
        exact hg.entRoot d hd' e he'
      · intro d hd
        rcases hlt d hd with rfl | hd'
        · show ((upd s.heap s.next (f s) s.next).entries.map Prod.fst).Nodup
          rw [hself, hent]; simp
        · show ((upd s.heap s.next (f s) d).entries.map Prod.fst).Nodup
          rw [hne d hd']; exact hg.keys d hd'
      · intro d hd e he
        obtain ⟨hd', he'⟩ := hold d hd e he
        show (upd s.heap s.next (f s) e.2).isDir = true → _
        have := hg.entLt d hd' e he'
        simp only [hne e.2 this]
        exact hg.dirEnt d hd' e he'
      · intro r hr p hp
        rcases hlt r hr with rfl | hr'
        · simp only [hself, hpar] at hp; simp at hp
        · simp only [hne r hr'] at hp
          obtain ⟨hp1, hp2⟩ := hg.parDir r hr' p hp
          show p < s.next + 1 ∧ (upd s.heap s.next (f s) p).isDir = true
          rw [hne p hp1]; exact ⟨Nat.lt_succ_of_lt hp1, hp2⟩
      · intro r hr
        show (upd s.heap s.next (f s) r).isDir = true → (upd s.heap s.next (f s) r).mode &&& S_IFDIR ≠ 0
        rcases hlt r hr with rfl | hr'
        · rw [hself]; exact hmode
        · rw [hne r hr']; exact hg.dirMode r hr'
      · intro d hd e he
        obtain ⟨hd', he'⟩ := hold d hd e he
        show (upd s.heap s.next (f s) e.2).ino ≠ none
        rw [hne e.2 (hg.entLt d hd' e he')]
        exact hg.entIno d hd' e he'
      · intro r hr i
        show (upd s.heap s.next (f s) r).ino = some i → i ≤ s.lastIno
        rcases hlt r hr with rfl | hr'
        · rw [hself, hino]; simp
        · rw [hne r hr']; exact hg.inoLe r hr' i
      · intro r hr q hq i
        show (upd s.heap s.next (f s) r).ino = some i → (upd s.heap s.next (f s) q).ino = some i → r = q
        rcases hlt r hr with rfl | hr'
        · rw [hself, hino]; simp
        · rcases hlt q hq with rfl | hq'
          · rw [hself, hino]; simp
          · rw [hne r hr', hne q hq']; exact hg.inoInj r hr' q hq' i
      · show (upd s.heap s.next (f s) rootRef).isDir = true
        rw [hne _ hroot]; exact hg.rootDir
      · show (upd s.heap s.next (f s) rootRef).parent = none
        rw [hne _ hroot]; exact hg.rootPar
      · show (upd s.heap s.next (f s) rootRef).ino ≠ none
        rw [hne _ hroot]; exact hg.rootIno
    · exact h.m
    · have hdn : devNullRef < s.next := by have := hg.two; show 1 < s.next; omega
      constructor
      · show ifmt (upd s.heap s.next (f s) rootRef).mode = S_IFDIR
        rw [hne _ hroot]; exact h.n.rootMode
      · show (upd s.heap s.next (f s) devNullRef).isDir = false
        rw [hne _ hdn]; exact h.n.devFile
      · show ifmt (upd s.heap s.next (f s) devNullRef).mode = S_IFREG
        rw [hne _ hdn]; exact h.n.devMode
      · exact h.n.cwd
      · intro hp hm d hd e he
        obtain ⟨hd', he'⟩ := hold d hd e he
        exact h.n.names hp hm d hd' e he'
      · exact h.n.rootMount
      · show (upd s.heap s.next (f s) rootRef).name = _
        rw [hne _ hroot]; exact h.n.rootName
    · intro c
      constructor
      · intro r (hr : r < s.next + 1)
        show (upd s.heap s.next (f s) r).nlink = ((if (upd s.heap s.next (f s) r).isDir then
          1 + (upd s.heap s.next (f s) r).entries.length else 0 : Nat) +
          refs (upd s.heap s.next (f s)) (s.next + 1) r : Nat)
        rw [hrefs]
        rcases hlt r hr with rfl | hr'
        · rw [hself, hnl, hent, refs_zero]
          · by_cases c' : (f s).isDir = true <;> simp [c']
          · intro d hd e he; exact Nat.ne_of_lt (hg.entLt d hd e he)
        · rw [hne r hr']; exact (h.t c).nlink r hr'
      · intro r (hr : r < s.next + 1)
        show Rooted (upd s.heap s.next (f s)) r
        rcases hlt r hr with rfl | hr'
        · exact .top (by rw [hself]; exact hpar)
        · have : ∀ x, Rooted s.heap x → x < s.next → Rooted (upd s.heap s.next (f s)) x := by
            intro x hx
            induction hx with
            | top h0 => intro hl; exact .top (by rw [hne _ hl]; exact h0)
            | up h0 _ ih => intro hl; exact .up (by rw [hne _ hl]; exact h0) (ih (hg.parDir _ hl _ h0).1)
          exact this r ((h.t c).rooted r hr') hr'
  · have hx : ∀ x < s.next, ({ s with heap := upd s.heap s.next (f s), next := s.next + 1 } : FS).heap x = s.heap x := hne
    exact ⟨rfl, rfl, rfl, rfl, rfl, rfl, rfl, Nat.le_succ _, fun x h => by rw [hx x h], fun x h => by rw [hx x h],
      fun x h _ => by rw [hx x h], Quota.refl _⟩

end Verif
