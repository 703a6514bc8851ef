import Verif.Props.RefineFd
import Verif.Props.RefineRun
/-!
# `os.open` in the reference file system with descriptors (C76)
-/

namespace Verif
open Py Spec Cfg

section
variable {k : Cfg} {u : Nat} {s s' : FS}

/-- A new descriptor. -/
theorem SysSt.newFd (hs : SysSt k u s) (hr : RefSt k u s') (st : Steady s.hnext s s') {fd : Nat} (free : ¬ InUse s fd) (low : ∀ i < fd, InUse s i)
    (slot : SlotSet s.openFiles s'.openFiles fd (some [s.hnext])) (hok : HOk s' s.hnext) :
    SysSt k u s' ∧ (sysOf s).Lowest fd ∧ (sysOf s').fds = Ref.set1 (sysOf s).fds fd (some (descOf (s'.handles s.hnext))) := by
  have hi := reachable_fdInv hs.reach
  have h3 : 3 ≤ fd := by
    by_contra hc
    exact free ⟨_, (hi.std fd (by omega)).1⟩
  have hold : ∀ j, 3 ≤ j → ∀ g, s.openFiles[j]? = some (some [g]) → g < s.hnext ∧ g ≠ s.hnext := fun j _ g hg =>
    have := (hi.mem j _ hg g (by simp)).1
    ⟨this, Nat.ne_of_lt this⟩
  refine ⟨⟨hr, fun j hj l hl => ?_⟩, ⟨h3, ?_, ?_⟩, ?_⟩
  · by_cases e : j = fd
    · subst e
      rw [slot.here] at hl
      injection hl with hl; injection hl with hl
      exact ⟨_, hl.symm, hok⟩
    · rw [slot.others j e] at hl
      obtain ⟨g, rfl, hg⟩ := hs.slots j hj l hl
      exact ⟨g, rfl, (st.keep g (hold j hj g hl).1 (hold j hj g hl).2 hg).1⟩
  · rcases fds_cases hs fd with ⟨h, _⟩ | ⟨g, _, hsl, _⟩
    · exact h
    · exact absurd ⟨_, hsl⟩ free
  · intro j hj hlt
    rcases fds_cases hs j with ⟨_, h⟩ | ⟨g, _, _, _, _, _, _, h, _⟩
    · exact absurd (low j hlt) (h hj)
    · rw [h]; simp
  · funext j
    unfold Ref.set1
    by_cases e : j = fd
    · subst e
      rw [if_pos rfl, fds_slot h3 slot.here]
    · rw [if_neg e]
      rcases fds_cases hs j with ⟨h1, h2⟩ | ⟨g, hj, hsl, _, hlt, _, _, h1, hg⟩
      · rw [h1]
        rcases Nat.lt_or_ge j 3 with hj | hj
        · unfold sysOf; dsimp only; rw [if_pos hj]
        · unfold sysOf; dsimp only; rw [if_neg (by omega), slot.others j e]
          split
          · rename_i x l e'; exact absurd ⟨_, e'⟩ (h2 hj)
          · rfl
      · have := st.keep g hlt (Nat.ne_of_lt hlt) hg
        rw [h1, fds_slot hj ((slot.others j e).trans hsl), this.2.desc]

/-- the permission bit of the owner's reading after `chmod` -/
theorem read_bit {m : Nat} : m &&& PERM_READ ≠ 0 ↔ m.testBit 8 = true := by
  have e : PERM_READ = 2 ^ 8 := by decide
  constructor
  · intro h
    by_contra hb
    apply h
    apply Nat.eq_of_testBit_eq
    intro j
    rw [Nat.testBit_and, e, Nat.testBit_two_pow]
    by_cases h8 : 8 = j
    · subst h8; simp at hb ⊢; exact hb
    · simp [h8]
  · intro h hz
    have : (m &&& PERM_READ).testBit 8 = true := by rw [Nat.testBit_and, h, e, Nat.testBit_two_pow]; simp
    rw [hz] at this; simp at this

/-- A change of the metadata of one object that keeps its kind. -/
theorem RefSt.metaOf (h : RefSt k u s) (hb : RefBase k u s') {r : Ref} (hr : r ≠ devNullRef) (ho : ∀ x, x ≠ r → s'.heap x = s.heap x)
    (hc : (s'.heap r).content = (s.heap r).content) (hK : Kind (s.heap r) → Kind (s'.heap r)) : RefSt k u s' ∧ treeOf s' = treeOf s := by
  have hcc : ∀ x, (s'.heap x).content = (s.heap x).content := by
    intro x
    by_cases e : x = r
    · subst e; exact hc
    · rw [ho x e]
  have hwk : ∀ l, walk s'.heap rootRef l = walk s.heap rootRef l := fun l =>
    walk_congr h.inv.g.entLt (fun x _ => by unfold Obj.entries; rw [hcc]) l _ (root_lt h.inv)
  refine ⟨⟨hb, ?_, by rw [hwk]; exact h.noDev, fun l x hx => ?_⟩, ?_⟩
  · have := h.devName
    unfold FS.devName at this ⊢
    rw [ho _ hr.symm]; exact this
  · rw [hwk] at hx
    have := h.kind l x hx
    refine ⟨this.1, ?_⟩
    by_cases e : x = r
    · subst e; exact hK this.2
    · rw [ho x e]; exact this.2
  · funext l
    unfold treeOf
    rw [hwk]
    cases hx : walk s.heap rootRef l with
    | none => rfl
    | some x => simp only [Option.map_some]; unfold nodeOf; rw [hcc]

/-- `os.open` of something that is not a directory -/
theorem osOpen_file {p : Str} {f : OFlags} (hx : ¬ (f.excl = true ∧ f.creat = false)) (hd : s.openDirArg p = .ok none) (mode : Nat) :
    osOpen p f mode s = (openPath p f.modes none true false >>= fun h => hget h >>= fun H =>
      if H.obj ≠ devNullRef then chmod p mode >>= fun _ => M.pure H.fd else M.pure H.fd) s := by
  unfold osOpen
  dsimp only
  rw [if_neg (by unfold OFlags.modes; dsimp only; simpa using hx)]
  rw [M.bind_eq]
  dsimp only [M.get]
  rw [M.bind_eq, rd_eq (f := fun x => x.openDirArg p) hd]

/-- The state after `chmod`. -/
structure Chmodded (s s' : FS) (r : Ref) (mode : Nat) : Prop where
  rest : s' = { s with heap := s'.heap }
  others : ∀ x, x ≠ r → s'.heap x = s.heap x
  obj : s'.heap r = { s.heap r with mode := (s'.heap r).mode, ctime := s.clock }
  bits : ∀ i, (s'.heap r).mode.testBit i = if i < 12 then mode.testBit i else (s.heap r).mode.testBit i

theorem Chmodded.reg {r : Ref} {mode : Nat} (c : Chmodded s s' r mode) : ifmt (s'.heap r).mode = ifmt (s.heap r).mode := by
  unfold ifmt
  apply Nat.eq_of_testBit_eq
  intro i
  rw [Nat.testBit_and, Nat.testBit_and, c.bits]
  by_cases hi : i < 12
  · have : S_IFMT.testBit i = false := by
      have h : S_IFMT = (2 ^ 4 - 1) <<< 12 := by decide
      rw [h, Nat.testBit_shiftLeft]; simp; omega
    rw [this]; simp
  · rw [if_neg hi]

theorem Chmodded.kind {r : Ref} {mode : Nat} (c : Chmodded s s' r mode) (hm : mode &&& PERM_READ ≠ 0) (h : Kind (s.heap r)) : Kind (s'.heap r) := by
  have hc : (s'.heap r).content = (s.heap r).content := by rw [c.obj]
  have hz : (s'.heap r).size = (s.heap r).size := by rw [c.obj]
  refine ⟨read_bit.mpr ?_, ?_⟩
  · rw [c.bits, if_pos (by omega)]; exact read_bit.mp hm
  · rcases h.2 with hd | ⟨b, h1, h2, h3⟩
    · left; unfold Obj.isDir at hd ⊢; rw [hc]; exact hd
    · refine Or.inr ⟨b, by rw [hc]; exact h1, ?_, by rw [hz]; exact h3⟩
      unfold Obj.isRegMode at h2 ⊢
      rw [c.reg]; exact h2

theorem osOpen_done {p : Str} {f : OFlags} (hx : ¬ (f.excl = true ∧ f.creat = false)) (hd : s.openDirArg p = .ok none) (mode : Nat) {h : Nat} {s2 : FS}
    (ho : openPath p f.modes none true false s = (.ok h, s2)) {r : Ref} (hn : (s2.handles h).obj ≠ devNullRef) (hr : s2.resolve p = .ok r)
    (hw : s2.cfg.isWin = false) :
    ∃ s3, osOpen p f mode s = (.ok (s2.handles h).fd, s3) ∧ Chmodded s2 s3 r mode := by
  rcases chmod_effect p mode true s2 with ⟨e, h1, _⟩ | ⟨r', s3, h1, h2, h3, h4, h5, h6⟩
  · rw [hr] at h1; simp at h1
  · rw [hr] at h1; injection h1 with h1; subst h1
    refine ⟨s3, ?_, h3, h4, h5, h6.1 hw⟩
    rw [osOpen_file hx hd, M.bind_eq, ho]
    dsimp only
    have e : hget h s2 = (.ok (s2.handles h), s2) := rfl
    rw [M.bind_eq, e]
    dsimp only
    rw [if_pos hn, M.bind_eq, h2]
    rfl

theorem osOpen_err {p : Str} {f : OFlags} (hx : ¬ (f.excl = true ∧ f.creat = false)) (hd : s.openDirArg p = .ok none) (mode : Nat) {e : Err} {s2 : FS}
    (ho : openPath p f.modes none true false s = (.error e, s2)) : osOpen p f mode s = (.error e, s2) := by
  rw [osOpen_file hx hd, M.bind_eq, ho]

/-- what is allowed in `os.open`: some access, O_EXCL only with O_CREAT, O_APPEND only with O_WRONLY, and a mode the owner may read with -/
structure Spec.OpenAllowed (f : Ref.Flags) (mode : Nat) : Prop where
  access : f.rd = true ∨ f.wr = true
  excl : f.excl = true → f.creat = true
  append : f.append = true → f.wr = true ∧ f.rd = false
  mode : mode &&& PERM_READ ≠ 0

theorem openModes_eq {f : Ref.Flags} {mode : Nat} (ha : OpenAllowed f mode) :
    (flagsOf f).modes = ⟨!f.creat, f.rd, f.wr, f.trunc, f.append, f.excl⟩ := by
  have := ha.access
  unfold flagsOf OFlags.modes
  dsimp only
  rcases hr : f.rd <;> rcases hw : f.wr <;> simp [hr, hw] at this ⊢

theorem SysSt.dirArg (hk : Linux k) (hs : SysSt k u s) {p : List Str} (hp : Usable p) :
    s.openDirArg (absPath s.cfg.sep p) = .ok (match walk s.heap rootRef p with | none => none | some x => if (s.heap x).isDir then some x else none) := by
  unfold FS.openDirArg
  rw [if_neg (by rw [hs.isWin hk]; simp), hs.ex hk hp]
  dsimp only [bind, Except.bind]
  cases hx : walk s.heap rootRef p with
  | none => rfl
  | some x =>
    rw [if_pos (by rfl), hs.res hk hp hx]

/-- the bytes kept, for states that differ only in what is not a file's bytes -/
theorem keeps_files {P : Nat → Prop} (h : ∀ x < s.next, P x ∨ (s'.heap x).isDir = (s.heap x).isDir ∧ ((s.heap x).isDir = false → (s'.heap x).content = (s.heap x).content))
    (hlt : ∀ i, (sysOf s).Named i ∨ (sysOf s).Opened i → i < s.next) : (sysOf s).Keeps (sysOf s') P := by
  intro i hi hP
  rcases h i (hlt i hi) with h | ⟨h1, h2⟩
  · exact absurd h hP
  · cases hd : (s.heap i).isDir with
    | false => exact data_heap (h2 hd)
    | true =>
      rw [hd] at h1
      unfold sysOf
      dsimp only
      unfold Obj.isDir at hd h1
      cases hc : (s.heap i).content with
      | file b => rw [hc] at hd; simp at hd
      | dir es =>
        cases hc' : (s'.heap i).content with
        | file b => rw [hc'] at h1; simp at h1
        | dir es => rfl

theorem named_walk {i : Nat} (h : (sysOf s).Named i) : ∃ l, walk s.heap rootRef l = some i ∧ (s.heap i).isDir = false := by
  obtain ⟨l, hl⟩ := h
  unfold sysOf at hl
  dsimp only at hl
  cases hx : walk s.heap rootRef l with
  | none => rw [hx] at hl; simp at hl
  | some x =>
    rw [hx] at hl
    simp only [Option.map_some, Option.some.injEq] at hl
    unfold whatOf at hl
    split at hl
    · simp at hl
    · rename_i hd
      simp only [Ref.What.file.injEq] at hl
      subst hl
      exact ⟨l, hx, by simpa using hd⟩

/-- files that have a name or are open have been made -/
theorem SysSt.live (hs : SysSt k u s) {i : Nat} (h : (sysOf s).Named i ∨ (sysOf s).Opened i) : i < s.next := by
  rcases h with h | ⟨fd, d, h1, h2⟩
  · obtain ⟨l, hl, _⟩ := named_walk h
    exact walk_lt hs.inv _ (root_lt hs.inv) hl
  · rcases fds_cases hs fd with ⟨e, _⟩ | ⟨g, _, _, _, _, _, _, e, hok⟩
    · rw [h1] at e; simp at e
    · rw [h1] at e
      injection e with e
      rw [e] at h2
      rcases hok with hd | hf
      · unfold descOf at h2
        rw [hd] at h2
        simp [Ref.Desc.id] at h2
      · have : (s.handles g).obj = i := by
          unfold descOf at h2
          rw [hf.kind, if_pos rfl] at h2
          split at h2 <;> simpa [Ref.Desc.id] using h2
        rw [← this]; exact hf.lt

theorem SysSt.openDir (hk : Linux k) (hs : SysSt k u s) {p : List Str} (hp : Usable p) {f : Ref.Flags} {mode : Nat} (ha : OpenAllowed f mode) {x : Ref}
    (hx : walk s.heap rootRef p = some x) (hd : (s.heap x).isDir = true) :
    FdRefines k u s (.open p f mode) := by
  have hsep : absPath '/' p = absPath s.cfg.sep p := by rw [hs.sep hk]
  suffices h : SysSt k u (doCall (fun fd => .num fd) (osOpen (absPath s.cfg.sep p) (flagsOf f) mode) s).2 ∧
      Ref.FdStep (sysOf s) (.open p f mode) (doCall (fun fd => .num fd) (osOpen (absPath s.cfg.sep p) (flagsOf f) mode) s).1
      (sysOf (doCall (fun fd => .num fd) (osOpen (absPath s.cfg.sep p) (flagsOf f) mode) s).2) by
    rw [← hsep] at h; exact ⟨h.1, h.2⟩
  have hn : (sysOf s).names p = some .dir := by
    unfold sysOf; dsimp only; rw [hx]; unfold whatOf; rw [Option.map_some, hd]; rfl
  rw [Ref.FdStep, hn]
  dsimp only
  have hm := openModes_eq ha
  have hex : ¬ ((flagsOf f).excl = true ∧ (flagsOf f).creat = false) := by
    rintro ⟨h1, h2⟩
    have := ha.excl h1
    rw [show f.creat = (flagsOf f).creat from rfl, h2] at this; simp at this
  have hda := hs.dirArg hk hp
  rw [hx] at hda
  dsimp only at hda
  rw [hd, if_pos rfl] at hda
  have hb : RefBase k u (osOpen (absPath s.cfg.sep p) (flagsOf f) mode s).2 :=
    void_next (o := .osOpen (absPath s.cfg.sep p) (flagsOf f) mode) rfl s ▸ hs.toRefBase.next hk (.osOpen (absPath s.cfg.sep p) (flagsOf f) mode) rfl trivial (by simp)
  have hwp : wp (osOpen (absPath s.cfg.sep p) (flagsOf f) mode) (fun r s' =>
      ((f.wr = true ∨ f.creat = true) ∧ r = .error (.os .EISDIR) ∧ s' = s) ∨
      (¬ (f.wr = true ∨ f.creat = true) ∧ ∃ fd, r = .ok fd ∧ Opened s s' fd s.hnext ∧ (s'.handles s.hnext).kind = .dir ∧
        s' = { s with openFiles := s'.openFiles, freeFds := s'.freeFds, handles := s'.handles, hnext := s'.hnext })) s := by
    unfold osOpen
    dsimp only
    rw [if_neg (by unfold OFlags.modes; dsimp only; simpa using hex)]
    apply wp_getBind
    refine wp_bindOk (rd_eq (f := fun x => x.openDirArg _) hda) ?_
    dsimp only
    rw [hm]
    dsimp only
    by_cases hc : f.wr = true ∨ f.creat = true
    · rw [if_pos (by rw [hs.mac hk]; rcases hc with h | h <;> simp [h])]
      exact Or.inl ⟨hc, rfl, rfl⟩
    · rw [if_neg (by rw [hs.mac hk]; simp at hc; simp [hc.1, hc.2])]
      refine register_spec (reachable_fdInv hs.reach) _ (by simp) (by simp [mkHandle]) ?_
      intro fd s' ho _ hh he
      exact Or.inr ⟨hc, fd, rfl, ho, by show (s'.handles s.hnext).kind = _; rw [hh], he⟩
  unfold wp at hwp
  unfold doCall
  rcases hop : osOpen (absPath s.cfg.sep p) (flagsOf f) mode s with ⟨r, s'⟩
  rw [hop] at hwp hb
  dsimp only at hwp hb ⊢
  rcases hwp with ⟨hc, rfl, rfl⟩ | ⟨hc, fd, rfl, ho, hkd, he⟩
  · rw [if_pos hc]
    exact ⟨hs, rfl, rfl, rfl, keeps_refl _ _⟩
  · rw [if_neg hc]
    have hh : s'.heap = s.heap := by rw [he]
    have hr : RefSt k u s' := ⟨hb, by unfold FS.devName; rw [hh]; exact hs.devName, by rw [hh]; exact hs.noDev, by rw [hh]; exact hs.kind⟩
    obtain ⟨h1, h2, h3⟩ := hs.newFd hr (Steady.heap (by rw [ho.hnext]; exact Nat.le_succ _) (by rw [he]) hh (fun g hg _ => ho.old g hg)) ho.fresh ho.lowest ho.slot (Or.inl hkd)
    have hde : descOf (s'.handles s.hnext) = .dir := by unfold descOf; rw [hkd]; rfl
    rw [hde] at h3
    refine ⟨h1, ⟨fd, h2, rfl, h3⟩, ?_, fun i _ _ => data_heap (by rw [hh])⟩
    unfold sysOf; dsimp only; rw [hh]

/-- the new descriptor of a file: `s1` is the state with the file found or made, `s2` with the handle, `s3` with the mode -/
theorem SysSt.newFile (hs : SysSt k u s) {s1 s2 s3 : FS} {r : Ref} {fd mode : Nat} {f : Ref.Flags} {C : Bytes} (ha : OpenAllowed f mode)
    (rest : s1 = { s with heap := s1.heap, next := s1.next, lastIno := s1.lastIno, mounts := s1.mounts }) (nx : s.next ≤ s1.next)
    (nw : ∀ y < s.next, Newer (s.heap y) (s1.heap y)) (hC : (s1.heap r).content = .file (some C)) (hz : (s1.heap r).size = C.length)
    (hn : r ≠ devNullRef) (hlt : r < s1.next) (op : Opened s1 s2 fd s1.hnext)
    (hh : s2.handles s1.hnext = { mkHandle s1 r (flagsOf f).modes none true true false 0 with fd := fd })
    (he : s2 = { s1 with openFiles := s2.openFiles, freeFds := s2.freeFds, handles := s2.handles, hnext := s2.hnext })
    (c : Chmodded s2 s3 r mode) (hr : RefSt k u s3) :
    SysSt k u s3 ∧ (sysOf s).Lowest fd ∧ (sysOf s3).fds = Ref.set1 (sysOf s).fds fd (some (f.desc r)) := by
  have hhn : s1.hnext = s.hnext := by rw [rest]
  have hha : s1.handles = s.handles := by rw [rest]
  have hof : s1.openFiles = s.openFiles := by rw [rest]
  rw [hhn] at op hh
  have h3 : s3.handles = s2.handles := by rw [c.rest]
  have hp2 : s2.heap = s1.heap := by rw [he]
  have hcon : ∀ y, (s3.heap y).content = (s1.heap y).content ∧ (s3.heap y).size = (s1.heap y).size ∧ (s3.heap y).epoch = (s1.heap y).epoch := by
    intro y
    by_cases e : y = r
    · subst e; rw [c.obj, hp2]; exact ⟨rfl, rfl, rfl⟩
    · rw [c.others y e, hp2]; exact ⟨rfl, rfl, rfl⟩
  have hn3 : s3.next = s1.next := by rw [c.rest]; show s2.next = _; rw [he]
  have hhn3 : s3.hnext = s.hnext + 1 := by rw [c.rest]; show s2.hnext = _; rw [op.hnext]
  have st : Steady s.hnext s s3 := by
    refine Steady.of (by rw [hhn3]; exact Nat.le_succ _) (by rw [hn3]; exact nx) (fun y hy => ?_) (fun g hg _ => Or.inl ?_)
    · intro b hb hzb
      obtain ⟨b', h1, h2, h3, h4⟩ := nw y hy b hb hzb
      obtain ⟨e1, e2, e3⟩ := hcon y
      exact ⟨b', by rw [e1]; exact h1, by rw [e2]; exact h2, by rw [e3]; exact h3, by rw [e3]; exact h4⟩
    · rw [h3, op.old g hg, hha]
  have hmk : s3.handles s.hnext = { mkHandle s1 r (flagsOf f).modes none true true false 0 with fd := fd } := by rw [h3]; exact hh
  have hbc : s1.byteContents r = some C := by
    unfold FS.byteContents
    rw [if_neg hn, hC]
  obtain ⟨e1, e2, e3⟩ := hcon r
  have hok : FileOk s3 s.hnext := by
    have hm := openModes_eq ha
    refine ⟨by rw [hmk]; rfl, by rw [hmk]; exact hn, by rw [hmk, hn3]; exact hlt, ⟨C, by rw [hmk]; exact e1.trans hC, by rw [hmk]; exact e2.trans hz⟩, by rw [hmk]; rfl, by rw [hmk]; rfl, ?_, ?_, ?_⟩
    · rw [hmk]; show (s1.heap r).epoch ≤ (s3.heap r).epoch; rw [e3]
    · intro _ _
      rw [hmk]
      show (s3.heap r).content = .file (some ((s1.byteContents r).getD []))
      rw [hbc, e1]; exact hC
    · rw [hmk, hm]
      intro happ
      have happ : f.append = true := happ
      obtain ⟨hw, hrd⟩ := ha.append happ
      refine ⟨hrd, hw, ?_, Nat.le_refl _⟩
      show (if (f.wr && f.append) = true then _ else _) = _
      rw [hw, happ]; rfl
  obtain ⟨g1, g2, g3⟩ := hs.newFd hr st (fun h => op.fresh (by obtain ⟨l, hl⟩ := h; exact ⟨l, by rw [hof]; exact hl⟩)) (fun i hi => by obtain ⟨l, hl⟩ := op.lowest i hi; exact ⟨l, by rw [← hof]; exact hl⟩)
    ⟨by rw [c.rest]; exact op.slot.here, fun i hi => by rw [c.rest, ← hof]; exact op.slot.others i hi⟩ (Or.inr hok)
  refine ⟨g1, g2, ?_⟩
  rw [g3]
  congr 2
  rw [hmk, openModes_eq ha]
  unfold descOf Ref.Flags.desc mkHandle
  dsimp only
  rw [if_pos rfl]
  by_cases happ : f.append = true
  · rw [if_pos happ, if_pos happ]
  · rw [if_neg happ, if_neg happ]
    have : f.append = false := by simpa using happ
    rw [this]; simp

/-- the state after `open` has found the file `x`, truncated or not -/
structure Found (s s1 : FS) (x : Ref) (D C : Bytes) : Prop where
  rest : s1 = { s with heap := s1.heap, next := s1.next, lastIno := s1.lastIno, mounts := s1.mounts }
  next : s1.next = s.next
  others : ∀ y, y ≠ x → s1.heap y = s.heap y
  data : (s1.heap x).content = .file (some D)
  size : (s1.heap x).size = D.length
  epoch : (s.heap x).epoch ≤ (s1.heap x).epoch ∧ ((s1.heap x).epoch = (s.heap x).epoch → D = C)
  shape : Shape s s1

theorem found_keep {x : Ref} {C : Bytes} (hC : (s.heap x).content = .file (some C)) (hz : (s.heap x).size = C.length) : Found s s x C C :=
  ⟨rfl, rfl, fun _ _ => rfl, hC, hz, ⟨Nat.le_refl _, fun _ => rfl⟩, Shape.refl s⟩

theorem found_empty {x : Ref} {C : Bytes} (hC : (s.heap x).content = .file (some C)) : Found s (s.withContents x []) x [] C := by
  refine ⟨rfl, rfl, fun y hy => ?_, ?_, ?_, ?_, shape_withContents hC []⟩
  · simp only [FS.withContents, upd_apply, if_neg hy]
  · simp only [FS.withContents, upd_same]
  · simp only [FS.withContents, upd_same]
  · simp only [FS.withContents, upd_same]
    constructor
    · split <;> omega
    · intro h
      have h2 : ∀ c : Bool, (s.heap x).epoch + (if c = true then 2 else 1) = (s.heap x).epoch → False := by intro c; cases c <;> simp
      exact (h2 _ h).elim

theorem Found.times {s1 : FS} {x : Ref} {D C : Bytes} (h : Found s s1 x D C) (m c : Int) :
    Found s (s1.setObj x fun o => { o with mtime := m, ctime := c }) x D C := by
  refine ⟨?_, h.next, fun y hy => ?_, ?_, ?_, ?_, h.shape.trans (Shape.obj _ _ _ (Skel.same rfl rfl rfl rfl rfl rfl rfl rfl rfl rfl))⟩
  · have := h.rest
    unfold FS.setObj
    dsimp only
    rw [this]
  · simp only [FS.setObj, upd_apply, if_neg hy]; exact h.others y hy
  · simp only [FS.setObj, upd_same]; exact h.data
  · simp only [FS.setObj, upd_same]; exact h.size
  · simp only [FS.setObj, upd_same]; exact h.epoch

/-- the directory argument of a path that leads to a file -/
theorem SysSt.openFile (hk : Linux k) (hs : SysSt k u s) {p : List Str} (hp : Usable p) {f : Ref.Flags} {mode : Nat} (ha : OpenAllowed f mode) {x : Ref}
    {C : Bytes} (hx : walk s.heap rootRef p = some x) (hd : (s.heap x).isDir = false) (hC : (s.heap x).content = .file (some C))
    (hreg : (s.heap x).isRegMode = true) (hz : (s.heap x).size = C.length) (hn : x ≠ devNullRef) :
    FdRefines k u s (.open p f mode) := by
  have hsep : absPath '/' p = absPath s.cfg.sep p := by rw [hs.sep hk]
  suffices h : SysSt k u (doCall (fun fd => .num fd) (osOpen (absPath s.cfg.sep p) (flagsOf f) mode) s).2 ∧
      Ref.FdStep (sysOf s) (.open p f mode) (doCall (fun fd => .num fd) (osOpen (absPath s.cfg.sep p) (flagsOf f) mode) s).1
      (sysOf (doCall (fun fd => .num fd) (osOpen (absPath s.cfg.sep p) (flagsOf f) mode) s).2) by
    rw [← hsep] at h; exact ⟨h.1, h.2⟩
  have hnm : (sysOf s).names p = some (.file x) := by
    unfold sysOf; dsimp only; rw [hx]; unfold whatOf; rw [Option.map_some, hd]; rfl
  rw [Ref.FdStep, hnm]
  dsimp only
  have hm := openModes_eq ha
  have hex : ¬ ((flagsOf f).excl = true ∧ (flagsOf f).creat = false) := by
    rintro ⟨h1, h2⟩
    have := ha.excl h1
    rw [show f.creat = (flagsOf f).creat from rfl, h2] at this; simp at this
  have hda := hs.dirArg hk hp
  rw [hx] at hda
  dsimp only at hda
  rw [hd, if_neg (by simp)] at hda
  have harg := hs.arg hk hp
  rw [hx] at harg
  have hb : RefBase k u (osOpen (absPath s.cfg.sep p) (flagsOf f) mode s).2 :=
    void_next (o := .osOpen (absPath s.cfg.sep p) (flagsOf f) mode) rfl s ▸ hs.toRefBase.next hk (.osOpen (absPath s.cfg.sep p) (flagsOf f) mode) rfl trivial (by simp)
  have hb2 := hs.toRefBase.open hk (absPath s.cfg.sep p) (flagsOf f).modes none true false
  have hoo := openObject_existing hC (by rw [hs.toRefSt.dirMode hk hx]; exact hd) hn (absPath s.cfg.sep p) (absPath s.cfg.sep p) (flagsOf f).modes
  unfold wp at hoo
  rcases ho : openObject (some x) (absPath s.cfg.sep p) (absPath s.cfg.sep p) (flagsOf f).modes s with ⟨r, s1⟩
  rw [ho] at hoo
  dsimp only at hoo
  unfold doCall
  rcases hoo with ⟨rfl, h1, rfl⟩ | ⟨_, _, h1, _⟩ | ⟨_, _, _, h1, _⟩ | ⟨rfl, h1, _, s0, hs0, hs1⟩
  · rw [osOpen_err hex hda mode (openPath_failed none true false harg ho)]
    rw [hm] at h1
    rw [if_pos ⟨ha.excl h1, h1⟩]
    exact ⟨hs, rfl, rfl, rfl, keeps_refl _ _⟩
  · exact absurd h1 (hs.toRefSt.notDenied hk x _)
  · rw [fits_limitless hs.limitless] at h1; simp at h1
  · rw [hm] at h1 hs0 hs1
    dsimp only at h1 hs0 hs1
    rw [if_neg (by rw [h1]; simp)]
    obtain ⟨D, hF, hD⟩ : ∃ D, Found s s1 x D C ∧ D = (if f.wr = true ∧ f.trunc = true then [] else C) := by
      by_cases hc : f.wr = true ∧ f.trunc = true
      · rw [if_pos (by simp [hc])] at hs0
        rw [if_pos hc.2] at hs1
        refine ⟨[], ?_, by rw [if_pos hc]⟩
        rw [hs1, hs0]
        have := (found_empty hC).times s.clock s.clock
        convert this using 4
        rw [hs.isWin hk]; rfl
      · rw [if_neg (by simpa using hc)] at hs0
        refine ⟨C, ?_, by rw [if_neg hc]⟩
        rw [hs1, hs0]
        split
        · have := (found_keep hC hz).times s.clock s.clock
          convert this using 4
          rw [hs.isWin hk]; rfl
        · exact found_keep hC hz
    have hq := fq_openObject (some x) (absPath s.cfg.sep p) (absPath s.cfg.sep p) (flagsOf f).modes s
    rw [ho] at hq
    dsimp only at hq
    obtain ⟨fd, s2, k1, k2, k3, k4, k5⟩ := openPath_after (FdInv.quiet (reachable_fdInv hs.reach) hq) none true false harg ho
      (by unfold Obj.isDir; rw [hF.data])
    rw [k1] at hb2
    dsimp only at hb2
    have hp2 : s2.heap = s1.heap := by rw [k5]
    have sh : Shape s s2 := hF.shape.trans (by rw [k5]; exact Shape.hand s1 _ _ _ _)
    obtain ⟨r2, t2⟩ := hs.toRefSt.holds hk hb2 hn hC ⟨by rw [hp2]; exact hF.data, by rw [hp2]; exact hF.size, fun y hy => by rw [hp2]; exact hF.others y hy, sh⟩
    have hw2 : walk s2.heap rootRef p = some x := by
      rw [← hx]
      exact walk_congr hs.inv.g.entLt (fun y _ => sh.entries y) p _ (root_lt hs.inv)
    have hcfg : s2.cfg = s.cfg := by rw [r2.cfg, hs.cfg]
    obtain ⟨s3, k6, k7⟩ := osOpen_done hex hda mode k1 (by rw [k4]; exact hn) (by rw [← hcfg]; exact r2.res hk hp hw2 true) (by rw [hcfg]; exact hs.isWin hk)
    rw [k6] at hb ⊢
    dsimp only at hb ⊢
    obtain ⟨r3, t3⟩ := r2.metaOf hb hn k7.others (congrArg Obj.content k7.obj :) (k7.kind ha.mode)
    have hlt : x < s.next := walk_lt hs.inv _ (root_lt hs.inv) hx
    obtain ⟨g1, g2, g3⟩ := hs.newFile ha hF.rest (by rw [hF.next]) (fun y hy => by
        by_cases e : y = x
        · subst e
          intro b hb' hzb
          rw [hC] at hb'
          simp only [Content.file.injEq, Option.some.injEq] at hb'
          subst hb'
          exact ⟨D, hF.data, hF.size, hF.epoch.1, hF.epoch.2⟩
        · rw [hF.others y e]; exact Newer.refl _) hF.data hF.size hn (by rw [hF.next]; exact hlt) k2 k4 k5 k7 r3
    have hd3 : (s3.heap x).content = .file (some D) := by rw [k7.obj, hp2]; exact hF.data
    rw [show (s2.handles s1.hnext).fd = fd from by rw [k4]]
    refine ⟨g1, ⟨fd, g2, rfl, g3⟩, ?_, ?_, ?_⟩
    · rw [names_same t3, names_store t2]
    · refine keeps_of (r := x) (fun y hy => by rw [k7.others y hy, hp2, hF.others y hy]) ?_
      by_cases hc : f.wr = true ∧ f.trunc = true
      · exact Or.inl ⟨rfl, hc.1, hc.2⟩
      · rw [if_neg hc] at hD
        right; rw [hd3, hC, hD]
    · intro hc
      rw [if_pos hc] at hD
      rw [data_of hd3, hD]

/-- opening a path that leads nowhere makes the file -/
theorem RefSt.openNone (hk : Linux k) (h : RefSt k u s) {p : List Str} (hp : Usable p) {md : OpenModes} (hm : md.mustExist = false) :
    openObject none (absPath s.cfg.sep p) (absPath s.cfg.sep p) md s =
      (createFileI (absPath s.cfg.sep p) (S_IFREG ||| PERM_DEF_FILE) (some []) none false true >>= fun r => M.get >>= fun s =>
        if (s.heap r).isDirMode then M.raise (if s.cfg.isWin then .EACCES else .EISDIR)
        else if md.truncate then (M.modify fun s => s.setObj r fun o => { o with mtime := s.clock, ctime := if s.cfg.isWin then o.ctime else s.clock }) >>= fun _ => M.pure r
        else M.pure r) s := by
  have e : initFileObject none (absPath s.cfg.sep p) (absPath s.cfg.sep p) md s =
      createFileI (absPath s.cfg.sep p) (S_IFREG ||| PERM_DEF_FILE) (some []) none false true s := by
    unfold initFileObject
    dsimp only
    rw [if_neg (by rw [hm]; simp), M.bind_eq, rd_eq (f := fun x => x.isLink (absPath s.cfg.sep p)) (h.isLink hk hp)]
    dsimp only
    rw [if_neg (by simp), M.bind_eq]
    dsimp only [M.pure]
    rw [M.bind_eq]
    dsimp only [M.get]
    rw [h.noSep hk hp, if_neg (by simp)]
  have key : (do
      let r ← initFileObject none (absPath s.cfg.sep p) (absPath s.cfg.sep p) md
      let s ← M.get
      if (s.heap r).isDirMode then M.raise (if s.cfg.isWin then .EACCES else .EISDIR)
      if md.truncate then
        M.modify fun s => s.setObj r fun o =>
          { o with mtime := s.clock, ctime := if s.cfg.isWin then o.ctime else s.clock }
      M.pure r : M Ref) s =
      (createFileI (absPath s.cfg.sep p) (S_IFREG ||| PERM_DEF_FILE) (some []) none false true >>= fun r => M.get >>= fun s =>
        if (s.heap r).isDirMode then M.raise (if s.cfg.isWin then .EACCES else .EISDIR)
        else if md.truncate then (M.modify fun s => s.setObj r fun o => { o with mtime := s.clock, ctime := if s.cfg.isWin then o.ctime else s.clock }) >>= fun _ => M.pure r
        else M.pure r) s := by
    rw [M.bind_eq, M.bind_eq, e]
    rcases createFileI (absPath s.cfg.sep p) (S_IFREG ||| PERM_DEF_FILE) (some []) none false true s with ⟨e | r, s1⟩
    · rfl
    · dsimp only
      rw [M.bind_eq, M.bind_eq]
      dsimp only [M.get]
      split <;> split <;> rfl
  unfold openObject
  cases hx : md.mustNotExist with
  | false => rw [if_neg (by simp)]; exact key
  | true =>
    rw [if_pos rfl]
    rw [M.bind_eq]
    rw [if_neg (by simp), M.bind_eq]
    dsimp only [M.get]
    rw [M.bind_eq, rd_eq (f := fun x => x.isLink (absPath s.cfg.sep p)) (h.isLink hk hp)]
    exact key

/-- the file can be made -/
theorem RefSt.openMakes (hk : Linux k) (h : RefSt k u s) (hu : u < 0o10000) {p : List Str} {n : Str} {d : Ref} (hp : Usable (p ++ [n]))
    (hw : walk s.heap rootRef (p ++ [n]) = none) (hd : walk s.heap rootRef p = some d) (hdir : (s.heap d).isDir = true) {md : OpenModes}
    (hm : md.mustExist = false) (bf : Option Nat) (raw del : Bool) :
    ∃ i s', openPath (absPath s.cfg.sep (p ++ [n])) md bf raw del s = (.ok i, s') := by
  have ha := h.arg hk hp
  rw [hw] at ha
  obtain ⟨s1, h1, h2, h3⟩ := h.createTail hk hp hw hd hdir (S_IFREG ||| PERM_DEF_FILE) [] true
  have hobj := h.openNone hk hp hm
  rw [M.bind_eq, h.createFront hk hp hw, if_neg (by rw [hd]; simp), h1] at hobj
  dsimp only at hobj
  rw [M.bind_eq] at hobj
  dsimp only [M.get] at hobj
  have hmo : (s1.heap s.next).isDirMode = false := by
    refine (reg_notDir ?_).1
    unfold Obj.isRegMode
    rw [h2, if_pos rfl, h.umask, newFile_reg hu]; rfl
  rw [hmo, if_neg (by simp)] at hobj
  cases hx : md.truncate with
  | true =>
    rw [hx, if_pos rfl, M.bind_eq] at hobj
    dsimp only [M.modify, M.pure] at hobj
    exact openPath_opens bf raw del ha hobj (by unfold FS.setObj; simp only [upd_same]; exact h3)
  | false =>
    rw [hx, if_neg (by simp)] at hobj
    exact openPath_opens bf raw del ha hobj h3

theorem SysSt.openNew (hk : Linux k) (hs : SysSt k u s) (hu : u < 0o10000) (hu2 : u &&& PERM_READ = 0) {p : List Str} {n : Str} (hp : Usable (p ++ [n]))
    {f : Ref.Flags} {mode : Nat} (ha : OpenAllowed f mode) (hx : walk s.heap rootRef (p ++ [n]) = none) : FdRefines k u s (.open (p ++ [n]) f mode) := by
  have hsep : absPath '/' (p ++ [n]) = absPath s.cfg.sep (p ++ [n]) := by rw [hs.sep hk]
  suffices h : SysSt k u (doCall (fun fd => .num fd) (osOpen (absPath s.cfg.sep (p ++ [n])) (flagsOf f) mode) s).2 ∧
      Ref.FdStep (sysOf s) (.open (p ++ [n]) f mode) (doCall (fun fd => .num fd) (osOpen (absPath s.cfg.sep (p ++ [n])) (flagsOf f) mode) s).1
      (sysOf (doCall (fun fd => .num fd) (osOpen (absPath s.cfg.sep (p ++ [n])) (flagsOf f) mode) s).2) by
    rw [← hsep] at h; exact ⟨h.1, h.2⟩
  have hnm : (sysOf s).names (p ++ [n]) = none := by
    unfold sysOf; dsimp only; rw [hx]; rfl
  rw [Ref.FdStep, hnm]
  dsimp only
  rw [Ref.parent, List.dropLast_concat]
  have hm := openModes_eq ha
  have hex : ¬ ((flagsOf f).excl = true ∧ (flagsOf f).creat = false) := by
    rintro ⟨h1, h2⟩
    have := ha.excl h1
    rw [show f.creat = (flagsOf f).creat from rfl, h2] at this; simp at this
  have hda := hs.dirArg hk hp
  rw [hx] at hda
  dsimp only at hda
  have harg := hs.arg hk hp
  rw [hx] at harg
  have hb : RefBase k u (osOpen (absPath s.cfg.sep (p ++ [n])) (flagsOf f) mode s).2 :=
    void_next (o := .osOpen (absPath s.cfg.sep (p ++ [n])) (flagsOf f) mode) rfl s ▸ hs.toRefBase.next hk (.osOpen (absPath s.cfg.sep (p ++ [n])) (flagsOf f) mode) rfl trivial (by simp)
  have hb2 := hs.toRefBase.open hk (absPath s.cfg.sep (p ++ [n])) (flagsOf f).modes none true false
  unfold doCall
  by_cases hcr : f.creat = true
  case neg =>
    rw [if_pos (by simpa using hcr)]
    have hcr : f.creat = false := by simpa using hcr
    have hexc : f.excl = false := by
      cases h : f.excl with
      | false => rfl
      | true => rw [ha.excl h] at hcr; simp at hcr
    have ho : openObject none (absPath s.cfg.sep (p ++ [n])) (absPath s.cfg.sep (p ++ [n])) (flagsOf f).modes s = (.error (.os .ENOENT), s) := by
      unfold openObject
      rw [hm, hexc, hcr]
      rfl
    rw [osOpen_err hex hda mode (openPath_failed none true false harg ho)]
    exact ⟨hs, rfl, rfl, rfl, keeps_refl _ _⟩
  case pos =>
    rw [if_neg (by simpa using hcr)]
    have hme : (flagsOf f).modes.mustExist = false := by rw [hm]; simpa using hcr
    have hobj := hs.toRefSt.openNone hk hp hme
    rw [M.bind_eq, hs.toRefSt.createFront hk hp hx] at hobj
    rcases hs.toRefSt.cases hk p with ⟨c1, _⟩ | ⟨d, c1, c2, _, _⟩ | ⟨d, db, c1, c2, c4, _, _, _, _⟩
    · have hnp : (sysOf s).names p = none := by unfold sysOf; dsimp only; rw [c1]; rfl
      rw [hnp]
      rw [if_pos c1, if_neg (by simp)] at hobj
      rw [osOpen_err hex hda mode (openPath_failed none true false harg hobj)]
      exact ⟨hs, rfl, rfl, rfl, keeps_refl _ _⟩
    · have hnp : (sysOf s).names p = some .dir := by unfold sysOf; dsimp only; rw [c1, Option.map_some]; unfold whatOf; rw [c2]; rfl
      rw [hnp]
      dsimp only
      obtain ⟨i, s2, ho⟩ := hs.toRefSt.openMakes hk hu hp hx c1 c2 hme none true false
      rcases open_new hs.reach (hs.tree hk) (hs.within hk) (hs.ne_dev hk hp) (by rw [hs.ex hk hp, hx]; rfl) (flagsOf f).modes none true false
        (fun _ _ _ d _ => hs.may hk d) with ⟨e, s', h1, _⟩ | ⟨h, s1, s', q, ld, nm, d', x, h1, _, k1, k2, k3, h5, h6, _, h8, h9, _, _, _, h13, _, fd, h14, rfl, h15⟩
      · rw [ho] at h1; simp at h1
      · rw [ho] at h1
        simp only [Prod.mk.injEq, Except.ok.injEq] at h1
        obtain ⟨rfl, rfl⟩ := h1
        rw [ho] at hb2
        dsimp only at hb2
        have hq : s.resolvePath (absPath s.cfg.sep (p ++ [n])) = .ok (absPath s.cfg.sep (p ++ [n])) :=
          resolvePath_plain hs.inv (hs.tree hk) s.rc (hs.plain hk hp) (hs.noLink hk _)
        rw [hq] at k1; injection k1 with k1; subst k1
        rw [makeStringPath_slash (hs.sep hk)] at k2
        obtain ⟨rfl, rfl, hd'⟩ := hs.names hk hp k2
        have hp2 : s2.heap = s1.heap := by rw [h8]
        have hreg : (s1.heap x).isRegMode = true := by
          unfold Obj.isRegMode; rw [h6, hs.umask, newFile_reg hu]; rfl
        have hk1 : Kind (s1.heap x) := by
          refine ⟨?_, Or.inr ⟨[], h5, hreg, h13⟩⟩
          rw [h6, hs.umask]; exact read_kept (by decide) hu2
        have hne : x ≠ devNullRef := fun e => by have := devNull_lt hs.inv; rw [← e] at this; exact Nat.not_lt.mpr k3.fresh this
        have hxd : x ≠ d' := fun e => Nat.not_lt.mpr k3.fresh (by rw [e]; exact walk_lt hs.inv _ (root_lt hs.inv) hd')
        obtain ⟨r2, t2⟩ := hs.toRefSt.newNode hk hb2 hp k2.dir ⟨k3.name.absent, by rw [hp2]; exact k3.name.here, fun l hl => by rw [hp2]; exact k3.name.elsewhere l hl⟩
          k3.fresh (by rw [hp2]; exact k3.listed) (by rw [hp2]; exact k3.dir) (fun y hy hyd => by rw [hp2]; exact k3.others y hy hyd) (by rw [hp2]; exact hk1)
        have hw2 : walk s2.heap rootRef (ld ++ [nm]) = some x := by rw [hp2]; exact k3.name.here
        have hcfg : s2.cfg = s.cfg := by rw [r2.cfg, hs.cfg]
        obtain ⟨s3, k6, k7⟩ := osOpen_done hex hda mode ho (by rw [h14]; exact hne) (by rw [← hcfg]; exact r2.res hk hp hw2 true) (by rw [hcfg]; exact hs.isWin hk)
        rw [k6] at hb ⊢
        dsimp only at hb ⊢
        obtain ⟨r3, t3⟩ := r2.metaOf hb hne k7.others (congrArg Obj.content k7.obj :) (k7.kind ha.mode)
        have hxlt : x < s2.next := walk_lt r2.inv _ (root_lt r2.inv) hw2
        have hn2 : s2.next = s1.next := by rw [h8]
        have hdi : (s1.heap d').isDir = true := by
          have hl := k3.listed
          cases hc : (s1.heap d').content with
          | dir es => unfold Obj.isDir; rw [hc]
          | file b => unfold Obj.entries at hl; rw [hc] at hl; simp at hl
        obtain ⟨g1, g2, g3⟩ := hs.newFile ha k3.rest (by rw [← hn2]; exact Nat.le_trans k3.fresh (Nat.le_of_lt hxlt)) (fun y hy => by
            by_cases e : y = d'
            · subst e
              intro b hb' _
              have := k2.dir
              unfold Obj.isDir at this
              rw [hb'] at this; simp at this
            · rw [k3.others y hy e]; exact Newer.refl _) h5 h13 hne (by rw [← hn2]; exact hxlt) h15 h14 h8 k7 r3
        have hd3 : (s3.heap x).content = .file (some []) := by rw [k7.obj, hp2]; exact h5
        rw [show (s2.handles s1.hnext).fd = fd from by rw [h14]]
        have hfr : ¬ (sysOf s).Named x ∧ ¬ (sysOf s).Opened x :=
          ⟨fun h => Nat.not_lt.mpr k3.fresh (hs.live (Or.inl h)), fun h => Nat.not_lt.mpr k3.fresh (hs.live (Or.inr h))⟩
        refine ⟨g1, x, hfr.1, hfr.2, ⟨fd, g2, rfl, g3⟩, ?_, ?_, data_of hd3⟩
        · funext l
          rw [names_same t3, names_tree, t2]
          unfold Ref.Tree.set Ref.set1
          by_cases e : l = ld ++ [nm]
          · rw [if_pos e, if_pos e, nodeOf_file (by rw [hp2]; exact h5)]
          · rw [if_neg e, if_neg e, names_tree]
        · refine keeps_files (fun y hy => ?_) (fun i => hs.live)
          right
          have hyx : y ≠ x := fun e => Nat.not_lt.mpr k3.fresh (by rw [← e]; exact hy)
          rw [k7.others y hyx, hp2]
          by_cases e : y = d'
          · subst e
            rw [hdi, k2.dir]
            simp
          · rw [k3.others y hy e]; simp
    · have hnp : (sysOf s).names p = some (.file d) := by unfold sysOf; dsimp only; rw [c1, Option.map_some]; unfold whatOf; rw [c2]; rfl
      rw [hnp]
      dsimp only
      rw [if_neg (by rw [c1]; simp), hs.toRefSt.createTail_file hk hp c1 c2] at hobj
      have hop := openPath_failed none true false harg hobj
      rw [osOpen_err hex hda mode hop] at hb ⊢
      dsimp only at hb ⊢
      have hun := (new_same s (mkFileObj n (if true = true then andNot (S_IFREG ||| PERM_DEF_FILE) s.umask else S_IFREG ||| PERM_DEF_FILE) none s)).unchanged hs.inv
      obtain ⟨g1, g2⟩ := hs.toRefSt.unchanged hk hb hun
      obtain ⟨g3, g4⟩ := hs.sameFds g1 (h := s.hnext) (Steady.of (Nat.le_refl _) (Nat.le_succ _) (fun y hy => by
          show Newer (s.heap y) (upd s.heap s.next _ y)
          rw [upd_ne _ _ (Nat.ne_of_lt hy)]; exact Newer.refl _) (fun g hg _ => Or.inl rfl)) rfl (fun j hj e => by
          have := ((reachable_fdInv hs.reach).mem j _ e s.hnext (by simp)).1
          exact absurd this (Nat.lt_irrefl _))
      refine ⟨g3, rfl, names_same g2, g4, keeps_files (fun y hy => ?_) (fun i => hs.live)⟩
      right
      show (upd s.heap s.next _ y).isDir = _ ∧ (_ → (upd s.heap s.next _ y).content = _)
      rw [upd_ne _ _ (Nat.ne_of_lt hy)]
      exact ⟨rfl, fun _ => rfl⟩

theorem SysSt.open (hk : Linux k) (hs : SysSt k u s) (hu : u < 0o10000) (hu2 : u &&& PERM_READ = 0) {p : List Str} (hp : Usable p)
    {f : Ref.Flags} {mode : Nat} (ha : OpenAllowed f mode) : FdRefines k u s (.open p f mode) := by
  rcases hs.toRefSt.cases hk p with ⟨h1, h2⟩ | ⟨x, h1, h2, _, h3⟩ | ⟨x, c, h1, h2, h4, h5, hz, hn, h3⟩
  · have hne : p ≠ [] := by rintro rfl; simp [walk] at h1
    obtain ⟨l, n, rfl⟩ := snoc_of_ne hne
    exact hs.openNew hk hu hu2 hp ha h1
  · exact hs.openDir hk hp ha h1 h2
  · exact hs.openFile hk hp ha h1 h2 h4 h5 hz hn

end
end Verif
