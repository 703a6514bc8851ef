import Verif.FdSys
import Verif.Props.FdBytes
/-!
# The reference file system with descriptors: reading, writing, closing
-/

namespace Verif
open Py Spec Cfg

section
variable {k : Cfg} {u : Nat} {s s' : FS}

/-- the names follow from the tree -/
theorem names_tree (s : FS) (l : Ref.Path) : (sysOf s).names l = match treeOf s l with
    | none => none | some .dir => some .dir | some (.file i _) => some (.file i) := by
  unfold sysOf treeOf whatOf nodeOf Obj.isDir
  dsimp only
  cases walk s.heap rootRef l with
  | none => rfl
  | some x =>
    simp only [Option.map_some]
    cases (s.heap x).content <;> rfl

theorem names_same (h : treeOf s' = treeOf s) : (sysOf s').names = (sysOf s).names := by
  funext l
  rw [names_tree, names_tree, h]

theorem names_store {r : Nat} {b : Bytes} (h : treeOf s' = (treeOf s).store r b) : (sysOf s').names = (sysOf s).names := by
  funext l
  rw [names_tree, names_tree, h]
  unfold Ref.Tree.store
  cases ht : treeOf s l with
  | none => rfl
  | some n =>
    cases n with
    | dir => rfl
    | file i c => by_cases e : i = r <;> simp [e]

theorem data_of {i : Nat} {b : Bytes} (h : (s.heap i).content = .file (some b)) : (sysOf s).data i = b := by
  unfold sysOf; dsimp only; rw [h]; rfl

theorem data_heap {i : Nat} (h : (s'.heap i).content = (s.heap i).content) : (sysOf s').data i = (sysOf s).data i := by
  unfold sysOf; dsimp only; rw [h]

/-- what a descriptor stands for -/
theorem fds_slot {fd g : Nat} (h3 : 3 ≤ fd) {l : List Nat} (h : s.openFiles[fd]? = some (some (g :: l))) :
    (sysOf s).fds fd = some (descOf (s.handles g)) := by
  unfold sysOf; dsimp only; rw [if_neg (by omega), h]

theorem fds_cases (hs : SysSt k u s) (fd : Nat) :
    ((sysOf s).fds fd = none ∧ (3 ≤ fd → ¬ InUse s fd)) ∨
    ∃ g, 3 ≤ fd ∧ s.openFiles[fd]? = some (some [g]) ∧ s.getOpen fd = .ok g ∧ g < s.hnext ∧ (s.handles g).fd = fd ∧ s.isOpen g = true ∧
      (sysOf s).fds fd = some (descOf (s.handles g)) ∧ HOk s g := by
  rcases Nat.lt_or_ge fd 3 with h3 | h3
  · left
    refine ⟨?_, fun h => by omega⟩
    unfold sysOf; dsimp only; rw [if_pos h3]
  · have hi := reachable_fdInv hs.reach
    rcases getOpen_spec hi fd with ⟨_, hn⟩ | ⟨g, l, hg, hsl⟩
    · left
      refine ⟨?_, fun _ => hn⟩
      unfold sysOf; dsimp only; rw [if_neg (by omega)]
      split
      · rename_i h l e; exact absurd ⟨_, e⟩ hn
      · rfl
    · right
      obtain ⟨g', e, hok⟩ := hs.slots fd h3 _ hsl
      simp only [List.cons.injEq] at e
      obtain ⟨rfl, rfl⟩ := e
      have hm := hi.mem fd _ hsl g (by simp)
      exact ⟨g, h3, hsl, hg, hm.1, hm.2, isOpen_iff.mpr ⟨[g], by rw [hm.2]; exact hsl, by simp⟩, fds_slot h3 hsl, hok⟩

/-- The table of descriptors has not changed. -/
theorem SysSt.sameTable (hs : SysSt k u s) (hr : RefSt k u s') {h : Nat} (st : Steady h s s') (ht : s'.openFiles = s.openFiles)
    (hh : ∀ fd, 3 ≤ fd → s.openFiles[fd]? = some (some [h]) → HOk s' h) :
    SysSt k u s' ∧ ∀ fd, s.openFiles[fd]? ≠ some (some [h]) → (sysOf s').fds fd = (sysOf s).fds fd := by
  have hi := reachable_fdInv hs.reach
  have key : ∀ fd, 3 ≤ fd → ∀ g, s.openFiles[fd]? = some (some [g]) → g ≠ h → HOk s g → HOk s' g ∧ SameView (s.handles g) (s'.handles g) :=
    fun fd _ g hg hne hok => st.keep g (hi.mem fd _ hg g (by simp)).1 hne hok
  refine ⟨⟨hr, fun fd h3 l hl => ?_⟩, fun fd hne => ?_⟩
  · rw [ht] at hl
    obtain ⟨g, rfl, hok⟩ := hs.slots fd h3 l hl
    refine ⟨g, rfl, ?_⟩
    by_cases hg : g = h
    · subst hg; exact hh fd h3 hl
    · exact (key fd h3 g hl hg hok).1
  · rcases fds_cases hs fd with ⟨h1, h2⟩ | ⟨g, h3, hsl, _, _, _, _, h1, hok⟩
    · rw [h1]
      rcases Nat.lt_or_ge fd 3 with h3 | h3
      · unfold sysOf; dsimp only; rw [if_pos h3]
      · unfold sysOf; dsimp only; rw [if_neg (by omega), ht]
        split
        · rename_i x l e; exact absurd ⟨_, e⟩ (h2 h3)
        · rfl
    · have hg : g ≠ h := by rintro rfl; exact hne hsl
      rw [h1, fds_slot h3 (ht ▸ hsl), (key fd h3 g hsl hg hok).2.desc]

/-- … and neither has what a descriptor shows -/
theorem SysSt.sameFds (hs : SysSt k u s) (hr : RefSt k u s') {h : Nat} (st : Steady h s s') (ht : s'.openFiles = s.openFiles)
    (hh : ∀ fd, 3 ≤ fd → s.openFiles[fd]? = some (some [h]) → HOk s' h ∧ descOf (s'.handles h) = descOf (s.handles h)) :
    SysSt k u s' ∧ (sysOf s').fds = (sysOf s).fds := by
  obtain ⟨h1, h2⟩ := hs.sameTable hr st ht fun fd h3 e => (hh fd h3 e).1
  refine ⟨h1, funext fun fd => ?_⟩
  by_cases e : s.openFiles[fd]? = some (some [h])
  · rcases Nat.lt_or_ge fd 3 with h3 | h3
    · unfold sysOf; dsimp only; rw [if_pos h3, if_pos h3]
    · rw [fds_slot h3 e, fds_slot h3 (ht ▸ e), (hh fd h3 e).2]
  · exact h2 fd e

/-- The descriptor `fd` shows something else. -/
theorem SysSt.oneFd (hs : SysSt k u s) (hr : RefSt k u s') {h fd : Nat} (st : Steady h s s') (ht : s'.openFiles = s.openFiles) (h3 : 3 ≤ fd)
    (hsl : s.openFiles[fd]? = some (some [h])) (hok : HOk s' h) :
    SysSt k u s' ∧ (sysOf s').fds = Ref.set1 (sysOf s).fds fd (some (descOf (s'.handles h))) := by
  have hi := reachable_fdInv hs.reach
  obtain ⟨h1, h2⟩ := hs.sameTable hr st ht fun _ _ _ => hok
  refine ⟨h1, funext fun j => ?_⟩
  unfold Ref.set1
  by_cases e : j = fd
  · subst e; rw [if_pos rfl, fds_slot h3 (ht ▸ hsl)]
  · rw [if_neg e]
    apply h2 j
    intro ej
    exact e ((hi.mem j _ ej h (by simp)).2.symm.trans (hi.mem fd _ hsl h (by simp)).2)

/-- everything keeps its bytes if only the object `r` may have changed -/
theorem keeps_of {r : Nat} (h : ∀ x, x ≠ r → s'.heap x = s.heap x) {P : Nat → Prop} (hP : P r ∨ (s'.heap r).content = (s.heap r).content) :
    (sysOf s).Keeps (sysOf s') P := by
  intro i _ hi
  by_cases e : i = r
  · subst e
    rcases hP with hP | hP
    · exact absurd hP hi
    · exact data_heap hP
  · exact data_heap (by rw [h i e])

theorem keeps_refl (s : FS) (P : Nat → Prop) : (sysOf s).Keeps (sysOf s) P := fun _ _ _ => rfl

namespace Spec
/-- the calls of the reference file system with descriptors on the fake filesystem -/
def flagsOf (f : Ref.Flags) : OFlags := ⟨f.wr && !f.rd, f.wr && f.rd, f.creat, f.excl, f.trunc, f.append⟩

def fdCallOn : Ref.FdCall → FS → Ref.Res × FS
  | .tree c => callOn c
  | .open p f mode => doCall (fun fd => .num fd) (osOpen (absPath '/' p) (flagsOf f) mode)
  | .read fd n => doCall (fun b => .bytes b) (osRead fd n)
  | .write fd b => doCall (fun n => .num n) (osWrite fd b)
  | .close fd => doCall (fun _ => .done) (osClose fd)
  | .size fd => askCall (fun st => .num st.size) (fun s => s.fstat fd)

/-- The call is answered as in the reference file system with descriptors, and the next one will be. -/
structure FdRefines (k : Cfg) (u : Nat) (s : FS) (c : Ref.FdCall) : Prop where
  st : SysSt k u (fdCallOn c s).2
  step : Ref.FdStep (sysOf s) c (fdCallOn c s).1 (sysOf (fdCallOn c s).2)
end Spec

theorem SysSt.refused (hs : SysSt k u s) {α : Type} {f : α → Ref.Res} {m : M α} {e : Errno} (hm : m s = (.error (.os e), s)) :
    SysSt k u (doCall f m s).2 ∧ Ref.Refuses (sysOf s) e (doCall f m s).1 (sysOf (doCall f m s).2) := by
  unfold doCall
  rw [hm]
  exact ⟨hs, rfl, rfl, rfl, keeps_refl _ _⟩

/-- the handle in step with its file -/
def FS.inStep (s : FS) (g : Nat) (C : Bytes) : FS := s.setH g fun H => H.synced C (s.heap (s.handles g).obj).epoch

section
variable {g : Nat} {fd : Nat} {C : Bytes}

theorem getOpen_setH (s : FS) (g : Nat) (f : Handle → Handle) (fd : Int) : (s.setH g f).getOpen fd = s.getOpen fd := rfl

/-- `os.read` starts with the rest of the handle's own `read` -/
theorem osRead_eq (hg : s.getOpen fd = .ok g) (hk : (s.handles g).kind = .file) (hw : (s.handles g).rawIo = true) (n : Nat) : osRead fd n s = read g (some n) s := by
  unfold osRead
  rw [M.bind_eq, rd_eq (f := fun x => x.getOpen fd) hg]
  dsimp only
  have e : hget g s = (.ok (s.handles g), s) := rfl
  rw [M.bind_eq, e]
  dsimp only
  rw [if_neg (by rw [hk]; simp)]
  have e2 : (hmod g fun H => { H with rawIo := true }) s = (.ok (), s.setH g fun H => { H with rawIo := true }) := rfl
  rw [M.bind_eq, e2, setH_self _ _ _ (by rw [← hw])]

theorem osWrite_eq (hg : s.getOpen fd = .ok g) (hk : (s.handles g).kind = .file) (hw : (s.handles g).rawIo = true)
    (hn : (s.handles g).obj ≠ devNullRef) (hC : (s.heap (s.handles g).obj).content = .file (some C)) (b : Bytes) :
    osWrite fd b s = (hmod g (fun H => { H with flushPos := H.pos }) >>= fun _ => write g b >>= fun _ => flush g >>= fun _ => M.pure b.length) (s.inStep g C) := by
  unfold osWrite
  rw [M.bind_eq, rd_eq (f := fun x => x.getOpen fd) hg]
  dsimp only
  have e : hget g s = (.ok (s.handles g), s) := rfl
  rw [M.bind_eq, e]
  dsimp only
  rw [if_neg (by rw [hk]; simp), if_neg (by rw [hk]; simp)]
  have e2 : (hmod g fun H => { H with rawIo := true }) s = (.ok (), s.setH g fun H => { H with rawIo := true }) := rfl
  rw [M.bind_eq, e2, setH_self _ _ _ (by rw [← hw])]
  dsimp only
  rw [M.bind_eq, syncIo_eq rfl hn hC]
  rfl

/-- the end of `read` (fake_filesystem.py 4849-4867) -/
def readTail (g : Nat) (n : Option Nat) : M Bytes := do
  let H ← hget g
  if H.append then
    match Bio.seek H.buf H.pos H.readSeek H.readWhence with
    | none => M.throw .valueError
    | some p => do
      let r := Bio.read H.buf p n
      hmod g fun H => { H with readSeek := (p + r.length : Nat), readWhence := 0, pos := H.buf.length }
      M.pure r
  else do
    let r := Bio.read H.buf H.pos n
    hmod g fun H => { H with pos := H.pos + r.length }
    M.pure r

theorem inStep_handle (s : FS) (g : Nat) (C : Bytes) : (s.inStep g C).handles g = (s.handles g).synced C (s.heap (s.handles g).obj).epoch := setH_same _ _ _

theorem synced_fixed (H : Handle) (C : Bytes) (e : Nat) : Fixed H (H.synced C e) := by
  unfold Handle.synced
  split
  · exact .refl _
  · exact ⟨rfl, rfl, rfl, rfl, rfl, rfl, rfl, rfl⟩

theorem synced_raw (H : Handle) (C : Bytes) (e : Nat) : (H.synced C e).rawIo = H.rawIo ∧ (H.synced C e).fileEpoch = e := by
  unfold Handle.synced
  split
  · rename_i h; exact ⟨rfl, h⟩
  · exact ⟨rfl, rfl⟩

theorem inStep_inStep (s : FS) (g : Nat) (C : Bytes) : (s.inStep g C).inStep g C = s.inStep g C := by
  unfold FS.inStep
  apply setH_self
  rw [setH_same]
  have e : (s.setH g fun H => H.synced C (s.heap (s.handles g).obj).epoch).heap = s.heap := rfl
  rw [e, (synced_fixed _ _ _).obj]
  conv_lhs => rw [Handle.synced]
  rw [if_pos (synced_raw _ _ _).2]

theorem read_eq (ho : s.isOpen g = true) (hn : (s.handles g).obj ≠ devNullRef) (hC : (s.heap (s.handles g).obj).content = .file (some C))
    (hr : (s.handles g).read = true) (n : Option Nat) :
    read g n s = (flush g >>= fun _ => if !s.cfg.isWin then
      (M.modify fun s' => s'.setObj (s.handles g).obj fun o => { o with atime := s'.clock }) >>= fun _ => readTail g n else readTail g n) (s.inStep g C) := by
  unfold read
  rw [M.bind_eq]
  dsimp only [M.get]
  rw [isLarge_some hC, if_neg (by simp), M.bind_eq]
  have e : checkOpen g s = (.ok (), s) := by unfold checkOpen; rw [if_pos ho]
  rw [e]
  dsimp only
  rw [hr, if_neg (by simp), M.bind_eq, syncIo_eq rfl hn hC]
  rfl

theorem SysSt.isWin (hk : Linux k) (hs : SysSt k u s) : s.cfg.isWin = false := by
  have := hs.tree hk
  exact this.2.win

theorem SysSt.start (hs : SysSt k u s) (ho : s.isOpen g = true) (hf : FileOk s g) : Go g (s.handles g).obj s s :=
  ⟨⟨ho, rfl, hf.ne, hf.data, hs.limitless⟩, .refl _ _, .refl _⟩

/-- What follows from a call on the handle of a descriptor. -/
theorem SysSt.io (hk : Linux k) (hs : SysSt k u s) (h3 : 3 ≤ fd) (hsl : s.openFiles[fd]? = some (some [g])) (hf : FileOk s g) (hb : RefBase k u s')
    (iso : Iso (s.handles g).obj s s') (sh : Shape s s') (go : Go g (s.handles g).obj s s') (raw : (s'.handles g).rawIo = true)
    (le : (s'.handles g).fileEpoch ≤ (s'.heap (s.handles g).obj).epoch) {D : Bytes}
    (hD : (s'.heap (s.handles g).obj).content = .file (some D)) (clean : (s.handles g).append = false → (s'.handles g).buf = D)
    (app : (s.handles g).append = true → (s'.handles g).pos = (s'.handles g).buf.length ∧ (s'.handles g).flushPos ≤ (s'.handles g).buf.length) :
    SysSt k u s' ∧ (sysOf s').names = (sysOf s).names ∧ (sysOf s').fds = Ref.set1 (sysOf s).fds fd (some (descOf (s'.handles g))) ∧
      (sysOf s).Keeps (sysOf s') (· = (s.handles g).obj) ∧ (sysOf s').data (s.handles g).obj = D := by
  obtain ⟨C, hC, _⟩ := hf.data
  obtain ⟨D', hD', hz⟩ := go.pre.data
  have eD : D' = D := by rw [hD] at hD'; simpa using hD'.symm
  subst eD
  have ob := go.fixed.obj
  have hr := hs.toRefSt.holds hk hb hf.ne hC ⟨hD, hz, iso.heap, sh⟩
  have hok : HOk s' g := by
    right
    refine ⟨go.fixed.kind.trans hf.kind, ?_, ?_, ?_, raw, go.fixed.del.trans hf.del, ?_, ?_, ?_⟩
    · rw [ob]; exact hf.ne
    · rw [ob, sh.env]; exact hf.lt
    · rw [ob]; exact ⟨D', hD, hz⟩
    · rw [ob]; exact le
    · intro ha _
      rw [ob, hD, clean (go.fixed.append ▸ ha)]
    · intro ha
      have ha := go.fixed.append ▸ ha
      exact ⟨go.fixed.read.trans (hf.app ha).1, go.fixed.update.trans (hf.app ha).2.1, app ha⟩
  obtain ⟨h1, h2⟩ := hs.oneFd hr.1 go.steady iso.files h3 hsl hok
  exact ⟨h1, names_store hr.2, h2, keeps_of iso.heap (Or.inl rfl), data_of hD⟩

/-- the handle in step with its file -/
theorem SysSt.byteFile (hk : Linux k) (hs : SysSt k u s) (ho : s.isOpen g = true) (hf : FileOk s g) (ha : (s.handles g).append = false)
    (hC : (s.heap (s.handles g).obj).content = .file (some C)) :
    ByteFile true (s.inStep g C) g (s.handles g).obj ⟨C, (s.handles g).pos⟩ := by
  have e := inStep_handle s g C
  have fx := synced_fixed (s.handles g) C (s.heap (s.handles g).obj).epoch
  have rw' := synced_raw (s.handles g) C (s.heap (s.handles g).obj).epoch
  have hb : ((s.handles g).synced C (s.heap (s.handles g).obj).epoch).buf = C ∧
      ((s.handles g).synced C (s.heap (s.handles g).obj).epoch).pos = (s.handles g).pos := by
    unfold Handle.synced
    split
    · rename_i he
      have := hf.clean ha he
      rw [hC] at this
      exact ⟨by simpa using this.symm, rfl⟩
    · exact ⟨rfl, by rw [ha]; rfl⟩
  have hw : (s.inStep g C).cfg.isWin = false := by
    show s.cfg.isWin = false
    exact hs.isWin hk
  refine ⟨⟨?_, ?_, ?_, ?_, fun _ => hw, ?_, hf.ne, ?_, ?_, ⟨C, hC, fun _ => rfl⟩⟩, ?_⟩
  · refine Eq.trans ?_ ho
    unfold FS.isOpen; rw [e, fx.fd]; rfl
  · rw [e, fx.kind]; exact hf.kind
  · rw [e, fx.append]; exact ha
  · rw [e, rw'.1]; exact hf.raw
  · rw [e, fx.obj]
  · rw [e]; exact hb.1
  · rw [e]; exact hb.2
  · rw [e, rw'.2]; rfl

theorem SysSt.osRead_ok (hk : Linux k) (hs : SysSt k u s) (h3 : 3 ≤ fd) (hsl : s.openFiles[fd]? = some (some [g])) (hg : s.getOpen fd = .ok g)
    (ho : s.isOpen g = true) (hf : FileOk s g) (ha : (s.handles g).append = false) (hr : (s.handles g).read = true)
    (hC : (s.heap (s.handles g).obj).content = .file (some C)) (n : Nat) :
    ∃ s', osRead fd n s = (.ok ((C.drop (s.handles g).pos).take n), s') ∧ SysSt k u s' ∧ (sysOf s').names = (sysOf s).names ∧
      (sysOf s).Keeps (sysOf s') (fun _ => False) ∧ (sysOf s').fds = Ref.set1 (sysOf s).fds fd
        (some (.file (s.handles g).obj ((s.handles g).pos + ((C.drop (s.handles g).pos).take n).length) (s.handles g).read (s.handles g).update)) := by
  have hb : RefBase k u (osRead fd n s).2 :=
    void_next (o := .osRead fd n) rfl s ▸ hs.toRefBase.next hk (.osRead fd n) rfl trivial (by simp)
  have bf := hs.byteFile hk ho hf ha hC
  have er := osRead_eq (s := s) (fd := fd) hg hf.kind hf.raw n
  have fx := synced_fixed (s.handles g) C (s.heap (s.handles g).obj).epoch
  have e0 := inStep_handle s g C
  have er2 : osRead fd n (s.inStep g C) = osRead fd n s := by
    rw [er, osRead_eq (s := s.inStep g C) (fd := fd) hg bf.kind bf.raw n,
      read_eq ho hf.ne hC hr, read_eq (s := s.inStep g C) (C := C) bf.isOpen (by rw [bf.obj]; exact hf.ne) (by rw [bf.obj]; exact hC)
        (by rw [e0, fx.read]; exact hr), inStep_inStep, bf.obj]
    rfl
  have hw : (s.inStep g C).cfg.isWin = false := by
    show s.cfg.isWin = false
    exact hs.isWin hk
  obtain ⟨a, s', e1, go⟩ := (tot_read (hs.start ho hf) hr ha (some n)).out
  rw [← er] at e1
  have v := (okp_osRead bf hw (fd := fd) hg n).elim a s' (er2.trans e1)
  have v2 := (okp_osReadContent bf hw (fd := fd) hg n hC).elim a s' (er2.trans e1)
  have eq : a = (C.drop (s.handles g).pos).take n := by
    have := v.1
    unfold Cursor.step at this
    simpa using this
  rw [e1] at hb
  have iso := (IsoP.e_osRead (q := (s.handles g).obj) (s0 := s) (.refl _ s) (fd := fd) (fun x hx => by rw [hg] at hx; simp at hx; rw [← hx]) n).out
  have sh := sh_osRead fd n s
  rw [e1] at iso sh
  have := hs.io hk h3 hsl hf hb iso sh go v.2.raw (by rw [v.2.epoch]) v2 (fun _ => by rw [v.2.buf]; rfl) (fun h => by rw [ha] at h; simp at h)
  obtain ⟨h1, h2, h3', h4, h5⟩ := this
  refine ⟨s', by rw [e1, eq], h1, h2, ?_, ?_⟩
  · exact keeps_of iso.heap (Or.inr (by rw [v2, hC]))
  · rw [h3']
    congr 2
    unfold descOf
    rw [go.fixed.kind, hf.kind, if_pos rfl, go.fixed.append, ha, if_neg (by simp), go.fixed.obj, go.fixed.read, go.fixed.update, v.2.pos]
    unfold Cursor.step
    simp

theorem SysSt.read (hk : Linux k) (hs : SysSt k u s) {fd : Nat} (h3 : 3 ≤ fd) (n : Nat) : FdRefines k u s (.read fd n) := by
  suffices h : SysSt k u (doCall (fun b => .bytes b) (osRead fd n) s).2 ∧ Ref.FdStep (sysOf s) (.read fd n) (doCall (fun b => .bytes b) (osRead fd n) s).1
      (sysOf (doCall (fun b => .bytes b) (osRead fd n) s).2) from ⟨h.1, h.2⟩
  rw [Ref.FdStep]
  rcases fds_cases hs fd with ⟨e, hu⟩ | ⟨g, _, hsl, hg, hlt, hfd, ho, e, hok⟩
  · rw [e]
    exact hs.refused ((bad_fd hs.reach fd (hu h3)).1 n)
  · rw [e]
    rcases hok with hd | hf
    · have ed : descOf (s.handles g) = .dir := by unfold descOf; rw [hd]; rfl
      rw [ed]
      dsimp only
      have er : osRead fd n s = (.error .attributeError, s) := by
        unfold osRead
        rw [M.bind_eq, rd_eq (f := fun x => x.getOpen fd) hg]
        dsimp only
        have e : hget g s = (.ok (s.handles g), s) := rfl
        rw [M.bind_eq, e]
        dsimp only
        rw [if_pos (by rw [hd]; simp)]
        rfl
      unfold doCall
      rw [er]
      exact ⟨hs, rfl, rfl, rfl, keeps_refl _ _⟩
    · obtain ⟨C, hC, hz⟩ := hf.data
      have dC : (sysOf s).data (s.handles g).obj = C := data_of hC
      have hrefused : (s.handles g).read = false → osRead fd n s = (.error (.os .EBADF), s) := by
        intro hr
        have := osRead_refused ho (isLarge_some hC) (hs.isWin hk) (fd := fd) hg hf.kind hr n
        rw [this, setH_self _ _ _ (by rw [← hf.raw])]
      cases ha : (s.handles g).append with
      | true =>
        have ed : descOf (s.handles g) = .append (s.handles g).obj := by unfold descOf; rw [hf.kind, ha]; rfl
        rw [ed]
        exact hs.refused (hrefused (hf.app ha).1)
      | false =>
        have ed : descOf (s.handles g) = .file (s.handles g).obj (s.handles g).pos (s.handles g).read (s.handles g).update := by
          unfold descOf; rw [hf.kind, ha]; rfl
        rw [ed]
        dsimp only
        cases hr : (s.handles g).read with
        | false => rw [if_pos rfl]; exact hs.refused (hrefused hr)
        | true =>
          rw [if_neg (by simp), dC]
          obtain ⟨s', e1, h1, h2, h3', h4⟩ := hs.osRead_ok hk h3 hsl hg ho hf ha hr hC n
          unfold doCall
          rw [e1]
          rw [hr] at h4
          exact ⟨h1, rfl, h2, h3', h4⟩

theorem tot_osWrite (go : Go g (s.handles g).obj s s) (hg : s.getOpen fd = .ok g) (hf : FileOk s g) (hu : (s.handles g).update = true) (b : Bytes) :
    ∃ s', osWrite fd b s = (.ok b.length, s') ∧ Go g (s.handles g).obj s s' := by
  obtain ⟨C, hC, hz⟩ := hf.data
  rw [osWrite_eq hg hf.kind hf.raw hf.ne hC]
  have g1 : Go g (s.handles g).obj s (s.inStep g C) := go.setH (synced_fixed _ _ _)
  have g2 := g1.setH (f := fun H => { H with flushPos := H.pos }) ⟨rfl, rfl, rfl, rfl, rfl, rfl, rfl, rfl⟩
  rw [M.bind_eq]
  show ∃ s', (Verif.write g b >>= fun _ => flush g >>= fun _ => M.pure b.length) ((s.inStep g C).setH g fun H => { H with flushPos := H.pos }) = _ ∧ _
  obtain ⟨a, s1, e1, g3⟩ := (tot_write g2 (g2.fixed.update.trans hu) b).out
  rw [M.bind_eq, e1]
  dsimp only
  obtain ⟨_, s2, e2, g4⟩ := (tot_flush g3).out
  rw [M.bind_eq, e2]
  exact ⟨s2, rfl, g4⟩

theorem getOpen_lt (hs : SysSt k u s) {fd : Nat} (hg : s.getOpen fd = .ok g) : g < s.hnext := getOpen_hnext (reachable_fdInv hs.reach) hg

theorem SysSt.osWrite_ok (hk : Linux k) (hs : SysSt k u s) (h3 : 3 ≤ fd) (hsl : s.openFiles[fd]? = some (some [g])) (hg : s.getOpen fd = .ok g)
    (ho : s.isOpen g = true) (hf : FileOk s g) (hu : (s.handles g).update = true) (hC : (s.heap (s.handles g).obj).content = .file (some C)) (b : Bytes) :
    ∃ s', osWrite fd b s = (.ok b.length, s') ∧ SysSt k u s' ∧ (sysOf s').names = (sysOf s).names ∧
      (sysOf s).Keeps (sysOf s') (· = (s.handles g).obj) ∧
      (sysOf s').data (s.handles g).obj = (if (s.handles g).append then C ++ b else Ref.put C (s.handles g).pos b) ∧
      (sysOf s').fds = Ref.set1 (sysOf s).fds fd (some (if (s.handles g).append then .append (s.handles g).obj else
        .file (s.handles g).obj ((s.handles g).pos + b.length) (s.handles g).read (s.handles g).update)) := by
  have hb : RefBase k u (osWrite fd b s).2 :=
    void_next (o := .osWrite fd b) rfl s ▸ hs.toRefBase.next hk (.osWrite fd b) rfl trivial (by simp)
  obtain ⟨s', e1, go⟩ := tot_osWrite (hs.start ho hf) hg hf hu b
  have iso := (IsoP.e_osWrite (q := (s.handles g).obj) (s0 := s) (.refl _ s) (fd := fd) (fun x hx => by rw [hg] at hx; simp at hx; rw [← hx]) b).out
  have sh := sh_osWrite fd b s
  rw [e1] at iso sh hb
  have hlt := getOpen_lt hs hg
  refine ⟨s', e1, ?_⟩
  cases ha : (s.handles g).append with
  | true =>
    have ap : Appends s g (s.handles g).obj true := ⟨hlt, hf.kind, ha, hu, hf.raw, hf.del, rfl, hf.ne, (hf.app ha).2.2.1, (hf.app ha).2.2.2⟩
    obtain ⟨-, a', C', c1, c2⟩ := (app_osWrite ap hg b).elim _ _ e1
    rw [bytesOf_some] at c1 c2
    rw [hC] at c1
    have : C' = C := by simpa using c1.symm
    subst this
    have le := (reachable_inStep hb.reach g a'.lt).le
    rw [go.fixed.obj] at le
    obtain ⟨h1, h2, h3', h4, h5⟩ := hs.io hk h3 hsl hf hb iso sh go a'.raw le c2 (fun h => by rw [ha] at h; simp at h) (fun _ => ⟨a'.pos, a'.flushPos⟩)
    refine ⟨h1, h2, h4, by rw [h5]; rfl, ?_⟩
    rw [h3']
    congr 2
    unfold descOf
    rw [go.fixed.kind, hf.kind, if_pos rfl, go.fixed.append, ha, if_pos rfl, go.fixed.obj, if_pos rfl]
  | false =>
    have bf := hs.byteFile hk ho hf ha hC
    have hw : (s.inStep g C).cfg.isWin = false := by
      show s.cfg.isWin = false
      exact hs.isWin hk
    have er2 : osWrite fd b (s.inStep g C) = osWrite fd b s := by
      rw [osWrite_eq hg hf.kind hf.raw hf.ne hC, osWrite_eq (s := s.inStep g C) (C := C) hg bf.kind bf.raw (by rw [bf.obj]; exact hf.ne)
        (by rw [bf.obj]; exact hC), inStep_inStep]
    obtain ⟨-, v, v2⟩ := (okp_osWrite bf hw (fd := fd) hg b).elim _ s' (er2.trans e1)
    have ed : (Cursor.step ⟨C, (s.handles g).pos⟩ (.write b)).2 = ⟨Ref.put C (s.handles g).pos b, (s.handles g).pos + b.length⟩ := rfl
    rw [ed] at v v2
    obtain ⟨h1, h2, h3', h4, h5⟩ := hs.io hk h3 hsl hf hb iso sh go v.raw (by rw [v.epoch]) v2 (fun _ => v.buf) (fun h => by rw [ha] at h; simp at h)
    refine ⟨h1, h2, h4, by rw [h5]; rfl, ?_⟩
    rw [h3']
    congr 2
    unfold descOf
    rw [go.fixed.kind, hf.kind, if_pos rfl, go.fixed.append, ha, if_neg (by simp), go.fixed.obj, go.fixed.read, go.fixed.update, v.pos, if_neg (by simp)]

/-- `os.write` of a descriptor that is open for reading only -/
theorem SysSt.osWrite_no (hk : Linux k) (hs : SysSt k u s) (h3 : 3 ≤ fd) (hsl : s.openFiles[fd]? = some (some [g])) (hg : s.getOpen fd = .ok g)
    (ho : s.isOpen g = true) (hf : FileOk s g) (hu : (s.handles g).update = false) (hC : (s.heap (s.handles g).obj).content = .file (some C)) (b : Bytes) :
    ∃ s', osWrite fd b s = (.error (.os .EBADF), s') ∧ SysSt k u s' ∧ (sysOf s').names = (sysOf s).names ∧
      (sysOf s).Keeps (sysOf s') (fun _ => False) ∧ (sysOf s').fds = (sysOf s).fds := by
  have ha : (s.handles g).append = false := by
    cases h : (s.handles g).append with
    | false => rfl
    | true => have := (hf.app h).2.1; rw [hu] at this; simp at this
  have g1 : Go g (s.handles g).obj s (s.inStep g C) := (hs.start ho hf).setH (synced_fixed _ _ _)
  have g2 := g1.setH (f := fun H => { H with flushPos := H.pos }) ⟨rfl, rfl, rfl, rfl, rfl, rfl, rfl, rfl⟩
  have bf := hs.byteFile hk ho hf ha hC
  set s2 := (s.inStep g C).setH g fun H => { H with flushPos := H.pos } with hs2
  have hh : s2.handles g = { (s.inStep g C).handles g with flushPos := ((s.inStep g C).handles g).pos } := setH_same _ _ _
  have e1 : osWrite fd b s = (.error (.os .EBADF), s2) := by
    rw [osWrite_eq hg hf.kind hf.raw hf.ne hC, M.bind_eq]
    show (Verif.write g b >>= fun _ => flush g >>= fun _ => M.pure b.length) s2 = _
    rw [M.bind_eq, write_refused g2.pre.isOpen (by rw [hh, bf.obj]; exact isLarge_some hC) (by show s.cfg.isWin = false; exact hs.isWin hk)
      (by rw [g2.fixed.update]; exact hu)]
    have : (s2.handles g).rawIo = true := by rw [hh]; exact bf.raw
    rw [this]; rfl
  have hb : RefBase k u (osWrite fd b s).2 :=
    void_next (o := .osWrite fd b) rfl s ▸ hs.toRefBase.next hk (.osWrite fd b) rfl trivial (by simp)
  have iso := (IsoP.e_osWrite (q := (s.handles g).obj) (s0 := s) (.refl _ s) (fd := fd) (fun x hx => by rw [hg] at hx; simp at hx; rw [← hx]) b).out
  have sh := sh_osWrite fd b s
  rw [e1] at iso sh hb
  obtain ⟨h1, h2, h3', h4, h5⟩ := hs.io hk h3 hsl hf hb iso sh g2 (by rw [hh]; exact bf.raw) (by rw [hh]; exact Nat.le_of_eq bf.epoch) (D := C) hC
    (fun _ => by rw [hh]; exact bf.buf) (fun h => by rw [ha] at h; simp at h)
  refine ⟨s2, e1, h1, h2, keeps_of iso.heap (Or.inr rfl), ?_⟩
  rw [h3']
  funext j
  unfold Ref.set1
  split
  · rename_i e
    subst e
    rw [fds_slot h3 hsl]
    congr 1
    apply SameView.desc
    exact ⟨g2.fixed.kind, g2.fixed.obj, g2.fixed.append, g2.fixed.read, g2.fixed.update, by rw [hh]; exact bf.pos⟩
  · rfl

theorem set1_same {f : Nat → Option Ref.Desc} {fd : Nat} {d : Ref.Desc} (h : f fd = some d) : Ref.set1 f fd (some d) = f := by
  funext j
  unfold Ref.set1
  split
  · rename_i e; subst e; exact h.symm
  · rfl

theorem SysSt.write (hk : Linux k) (hs : SysSt k u s) {fd : Nat} (h3 : 3 ≤ fd) (b : Bytes) : FdRefines k u s (.write fd b) := by
  suffices h : SysSt k u (doCall (fun n => .num n) (osWrite fd b) s).2 ∧ Ref.FdStep (sysOf s) (.write fd b) (doCall (fun n => .num n) (osWrite fd b) s).1
      (sysOf (doCall (fun n => .num n) (osWrite fd b) s).2) from ⟨h.1, h.2⟩
  rw [Ref.FdStep]
  rcases fds_cases hs fd with ⟨e, hu⟩ | ⟨g, _, hsl, hg, hlt, hfd, ho, e, hok⟩
  · rw [e]
    exact hs.refused ((bad_fd hs.reach fd (hu h3)).2.1 b)
  · have e0 := e
    rw [e]
    rcases hok with hd | hf
    · have ed : descOf (s.handles g) = .dir := by unfold descOf; rw [hd]; rfl
      rw [ed]
      dsimp only
      apply hs.refused
      unfold osWrite
      rw [M.bind_eq, rd_eq (f := fun x => x.getOpen fd) hg]
      dsimp only
      have e : hget g s = (.ok (s.handles g), s) := rfl
      rw [M.bind_eq, e]
      dsimp only
      rw [if_pos hd]
      rfl
    · obtain ⟨C, hC, hz⟩ := hf.data
      have dC : (sysOf s).data (s.handles g).obj = C := data_of hC
      cases ha : (s.handles g).append with
      | true =>
        have ed : descOf (s.handles g) = .append (s.handles g).obj := by unfold descOf; rw [hf.kind, ha]; rfl
        rw [ed]
        dsimp only
        obtain ⟨s', e1, h1, h2, h3', h4, h5⟩ := hs.osWrite_ok hk h3 hsl hg ho hf (hf.app ha).2.1 hC b
        unfold doCall
        rw [e1, dC]
        rw [ha, if_pos rfl] at h4 h5
        refine ⟨h1, rfl, h2, ?_, h3', h4⟩
        rw [h5, ← ed]
        exact set1_same e0
      | false =>
        have ed : descOf (s.handles g) = .file (s.handles g).obj (s.handles g).pos (s.handles g).read (s.handles g).update := by
          unfold descOf; rw [hf.kind, ha]; rfl
        rw [ed]
        dsimp only
        cases hu : (s.handles g).update with
        | false =>
          rw [if_pos rfl]
          obtain ⟨s', e1, h1, h2, h3', h4⟩ := hs.osWrite_no hk h3 hsl hg ho hf hu hC b
          unfold doCall
          rw [e1]
          exact ⟨h1, rfl, h2, h4, h3'⟩
        | true =>
          rw [if_neg (by simp), dC]
          obtain ⟨s', e1, h1, h2, h3', h4, h5⟩ := hs.osWrite_ok hk h3 hsl hg ho hf hu hC b
          unfold doCall
          rw [e1]
          rw [ha, if_neg (by simp)] at h4 h5
          rw [hu] at h5
          exact ⟨h1, rfl, h2, h3', h4, h5⟩

/-! ## Closing and measuring -/

theorem osClose_eq (hs : SysSt k u s) (hsl : s.openFiles[fd]? = some (some [g])) (hg : s.getOpen fd = .ok g) (hfd : (s.handles g).fd = fd)
    (ho : s.isOpen g = true) (hok : HOk s g) :
    osClose fd s = (.ok (), { s with openFiles := s.openFiles.set fd none, freeFds := fd :: s.freeFds }) := by
  unfold osClose
  rw [M.bind_eq, rd_eq (f := fun x => x.getOpen fd) hg]
  dsimp only
  rcases hok with hd | hf
  · unfold hClose
    rw [M.bind_eq]
    dsimp only [M.get]
    rw [hd, hfd]
    rfl
  · rw [hClose_file hf.kind ho]
    have hc : (s.handles g).closefd = true := by
      obtain ⟨h, l, e, hc⟩ := (reachable_fdInv hs.reach).head fd _ hsl
      simp only [List.cons.injEq] at e
      rw [e.1]; exact hc
    unfold closeHead closeTable closeDelete
    rw [if_neg (by rw [hf.raw]; simp), hc, hf.del, hfd]
    rfl

theorem SysSt.close (hk : Linux k) (hs : SysSt k u s) {fd : Nat} (h3 : 3 ≤ fd) : FdRefines k u s (.close fd) := by
  suffices h : SysSt k u (doCall (fun _ => .done) (osClose fd) s).2 ∧ Ref.FdStep (sysOf s) (.close fd) (doCall (fun _ => .done) (osClose fd) s).1
      (sysOf (doCall (fun _ => .done) (osClose fd) s).2) from ⟨h.1, h.2⟩
  rw [Ref.FdStep]
  rcases fds_cases hs fd with ⟨e, hu⟩ | ⟨g, _, hsl, hg, hlt, hfd, ho, e, hok⟩
  · rw [e]
    exact hs.refused (bad_fd hs.reach fd (hu h3)).2.2.1
  · rw [e]
    dsimp only
    have e1 := osClose_eq hs hsl hg hfd ho hok
    have hb : RefBase k u (osClose fd s).2 := hs.toRefBase.next hk (.osClose fd) rfl trivial (by simp)
    rw [e1] at hb
    unfold doCall
    rw [e1]
    dsimp only at hb ⊢
    have hlen : fd < s.openFiles.length := by
      rw [List.getElem?_eq_some_iff] at hsl; exact hsl.1
    refine ⟨⟨⟨hb, hs.devName, hs.noDev, hs.kind⟩, ?_⟩, rfl, rfl, ?_, fun _ _ _ => rfl⟩
    · intro j h3' l hl
      dsimp only at hl
      by_cases ej : j = fd
      · subst ej
        rw [List.getElem?_set_self hlen] at hl
        simp at hl
      · rw [List.getElem?_set_ne (Ne.symm ej)] at hl
        obtain ⟨g', e', hok'⟩ := hs.slots j h3' l hl
        refine ⟨g', e', ?_⟩
        rcases hok' with h | h
        · exact Or.inl h
        · exact Or.inr ⟨h.kind, h.ne, h.lt, h.data, h.raw, h.del, h.le, h.clean, h.app⟩
    · funext j
      unfold Ref.set1
      by_cases ej : j = fd
      · subst ej
        rw [if_pos rfl]
        unfold sysOf
        dsimp only
        rw [if_neg (by omega), List.getElem?_set_self hlen]
      · rw [if_neg ej]
        unfold sysOf
        dsimp only
        rw [List.getElem?_set_ne (Ne.symm ej)]

theorem SysSt.size (hk : Linux k) (hs : SysSt k u s) {fd : Nat} (h3 : 3 ≤ fd) : FdRefines k u s (.size fd) := by
  suffices h : (SysSt k u (askCall (fun st => Ref.Res.num st.size) (fun s => s.fstat fd) s).2) ∧
      Ref.FdStep (sysOf s) (.size fd) (askCall (fun st => .num st.size) (fun s => s.fstat fd) s).1
      (sysOf (askCall (fun st => Ref.Res.num st.size) (fun s => s.fstat fd) s).2) from ⟨h.1, h.2⟩
  rw [Ref.FdStep]
  rcases fds_cases hs fd with ⟨e, hu⟩ | ⟨g, _, hsl, hg, hlt, hfd, ho, e, hok⟩
  · rw [e]
    have := (bad_fd hs.reach fd (hu h3)).2.2.2.2.1
    unfold askCall
    beta_reduce
    rw [this]
    exact ⟨hs, rfl, rfl, keeps_refl _ _, rfl⟩
  · rw [e]
    have hstd : (s.handles g).kind ≠ .std := by
      rcases hok with h | h
      · rw [h]; simp
      · rw [h.kind]; simp
    have ef : s.fstat fd = .ok (s.statOf (s.handles g).obj) := by
      unfold FS.fstat
      rw [hg]
      dsimp only [bind, Except.bind]
      rw [if_neg hstd]
    unfold askCall
    beta_reduce
    rw [ef]
    refine ⟨hs, rfl, rfl, keeps_refl _ _, ?_⟩
    rcases hok with hd | hf
    · have ed : descOf (s.handles g) = .dir := by unfold descOf; rw [hd]; rfl
      rw [ed]
      exact ⟨_, rfl⟩
    · obtain ⟨C, hC, hz⟩ := hf.data
      have dC : (sysOf s).data (s.handles g).obj = C := data_of hC
      have hsz : (s.statOf (s.handles g).obj).size = C.length := by
        unfold FS.statOf FS.stSize
        dsimp only
        rw [if_neg (by rw [hs.isWin hk]; simp)]
        exact hz
      cases ha : (s.handles g).append with
      | true =>
        have ed : descOf (s.handles g) = .append (s.handles g).obj := by unfold descOf; rw [hf.kind, ha]; rfl
        rw [ed]
        dsimp only
        rw [dC, ← hsz]; rfl
      | false =>
        have ed : descOf (s.handles g) = .file (s.handles g).obj (s.handles g).pos (s.handles g).read (s.handles g).update := by
          unfold descOf; rw [hf.kind, ha]; rfl
        rw [ed]
        dsimp only
        rw [dC, ← hsz]; rfl

end
end
end Verif
