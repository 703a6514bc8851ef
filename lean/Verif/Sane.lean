import Verif.FrameIO
import Verif.Props.Remove
/-!
# Histories with sane modes

The effect theorems assume `Genuine`: an object whose type bits say "directory" is a directory and vice versa.  pyfakefs
lets a caller break this by passing type bits to `mkdir` or `S_IFDIR` to `create_file`; here it is shown that no other
call can, so that `Genuine` holds after every history whose mode arguments are sane.
-/

namespace Verif
open Py Spec Cfg

namespace Spec
/-- The type bits agree with the kind of the object. -/
def SaneObj (o : Obj) : Prop := (o.isDir = true → ifmt o.mode = S_IFDIR) ∧ (o.isDir = false → ifmt o.mode &&& S_IFDIR = 0)

/-- The mode arguments contain no type bits (directories) or not the directory bit (files). -/
def SaneOp : Op → Prop
  | .mkdir _ m => m < 0o10000
  | .makedirs _ m _ => m < 0o10000
  | .createDir _ m => m < 0o10000
  | .createFile _ m _ _ _ _ => m &&& S_IFDIR = 0
  | .mknod _ m => m &&& S_IFDIR = 0
  | _ => True

/-- All objects are sane. -/
def Sane (s : FS) : Prop := ∀ x < s.next, SaneObj (s.heap x)
end Spec

structure SaneRel (s s' : FS) : Prop where
  next : s.next ≤ s'.next
  mode : ∀ d < s.next, (s'.heap d).mode = (s.heap d).mode
  kind : ∀ d < s.next, (s'.heap d).isDir = (s.heap d).isDir
  new : ∀ d, s.next ≤ d → d < s'.next → SaneObj (s'.heap d)

theorem SaneObj.congr {o o' : Obj} (h : SaneObj o) (h1 : ifmt o'.mode = ifmt o.mode) (h2 : o'.isDir = o.isDir) : SaneObj o' := by
  unfold SaneObj; rw [h1, h2]; exact h

theorem SaneRel.refl (s : FS) : SaneRel s s :=
  ⟨Nat.le_refl _, fun _ _ => rfl, fun _ _ => rfl, fun _ h1 h2 => absurd h2 (Nat.not_lt.mpr h1)⟩

theorem SaneRel.trans {a b c : FS} (h : SaneRel a b) (k : SaneRel b c) : SaneRel a c where
  next := Nat.le_trans h.next k.next
  mode d hd := (k.mode d (Nat.lt_of_lt_of_le hd h.next)).trans (h.mode d hd)
  kind d hd := (k.kind d (Nat.lt_of_lt_of_le hd h.next)).trans (h.kind d hd)
  new d h1 h2 := by
    by_cases hb : d < b.next
    · exact SaneObj.congr (h.new d h1 hb) (by rw [k.mode d hb]) (k.kind d hb)
    · exact k.new d (Nat.not_lt.mp hb) h2

theorem SaneRel.same {s s' : FS} (h1 : s'.next = s.next) (h4 : ∀ d, (s'.heap d).mode = (s.heap d).mode ∧ (s'.heap d).isDir = (s.heap d).isDir) :
    SaneRel s s' :=
  ⟨Nat.le_of_eq h1.symm, fun d _ => (h4 d).1, fun d _ => (h4 d).2, fun d a b => absurd (h1 ▸ b) (Nat.not_lt.mpr a)⟩

theorem andNot_and_zero {m x b : Nat} (h : m &&& b = 0) : andNot m x &&& b = 0 := by
  apply Nat.eq_of_testBit_eq
  intro i
  have := congrArg (fun n => n.testBit i) h
  simp only [Nat.testBit_and, Nat.zero_testBit] at this ⊢
  rw [testBit_andNot]
  cases h1 : m.testBit i <;> cases h2 : b.testBit i <;> simp_all

theorem andNot_le (m x : Nat) : andNot m x ≤ m := by
  have : andNot m x = m &&& andNot m x := by
    apply Nat.eq_of_testBit_eq
    intro i
    rw [Nat.testBit_and, testBit_andNot]
    cases m.testBit i <;> simp
  rw [this]; exact Nat.and_le_left

theorem ifmt_dir {m : Nat} (h : m < 0o10000) : ifmt (S_IFDIR ||| m) = S_IFDIR := by
  unfold ifmt
  rw [Nat.and_or_distrib_right]
  have h1 : m &&& S_IFMT = 0 := by
    apply Nat.eq_of_testBit_eq
    intro i
    rw [Nat.testBit_and, Nat.zero_testBit]
    by_cases hi : i < 12
    · have : S_IFMT.testBit i = false := by
        have : ∀ i < 12, S_IFMT.testBit i = false := by decide
        exact this i hi
      rw [this, Bool.and_false]
    · have : m.testBit i = false := Nat.testBit_lt_two_pow (Nat.lt_of_lt_of_le h (by
        calc (0o10000 : Nat) = 2 ^ 12 := by decide
          _ ≤ 2 ^ i := Nat.pow_le_pow_right (by decide) (Nat.not_lt.mp hi)))
      rw [this, Bool.false_and]
  rw [h1]; decide

theorem sane_dir (nm : Str) {perm : Nat} (s : FS) (h : perm < 0o10000) : SaneObj (mkDirObj nm perm s) :=
  ⟨fun _ => ifmt_dir h, fun h => by simp [mkDirObj, Obj.isDir] at h⟩

theorem ifmt_and_dir (m : Nat) : ifmt m &&& S_IFDIR = m &&& S_IFDIR := by
  unfold ifmt; rw [Nat.and_assoc, show S_IFMT &&& S_IFDIR = S_IFDIR from by decide]

theorem sane_file (nm : Str) {mode : Nat} (b : Option Bytes) (s : FS) (h : mode &&& S_IFDIR = 0) : SaneObj (mkFileObj nm mode b s) :=
  ⟨fun h => by simp [mkFileObj, Obj.isDir] at h, fun _ => (ifmt_and_dir _).trans h⟩

instance : OpRelIO SaneRel where
  N := SaneObj
  D := fun m => m < 0o10000
  refl := SaneRel.refl
  trans := SaneRel.trans
  le h := h.next
  kind h := h.kind
  A _ := True
  T := True
  ino _ _ := SaneRel.same rfl fun _ => ⟨rfl, rfl⟩
  used _ _ _ := SaneRel.same rfl fun _ => ⟨rfl, rfl⟩
  mount _ _ _ _ := SaneRel.same rfl fun _ => ⟨rfl, rfl⟩
  total _ _ _ _ := SaneRel.same rfl fun _ => ⟨rfl, rfl⟩
  winA _ _ := trivial
  hand s hs hn f ff := SaneRel.same rfl fun _ => ⟨rfl, rfl⟩
  new s o ho := by
    have key : ∀ d < s.next, upd s.heap s.next o d = s.heap d := fun d hd => upd_ne _ _ (Nat.ne_of_lt hd)
    refine ⟨Nat.le_succ _, fun d hd => congrArg Obj.mode (key d hd), fun d hd => congrArg Obj.isDir (key d hd), fun d h1 h2 => ?_⟩
    have : d = s.next := Nat.le_antisymm (Nat.lt_succ_iff.mp h2) h1
    subst this
    show SaneObj (upd s.heap s.next o s.next)
    rw [upd_same]; exact ho
  dat s r o h := SaneRel.same rfl fun d => by
    by_cases e : d = r
    · subst e
      have : (s.setObj d fun _ => o).heap d = o := upd_same _ _ _
      rw [this]
      cases hdd : (s.heap d).isDir with
      | true =>
        refine ⟨h.mode, ?_⟩
        unfold Obj.isDir at hdd ⊢; rw [h.dir (by unfold Obj.isDir; exact hdd)]; exact hdd
      | false => exact ⟨h.mode, h.file hdd⟩
    · have : (s.setObj r fun _ => o).heap d = s.heap d := upd_ne _ _ e
      simp only [this, and_self]
  att s d c hd hn := SaneRel.same (attach_misc s d c).1 fun x => by
    rw [attach_heap]
    refine ⟨rfl, ?_⟩
    by_cases h : x = d
    · subst h; simp only [if_true]; rw [hd]; rfl
    · simp only [if_neg h]; rfl
  det s0 s d nm e h hd hc hk := by
    have hk : ∀ x, ((detach d nm e s).2.heap x).mode = (s.heap x).mode ∧ ((detach d nm e s).2.heap x).isDir = (s.heap x).isDir := by
      intro x
      have h1 : ∀ (t : FS) (r : Ref), ((t.setObj r fun o => { o with nlink := o.nlink - 1 }).heap x).mode = (t.heap x).mode ∧
          ((t.setObj r fun o => { o with nlink := o.nlink - 1 }).heap x).isDir = (t.heap x).isDir := by
        intro t r
        by_cases e : x = r
        · subst e
          have : (t.setObj x fun o => { o with nlink := o.nlink - 1 }).heap x = { t.heap x with nlink := (t.heap x).nlink - 1 } := upd_same _ _ _
          rw [this]; exact ⟨rfl, rfl⟩
        · have : (t.setObj r fun o => { o with nlink := o.nlink - 1 }).heap x = t.heap x := upd_ne _ _ e
          rw [this]; exact ⟨rfl, rfl⟩
      unfold detach
      dsimp only
      generalize hs1 : s.setObj d (fun o => { o with nlink := o.nlink - 1 }) = s1
      generalize hs2 : s1.setObj e (fun o => { o with nlink := o.nlink - 1 }) = s2
      have e1 := h1 s d
      have e2 := h1 s1 e
      rw [hs1] at e1
      rw [hs2] at e2
      have hmo := e2.1.trans e1.1
      have hko := e2.2.trans e1.2
      split
      · exact ⟨hmo, hko⟩
      · split
        · exact ⟨hmo, hko⟩
        · by_cases ed : x = d
          · subst ed
            have : (s2.setObj x fun o => { o with content := .dir (aerase nm o.entries) }).heap x =
              { s2.heap x with content := .dir (aerase nm (s2.heap x).entries) } := upd_same _ _ _
            simp only [this]
            refine ⟨hmo, ?_⟩
            rename_i hne
            obtain ⟨y, hy⟩ : ∃ y, alookup nm (s2.heap x).entries = some y := by
              cases ha : alookup nm (s2.heap x).entries with
              | none => rw [ha] at hne; simp at hne
              | some y => exact ⟨y, rfl⟩
            have := isDir_of_entry (alookup_mem hy)
            rw [← hko, this]; rfl
          · have : (s2.setObj d fun o => { o with content := .dir (aerase nm o.entries) }).heap x = s2.heap x := upd_ne _ _ ed
            simp only [this]
            exact ⟨hmo, hko⟩
    have hnx : (detach d nm e s).2.next = s.next := by
      unfold detach
      dsimp only
      split
      · rfl
      · split <;> rfl
    exact h.trans (SaneRel.same hnx hk)
  dirMode s0 s d perm h hn hd hp := by
    have key : ∀ x, x ≠ d → (s.setObj d fun o => { o with mode := S_IFDIR ||| perm }).heap x = s.heap x := fun x hx => upd_ne _ _ hx
    have hne : ∀ x < s0.next, x ≠ d := fun x hx e => Nat.not_lt.mpr hn (e ▸ hx)
    refine ⟨h.next, fun x hx => by rw [key x (hne x hx)]; exact h.mode x hx,
      fun x hx => by rw [key x (hne x hx)]; exact h.kind x hx, fun x h1 h2 => ?_⟩
    by_cases e : x = d
    · subst e
      have : (s.setObj x fun o => { o with mode := S_IFDIR ||| perm }).heap x = { s.heap x with mode := S_IFDIR ||| perm } := upd_same _ _ _
      rw [this]
      exact ⟨fun _ => ifmt_dir hp, fun h => by have : (s.heap x).isDir = false := h; rw [hd] at this; simp at this⟩
    · rw [key x e]; exact h.new x h1 h2
  dirN nm perm s h := sane_dir nm s h
  defD := by decide
  lnkN nm s := sane_file nm none s (by decide)
  regN nm x s := sane_file nm none s (andNot_and_zero (by decide))

theorem Spec.Sane.genuine {s : FS} (h : Sane s) : Genuine s := by
  intro x hx
  unfold Obj.isDirMode
  cases hd : (s.heap x).isDir with
  | true => rw [(h x hx).1 hd]; rfl
  | false =>
    have := (h x hx).2 hd
    symm
    rw [beq_eq_false_iff_ne]
    intro h2
    rw [h2] at this
    exact absurd this (by decide)

theorem Spec.Sane.bit {s : FS} (h : Sane s) : ∀ x < s.next, (s.heap x).mode &&& S_IFDIR ≠ 0 → (s.heap x).isDir = true := by
  intro x hx hm
  by_contra hd
  have := (h x hx).2 (by simpa using hd)
  rw [ifmt_and_dir] at this
  exact hm this

theorem SaneRel.sane {s s' : FS} (h : SaneRel s s') (hs : Sane s) : Sane s' := by
  intro x hx
  by_cases hlt : x < s.next
  · exact SaneObj.congr (hs x hlt) (by rw [h.mode x hlt]) (h.kind x hlt)
  · exact h.new x (Nat.not_lt.mp hlt) hx

theorem sane_pers {s s' : FS} (h : Pers s s') (hn : s'.next = s.next) (hs : Sane s) : Sane s' := by
  intro x hx
  rw [hn] at hx
  exact SaneObj.congr (hs x hx) (h.ftype x hx) (h.kind x hx)

theorem chmod_next (p : Str) (m : Nat) (f : Bool) (s : FS) : (chmod p m f s).2.next = s.next := by
  show wp (chmod p m f) (fun _ s' => s'.next = s.next) s
  unfold chmod
  apply wp_readBind
  · intro e _; rfl
  · intro r _; exact wp_modify rfl

theorem sane_chmod (p : Str) (m : Nat) (f : Bool) {s : FS} (hi : Inv s) (hs : Sane s) : Sane (chmod p m f s).2 :=
  sane_pers (chmod_pres p m f s hi).ext.pers (chmod_next p m f s) hs

theorem sane_osOpen (p : Str) (f : OFlags) (m : Nat) {s : FS} (hi : Inv s) (hs : Sane s) : Sane (osOpen p f m s).2 := by
  show wp (osOpen p f m) (fun _ s' => Sane s') s
  unfold osOpen
  dsimp only
  have key : wp (do
      let s ← M.get
      match ← rd (·.openDirArg p) with
      | some r => do
        if (!f.modes.mustExist && !s.cfg.isMac) || f.modes.canWrite then M.raise .EISDIR
        let h ← newHandle { mkHandle s r f.modes none true true false 0 with kind := .dir, buf := [], pos := 0 }
        let fd ← addOpenFile h
        hmod h fun H => { H with fd := fd }
        M.pure fd
      | none => do
        let h ← openPath p f.modes none true false
        let H ← hget h
        if H.obj ≠ devNullRef then chmod p m
        M.pure H.fd) (fun _ s' => Sane s') s := by
    apply wp_getBind
    apply wp_readBind
    · intro e _; exact hs
    intro a _
    cases a with
    | some r =>
      dsimp only
      have hf : Fr SaneRel (do
        if (!f.modes.mustExist && !s.cfg.isMac) || f.modes.canWrite then M.raise .EISDIR
        let h ← newHandle { mkHandle s r f.modes none true true false 0 with kind := .dir, buf := [], pos := 0 }
        let fd ← addOpenFile h
        hmod h fun H => { H with fd := fd }
        M.pure fd) := by framesH
      exact (hf s).sane hs
    | none =>
      dsimp only
      have h1 : wp (openPath p f.modes none true false) (fun _ s' => Inv s' ∧ Sane s') s :=
        ⟨(openPath_pres p f.modes none true false s hi).inv, (fo_openPath (R := SaneRel) p f.modes none true false s).sane hs⟩
      refine wp_seq (fun _ s' => Inv s' ∧ Sane s') h1 (fun e s' h => h.2) ?_
      intro h s' hh
      refine wp_bindOk (a := s'.handles h) (s' := s') rfl ?_
      apply wp_ite
      · intro _
        refine wp_seq (fun _ s'' => Sane s'') (sane_chmod p m true hh.1 hh.2) (fun e s' h => h) (fun _ _ h => h)
      · intro _; exact hh.2
  apply wp_ite
  · intro _; exact hs
  · intro _; exact key

theorem andNot_zero_right (m : Nat) : andNot m 0 = m := by
  apply Nat.eq_of_testBit_eq
  intro i
  rw [testBit_andNot]; simp

/-- Every call with sane arguments keeps the objects sane. -/
theorem sane_next (o : Op) (ho : SaneOp o) {s : FS} (hi : Inv s) (hs : Sane s) : Sane (o.next s) := by
  by_cases hsp : o.special = false
  · refine (fo_run (R := SaneRel) o hsp ?_ s).sane hs
    cases o with
    | mkdir p m => exact fun x => Nat.lt_of_le_of_lt (andNot_le m x) ho
    | makedirs p m e => exact fun x => Nat.lt_of_le_of_lt (andNot_le m x) ho
    | createDir p m => exact ho
    | createFile p m c z cm um =>
      intro b x s
      cases um
      · exact sane_file b none s ho
      · exact sane_file b none s (andNot_and_zero ho)
    | mknod p m => exact fun b x s => sane_file b none s (andNot_and_zero ho)
    | addMountPoint p t => exact fun _ => trivial
    | _ => trivial
  · cases o with
    | chmod p m f => exact sane_chmod p m f hi hs
    | osOpen p f m =>
      show Sane (M.void (osOpen p f m) s).2
      exact wp_seq (m := osOpen p f m) (f := fun _ => M.pure ()) (Q := fun _ s' => Sane s') (fun _ s' => Sane s')
        (sane_osOpen p f m hi hs) (fun _ _ h => h) (fun _ _ h => h)
    | chdir p =>
      show wp (chdir p) (fun _ s' => Sane s') s
      unfold chdir
      apply wp_readBind
      · intro e _; exact hs
      intro q _
      apply wp_readBind
      · intro e _; exact hs
      intro r _
      apply wp_readBind
      · intro e _; exact hs
      intro r' _
      exact wp_modify hs
    | umask m => exact hs
    | setUser u g => exact hs
    | setClock t => exact hs
    | _ => exact absurd rfl hsp

theorem sane_runs : ∀ (ops : List Op) (_ : ∀ o ∈ ops, SaneOp o) {s : FS} (_ : Inv s) (_ : Sane s), Sane (runs ops s) := by
  intro ops
  induction ops with
  | nil => intro _ s _ hs; exact hs
  | cons o ops ih =>
    intro h s hi hs
    exact ih (fun o' ho' => h o' (by simp [ho'])) (next_step' o hi).1.inv (sane_next o (h o (by simp)) hi hs)

theorem sane_init (k : Cfg) (limit uid gid umask : Nat) (clock : Int) (total : Option Int) :
    Sane (initFS k limit uid gid umask clock total) := by
  intro x hx
  have hx : x < 2 := hx
  have : x = 0 ∨ x = 1 := by omega
  rcases this with rfl | rfl
  · exact ⟨fun _ => show ifmt (S_IFDIR ||| PERM_DEF) = S_IFDIR by decide, fun h => by simp [initFS, mkDirObj, Obj.isDir, FS.setObj, upd, rootRef, devNullRef] at h⟩
  · exact ⟨fun h => by simp [initFS, mkFileObj, Obj.isDir, FS.setObj, upd, rootRef, devNullRef] at h, fun _ => show ifmt (S_IFREG ||| PERM_DEF_FILE) &&& S_IFDIR = 0 by decide⟩

/-- After every history whose mode arguments are sane, an object is a directory exactly when its type bits say so, and
only directories have the directory bit: the hypothesis `Genuine` of the effect theorems (and `hbit` of `rmdir_effect`)
holds in all such states, however the files were opened, renamed, linked or `chmod`ed. -/
theorem genuine_history (k : Cfg) (limit uid gid umask : Nat) (clock : Int) (total : Option Int) (ops : List Op)
    (h : ∀ o ∈ ops, SaneOp o) :
    Genuine (runs ops (initFS k limit uid gid umask clock total)) ∧
    ∀ x < (runs ops (initFS k limit uid gid umask clock total)).next,
      ((runs ops (initFS k limit uid gid umask clock total)).heap x).mode &&& S_IFDIR ≠ 0 →
      ((runs ops (initFS k limit uid gid umask clock total)).heap x).isDir = true :=
  have := sane_runs ops h (init_inv k limit uid gid umask clock total) (sane_init k limit uid gid umask clock total)
  ⟨this.genuine, this.bit⟩

end Verif
