import Verif.FrameIO
import Verif.Props.Remove
/-!
# C25: directory permissions
-/

namespace Verif
open Py Spec Cfg

namespace Spec
/-- The directory has no owner write permission. -/
def NoWrite (s : FS) (d : Ref) : Prop := (s.heap d).mode &&& 0o200 = 0
/-- The directory lacks owner write or execute permission. -/
def NoWriteExe (s : FS) (d : Ref) : Prop := (s.heap d).mode &&& 0o300 ≠ 0o300
end Spec

/-- what a step of an unprivileged user on a POSIX system may do to the directories -/
structure PermRel (s s' : FS) : Prop where
  uid : s'.uid = s.uid
  cfg : s'.cfg = s.cfg
  next : s.next ≤ s'.next
  mode : ∀ d < s.next, (s'.heap d).mode = (s.heap d).mode
  kind : ∀ d < s.next, (s'.heap d).isDir = (s.heap d).isDir
  add : ∀ d < s.next, s.addDenied d → ∀ x ∈ (s'.heap d).entries, x ∈ (s.heap d).entries
  rem : ∀ d < s.next, s.isRoot = false → s.cfg.isWin = false →
    (s.heap d).mode &&& (PERM_WRITE ||| PERM_EXE) ≠ PERM_WRITE ||| PERM_EXE → ∀ x ∈ (s.heap d).entries, x ∈ (s'.heap d).entries

theorem PermRel.refl (s : FS) : PermRel s s :=
  ⟨rfl, rfl, Nat.le_refl _, fun _ _ => rfl, fun _ _ => rfl, fun _ _ _ _ h => h, fun _ _ _ _ _ _ h => h⟩

theorem isRoot_congr {s s' : FS} (h : s'.uid = s.uid) : s'.isRoot = s.isRoot := by unfold FS.isRoot; rw [h]

theorem PermRel.denied {s s' : FS} (h : PermRel s s') {d : Ref} (hd : d < s.next) (k : s.addDenied d) : s'.addDenied d :=
  ⟨(isRoot_congr h.uid).trans k.1, by rw [h.mode d hd]; exact k.2.1, by rw [h.cfg]; exact k.2.2⟩

theorem PermRel.trans {a b c : FS} (h : PermRel a b) (k : PermRel b c) : PermRel a c where
  uid := k.uid.trans h.uid
  cfg := k.cfg.trans h.cfg
  next := Nat.le_trans h.next k.next
  mode d hd := (k.mode d (Nat.lt_of_lt_of_le hd h.next)).trans (h.mode d hd)
  kind d hd := (k.kind d (Nat.lt_of_lt_of_le hd h.next)).trans (h.kind d hd)
  add d hd hn x hx := h.add d hd hn x (k.add d (Nat.lt_of_lt_of_le hd h.next) (h.denied hd hn) x hx)
  rem d hd hr hw hm x hx := k.rem d (Nat.lt_of_lt_of_le hd h.next) ((isRoot_congr h.uid).trans hr) (by rw [h.cfg]; exact hw)
    (by rw [h.mode d hd]; exact hm) x (h.rem d hd hr hw hm x hx)

/-- a step that keeps modes, kinds and entries -/
theorem PermRel.same {s s' : FS} (h1 : s'.uid = s.uid) (h2 : s'.cfg = s.cfg) (h3 : s.next ≤ s'.next)
    (h4 : ∀ d < s.next, (s'.heap d).mode = (s.heap d).mode ∧ (s'.heap d).isDir = (s.heap d).isDir ∧
      (s'.heap d).entries = (s.heap d).entries) : PermRel s s' :=
  ⟨h1, h2, h3, fun d hd => (h4 d hd).1, fun d hd => (h4 d hd).2.1, fun d hd _ x hx => by rw [← (h4 d hd).2.2]; exact hx,
    fun d hd _ _ _ x hx => by rw [(h4 d hd).2.2]; exact hx⟩

theorem file_entries {o : Obj} (h : o.isDir = false) : o.entries = [] := mem_entries_nil h

theorem attach_entries (s : FS) (d c x : Ref) (hd : (s.heap d).isDir = true) :
    ((s.attach d c).heap x).mode = (s.heap x).mode ∧ ((s.attach d c).heap x).isDir = (s.heap x).isDir ∧
    (x ≠ d → ((s.attach d c).heap x).entries = (s.heap x).entries) ∧
    (x = d → ((s.attach d c).heap x).entries = (s.heap x).entries ++ [((s.heap c).name, c)]) := by
  rw [attach_heap]
  refine ⟨rfl, ?_, ?_, ?_⟩
  · by_cases h : x = d
    · subst h; simp only [if_true]; rw [hd]; rfl
    · simp only [if_neg h]; rfl
  · intro h; simp only [if_neg h]; rfl
  · intro h; subst h; simp only [if_true]; rfl

instance : OpRelIO PermRel where
  N := fun _ => True
  D := fun _ => True
  refl := PermRel.refl
  trans := PermRel.trans
  le h := h.next
  kind h := h.kind
  A _ := True
  T := True
  ino _ _ := PermRel.same rfl rfl (Nat.le_refl _) fun _ _ => ⟨rfl, rfl, rfl⟩
  used _ _ _ := PermRel.same rfl rfl (Nat.le_refl _) fun _ _ => ⟨rfl, rfl, rfl⟩
  mount _ _ _ _ := PermRel.same rfl rfl (Nat.le_refl _) fun _ _ => ⟨rfl, rfl, rfl⟩
  total _ _ _ _ := PermRel.same rfl rfl (Nat.le_refl _) fun _ _ => ⟨rfl, rfl, rfl⟩
  winA _ _ := trivial
  hand s hs hn f ff := PermRel.same rfl rfl (Nat.le_refl _) fun _ _ => ⟨rfl, rfl, rfl⟩
  new s o _ := PermRel.same rfl rfl (Nat.le_succ _) fun d hd => by
    have : upd s.heap s.next o d = s.heap d := upd_ne _ _ (Nat.ne_of_lt hd)
    simp only [this, and_self]
  dat s r o h := PermRel.same rfl rfl (Nat.le_refl _) fun d hd => by
    by_cases e : d = r
    · subst e
      have : (s.setObj d fun _ => o).heap d = o := upd_same _ _ _
      rw [this]
      cases hdd : (s.heap d).isDir with
      | true =>
        have := h.dir hdd
        refine ⟨h.mode, ?_, ?_⟩
        · unfold Obj.isDir at hdd ⊢; rw [this]; exact hdd
        · unfold Obj.entries; rw [this]
      | false => exact ⟨h.mode, h.file hdd, by rw [file_entries hdd, file_entries (h.file hdd)]⟩
    · have : (s.setObj r fun _ => o).heap d = s.heap d := upd_ne _ _ e
      simp only [this, and_self]
  att s d c hd hn := by
    have hM := attach_misc s d c
    have hE := attach_env s d c
    refine ⟨?_, ?_, ?_, fun x _ => (attach_entries s d c x hd).1, fun x _ => (attach_entries s d c x hd).2.1, ?_, ?_⟩
    · unfold Env at hE; rw [hE]
    · unfold Env at hE; rw [hE]
    · rw [hM.1]
    · intro x _ hx
      rw [(attach_entries s d c x hd).2.2.1 (fun e => hn (e ▸ hx))]; exact fun _ h => h
    · intro x _ _ _ _ y hy
      by_cases e : x = d
      · rw [(attach_entries s d c x hd).2.2.2 e]; simp [hy]
      · rw [(attach_entries s d c x hd).2.2.1 e]; exact hy
  det s0 s d nm e h hd hc hk := by
    have key : ∀ x, ((detach d nm e s).2.heap x).mode = (s.heap x).mode ∧
        (((detach d nm e s).2.heap x).isDir = (s.heap x).isDir ∧ ((detach d nm e s).2.heap x).entries = (s.heap x).entries ∨
          x = d ∧ ((detach d nm e s).2.heap x).isDir = true ∧ ((detach d nm e s).2.heap x).entries = aerase nm (s.heap x).entries) := by
      intro x
      have h1 : ∀ (t : FS) (r : Ref), ((t.setObj r fun o => { o with nlink := o.nlink - 1 }).heap x).mode = (t.heap x).mode ∧
          ((t.setObj r fun o => { o with nlink := o.nlink - 1 }).heap x).content = (t.heap x).content := by
        intro t r
        by_cases e : x = r
        · subst e
          have : (t.setObj x fun o => { o with nlink := o.nlink - 1 }).heap x = { t.heap x with nlink := (t.heap x).nlink - 1 } := upd_same _ _ _
          rw [this]; exact ⟨rfl, rfl⟩
        · have : (t.setObj r fun o => { o with nlink := o.nlink - 1 }).heap x = t.heap x := upd_ne _ _ e
          rw [this]; exact ⟨rfl, rfl⟩
      unfold detach
      dsimp only
      generalize hs1 : s.setObj d (fun o => { o with nlink := o.nlink - 1 }) = s1
      generalize hs2 : s1.setObj e (fun o => { o with nlink := o.nlink - 1 }) = s2
      have e1 := h1 s d
      have e2 := h1 s1 e
      rw [hs1] at e1
      rw [hs2] at e2
      have hmo : (s2.heap x).mode = (s.heap x).mode := e2.1.trans e1.1
      have hco : (s2.heap x).content = (s.heap x).content := e2.2.trans e1.2
      have hsame : (s2.heap x).isDir = (s.heap x).isDir ∧ (s2.heap x).entries = (s.heap x).entries := by
        unfold Obj.isDir Obj.entries; rw [hco]; exact ⟨rfl, rfl⟩
      split
      · exact ⟨hmo, Or.inl hsame⟩
      · split
        · exact ⟨hmo, Or.inl hsame⟩
        · by_cases ed : x = d
          · subst ed
            have : (s2.setObj x fun o => { o with content := .dir (aerase nm o.entries) }).heap x =
              { s2.heap x with content := .dir (aerase nm (s2.heap x).entries) } := upd_same _ _ _
            simp only [this]
            refine ⟨hmo, Or.inr ⟨trivial, rfl, ?_⟩⟩
            show aerase nm (s2.heap x).entries = _
            rw [hsame.2]
          · have : (s2.setObj d fun o => { o with content := .dir (aerase nm o.entries) }).heap x = s2.heap x := upd_ne _ _ ed
            simp only [this]
            exact ⟨hmo, Or.inl hsame⟩
    have hrest : (detach d nm e s).2.uid = s.uid ∧ (detach d nm e s).2.cfg = s.cfg ∧ (detach d nm e s).2.next = s.next := by
      unfold detach
      dsimp only
      split
      · exact ⟨rfl, rfl, rfl⟩
      · split <;> exact ⟨rfl, rfl, rfl⟩
    refine ⟨hrest.1.trans h.uid, hrest.2.1.trans h.cfg, by rw [hrest.2.2]; exact h.next, fun x hx => (key x).1.trans (h.mode x hx), ?_, ?_, ?_⟩
    · intro x hx
      rcases (key x).2 with ⟨k, _⟩ | ⟨rfl, k, _⟩
      · rw [k]; exact h.kind x hx
      · rw [k, hd]
    · intro x hx hn y hy
      apply h.add x hx hn
      rcases (key x).2 with ⟨_, k⟩ | ⟨rfl, _, k⟩
      · rwa [k] at hy
      · rw [k] at hy; exact (aerase_sublist _ _).mem hy
    · intro x hx hr hw hm y hy
      rcases (key x).2 with ⟨_, k⟩ | ⟨rfl, _, k⟩
      · rw [k]; exact h.rem x hx hr hw hm y hy
      · unfold removeCheck at hc
        rw [hw] at hc
        simp only [Bool.false_eq_true, if_false] at hc
        rw [if_pos ⟨hr, hm⟩] at hc
        simp at hc
  dirMode s0 s d perm h hn hd _ := by
    have key : ∀ x, x ≠ d → (s.setObj d fun o => { o with mode := S_IFDIR ||| perm }).heap x = s.heap x := fun x hx => upd_ne _ _ hx
    have hne : ∀ x < s0.next, x ≠ d := fun x hx e => Nat.not_lt.mpr hn (e ▸ hx)
    exact ⟨h.uid, h.cfg, h.next, fun x hx => by rw [key x (hne x hx)]; exact h.mode x hx,
      fun x hx => by rw [key x (hne x hx)]; exact h.kind x hx, fun x hx => by rw [key x (hne x hx)]; exact h.add x hx,
      fun x hx => by rw [key x (hne x hx)]; exact h.rem x hx⟩
  dirN _ _ _ _ := trivial
  defD := trivial
  lnkN _ _ := trivial
  regN _ _ _ := trivial

/-- a step after which a directory holds entries only as permitted; modes may have changed -/
structure EntRel (s s' : FS) : Prop where
  add : ∀ d < s.next, s.addDenied d → ∀ x ∈ (s'.heap d).entries, x ∈ (s.heap d).entries
  rem : ∀ d < s.next, s.isRoot = false → s.cfg.isWin = false →
    (s.heap d).mode &&& (PERM_WRITE ||| PERM_EXE) ≠ PERM_WRITE ||| PERM_EXE → ∀ x ∈ (s.heap d).entries, x ∈ (s'.heap d).entries

theorem PermRel.ent {s s' : FS} (h : PermRel s s') : EntRel s s' := ⟨h.add, h.rem⟩

theorem EntRel.same {s s' s'' : FS} (h : EntRel s s') (k : ∀ d, (s''.heap d).entries = (s'.heap d).entries) : EntRel s s'' :=
  ⟨fun d hd hn x hx => h.add d hd hn x (by rwa [k d] at hx), fun d hd a b c x hx => by rw [k d]; exact h.rem d hd a b c x hx⟩

theorem chmod_entries (p : Str) (m : Nat) (f : Bool) (s : FS) (d : Ref) : ((chmod p m f s).2.heap d).entries = (s.heap d).entries := by
  show wp (chmod p m f) (fun _ s' => (s'.heap d).entries = (s.heap d).entries) s
  unfold chmod
  apply wp_readBind
  · intro e _; rfl
  · intro r _
    apply wp_modify
    by_cases e : d = r
    · subst e
      exact (congrArg Obj.entries (upd_same s.heap d _)).trans rfl
    · exact congrArg Obj.entries (upd_ne _ _ e)

theorem ent_chmod {s s' : FS} (h : PermRel s s') (p : Str) (m : Nat) (f : Bool) : EntRel s (chmod p m f s').2 :=
  h.ent.same fun d => chmod_entries p m f s' d

theorem ent_osOpen (p : Str) (f : OFlags) (m : Nat) (s : FS) : EntRel s (osOpen p f m s).2 := by
  show wp (osOpen p f m) (fun _ s' => EntRel s s') s
  have h0 : EntRel s s := (PermRel.refl s).ent
  unfold osOpen
  dsimp only
  have key : wp (do
      let s ← M.get
      match ← rd (·.openDirArg p) with
      | some r => do
        if (!f.modes.mustExist && !s.cfg.isMac) || f.modes.canWrite then M.raise .EISDIR
        let h ← newHandle { mkHandle s r f.modes none true true false 0 with kind := .dir, buf := [], pos := 0 }
        let fd ← addOpenFile h
        hmod h fun H => { H with fd := fd }
        M.pure fd
      | none => do
        let h ← openPath p f.modes none true false
        let H ← hget h
        if H.obj ≠ devNullRef then chmod p m
        M.pure H.fd) (fun _ s' => EntRel s s') s := by
    apply wp_getBind
    apply wp_readBind
    · intro e _; exact h0
    intro a _
    cases a with
    | some r =>
      dsimp only
      have hf : Fr PermRel (do
        if (!f.modes.mustExist && !s.cfg.isMac) || f.modes.canWrite then M.raise .EISDIR
        let h ← newHandle { mkHandle s r f.modes none true true false 0 with kind := .dir, buf := [], pos := 0 }
        let fd ← addOpenFile h
        hmod h fun H => { H with fd := fd }
        M.pure fd) := by framesH
      exact (hf s).ent
    | none =>
      dsimp only
      refine wp_seq (fun _ s' => PermRel s s') (fo_openPath p f.modes none true false s) (fun e s' h => h.ent) ?_
      intro h s' hh
      refine wp_bindOk (a := s'.handles h) (s' := s') rfl ?_
      apply wp_ite
      · intro _
        refine wp_seq (fun _ s'' => EntRel s s'') (ent_chmod hh p m true) (fun e s' h => h) (fun _ _ h => h)
      · intro _; exact hh.ent
  apply wp_ite
  · intro _; exact h0
  · intro _; exact key

/-- C25: whatever an unprivileged user calls on a POSIX filesystem, no entry appears in a directory without owner
write permission, and none disappears from (or is replaced in) a directory without write and execute permission. -/
theorem directory_protected (o : Op) (s : FS) (hu : s.uid ≠ 0) (hw : s.cfg.isWin = false) (d : Ref) (hd : d < s.next) :
    (NoWrite s d → ∀ nm x, (nm, x) ∈ ((o.next s).heap d).entries → (nm, x) ∈ (s.heap d).entries) ∧
    (NoWriteExe s d → ∀ nm x, (nm, x) ∈ (s.heap d).entries → (nm, x) ∈ ((o.next s).heap d).entries) := by
  have hr : s.isRoot = false := by unfold FS.isRoot; simpa using hu
  have key : EntRel s (o.next s) := by
    by_cases ho : o.special = false
    · refine (fo_run (R := PermRel) o ho ?_ s).ent
      cases o <;> first | exact trivial | exact fun _ => trivial | exact fun _ _ _ => trivial
    · have h0 : EntRel s s := (PermRel.refl s).ent
      cases o with
      | chmod p m f => exact ent_chmod (PermRel.refl s) p m f
      | osOpen p f m =>
        have h := ent_osOpen p f m s
        show EntRel s (M.void (osOpen p f m) s).2
        exact wp_seq (m := osOpen p f m) (f := fun _ => M.pure ()) (Q := fun _ s' => EntRel s s') (fun _ s' => EntRel s s') h (fun _ _ h => h) (fun _ _ h => h)
      | chdir p =>
        show wp (chdir p) (fun _ s' => EntRel s s') s
        unfold chdir
        apply wp_readBind
        · intro e _; exact h0
        intro q _
        apply wp_readBind
        · intro e _; exact h0
        intro r _
        apply wp_readBind
        · intro e _; exact h0
        intro r' _
        exact wp_modify (h0.same fun _ => rfl)
      | umask m => exact h0.same fun _ => rfl
      | setUser u g => exact h0.same fun _ => rfl
      | setClock t => exact h0.same fun _ => rfl
      | _ => exact absurd rfl ho
  exact ⟨fun hn nm x hx => key.add d hd ⟨hr, hn, hw⟩ _ hx, fun hn nm x hx => key.rem d hd hr hw hn _ hx⟩

/-- C25: a directory that lacks write permission keeps exactly its entries over any history of calls of an
unprivileged user that does not change modes or users. -/
theorem directory_frozen (ops : List Op) (s : FS) (hu : s.uid ≠ 0) (hw : s.cfg.isWin = false)
    (hops : ∀ o ∈ ops, (∀ p m f, o ≠ .chmod p m f) ∧ (∀ p f m, o ≠ .osOpen p f m) ∧ (∀ u g, o ≠ .setUser u g))
    (d : Ref) (hd : d < s.next) (hn : NoWrite s d) (nm : Str) (x : Ref) :
    (nm, x) ∈ ((runs ops s).heap d).entries ↔ (nm, x) ∈ (s.heap d).entries := by
  have key : PermRel s (runs ops s) := by
    induction ops generalizing s with
    | nil => exact PermRel.refl s
    | cons o ops ih =>
      have h1 : PermRel s (o.next s) := by
        have hx := hops o (by simp)
        by_cases ho : o.special = false
        · refine fo_run (R := PermRel) o ho ?_ s
          cases o <;> first | exact trivial | exact fun _ => trivial | exact fun _ _ _ => trivial
        · have h0 : PermRel s s := PermRel.refl s
          cases o with
          | chmod p m f => exact absurd rfl (hx.1 p m f)
          | osOpen p f m => exact absurd rfl (hx.2.1 p f m)
          | setUser u g => exact absurd rfl (hx.2.2 u g)
          | chdir p =>
            show wp (chdir p) (fun _ s' => PermRel s s') s
            unfold chdir
            apply wp_readBind
            · intro e _; exact h0
            intro q _
            apply wp_readBind
            · intro e _; exact h0
            intro r _
            apply wp_readBind
            · intro e _; exact h0
            intro r' _
            exact wp_modify (PermRel.same rfl rfl (Nat.le_refl _) fun _ _ => ⟨rfl, rfl, rfl⟩)
          | umask m => exact PermRel.same rfl rfl (Nat.le_refl _) fun _ _ => ⟨rfl, rfl, rfl⟩
          | setClock t => exact PermRel.same rfl rfl (Nat.le_refl _) fun _ _ => ⟨rfl, rfl, rfl⟩
          | _ => exact absurd rfl ho
      refine h1.trans (ih (o.next s) (by rw [h1.uid]; exact hu) (by rw [h1.cfg]; exact hw) (fun o' ho' => hops o' (by simp [ho']))
        (Nat.lt_of_lt_of_le hd h1.next) ?_)
      show _ = _
      rw [h1.mode d hd]; exact hn
  have hr : s.isRoot = false := by unfold FS.isRoot; simpa using hu
  refine ⟨fun hx => key.add d hd ⟨hr, hn, hw⟩ _ hx, fun hx => key.rem d hd hr hw ?_ _ hx⟩
  intro h
  have : (s.heap d).mode &&& (PERM_WRITE ||| PERM_EXE) &&& PERM_WRITE = PERM_WRITE := by rw [h]; decide
  rw [Nat.and_assoc, show (PERM_WRITE ||| PERM_EXE) &&& PERM_WRITE = 0o200 from by decide] at this
  unfold NoWrite at hn
  rw [hn] at this
  exact absurd this (by decide)

/-! ## Which error -/

/-- C25: an unprivileged user's `mkdir` in a directory without write permission raises EACCES and changes nothing. -/
theorem mkdir_denied {s : FS} (hs : Reachable s) (ht : s.cfg.Tree) (hm : s.cfg.isMac = false) (hw : Within s) (hg : Genuine s)
    (hrd : Readable s) {names : List Str} {nm : Str} {d : Ref} (h : Spot s names nm d) (hdir : (s.heap d).isDir = true)
    (hfree : alookup nm (s.heap d).entries = none) (hu : s.uid ≠ 0) (hn : NoWrite s d) (mode : Nat) :
    ∃ s', mkdir (absPath s.cfg.sep (names ++ [nm])) mode s = (.error (.os .EACCES), s') ∧ Unchanged s s' := by
  have hr : s.isRoot = false := by unfold FS.isRoot; simpa using hu
  have hout := mkdir_outcome hs ht hm hw hg hrd h.plain h.noLink h.dev h.dev' (fun x hx => by
    rw [h.here] at hx; injection hx with hx; subst hx; exact h.read) mode
  rw [h.here] at hout
  simp only [hdir, hfree, Option.isSome_none, Bool.false_eq_true, if_false, Bool.true_eq_false] at hout
  rw [if_pos ⟨hr, hn⟩] at hout
  rcases mkdir_effect hs ht hm hw (absPath s.cfg.sep (names ++ [nm])) mode with ⟨e, s', h1, h2⟩ | ⟨s', _, _, _, _, h1, _⟩
  · rw [h1] at hout
    simp only [Except.error.injEq] at hout
    subst hout
    exact ⟨s', h1, h2⟩
  · rw [h1] at hout; simp at hout

/-- C25: an unprivileged user's `remove` of a file in a directory without write and execute permission raises EACCES
and changes nothing. -/
theorem remove_denied {s : FS} (hs : Reachable s) (ht : s.cfg.Tree) (hm : s.cfg.isMac = false) (hw : Within s) (hg : Genuine s)
    (hnd : NoDev s) (hrd : Readable s) {names : List Str} {nm : Str} {d e : Ref} (h : Spot s names nm d)
    (ho : Ordinary s (absPath s.cfg.sep (names ++ [nm])))
    (he : alookup nm (s.heap d).entries = some e) (hf : (s.heap e).isDir = false) (hu : s.uid ≠ 0) (hn : NoWriteExe s d) :
    remove (absPath s.cfg.sep (names ++ [nm])) s = (.error (.os .EACCES), s) := by
  have hr : s.isRoot = false := by unfold FS.isRoot; simpa using hu
  have hout := remove_outcome hs ht hm hw hg hrd h
  rw [he] at hout
  have hmay : ¬ mayRemove s d := by
    rintro (h1 | h1)
    · rw [hr] at h1; simp at h1
    · exact hn h1
  simp only [hf, Bool.false_eq_true, if_false] at hout
  rw [if_neg hmay] at hout
  rcases remove_effect hs ht hm hw hg hnd ho with ⟨x, h1⟩ | ⟨s', _, _, _, _, h1, _⟩
  · rw [h1] at hout
    simp only [Except.error.injEq] at hout
    subst hout
    exact h1
  · rw [h1] at hout; simp at hout

/-- C25: `FakeDirectory.add_entry` and `remove_entry` (which every call goes through) never raise EACCES for root on a
POSIX filesystem, whatever the modes are. -/
theorem root_not_refused (s : FS) (hu : s.uid = 0) (hw : s.cfg.isWin = false) (d c : Ref) (nm : Str) (rec : Bool) :
    (addEntry d c s).1 ≠ .error (.os .EACCES) ∧ (removeEntry d nm rec s).1 ≠ .error (.os .EACCES) := by
  have hr : ∀ t : FS, t.uid = 0 → t.isRoot = true := fun t h => by unfold FS.isRoot; simp [h]
  have hcd : ∀ (c : Int) dev (t : FS), (changeDiskUsage c dev t).1 ≠ .error (.os .EACCES) := by
    intro c dev t
    unfold changeDiskUsage
    split
    · split
      · split <;> simp
      · simp
    · simp
  constructor
  · unfold addEntry
    rw [hr s hu]
    split
    · simp
    rw [if_neg (by simp)]
    split
    · simp
    dsimp only
    split
    · exact hcd _ _ _
    · simp
  · have hdt : ∀ d nm e (t : FS), (detach d nm e t).1 ≠ .error (.os .EACCES) := by
      intro d nm e t
      unfold detach
      dsimp only
      split
      · simp
      · split <;> simp
    have hge : ∀ (t : FS) es nm, t.getEntry es nm ≠ .error (.os .EACCES) := by
      intro t es nm
      unfold FS.getEntry
      split <;> simp
    have hbind : ∀ (m : M Unit) (f : Unit → M Unit) (t : FS), (m t).1 ≠ .error (.os .EACCES) →
        (∀ a, (f a (m t).2).1 ≠ .error (.os .EACCES)) → (M.bind m f t).1 ≠ .error (.os .EACCES) := by
      intro m f t h1 h2
      unfold M.bind
      rcases hmt : m t with ⟨r, t'⟩
      rw [hmt] at h1 h2
      cases r with
      | error e => simpa using h1
      | ok a => exact h2 a
    have key : ∀ n (t : FS) d nm rec, t.uid = 0 → t.cfg.isWin = false → (removeEntryF n d nm rec t).1 ≠ .error (.os .EACCES) := by
      intro n
      induction n with
      | zero => intro t d nm rec _ _; simp [removeEntryF, M.throw]
      | succ n ih =>
        intro t d nm rec h1 h2
        have hloop : ∀ m e (t : FS), t.uid = 0 → t.cfg.isWin = false →
            (removeLoop (fun d' nm' => removeEntryF n d' nm' true) e m t).1 ≠ .error (.os .EACCES) := by
          intro m e
          induction m with
          | zero => intro t _ _; simp [removeLoop, M.pure]
          | succ m ihm =>
            intro t h1 h2
            unfold removeLoop
            split
            · simp
            · refine hbind _ _ _ (ih t _ _ _ h1 h2) fun _ => ?_
              have := fo_removeEntryF (R := PermRel) n e (by assumption) true t
              exact ihm _ (this.uid.trans h1) (by rw [this.cfg]; exact h2)
        unfold removeEntryF
        split
        · simp
        dsimp only
        split
        · rename_i e he
          intro h
          simp only [Except.error.injEq] at h
          subst h
          exact hge _ _ _ he
        · split
          · rename_i x hx
            unfold removeCheck at hx
            rw [h2, hr t h1] at hx
            simp at hx
          · split
            · exact hbind _ _ _ (hloop _ _ t h1 h2) fun _ => hdt _ _ _ _
            · split
              · exact hbind _ _ _ (hcd _ _ _) fun _ => hdt _ _ _ _
              · exact hdt _ _ _ _
    exact key _ s d nm rec hu hw

/-- A demo state with an unprivileged user and a read-only directory. -/
def demoUser : FS := runs [.chmod ['/', 'a'] 0o555 true, .setUser 5 5] demo

/-- The hypotheses are met: `/a` (object 2) is a directory without write permission there. -/
example : Reachable demoUser ∧ demoUser.uid ≠ 0 ∧ demoUser.cfg.isWin = false ∧ 2 < demoUser.next ∧ NoWrite demoUser 2 ∧
    NoWriteExe demoUser 2 ∧ (demoUser.heap 2).entries ≠ [] := by
  refine ⟨?_, by decide +kernel, by decide +kernel, by decide +kernel, by unfold NoWrite; decide +kernel, by unfold NoWriteExe; decide +kernel,
    by decide +kernel⟩
  exact reachable_runs demo_reachable _

end Verif
