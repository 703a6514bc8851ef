import Verif.SpecLife
import Verif.Props.RefineFdText
/-!
# C88: attributes and the umask do not matter to what root's programs see
-/

namespace Verif
open Py Spec Cfg

namespace Spec
/-- what is done, done on the fake filesystem -/
def deedOn : Ref.Deed → FS → Ref.Res × FS
  | .told c => fdSayOn c
  | .chmod p mode f => doCall (fun _ => .done) (chmod p mode f)
  | .chown p u g f => doCall (fun _ => .done) (chown p u g f)
  | .utime p ns f => doCall (fun _ => .done) (utime p ns f)
  | .setxattr p a v f => doCall (fun _ => .done) (setxattr p a v 0 f)
  | .removexattr p a f => doCall (fun _ => .done) (removexattr p a f)
  | .readable p wr => askCall (fun b => .bool b) (·.access p (if wr then 6 else 4))
  | .islink p => askCall (fun b => .bool b) (·.isLink p)
  | .readlink p => askCall (fun t => .text t) (·.readlink p)
  | .umask m => doCall (fun n => .num n) (umask m)

/-- What may be done: as in `FdSayable`; a mode leaves the owner the permission to read, and so does a umask. -/
def Doable (k : Cfg) (y : Ref.Sys) (w : Ref.Path) : Ref.Deed → Prop
  | .told c => FdSayable k y w c
  | .chmod p mode f => ((TextOk y.tree w p ∧ (f = false → EndsNamed p)) ∧ Usable (Ref.meaning w p)) ∧ mode &&& PERM_READ ≠ 0
  | .chown p _ _ f | .utime p _ f | .setxattr p _ _ f | .removexattr p _ f => (TextOk y.tree w p ∧ (f = false → EndsNamed p)) ∧ Usable (Ref.meaning w p)
  | .readable p _ => TextOk y.tree w p ∧ Usable (Ref.meaning w p)
  | .islink p | .readlink p => (TextOk y.tree w p ∧ Usable (Ref.meaning w p)) ∧ EndsNamed p
  | .umask m => m < 0o10000 ∧ m &&& PERM_READ = 0

/-- what a program gets, one answer after the other -/
def deedsTold : List Ref.Deed → FS → List Ref.Res
  | [], _ => []
  | c :: cs, s => (deedOn c s).1 :: deedsTold cs (deedOn c s).2

/-- everything is done where it may be done -/
def AllDoable (k : Cfg) : List Ref.Deed → FS → Prop
  | [], _ => True
  | c :: cs, s => Doable k (sysOf s) (Ref.meaning [] s.cwd) c ∧ AllDoable k cs (deedOn c s).2
end Spec

section
variable {k : Cfg} {u : Nat} {s : FS} {w : List Str}

/-- Another mode, owner or time of an object is nothing the reference file system knows of. -/
theorem SysSt.attrs (hk : Linux k) (hs : SysSt k u s) {r : Ref} {f : Obj → Obj} (hb : RefBase k u (s.setObj r f))
    (hc : (f (s.heap r)).content = (s.heap r).content) (hz : (f (s.heap r)).size = (s.heap r).size)
    (he : (f (s.heap r)).epoch = (s.heap r).epoch) (hn : (f (s.heap r)).name = (s.heap r).name) (hkind : Kind (s.heap r) → Kind (f (s.heap r))) :
    SysSt k u (s.setObj r f) ∧ Ref.Same (sysOf s) (sysOf (s.setObj r f)) := by
  have hobj : ∀ x, (s.setObj r f).heap x = if x = r then f (s.heap r) else s.heap x := by
    intro x
    unfold FS.setObj upd
    dsimp only
  have hcont : ∀ x, ((s.setObj r f).heap x).content = (s.heap x).content := by
    intro x
    rw [hobj]
    split
    · rename_i e; rw [e]; exact hc
    · rfl
  have hwalk : ∀ l, walk (s.setObj r f).heap rootRef l = walk s.heap rootRef l := fun l =>
    walk_congr (nx := s.next) (fun x hx e hee => hs.inv.g.entLt x hx e hee) (fun x _ => by unfold Obj.entries; rw [hcont]) l rootRef (root_lt hs.inv)
  have hdev : (s.setObj r f).devName = s.devName := by
    have e1 : ((s.setObj r f).heap devNullRef).name = (s.heap devNullRef).name := by
      rw [hobj]
      split
      · rename_i e; rw [e]; exact hn
      · rfl
    exact e1
  have htree : treeOf (s.setObj r f) = treeOf s := by
    funext l
    unfold treeOf
    rw [hwalk]
    cases walk s.heap rootRef l with
    | none => rfl
    | some x =>
      show some (nodeOf x _) = some (nodeOf x _)
      unfold nodeOf
      rw [hcont]
  have hr : RefSt k u (s.setObj r f) := by
    refine ⟨hb, hdev.trans hs.devName, (hwalk _).trans hs.noDev, fun l x hx => ?_⟩
    rw [hwalk] at hx
    obtain ⟨h1, h2⟩ := hs.kind l x hx
    refine ⟨h1, ?_⟩
    rw [hobj]
    split
    · rename_i e; subst e; exact hkind h2
    · exact h2
  have hheld : Held s (s.setObj r f) := by
    refine Held.same rfl fun x => ⟨by unfold Obj.isDir; rw [hcont], fun _ => ⟨hcont x, ?_, ?_⟩⟩
    · rw [hobj]; split
      · rename_i e; rw [e]; exact hz
      · rfl
    · rw [hobj]; split
      · rename_i e; rw [e]; exact he
      · rfl
  obtain ⟨k1, k2, k3⟩ := hs.held hr hheld ⟨rfl, rfl, rfl⟩
  exact ⟨k1, names_same htree, k2, k3 _⟩

/-- `os.umask` changes nothing but the umask -/
theorem SysSt.masked (hs : SysSt k u s) (m : Nat) : SysSt k m (Verif.umask m s).2 := by
  have hb : RefBase k m (Verif.umask m s).2 := ⟨reachable_runs hs.reach [.umask m], hs.cfg, one_next hs.one (.umask m) (by simp) (fun e => by simp at e),
    sane_next (.umask m) trivial hs.inv hs.sane, hs.limitless, hs.uid, rfl⟩
  exact ⟨⟨hb, hs.devName, hs.noDev, hs.kind⟩, fun fd h3 l hl => by
    obtain ⟨g, h1, h2⟩ := hs.slots fd h3 l hl
    refine ⟨g, h1, h2.imp id fun f => ?_⟩
    obtain ⟨⟩ := f
    constructor <;> assumption⟩

/-- the error of `lresolve` where nothing is -/
theorem RefSt.labsent (hk : Linux k) (h : RefSt k u s) {l : List Str} (hl : Usable l) (hx : walk s.heap rootRef l = none) :
    ∃ e, s.lresolve (absPath s.cfg.sep l) = .error (.os e) ∧ Ref.Absent (treeOf s) l e := by
  have ht := h.tree hk
  rcases List.eq_nil_or_concat l with rfl | ⟨p, n, rfl⟩
  · simp [walk] at hx
  rw [List.concat_eq_append] at hl hx ⊢
  have hpl := h.plain hk hl
  have hn : ∀ w ∈ p, Proper s.cfg.sep w := fun w hw => (hpl w (by simp [hw])).1
  have hw := (hpl n (by simp)).1
  have hlp : s.lparent (absPath s.cfg.sep (p ++ [n])) = (absPath s.cfg.sep p, n) := by
    unfold FS.lparent
    simp only [stripTrailing_canon ht.posix (absCanon_names (plain_proper hpl)), absPath_ne_dot ht.posix, if_false, originalPath_tree ht.cs,
      splitpath_absPath ht.posix hn hw, absPath_ne_nil]
  unfold FS.lresolve FS.lresolveG
  rw [if_neg absPath_ne_nil, if_neg (absPath_snoc_ne_root hn hw), hlp]
  cases hd : walk s.heap rootRef p with
  | none =>
    obtain ⟨e, h1, h2⟩ := h.absent hk hl.init hd true
    have hres : s.resolveG s.rc (absPath s.cfg.sep p) true = .error (.os e) := h1
    refine ⟨e, ?_, h.absent_snoc hk ((h.treeAt hk p).mpr hd) h2⟩
    dsimp only
    rw [hres]; rfl
  | some d =>
    have hsp := h.spot hk hl hd
    have hdr : s.resolveG s.rc (absPath s.cfg.sep p) true = .ok d := spot_dir h.inv ht (h.genuine hk) (h.readable hk) hsp true
    have ha : alookup n (s.heap d).entries = none := by
      rw [walk_append, hd] at hx
      cases e : alookup n (s.heap d).entries with
      | none => rfl
      | some y => simp [walk, e] at hx
    refine ⟨_, ?_, h.absent_last hk hd⟩
    dsimp only
    rw [hdr]
    simp only [bind, Except.bind]
    unfold FS.lentry Obj.isDir
    have hwin : s.cfg.isWin = false := ht.posix.win
    cases hc : (s.heap d).content with
    | file b => simp [hwin]
    | dir es =>
      rw [mem_entries hc] at ha
      simp only [getEntry_tree ht.cs, hw.1, if_false, ha, hsp.read, if_true]

/-- a call that looks a path up and changes attributes of what it finds -/
theorem SysSt.reaches (hk : Linux k) (hs : SysSt k u s) (hw : Usable w) (hc : s.cwd = absPath '/' w) (hlim : s.limit ≠ 0) {p : Str}
    (hp : TextOk (treeOf s) w p) (hu : Usable (Ref.meaning w p)) {fl : Bool} (hn : fl = false → EndsNamed p) {m : M Unit} (F : Obj → Obj)
    (hrun : m s = match s.resolve p fl with | .ok r => (.ok (), s.setObj r F) | .error e => (.error e, s))
    (hb : RefBase k u (m s).2)
    (hF : ∀ o, (F o).content = o.content ∧ (F o).size = o.size ∧ (F o).epoch = o.epoch ∧ (F o).name = o.name ∧ (Kind o → Kind (F o))) :
    SysSt k u (doCall (fun _ => .done) m s).2 ∧ (doCall (fun _ => .done) m s).2.cwd = absPath '/' w ∧
      Ref.Reaches (sysOf s) (Ref.meaning w p) (doCall (fun _ => .done) m s).1 (sysOf (doCall (fun _ => .done) m s).2) := by
  have hr : s.resolve p fl = s.resolve (absPath s.cfg.sep (Ref.meaning w p)) fl := by
    cases fl with
    | true => exact (hs.toRefSt.word hk hw hc hlim hp hu).resolve hs.inv (hs.toRefSt.tree hk) true
    | false =>
      obtain ⟨l, n, e, hW⟩ := hs.toRefSt.written hk hw hc hlim hp (hn rfl) hu
      rw [e]
      exact hW.resolve hs.inv (hs.toRefSt.tree hk) false true
  have found : ∀ x, walk s.heap rootRef (Ref.meaning w p) = some x → s.resolve (absPath s.cfg.sep (Ref.meaning w p)) fl = .ok x := by
    intro x hx
    cases fl with
    | true => exact hs.toRefSt.res hk hu hx true
    | false =>
      rcases hs.toRefSt.lres hk hu with ⟨y, h1, h2⟩ | ⟨h1, _⟩
      · rw [hx] at h1
        rw [Option.some.inj h1]
        exact h2
      · rw [hx] at h1; simp at h1
  have missed : walk s.heap rootRef (Ref.meaning w p) = none → ∃ e, s.resolve (absPath s.cfg.sep (Ref.meaning w p)) fl = .error (.os e) ∧
      Ref.Absent (treeOf s) (Ref.meaning w p) e := by
    intro hx
    cases fl with
    | true => exact hs.toRefSt.absent hk hu hx true
    | false => exact hs.toRefSt.labsent hk hu hx
  unfold doCall Ref.Reaches
  dsimp only
  rw [names_tree, sysOf_tree]
  generalize Ref.meaning w p = l at hu hr found missed ⊢
  have there : ∀ x, walk s.heap rootRef l = some x → SysSt k u (m s).2 ∧ (m s).2.cwd = absPath '/' w ∧
      resOf (fun _ => .done) (m s).1 = .done ∧ Ref.Same (sysOf s) (sysOf (m s).2) := by
    intro x h1
    rw [hr.trans (found x h1)] at hrun
    dsimp only at hrun
    rw [hrun] at hb ⊢
    obtain ⟨f1, f2, f3, f4, f5⟩ := hF (s.heap x)
    obtain ⟨h2, h3⟩ := hs.attrs hk hb f1 f2 f3 f4 f5
    exact ⟨h2, hc, rfl, h3⟩
  rcases hs.toRefSt.cases hk l with ⟨h1, h2⟩ | ⟨x, h1, _, _, h3⟩ | ⟨x, b, h1, _, _, _, _, _, h3⟩
  · obtain ⟨e, he, ha⟩ := missed h1
    rw [hr.trans he] at hrun
    dsimp only at hrun
    rw [hrun, h2]
    exact ⟨hs, hc, e, ha, rfl, rfl, rfl, fun _ _ _ => rfl⟩
  · rw [h3]
    obtain ⟨a, b, c⟩ := there x h1
    exact ⟨a, b, c⟩
  · rw [h3]
    obtain ⟨a, b, c⟩ := there x h1
    exact ⟨a, b, c⟩

/-- nothing is a symbolic link -/
theorem RefSt.readlink_there (hk : Linux k) (h : RefSt k u s) {l : List Str} (hl : Usable l) (hx : treeOf s l ≠ none) :
    s.readlink (absPath s.cfg.sep l) = .error (.os .EINVAL) := by
  rcases h.lres hk hl with ⟨x, h1, h2⟩ | ⟨h1, _⟩
  · unfold FS.readlink
    rw [h2]
    simp only [bind, Except.bind]
    have := h.notLnk hk h1
    rw [if_pos (by unfold Obj.isLnk at this; simpa using this)]
  · exact absurd ((h.treeAt hk l).mpr h1) hx

theorem deedOn_limit {c : Ref.Deed} (hi : Inv s) : (deedOn c s).2.limit = s.limit := by
  have key : ∀ {α : Type} (f : α → Ref.Res) (m : M α), Pres m → (doCall f m s).2.limit = s.limit := fun f m hm => (hm s hi).ext.limit
  cases c with
  | told c => exact fdSayOn_limit hi c
  | chmod p mode f => exact key _ _ (chmod_pres _ _ _)
  | chown p a b f => exact key _ _ (chown_pres _ _ _ _)
  | utime p t f => exact key _ _ (utime_pres _ _ _)
  | setxattr p a v f => exact key _ _ (setxattr_pres _ _ _ _ _)
  | removexattr p a f => exact key _ _ (removexattr_pres _ _ _)
  | readable p wr => rfl
  | islink p => rfl
  | readlink p => rfl
  | umask m => rfl

/-- `os.access` with R_OK, and with R_OK | W_OK -/
theorem SysSt.readable (hk : Linux k) (hs : SysSt k u s) (hw : Usable w) (hc : s.cwd = absPath '/' w) (hlim : s.limit ≠ 0) {p : Str} (wr : Bool)
    (hp : TextOk (treeOf s) w p) (hu : Usable (Ref.meaning w p)) :
    Ref.FdTells (sysOf s) w (.access p wr) (resOf (fun b => .bool b) (s.access p (if wr then 6 else 4))) (sysOf s) w := by
  have hr := (hs.toRefSt.word hk hw hc hlim hp hu)
  have hst := hr.stat hs.inv (hs.toRefSt.tree hk)
  have hsep := hr.sepR hs.inv (hs.toRefSt.tree hk)
  have hroot := hs.toRefSt.isRoot hk
  unfold Ref.FdTells
  dsimp only
  rw [names_tree, sysOf_tree]
  refine ⟨rfl, rfl, rfl, fun _ _ _ => rfl, ?_⟩
  clear hr
  unfold FS.access
  rw [hst]
  generalize Ref.meaning w p = l at hu hsep ⊢
  have there : ∀ x, walk s.heap rootRef l = some x → s.stat (absPath s.cfg.sep l) = .ok (s.statOf x) := by
    intro x h1
    unfold FS.stat
    rw [hs.toRefSt.res hk hu h1 false]
    simp only [bind, Except.bind, hroot, Bool.not_true, Bool.false_eq_true, if_false, noSep_raise hsep]
    rfl
  have yes : ∀ x, walk s.heap rootRef l = some x → ((if s.isRoot then andNot (if wr then 6 else 4) 2 else if wr then 6 else 4) &&&
      (((s.statOf x).mode >>> 6) &&& 7) == (if s.isRoot then andNot (if wr then 6 else 4) 2 else if wr then 6 else 4)) = true := by
    intro x h1
    have hm : (s.heap x).mode.testBit 8 = true := read_bit.mp (hs.toRefSt.kind l x h1).2.1
    rw [if_pos hroot]
    have e4 : andNot (if wr then 6 else 4) 2 = 4 := by cases wr <;> decide +kernel
    rw [e4, beq_iff_eq]
    apply Nat.eq_of_testBit_eq
    intro i
    rw [Nat.testBit_and, Nat.testBit_and, Nat.testBit_shiftRight]
    have e5 : (4 : Nat) = 2 ^ 2 := by decide
    rw [e5, Nat.testBit_two_pow]
    by_cases hi : 2 = i
    · subst hi
      have e7 : (7 : Nat).testBit 2 = true := by decide
      have : (s.statOf x).mode = (s.heap x).mode := rfl
      rw [this]
      simp [hm, e7]
    · simp [hi]
  rcases hs.toRefSt.cases hk l with ⟨h1, h2⟩ | ⟨x, h1, _, _, h3⟩ | ⟨x, b, h1, _, _, _, _, _, h3⟩
  · obtain ⟨e, he, ha⟩ := hs.toRefSt.absent hk hu h1 false
    have e1 : s.stat (absPath s.cfg.sep l) = .error (.os e) := by
      unfold FS.stat
      rw [he]
      rfl
    rw [h2, e1]
    refine ⟨e, ha, ?_⟩
    cases e <;> rfl
  · have e1 := there x h1
    rw [h3, e1]
    dsimp only
    rw [yes x h1]
    rfl
  · have e1 := there x h1
    rw [h3, e1]
    dsimp only
    rw [yes x h1]
    rfl

/-- the mode after `os.chmod` is read by the owner, and that of the kind of object it was -/
theorem chmod_kind {o : Obj} {mode : Nat} (c : Int) (hm : mode &&& PERM_READ ≠ 0) (hK : Kind o) :
    Kind { o with mode := andNot o.mode PERM_ALL ||| (mode &&& PERM_ALL), ctime := c } := by
  have bits : ∀ i, (andNot o.mode PERM_ALL ||| (mode &&& PERM_ALL)).testBit i = if i < 12 then mode.testBit i else o.mode.testBit i := by
    intro i
    rw [Nat.testBit_or, testBit_andNot, Nat.testBit_and, testBit_permAll]
    by_cases hi : i < 12 <;> simp [hi]
  refine ⟨read_bit.mpr ?_, ?_⟩
  · dsimp only
    rw [bits, if_pos (by omega)]; exact read_bit.mp hm
  · rcases hK.2 with hd | ⟨b, h1, h2, h3⟩
    · exact Or.inl hd
    · refine Or.inr ⟨b, h1, ?_, h3⟩
      unfold Obj.isRegMode at h2 ⊢
      dsimp only
      rw [chmod_type (mode := mode) (old := o.mode) ⟨fun _ => bits, fun e => by simp at e⟩]
      exact h2

/-- **C88** (one deed). In a state that stands for a system, a current directory and a umask, whatever may be done gives what it gives in the
reference file system, and the state afterwards stands for what is there then. -/
theorem deeds_step (hk : Linux k) (hu : u < 0o10000) (hr : u &&& PERM_READ = 0) (h : SysSt k u s)
    (hw : Usable w) (hc : s.cwd = absPath '/' w) (hlim : s.limit ≠ 0) {c : Ref.Deed} (hs : Doable k (sysOf s) w c) :
    ∃ w' u', u' < 0o10000 ∧ u' &&& PERM_READ = 0 ∧ SysSt k u' (deedOn c s).2 ∧ Usable w' ∧ (deedOn c s).2.cwd = absPath '/' w' ∧
      Ref.Does (sysOf s) w u c (deedOn c s).1 (sysOf (deedOn c s).2) w' u' := by
  unfold Doable at hs
  rw [sysOf_tree] at hs
  have hwin := h.isWin hk
  have hmac : ¬ (s.cfg.isWin || s.cfg.isMac) = true := by
    rw [hwin, h.toRefBase.cfg, hk.mac]; simp
  cases c with
  | told c =>
    obtain ⟨h1, w', h2, h3, h4⟩ := fdTalks_step hk hu hr h hw hc hlim hs
    exact ⟨w', u, hu, hr, h1, h2, h3, rfl, h4⟩
  | chmod p mode fl =>
    obtain ⟨h1, h2, h3⟩ := h.reaches hk hw hc hlim hs.1.1.1 hs.1.2 hs.1.1.2 (m := Verif.chmod p mode fl)
      (fun o => { o with
        mode := if s.cfg.isWin then (if mode &&& PERM_WRITE ≠ 0 then o.mode ||| 0o222 else o.mode &&& 0o777555)
          else andNot o.mode PERM_ALL ||| (mode &&& PERM_ALL)
        ctime := s.clock })
      (by
        unfold Verif.chmod
        rw [M.bind_eq]
        cases e : s.resolve p fl with
        | error e' => rw [rd_eq (f := fun x => x.resolve p fl) e]
        | ok r => rw [rd_eq (f := fun x => x.resolve p fl) e]; rfl)
      (h.toRefBase.next hk (.chmod p mode fl) rfl trivial (by simp))
      (fun o => ⟨rfl, rfl, rfl, rfl, fun hK => by
        rw [if_neg (by rw [hwin]; simp)]
        exact chmod_kind _ hs.2 hK⟩)
    exact ⟨w, u, hu, hr, h1, hw, h2, rfl, rfl, h3⟩
  | chown p a b fl =>
    obtain ⟨h1, h2, h3⟩ := h.reaches hk hw hc hlim hs.1.1 hs.2 hs.1.2 (m := Verif.chown p a b fl)
      (fun o => { o with uid := if a = -1 then o.uid else a, gid := if b = -1 then o.gid else b })
      (by
        unfold Verif.chown
        rw [M.bind_eq]
        cases e : s.resolve p fl with
        | error e' => rw [rd_eq (f := fun x => x.resolve p fl) e]
        | ok r => rw [rd_eq (f := fun x => x.resolve p fl) e]; rfl)
      (h.toRefBase.next hk (.chown p a b fl) rfl trivial (by simp))
      (fun o => ⟨rfl, rfl, rfl, rfl, fun hK => hK⟩)
    exact ⟨w, u, hu, hr, h1, hw, h2, rfl, rfl, h3⟩
  | utime p t fl =>
    have hs : (TextOk (treeOf s) w p ∧ (fl = false → EndsNamed p)) ∧ Usable (Ref.meaning w p) := hs
    obtain ⟨h1, h2, h3⟩ := h.reaches hk hw hc hlim hs.1.1 hs.2 hs.1.2 (m := Verif.utime p t fl)
      (fun o => match (generalizing := false) t with
        | some (a, m) => { o with atime := a, mtime := m }
        | none => { o with atime := s.clock, mtime := s.clock })
      (by
        unfold Verif.utime
        rw [M.bind_eq]
        cases e : s.resolve p fl with
        | error e' => rw [rd_eq (f := fun x => x.resolve p fl) e]
        | ok r => rw [rd_eq (f := fun x => x.resolve p fl) e]; rfl)
      (h.toRefBase.next hk (.utime p t fl) rfl trivial (by simp))
      (fun o => by cases t <;> exact ⟨rfl, rfl, rfl, rfl, fun hK => hK⟩)
    exact ⟨w, u, hu, hr, h1, hw, h2, rfl, rfl, h3⟩
  | setxattr p a v fl =>
    obtain ⟨h1, h2, h3⟩ := h.reaches hk hw hc hlim hs.1.1 hs.2 hs.1.2 (m := Verif.setxattr p a v 0 fl)
      (fun o => { o with xattr := ainsert a v o.xattr })
      (by
        unfold Verif.setxattr
        rw [M.bind_eq]
        dsimp only [M.get]
        rw [if_neg hmac, M.bind_eq]
        cases e : s.resolve p fl with
        | error e' => rw [rd_eq (f := fun x => x.resolve p fl) e]
        | ok r =>
          rw [rd_eq (f := fun x => x.resolve p fl) e]
          dsimp only
          rw [if_neg (by simp), if_neg (by simp)]
          rfl)
      (h.toRefBase.next hk (.setxattr p a v 0 fl) rfl trivial (by simp))
      (fun o => ⟨rfl, rfl, rfl, rfl, fun hK => hK⟩)
    exact ⟨w, u, hu, hr, h1, hw, h2, rfl, rfl, h3⟩
  | removexattr p a fl =>
    obtain ⟨h1, h2, h3⟩ := h.reaches hk hw hc hlim hs.1.1 hs.2 hs.1.2 (m := Verif.removexattr p a fl)
      (fun o => { o with xattr := aerase a o.xattr })
      (by
        unfold Verif.removexattr
        rw [M.bind_eq]
        dsimp only [M.get]
        rw [if_neg hmac, M.bind_eq]
        cases e : s.resolve p fl with
        | error e' => rw [rd_eq (f := fun x => x.resolve p fl) e]
        | ok r => rw [rd_eq (f := fun x => x.resolve p fl) e]; rfl)
      (h.toRefBase.next hk (.removexattr p a fl) rfl trivial (by simp))
      (fun o => ⟨rfl, rfl, rfl, rfl, fun hK => hK⟩)
    exact ⟨w, u, hu, hr, h1, hw, h2, rfl, rfl, h3⟩
  | readable p wr =>
    exact ⟨w, u, hu, hr, h, hw, hc, rfl, h.readable hk hw hc hlim wr hs.1 hs.2⟩
  | islink p =>
    refine ⟨w, u, hu, hr, h, hw, hc, rfl, rfl, ?_, rfl, rfl, fun _ _ _ => rfl⟩
    obtain ⟨l, n, e, hW⟩ := h.toRefSt.written hk hw hc hlim hs.1.1 hs.2 hs.1.2
    show resOf _ (s.isLink p) = _
    rw [hW.isLink h.inv (h.toRefSt.tree hk), ← e, h.toRefSt.isLink hk hs.1.2]
    rfl
  | readlink p =>
    refine ⟨w, u, hu, hr, h, hw, hc, rfl, rfl, ?_⟩
    obtain ⟨l, n, e, hW⟩ := h.toRefSt.written hk hw hc hlim hs.1.1 hs.2 hs.1.2
    have hrl := hW.readlink h.inv (h.toRefSt.tree hk)
    rw [← e] at hrl
    have hus := hs.1.2
    rw [names_tree, sysOf_tree]
    have e1 : (deedOn (.readlink p) s).1 = resOf (fun t => .text t) (s.readlink p) := rfl
    have e2 : (deedOn (.readlink p) s).2 = s := rfl
    rw [e1, e2, hrl]
    cases ht : treeOf s (Ref.meaning w p) with
    | some x =>
      rw [h.toRefSt.readlink_there hk hus (by rw [ht]; simp)]
      cases x <;> exact ⟨rfl, rfl, rfl, fun _ _ _ => rfl⟩
    | none =>
      obtain ⟨e', h1, h2⟩ := h.toRefSt.labsent hk hus ((h.toRefSt.treeAt hk _).mp ht)
      refine ⟨e', h2, ?_⟩
      unfold FS.readlink
      rw [h1]
      exact ⟨rfl, rfl, rfl, fun _ _ _ => rfl⟩
  | umask m =>
    refine ⟨w, m, hs.1, hs.2, h.masked m, hw, hc, rfl, rfl, ?_, rfl, rfl, fun _ _ _ => rfl⟩
    show Ref.Res.num s.umask = _
    rw [h.toRefBase.umask]
end

theorem lives_from {k : Cfg} (hk : Linux k) (cs : List Ref.Deed) :
    ∀ {u : Nat} {s : FS} {w : List Str}, u < 0o10000 → u &&& PERM_READ = 0 → SysSt k u s → Usable w → s.cwd = absPath '/' w → s.limit ≠ 0 →
      AllDoable k cs s → ∃ y' w' u', Ref.Life (sysOf s) w u cs (deedsTold cs s) y' w' u' := by
  induction cs with
  | nil => intro u s w _ _ _ _ _ _ _; exact ⟨_, _, _, .nil _ _ _⟩
  | cons c cs ih =>
    intro u s w hu hr h hw hc hlim ha
    obtain ⟨w1, u1, g1, g2, h1, h2, h3, h4⟩ := deeds_step hk hu hr h hw hc hlim (by
      have e : Ref.meaning [] s.cwd = w := by
        unfold Ref.meaning
        rw [hc, List.reverse_nil, loc_absPath (plain_proper hw.plain), List.reverse_reverse]
      have := ha.1
      rwa [e] at this)
    obtain ⟨y', w', u', h5⟩ := ih g1 g2 h1 h2 h3 (by rw [deedOn_limit h.inv]; exact hlim) ha.2
    exact ⟨y', w', u', .cons h4 h5⟩

/-- **C88**. A new fake Linux filesystem of unlimited size, used by root, answers a program that changes modes, owners, times and its umask in
between as the reference file system, which has none of these, does. -/
theorem lives {k : Cfg} (hk : Linux k) {limit : Nat} (hlim : limit ≠ 0) (gid : Nat) (clock : Int) {u : Nat} (hu : u < 0o10000) (hr : u &&& PERM_READ = 0)
    (cs : List Ref.Deed) (hc : AllDoable k cs (initFS k limit 0 gid u clock none)) :
    ∃ y y' w u', y.IsNew ∧ Ref.Life y [] u cs (deedsTold cs (initFS k limit 0 gid u clock none)) y' w u' := by
  obtain ⟨h1, h2⟩ := init_sysSt hk limit gid u clock
  obtain ⟨y', w', u', h3⟩ := lives_from hk cs hu hr h1 (w := []) ⟨by simp, by simp⟩ (by
    show [k.sep] = _
    rw [hk.sep]; rfl) hlim hc
  exact ⟨_, y', w', u', h2, h3⟩

/-! ## A life -/

instance (k : Cfg) (y : Ref.Sys) (w : Ref.Path) (c : Ref.Deed) : Decidable (Doable k y w c) := by
  cases c <;> simp only [Doable] <;> infer_instance

instance allDoableDec (k : Cfg) : ∀ (cs : List Ref.Deed) (s : FS), Decidable (AllDoable k cs s)
  | [], _ => isTrue trivial
  | c :: cs, s => by
    have := allDoableDec k cs (deedOn c s).2
    unfold AllDoable; infer_instance

/-- modes, owners, times and the umask change while files are made, renamed and read -/
def aLife : List Ref.Deed :=
  [.umask 0o77, .told (.said (.call (.makedirs "p/q".toList false))), .told (.said (.chdir "p".toList)),
   .told (.open "f".toList ⟨true, true, true, true, false, false⟩ 0o666), .chmod "./f".toList 0o4400 false, .told (.write 3 [1, 2]),
   .chown "q/../f".toList 5 (-1) true, .told (.open "f".toList ⟨false, true, false, false, false, true⟩ 0o666), .told (.write 4 [3]),
   .utime "f".toList (some (1, 2)) false, .chmod "q".toList 0o500 true, .told (.said (.call (.writeBytes "q/g".toList [9]))), .umask 0o27,
   .told (.said (.call (.rename "f".toList "q/g".toList))), .utime "f".toList none true, .chmod "q/g/x".toList 0o777 true,
   .told (.read 3 5), .chown "/".toList 1 1 true, .told (.said (.call (.readBytes "q//g".toList))), .umask 0, .chmod "/p".toList 0o400 true,
   .told (.said (.call (.removeAll "/p".toList))), .chmod ".".toList 0o700 true, .told (.read 4 1),
   .setxattr "/".toList "user.a".toList [1] true, .setxattr "p".toList "user.a".toList [1] false, .chmod "/.".toList 0o444 true, .removexattr "/".toList "user.b".toList true,
   .told (.said (.chdir "/".toList)), .told (.open "h".toList ⟨true, true, true, true, false, false⟩ 0o666), .islink "./h".toList, .islink "h/x".toList, .readlink "h".toList, .readlink "..//h/x".toList,
   .readlink "i/j".toList, .readable "h/.".toList true, .readable ".//h".toList true, .readable "h/x".toList false, .readable "i".toList false]

example : AllDoable demoCfg aLife (initFS demoCfg 50 0 0 0o022 7 none) := by decide +kernel

example : deedsTold aLife (initFS demoCfg 50 0 0 0o022 7 none) =
    [.num 18, .done, .done, .num 3, .done, .num 2, .done, .num 4, .num 1, .done, .done, .num 1, .num 63, .done, .err .ENOENT, .err .ENOTDIR,
      .bytes [3], .done, .bytes [1, 2, 3], .num 23, .done, .done, .err .ENOENT, .err .EBADF,
      .done, .err .ENOENT, .done, .done, .done, .num 5, .bool false, .bool false, .err .EINVAL, .err .ENOTDIR, .err .ENOENT,
      .bool true, .bool true, .err .ENOTDIR, .bool false] := by decide +kernel

end Verif
