import Verif.Props.AliasOps
import Verif.Props.Space
import Verif.Props.RefineOpen
/-!
# C77, continued: os.open, and the paths stay synonyms when something new is made
-/

namespace Verif
open Py Spec Cfg

theorem Added.scan {s s' : FS} (hi : Inv s) (hcs : s.cfg.caseSens = true) {d : Ref} {nm : Str} (h : Added s s' d nm s.next)
    (he : (s'.heap s.next).entries = []) (hl : (s'.heap s.next).isLnk = false) :
    ∀ (l : List Str) (x : Ref) (acc : List Str), x < s.next → s'.scan x acc l = s.scan x acc l := by
  have hcfg : s'.cfg = s.cfg := by rw [h.env]
  have hcs' : s'.cfg.caseSens = true := by rw [hcfg]; exact hcs
  intro l
  induction l with
  | nil => intro x acc _; rfl
  | cons c cs ih =>
    intro x acc hx
    have hold : ∀ y, alookup c (s.heap x).entries = some y → alookup c (s'.heap x).entries = some y := by
      intro y hy
      by_cases hxd : x = d
      · rw [hxd, h.parent]
        show alookup c ((s.heap d).entries ++ [(nm, s.next)]) = some y
        rw [alookup_snoc, ← hxd, hy]
      · rw [h.others x hx hxd (Nat.ne_of_lt hx)]; exact hy
    simp only [FS.scan, dirContent_tree hcs, dirContent_tree hcs']
    cases ha : alookup c (s.heap x).entries with
    | some y =>
      rw [hold y ha]
      have hy := hi.g.entLt x hx _ (alookup_some ha)
      have hlnk : (s'.heap y).isLnk = (s.heap y).isLnk := by
        by_cases hyd : y = d
        · rw [hyd, h.parent]; rfl
        · rw [h.others y hy hyd (Nat.ne_of_lt hy)]
      simp only [Option.map_some, hlnk]
      split
      · rfl
      · exact ih y _ hy
    | none =>
      simp only [Option.map_none]
      by_cases hxd : x = d ∧ c = nm
      · obtain ⟨rfl, rfl⟩ := hxd
        have e1 : alookup c (s'.heap x).entries = some s.next := by
          rw [h.parent]
          show alookup c ((s.heap x).entries ++ [(c, s.next)]) = _
          rw [alookup_snoc, ha]; simp
        rw [e1]
        simp only [Option.map_some, hl, Bool.false_eq_true, if_false]
        cases cs with
        | nil => simp [FS.scan]
        | cons c' cs' => simp [FS.scan, dirContent_tree hcs', he, alookup]
      · have e1 : alookup c (s'.heap x).entries = none := by
          by_cases hx' : x = d
          · rw [hx', h.parent]
            show alookup c ((s.heap d).entries ++ [(nm, s.next)]) = _
            rw [alookup_snoc, ← hx', ha]
            simp only
            rw [if_neg (fun e => hxd ⟨hx', e.symm⟩)]
          · rw [h.others x hx hx' (Nat.ne_of_lt hx)]; exact ha
        rw [e1]; rfl

/-- Making something new (not a link) changes no resolution of links. -/
theorem Added.resolveComps {s s' : FS} (hi : Inv s) (hcs : s.cfg.caseSens = true) {d : Ref} {nm : Str} (h : Added s s' d nm s.next)
    (he : (s'.heap s.next).entries = []) (hl : (s'.heap s.next).isLnk = false) :
    ∀ (n : Nat) (l : List Str), s'.resolveComps n l = s.resolveComps n l := by
  have hcfg : s'.cfg = s.cfg := by rw [h.env]
  have hfl : ∀ res t, t < s.next → s'.followLink res t = s.followLink res t := by
    intro res t ht
    have e1 : s'.linkTarget (s'.heap t) = s.linkTarget (s.heap t) := by
      unfold FS.linkTarget
      rw [hcfg]
      by_cases htd : t = d
      · rw [htd, h.parent]
        rcases content_cases (s.heap d) with ⟨c, _⟩ | ⟨_, c⟩
        · rw [h.dir] at c; cases c
        · simp only [c]
      · rw [h.others t ht htd (Nat.ne_of_lt ht)]
    unfold FS.followLink
    rw [e1, hcfg]
  intro n
  induction n with
  | zero =>
    intro l
    rw [resolveComps_eq, resolveComps_eq, h.scan hi hcs he hl l rootRef [] (root_lt hi)]
  | succ n ih =>
    intro l
    rw [resolveComps_eq, resolveComps_eq, h.scan hi hcs he hl l rootRef [] (root_lt hi)]
    rcases scan_cases hcs l with ⟨_, hs⟩ | ⟨pre, c, t, rest, hf, hs⟩
    · rw [hs]
    · rw [hs]
      dsimp only
      rw [hfl _ _ (walk_lt hi _ (root_lt hi) hf.2.2.1), hcfg]
      exact ih _

/-- Two paths stay two names of one place when something new (not a link) is made anywhere. -/
theorem Spec.Alias.added {s s' : FS} (hi : Inv s) (hi' : Inv s') (ht : s.cfg.Tree) {l r : List Str} {n : Str} (h : Alias s l r n) {d : Ref} {nm : Str} (a : Added s s' d nm s.next)
    (he : (s'.heap s.next).entries = []) (hl : (s'.heap s.next).isLnk = false) : Alias s' l r n := by
  have hcfg : s'.cfg = s.cfg := by rw [a.env]
  have ht' : s'.cfg.Tree := by rw [hcfg]; exact ht
  have hdv : s'.devName = s.devName := by
    unfold FS.devName
    have hd : devNullRef ≠ d := fun e => isDir_ne_devNull hi a.dir e.symm
    rw [a.others _ (devNull_lt hi) hd (Nat.ne_of_lt (devNull_lt hi))]
  have e : ∀ q, (∀ w ∈ q, Plain s.cfg.sep w) → absPath s.cfg.sep q ≠ s.devName →
      s'.resolvePath (absPath s.cfg.sep q) = s.resolvePath (absPath s.cfg.sep q) := by
    intro q hq hd
    have e1 : s'.resolvePath (absPath s'.cfg.sep q) = _ := resolvePath_comps hi' ht' s'.rc (by rw [hcfg]; exact hq) (by rw [hcfg, hdv]; exact hd)
    have e2 : s.resolvePath (absPath s.cfg.sep q) = _ := resolvePath_comps hi ht s.rc hq hd
    rw [hcfg] at e1
    rw [e1, e2, a.resolveComps hi ht.cs he hl]
  exact ⟨hcfg ▸ h.plainL, hcfg ▸ h.plainR, by rw [hcfg, e _ (h.pl hi ht) h.devL]; exact h.same, by rw [hcfg, hdv]; exact h.devL,
    by rw [hcfg, hdv]; exact h.devR, by rw [hcfg, hdv]; exact h.devL', by rw [hcfg, hdv]; exact h.devR',
    by rw [hcfg, e _ h.plainL h.devL', e _ h.plainR h.devR']; exact h.budget⟩

theorem newFile_notLnk (u : Nat) : ifmt (andNot (S_IFREG ||| PERM_DEF_FILE) u) ≠ S_IFLNK := by
  intro h
  have := congrArg (·.testBit 13) h
  simp only [ifmt, Nat.testBit_and, testBit_andNot] at this
  rw [show (S_IFREG ||| PERM_DEF_FILE).testBit 13 = false from by decide, show S_IFLNK.testBit 13 = true from by decide] at this
  simp at this

theorem agree_heap {s s' : FS} (hc : s'.cfg = s.cfg) (hl : s'.limit = s.limit) (hw : s'.cwd = s.cwd) (hu : s'.uid = s.uid) (hh : s'.heap = s.heap) :
    Agree (fun _ => True) s s' :=
  ⟨hc, hl, hw, hu, by unfold FS.devName; rw [hh], fun _ _ => by rw [hh], fun _ _ => by rw [hh], fun _ _ => by rw [hh],
    fun _ _ _ => by unfold FS.linkTarget; rw [hh, hc]⟩

theorem agree_times {s : FS} {x : Ref} {f : Obj → Obj} (hf : ∀ o, ∃ a b, f o = { o with mtime := a, ctime := b }) : Agree (fun _ => True) s (s.setObj x f) := by
  have e : ∀ y, ∃ a b, (s.setObj x f).heap y = { s.heap y with mtime := a, ctime := b } := by
    intro y
    by_cases hy : y = x
    · subst hy
      obtain ⟨a, b, h⟩ := hf (s.heap y)
      refine ⟨a, b, ?_⟩
      rw [← h]
      unfold FS.setObj upd
      simp
    · refine ⟨(s.heap y).mtime, (s.heap y).ctime, ?_⟩
      unfold FS.setObj upd
      simp [hy]
  refine ⟨rfl, rfl, rfl, rfl, ?_, ?_, ?_, ?_, ?_⟩
  · unfold FS.devName; obtain ⟨a, b, h⟩ := e devNullRef; rw [h]
  all_goals intro y _
  · obtain ⟨a, b, h⟩ := e y; rw [h]
  · obtain ⟨a, b, h⟩ := e y; rw [h]; rfl
  · obtain ⟨a, b, h⟩ := e y; rw [h]; rfl
  · intro _; obtain ⟨a, b, h⟩ := e y; rw [h]; rfl

/-- opening an existing object gives that object -/
theorem openObject_same {r x : Ref} {p q : Str} {md : OpenModes} {s s' : FS} (h : openObject (some r) p q md s = (.ok x, s')) : x = r := by
  have tr : ∀ {α : Type} (m : M α) (t : FS), Okp m (fun _ _ => True) t := fun m t => okp_wp (fun _ _ => trivial)
  have hI : ∀ t, Okp (initFileObject (some r) p q md) (fun z _ => z = r) t := by
    intro t
    unfold initFileObject
    dsimp only
    refine okp_get (okp_ite (fun _ => ?_) (fun _ => ?_))
    · exact okp_bind (okp_raise _)
    refine okp_ite (fun _ => ?_) (fun _ => okp_pure rfl)
    exact okp_seq _ (tr _ _) fun _ _ _ => okp_pure rfl
  have hO : Okp (openObject (some r) p q md) (fun z _ => z = r) s := by
    unfold openObject
    refine okp_ite (fun _ => ?_) (fun _ => ?_)
    · refine okp_seq _ (tr _ _) fun _ _ _ => okp_ite (fun _ => okp_bind (okp_raise _)) fun _ => ?_
      refine okp_seq _ (hI _) fun z s2 hz => okp_get (okp_ite (fun _ => okp_bind (okp_raise _)) fun _ => okp_ite (fun _ => ?_) fun _ => okp_pure hz)
      exact okp_modifyBind (okp_pure hz)
    · refine okp_seq _ (hI _) fun z s2 hz => okp_get (okp_ite (fun _ => okp_bind (okp_raise _)) fun _ => okp_ite (fun _ => ?_) fun _ => okp_pure hz)
      exact okp_modifyBind (okp_pure hz)
  exact hO.elim _ _ h

section
variable {s : FS} {l r : List Str} {n : Str} (hs : Reachable s) (ht : s.cfg.Tree) (h : Alias s l r n)
include hs ht h

omit h in
/-- What lookups see after opening: the same objects, or one more file. -/
theorem opened_keeps {P : FS → Prop} (hP : P s) (hag : ∀ a b, Agree (fun _ => True) a b → P a → P b)
    (hadd : ∀ s0 d nm, Inv s0 → Added s s0 d nm s.next → (s0.heap s.next).entries = [] → (s0.heap s.next).isLnk = false → P s0)
    (hwin : s.cfg.isWin = false) (hw : Within s) (hg : Genuine s) {p : Str} {md : OpenModes} {bf : Option Nat} {raw del : Bool} {i : Nat} {s' : FS}
    (hdir : s.openDirArg p = .ok none) (hpd : p ≠ s.devName)
    (ho : Verif.openPath p md bf raw del s = (.ok i, s')) (hne : (s'.handles i).obj ≠ devNullRef) : P s' := by
  have hi := reachable_inv hs
  have hi' : Inv s' := by
    have := openPath_pres p md bf raw del s hi
    unfold wp at this; rw [ho] at this; exact this.inv
  rcases hf : s.fileArg p with e | ⟨a, q⟩
  · exfalso
    unfold Verif.openPath at ho
    rw [M.bind_eq, rd_eq (f := fun s => s.fileArg p) hf] at ho
    cases ho
  rcases hoo : Verif.openObject a p q md s with ⟨res, s0⟩
  cases res with
  | error e =>
    rw [openPath_failed bf raw del hf hoo] at ho
    cases ho
  | ok x =>
  have hq : Quiet s s0 := by have := fq_openObject a p q md s; rw [hoo] at this; exact this
  by_cases hd : (s0.heap x).isDir = false
  case neg =>
    exfalso
    rw [Bool.not_eq_false] at hd
    unfold Verif.openPath at ho
    rw [M.bind_eq, rd_eq (f := fun s => s.fileArg p) hf] at ho
    dsimp only at ho
    rw [M.bind_eq, hoo] at ho
    dsimp only at ho
    rw [M.bind_eq] at ho
    dsimp only [M.get] at ho
    rw [if_pos hd] at ho
    cases ho
  obtain ⟨fd, s2, e, hop, _, hh, hs'⟩ := openPath_after ((reachable_fdInv hs).quiet hq) bf raw del hf hoo hd
  rw [ho] at e
  injection e with e1 e2
  injection e1 with e1
  subst e1 e2
  have hx : x ≠ devNullRef := by
    rw [hh] at hne; exact hne
  have ag : Agree (fun _ => True) s0 s' := agree_heap (by rw [hs']) (by rw [hs']) (by rw [hs']) (by rw [hs']) (by rw [hs'])
  have hi0 : Inv s0 := by
    have := openObject_pres a p q md s hi
    unfold wp at this; rw [hoo] at this; exact this.inv
  refine hag _ _ ag ?_
  cases a with
  | none =>
    have hn := openObject_new hi hw ht p q md
    unfold wp at hn
    rw [hoo] at hn
    rcases hn with ⟨e, he, _⟩ | ⟨_, ⟨e, he, _⟩ | ⟨ld, nm, d, _, ⟨he, _⟩ | ⟨_, hm⟩⟩⟩
    · cases he
    · cases he
    · cases he
    · obtain ⟨ep, hobj⟩ := hm.obj
      refine hadd _ _ _ hi0 hm.added ?_ ?_
      · rw [hobj]; rfl
      · have := newFile_notLnk s.umask
        rw [hobj]
        unfold Obj.isLnk
        simpa [freshObj, mkFileObj] using this
  | some y =>
    have hex : s.exists_ p = .ok true := by
      unfold FS.fileArg at hf
      rw [if_neg hpd] at hf
      cases hr : s.resolvePath p with
      | error e => rw [hr] at hf; cases hf
      | ok q' =>
        rw [hr] at hf
        simp only [bind, Except.bind] at hf
        cases hex : s.exists_ p with
        | error e => rw [hex] at hf; cases hf
        | ok b =>
          rw [hex] at hf
          cases b with
          | false => cases hf
          | true => rfl
    have hy : s.resolve p true false = .ok y := by
      unfold FS.fileArg at hf
      rw [if_neg hpd] at hf
      show (s.resolvePath p >>= fun q => s.getObjNormG s.rc q false) = _
      cases hr : s.resolvePath p with
      | error e => rw [hr] at hf; cases hf
      | ok q' =>
        rw [hr] at hf
        simp only [bind, Except.bind] at hf ⊢
        cases hex : s.exists_ p with
        | error e => rw [hex] at hf; cases hf
        | ok b =>
          rw [hex] at hf
          cases b with
          | false => cases hf
          | true =>
            simp only [if_true] at hf
            cases hg : s.getObjNormG s.rc q' false with
            | error e => rw [hg] at hf; cases hf
            | ok z => rw [hg] at hf; injection hf with hf; injection hf with hf _; injection hf with hf; rw [hf]
    by_cases hyd : y = devNullRef
    · exfalso
      subst hyd
      exact hx (openObject_same hoo)
    have hyf : (s.heap y).isDir = false := by
      unfold FS.openDirArg at hdir
      rw [if_neg (by rw [hwin]; simp), hex] at hdir
      simp only [bind, Except.bind, if_true] at hdir
      cases hrr : s.resolve p with
      | error e => rw [hrr] at hdir; cases hdir
      | ok z =>
        rw [hrr] at hdir
        have := resolve_weaken hi ht hrr
        rw [hy] at this
        injection this with this
        subst this
        injection hdir with hdir
        cases hz : (s.heap y).isDir with
        | false => rfl
        | true => rw [hz] at hdir; cases hdir
    obtain ⟨_, _, _, hyl⟩ := resolve_object hs ht hy hyd
    rcases content_cases (s.heap y) with ⟨_, old, hc⟩ | ⟨c, _⟩
    case inr => rw [hyf] at c; cases c
    have hdm : (s.heap y).isDirMode = false := by rw [← hg y (resolve_lt hi hy)]; exact hyf
    have hE := openObject_existing hc hdm hyd p q md
    unfold wp at hE
    rw [hoo] at hE
    rcases hE with ⟨he, _⟩ | ⟨he, _⟩ | ⟨he, _⟩ | ⟨he, _, _, t0, ht0, hs0⟩
    all_goals dsimp only at *
    · cases he
    · cases he
    · cases he
    have a1 : Agree (fun _ => True) s t0 := by
      rw [ht0]
      split
      · exact (withContents_data hyf []).agree hyl
      · exact agree_heap rfl rfl rfl rfl rfl
    have a2 : Agree (fun _ => True) t0 s0 := by
      rw [hs0]
      split
      · exact agree_times fun o => ⟨_, _, rfl⟩
      · exact agree_heap rfl rfl rfl rfl rfl
    exact hag _ _ a2 (hag _ _ a1 hP)

/-- After a successful `open` the two paths are still two names of one place. -/
theorem Spec.Alias.opened (hwin : s.cfg.isWin = false) (hw : Within s) (hg : Genuine s) {p : Str} {md : OpenModes} {bf : Option Nat} {raw del : Bool} {i : Nat} {s' : FS}
    (hdir : s.openDirArg p = .ok none) (hpd : p ≠ s.devName)
    (ho : Verif.openPath p md bf raw del s = (.ok i, s')) (hne : (s'.handles i).obj ≠ devNullRef) : Alias s' l r n :=
  opened_keeps hs ht h (fun _ _ a x => x.agree a) (fun s0 d nm hi0 a e l => h.added (reachable_inv hs) hi0 ht a e l) hwin hw hg hdir hpd ho hne

/-- `os.open` through either path does the same. -/
theorem Spec.Alias.osOpen (hwin : s.cfg.isWin = false) (hw : Within s) (hg : Genuine s) (f : OFlags) (mode : Nat) :
    osOpen (absPath s.cfg.sep (l ++ [n])) f mode s = osOpen (absPath s.cfg.sep (r ++ [n])) f mode s := by
  have hi := reachable_inv hs
  have ed : s.openDirArg (absPath s.cfg.sep (l ++ [n])) = s.openDirArg (absPath s.cfg.sep (r ++ [n])) := by
    unfold FS.openDirArg
    rw [h.exists_ hi ht, h.resolve hi ht]
  by_cases hx : f.excl = true ∧ f.creat = false
  · unfold Verif.osOpen
    have : (f.modes.mustNotExist && f.modes.mustExist) = true := by
      unfold OFlags.modes; dsimp only; simpa using hx
    dsimp only
    rw [if_pos this, if_pos this]
    rfl
  cases hd : s.openDirArg (absPath s.cfg.sep (r ++ [n])) with
  | error e =>
    have e1 : ∀ p, s.openDirArg p = .error e → Verif.osOpen p f mode s = (.error e, s) := by
      intro p hp
      unfold Verif.osOpen
      dsimp only
      rw [if_neg (by unfold OFlags.modes; dsimp only; simpa using hx)]
      rw [M.bind_eq]
      dsimp only [M.get]
      rw [M.bind_eq, rd_eq (f := fun x => x.openDirArg p) hp]
    rw [e1 _ hd, e1 _ (ed.trans hd)]
  | ok v =>
  cases v with
  | some z =>
    unfold Verif.osOpen
    dsimp only
    rw [if_neg (by unfold OFlags.modes; dsimp only; simpa using hx), if_neg (by unfold OFlags.modes; dsimp only; simpa using hx)]
    rw [M.bind_eq, M.bind_eq]
    dsimp only [M.get]
    rw [M.bind_eq, rd_eq (f := fun x => x.openDirArg _) (ed.trans hd), M.bind_eq, rd_eq (f := fun x => x.openDirArg _) hd]
  | none =>
    rw [osOpen_file hx hd, osOpen_file hx (ed.trans hd)]
    rw [M.bind_eq, M.bind_eq, h.openPath hi ht]
    rcases hop : Verif.openPath (absPath s.cfg.sep (r ++ [n])) f.modes none true false s with ⟨res, s'⟩
    cases res with
    | error e => rfl
    | ok i =>
      dsimp only
      have e : hget i s' = (.ok (s'.handles i), s') := rfl
      rw [M.bind_eq, M.bind_eq, e]
      dsimp only
      by_cases hne : (s'.handles i).obj ≠ devNullRef
      · rw [if_pos hne, if_pos hne]
        have h' := h.opened hs ht hwin hw hg hd h.devR' hop hne
        have hi' : Inv s' := by
          have := openPath_pres (absPath s.cfg.sep (r ++ [n])) f.modes none true false s hi
          unfold wp at this; rw [hop] at this; exact this.inv
        have hc : s'.cfg = s.cfg := by
          have := openPath_pres (absPath s.cfg.sep (r ++ [n])) f.modes none true false s hi
          unfold wp at this; rw [hop] at this; exact this.ext.cfg
        have := h'.chmod hi' (hc ▸ ht) mode true
        rw [hc] at this
        exact bind_left this
      · rw [if_neg hne, if_neg hne]
end


/-! ## two spellings of one path -/

/-- `p` and `q` name the entry `n` of one and the same directory: `p` reaches the directory by the path `l`, `q` by the path
`l'`, and both resolve to the path `r`, which has no links in it. -/
def Spec.Spellings (s : FS) (p q : Str) : Prop :=
  ∃ l l' r n, Alias s l r n ∧ Alias s l' r n ∧ p = absPath s.cfg.sep (l ++ [n]) ∧ q = absPath s.cfg.sep (l' ++ [n])

theorem Spec.Spellings.symm {s : FS} {p q : Str} (h : Spellings s p q) : Spellings s q p := by
  obtain ⟨l, l', r, n, a, b, e, f⟩ := h
  exact ⟨l', l, r, n, b, a, f, e⟩

section
variable {s : FS} (hs : Reachable s) (ht : s.cfg.Tree) {p q : Str} (h : Spellings s p q)
include hs ht h

/-- (C77) What is seen through two spellings of one path is the same: every answer and every error of `os.stat`, `os.lstat`,
`os.readlink`, `os.listdir`, `os.access`, `os.path.exists`, `os.path.lexists`, `os.path.islink`, `os.path.isdir`,
`os.getxattr` and `os.listxattr`. -/
theorem spellings_read : (∀ f, s.stat p f = s.stat q f) ∧ s.readlink p = s.readlink q ∧ s.listdir p = s.listdir q ∧
    (∀ m f, s.access p m f = s.access q m f) ∧ s.exists_ p = s.exists_ q ∧ s.existsL p = s.existsL q ∧ s.isLink p = s.isLink q ∧
    (∀ f, s.isDir p f = s.isDir q f) ∧ (∀ a f, s.getxattr p a f = s.getxattr q a f) ∧ (∀ f, s.listxattr p f = s.listxattr q f) := by
  have hi := reachable_inv hs
  obtain ⟨l, l', r, n, a, b, rfl, rfl⟩ := h
  refine ⟨fun f => ?_, ?_, ?_, fun m f => ?_, ?_, ?_, ?_, fun f => ?_, fun x f => ?_, fun f => ?_⟩
  · rw [a.stat hi ht, b.stat hi ht]
  · rw [a.readlink hi ht, b.readlink hi ht]
  · rw [a.listdir hi ht, b.listdir hi ht]
  · rw [a.access hi ht, b.access hi ht]
  · rw [a.exists_ hi ht, b.exists_ hi ht]
  · rw [a.existsL hi ht, b.existsL hi ht]
  · rw [a.isLink hi ht, b.isLink hi ht]
  · rw [a.isDir hi ht, b.isDir hi ht]
  · rw [a.getxattr hi ht, b.getxattr hi ht]
  · rw [a.listxattr hi ht, b.listxattr hi ht]

/-- (C77) Changing an object through two spellings of its path does the same: result, error and resulting file system of
`os.chmod`, `os.chown`, `os.utime`, `os.truncate`, `os.chdir`, `os.setxattr` and `os.removexattr`. -/
theorem spellings_attr : (∀ m f, chmod p m f s = chmod q m f s) ∧ (∀ u g f, chown p u g f s = chown q u g f s) ∧
    (∀ t f, utime p t f s = utime q t f s) ∧ (∀ k, truncate p k s = truncate q k s) ∧ chdir p s = chdir q s ∧
    (∀ a v fl f, setxattr p a v fl f s = setxattr q a v fl f s) ∧ (∀ a f, removexattr p a f s = removexattr q a f s) := by
  have hi := reachable_inv hs
  obtain ⟨l, l', r, n, a, b, rfl, rfl⟩ := h
  refine ⟨fun m f => ?_, fun u g f => ?_, fun t f => ?_, fun k => ?_, ?_, fun x v fl f => ?_, fun x f => ?_⟩
  · rw [a.chmod hi ht, b.chmod hi ht]
  · rw [a.chown hi ht, b.chown hi ht]
  · rw [a.utime hi ht, b.utime hi ht]
  · rw [a.truncate hi ht, b.truncate hi ht]
  · rw [a.chdir hi ht, b.chdir hi ht]
  · rw [a.setxattr hi ht, b.setxattr hi ht]
  · rw [a.removexattr hi ht, b.removexattr hi ht]

/-- (C77) Making and removing through two spellings of a path does the same: result, error and resulting file system of
`os.mkdir`, `os.rmdir`, `os.remove`, `os.mknod`, `os.symlink`, `create_file` and `open`. -/
theorem spellings_make (hw : Within s) (hsl : s.cfg.sep = '/') : (∀ m, mkdir p m s = mkdir q m s) ∧ (∀ b, rmdir p b s = rmdir q b s) ∧ remove p s = remove q s ∧
    (∀ m, mknod p m s = mknod q m s) ∧ (∀ t, createSymlink p t false s = createSymlink q t false s) ∧
    (∀ m c size um, createFileI p m c size false um s = createFileI q m c size false um s) ∧
    (∀ md bf raw del, openPath p md bf raw del s = openPath q md bf raw del s) := by
  have hi := reachable_inv hs
  obtain ⟨l, l', r, n, a, b, rfl, rfl⟩ := h
  refine ⟨fun m => ?_, fun f => ?_, ?_, fun m => ?_, fun t => ?_, fun m c z um => ?_, fun md bf raw del => ?_⟩
  · rw [a.mkdir hi ht, b.mkdir hi ht]
  · rw [a.rmdir hi ht, b.rmdir hi ht]
  · rw [a.remove hi ht, b.remove hi ht]
  · rw [a.mknod hi ht, b.mknod hi ht]
  · rw [a.symlink hi ht hw hsl, b.symlink hi ht hw hsl]
  · rw [a.createFile hi ht hw hsl _ _ _ _ _ (.inl rfl), b.createFile hi ht hw hsl _ _ _ _ _ (.inl rfl)]
  · rw [a.openPath hi ht, b.openPath hi ht]

/-- (C77) `os.open` through two spellings of a path does the same. -/
theorem spellings_open (hw : Within s) (hg : Genuine s) (hwin : s.cfg.isWin = false) (f : OFlags) (mode : Nat) : osOpen p f mode s = osOpen q f mode s := by
  obtain ⟨l, l', r, n, a, b, rfl, rfl⟩ := h
  rw [a.osOpen hs ht hwin hw hg, b.osOpen hs ht hwin hw hg]

/-- (C77) `os.link` from, and to, two spellings of a path does the same. -/
theorem spellings_link (f : Bool) : (∀ new, link p new f s = link q new f s) ∧
    (∀ old, s.resolve old f ≠ .ok devNullRef → link old p f s = link old q f s) := by
  have hi := reachable_inv hs
  obtain ⟨l, l', r, n, a, b, rfl, rfl⟩ := h
  refine ⟨fun new => ?_, fun old ho => ?_⟩
  · rw [a.linkOld hi ht, b.linkOld hi ht]
  · rw [a.linkNew hi ht _ _ ho, b.linkNew hi ht _ _ ho]

/-- (C77) Renaming from, and to, two spellings of a path to a name not in use does the same. -/
theorem spellings_rename (force : Bool) : (∀ new, s.existsL (s.absnorm new) = .ok false → rename p new force s = rename q new force s) ∧
    (∀ old, s.existsL p = .ok false → rename old p force s = rename old q force s) := by
  have hi := reachable_inv hs
  obtain ⟨l, l', r, n, a, b, rfl, rfl⟩ := h
  refine ⟨fun new hn => ?_, fun old ho => ?_⟩
  · rw [a.renameOld hi ht _ _ hn, b.renameOld hi ht _ _ hn]
  · have e := (a.existsL hi ht).symm.trans ho
    rw [a.renameNew hi ht _ _ ho, b.renameNew hi ht _ _ ((b.existsL hi ht).trans e)]
end

/-! ## an example: `/m → k → a`, so `/m/f`, `/k/f` and `/a/f` are three spellings of one path -/

/-- the demo file system with the links `/k → a` and `/m → k` -/
def linked : FS := runs (demoOps ++ [.createSymlink ['/', 'k'] ['a'] false, .createSymlink ['/', 'm'] ['k'] false]) (initFS demoCfg 50 0 0 0o022 7 (some 1000))

theorem linked_reachable : Reachable linked := ⟨_, _, _, _, _, _, _, _, rfl⟩

theorem linked_cfg : linked.cfg = demoCfg := runs_cfg

theorem linked_tree : linked.cfg.Tree := by rw [linked_cfg]; exact demoCfg_tree

theorem linked_within : Within linked := by
  have h : linked.mounts.all (fun m => match m.total with | none => true | some t => decide (m.used ≤ t)) = true := by
    decide +kernel
  intro m hm t ht
  have := List.all_eq_true.mp h m hm
  rw [ht] at this
  exact of_decide_eq_true this

theorem linked_genuine : Genuine linked := by
  intro x hx
  rw [show linked.next = 8 from by decide +kernel] at hx
  have h : ∀ x < 8, (linked.heap x).isDir = (linked.heap x).isDirMode := by decide +kernel
  exact h x hx

/-- decidable form of `Alias` -/
theorem alias_of_check {s : FS} {l r : List Str} {n : Str} (h : (∀ w ∈ l ++ [n], Plain s.cfg.sep w) ∧ (∀ w ∈ r ++ [n], Plain s.cfg.sep w) ∧
    s.resolvePath (absPath s.cfg.sep l) = .ok (absPath s.cfg.sep r) ∧ absPath s.cfg.sep l ≠ s.devName ∧ absPath s.cfg.sep r ≠ s.devName ∧
    absPath s.cfg.sep (l ++ [n]) ≠ s.devName ∧ absPath s.cfg.sep (r ++ [n]) ≠ s.devName ∧
    s.resolvePath (absPath s.cfg.sep (l ++ [n])) ≠ .error (.os .ELOOP)) : Alias s l r n :=
  ⟨h.1, h.2.1, h.2.2.1, h.2.2.2.1, h.2.2.2.2.1, h.2.2.2.2.2.1, h.2.2.2.2.2.2.1, fun e => absurd e h.2.2.2.2.2.2.2⟩

/-- `/m/f` and `/k/f` are spellings of `/a/f`, which exists -/
theorem linked_spellings : Spellings linked ['/', 'm', '/', 'f'] ['/', 'k', '/', 'f'] :=
  ⟨[['m']], [['k']], [['a']], ['f'], alias_of_check (by decide +kernel), alias_of_check (by decide +kernel), by decide +kernel, by decide +kernel⟩

/-- `/m/new` and `/a/new` are spellings of one path, which does not exist -/
theorem linked_spellings_new : Spellings linked ['/', 'm', '/', 'n'] ['/', 'a', '/', 'n'] :=
  ⟨[['m']], [['a']], [['a']], ['n'], alias_of_check (by decide +kernel), alias_of_check (by decide +kernel), by decide +kernel, by decide +kernel⟩

example : linked.stat ['/', 'm', '/', 'f'] true = linked.stat ['/', 'k', '/', 'f'] true :=
  (spellings_read linked_reachable linked_tree linked_spellings).1 true
example : linked.exists_ ['/', 'm', '/', 'f'] = .ok true := by decide +kernel
example : chmod ['/', 'm', '/', 'f'] 0o600 true linked = chmod ['/', 'k', '/', 'f'] 0o600 true linked :=
  (spellings_attr linked_reachable linked_tree linked_spellings).1 _ _
example : remove ['/', 'm', '/', 'f'] linked = remove ['/', 'k', '/', 'f'] linked :=
  (spellings_make linked_reachable linked_tree linked_spellings linked_within (by rw [linked_cfg]; rfl)).2.2.1
example : mkdir ['/', 'm', '/', 'n'] 0o777 linked = mkdir ['/', 'a', '/', 'n'] 0o777 linked :=
  (spellings_make linked_reachable linked_tree linked_spellings_new linked_within (by rw [linked_cfg]; rfl)).1 _
example : (mkdir ['/', 'm', '/', 'n'] 0o777 linked).1.isOk = true := by decide +kernel
example (f : OFlags) (mode : Nat) : osOpen ['/', 'm', '/', 'n'] f mode linked = osOpen ['/', 'a', '/', 'n'] f mode linked :=
  spellings_open linked_reachable linked_tree linked_spellings_new linked_within linked_genuine (by rw [linked_cfg]; rfl) f mode
example : rename ['/', 'g'] ['/', 'm', '/', 'n'] false linked = rename ['/', 'g'] ['/', 'a', '/', 'n'] false linked :=
  (spellings_rename linked_reachable linked_tree linked_spellings_new false).2 _ (by decide +kernel)
example : link ['/', 'g'] ['/', 'm', '/', 'n'] true linked = link ['/', 'g'] ['/', 'a', '/', 'n'] true linked :=
  (spellings_link linked_reachable linked_tree linked_spellings_new true).2 _ (of_decide_eq_false (by decide +kernel))

/-! ## where it fails -/

/-- the demo file system with the file `/a/d/n` and the link `/a/k → d` -/
def linkedDeep : FS := runs (demoOps ++ [.createFile ['/', 'a', '/', 'd', '/', 'n'] (S_IFREG ||| 0o644) (some []) none false false,
  .createSymlink ['/', 'a', '/', 'k'] ['d'] false]) (initFS demoCfg 50 0 0 0o022 7 (some 1000))

/-- C77 does not hold of `rename` onto an existing name, nor of `makedirs`: there the code looks the path up with
`get_object` (fake_filesystem.py 2004-2021, 2345-2349), which takes the text of a relative link from the current
directory, so `rename("/g", "/a/k/n")` and `makedirs("/a/k/z")` raise ENOENT although both work with `/a/d`. -/
theorem spellings_counterexample : ∃ s, Reachable s ∧ s.cfg.Tree ∧ Spellings s ['/', 'a', '/', 'k', '/', 'n'] ['/', 'a', '/', 'd', '/', 'n'] ∧
    Spellings s ['/', 'a', '/', 'k', '/', 'z'] ['/', 'a', '/', 'd', '/', 'z'] ∧
    (rename ['/', 'g'] ['/', 'a', '/', 'k', '/', 'n'] false s).1 = .error (.os .ENOENT) ∧
    (rename ['/', 'g'] ['/', 'a', '/', 'd', '/', 'n'] false s).1 = .ok () ∧
    (makedirs ['/', 'a', '/', 'k', '/', 'z'] 0o777 false s).1 = .error (.os .ENOENT) ∧
    (makedirs ['/', 'a', '/', 'd', '/', 'z'] 0o777 false s).1 = .ok () :=
  ⟨linkedDeep, ⟨_, _, _, _, _, _, _, _, rfl⟩, by rw [show linkedDeep.cfg = demoCfg from runs_cfg]; exact demoCfg_tree,
    ⟨[['a'], ['k']], [['a'], ['d']], [['a'], ['d']], ['n'], alias_of_check (by decide +kernel), alias_of_check (by decide +kernel), by decide +kernel, by decide +kernel⟩,
    ⟨[['a'], ['k']], [['a'], ['d']], [['a'], ['d']], ['z'], alias_of_check (by decide +kernel), alias_of_check (by decide +kernel), by decide +kernel, by decide +kernel⟩,
    by decide +kernel, by decide +kernel, by decide +kernel, by decide +kernel⟩

end Verif
