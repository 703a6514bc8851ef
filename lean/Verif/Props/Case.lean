import Verif.CaseLookup
import Verif.EffCreate
/-!
# C41: names that differ only in case

On a case-insensitive filesystem, as long as no directory holds two names which differ only in case, every spelling of a path is found
in the same way.  The only exception is the null device, whose path is compared letter by letter.
-/

namespace Verif
open Py Spec Cfg

namespace Spec
/-- No component of the path is called `nul`, in any spelling. -/
def Uncalled (k : Cfg) (nul p : Str) : Prop := ∀ w ∈ split k.sep p, k.lower w ≠ k.lower nul

/-- A case-insensitive POSIX filesystem whose directories hold no two names which differ only in case.  `nul` is the last component of the
path of the null device; neither the current directory nor the target of a link mentions it. -/
structure CaseQuiet (s : FS) (nul : Str) : Prop where
  folds : Folds s.cfg
  twins : NoTwins s
  names : ∀ d < s.next, ∀ e ∈ (s.heap d).entries, s.cfg.sep ∉ e.1
  dev : ∃ l, split s.cfg.sep s.devName = l ++ [nul]
  hnul : nul ≠ [] ∧ nul ≠ ['.']
  cwd : Uncalled s.cfg nul s.cwd
  targets : ∀ x < s.next, (s.heap x).isLnk = true → Uncalled s.cfg nul (s.linkTarget (s.heap x))
end Spec

theorem rp_of {k : Cfg} {nul p q : Str} (h : SamePath k p q) (hu : Uncalled k nul p) : RP k nul p q := by
  unfold SamePath at h
  unfold Uncalled at hu
  unfold RP
  have h1 : ∀ w ∈ split k.sep p, k.sep ∉ w := fun w hw => mem_split_no_sep hw
  have h2 : ∀ w ∈ split k.sep q, k.sep ∉ w := fun w hw => mem_split_no_sep hw
  generalize split k.sep p = a at h hu h1
  generalize split k.sep q = b at h h2
  induction h with
  | nil => exact .nil
  | cons h _ ih =>
    exact .cons ⟨h, h1 _ (by simp), h2 _ (by simp), hu _ (by simp)⟩
      (ih (fun w hw => hu w (by simp [hw])) (fun w hw => h1 w (by simp [hw])) (fun w hw => h2 w (by simp [hw])))

theorem samePath_refl (k : Cfg) (p : Str) : SamePath k p p := List.forall₂_same.mpr fun _ _ => rfl

theorem caseOk_of {s : FS} {nul : Str} (hi : Inv s) (h : CaseQuiet s nul) : CaseOk s nul where
  inv := hi
  folds := h.folds
  twins := h.twins
  dev := h.dev
  hnul := h.hnul
  names := h.names
  cwd := rp_of (samePath_refl _ _) h.cwd
  targets := fun x hx hl => rp_of (samePath_refl _ _) (h.targets x hx hl)

/-- C41: two spellings of a path are the same object, following links or not, or fail with the same error. -/
theorem case_resolve {s : FS} (hs : Reachable s) {nul : Str} (H : CaseQuiet s nul) {p q : Str} (h : SamePath s.cfg p q) (hu : Uncalled s.cfg nul p)
    (follow check : Bool) : s.resolve p follow check = s.resolve q follow check :=
  let C := caseOk_of (reachable_inv hs) H
  C.resolveFG (C.recN _) (rp_of h hu)

/-- C41: `exists`, `lexists`, `isfile`, `isdir` and `islink` do not depend on the spelling. -/
theorem case_exists {s : FS} (hs : Reachable s) {nul : Str} (H : CaseQuiet s nul) {p q : Str} (h : SamePath s.cfg p q) (hu : Uncalled s.cfg nul p) :
    s.exists_ p = s.exists_ q ∧ s.existsL p = s.existsL q ∧ s.isFile p = s.isFile q ∧ s.isLink p = s.isLink q ∧ ∀ f, s.isDir p f = s.isDir q f :=
  let C := caseOk_of (reachable_inv hs) H
  have hr := rp_of h hu
  ⟨C.existsG (C.recN _) hr, C.existsLG (C.recN _) hr, C.isOfType (C.recN _) hr _ _, C.isOfType (C.recN _) hr _ _, fun _ => C.isOfType (C.recN _) hr _ _⟩

/-- C41: so the calls on an existing object report and do the same. -/
theorem case_calls {s : FS} (hs : Reachable s) {nul : Str} (H : CaseQuiet s nul) {p q : Str} (h : SamePath s.cfg p q) (hu : Uncalled s.cfg nul p) :
    (∀ f, s.stat p f = s.stat q f) ∧ s.listdir p = s.listdir q ∧ (∀ m f, chmod p m f s = chmod q m f s) ∧ (∀ t f, utime p t f s = utime q t f s) ∧
    (∀ u g f, chown p u g f s = chown q u g f s) ∧ ∀ n, truncate p n s = truncate q n s := by
  have C := caseOk_of (reachable_inv hs) H
  have hr := rp_of h hu
  have e := case_resolve hs H h hu
  have er : ∀ f c, rd (fun s => s.resolve p f c) s = rd (fun s => s.resolve q f c) s := fun f c => by
    show (s.resolve p f c, s) = (s.resolve q f c, s); rw [e]
  refine ⟨fun f => ?_, ?_, fun m f => ?_, fun t f => ?_, fun u g f => ?_, fun n => ?_⟩
  · unfold FS.stat
    rw [e]
    have : ∀ r, s.raiseForSep p r f false = s.raiseForSep q r f false := fun r => C.raiseForSep (C.recN _) hr r f false
    simp only [this]
  · unfold FS.listdir
    have hq := C.resolvePath (C.recN s.limit) hr
    change Both _ (s.resolvePath p) (s.resolvePath q) at hq
    generalize s.resolvePath p = a at hq
    generalize s.resolvePath q = b at hq
    cases hq with
    | error e => rfl
    | ok h' =>
      have : s.resolve _ true true = s.resolve _ true true := C.resolveFG (C.recN _) h'
      simp only [bind, Except.bind, FS.confirmdir, this]
  · unfold chmod; rw [M.bind_eq, M.bind_eq, er]
  · unfold utime; rw [M.bind_eq, M.bind_eq, er]
  · unfold chown; rw [M.bind_eq, M.bind_eq, er]
  · unfold truncate; rw [M.bind_eq, M.bind_eq, er]

/-- C41: an existing object is not created a second time under another spelling: `mkdir` and `create_file` fail and change nothing. -/
theorem case_no_second {s : FS} (hs : Reachable s) {nul : Str} (H : CaseQuiet s nul) {p q : Str} (h : SamePath s.cfg p q) (hu : Uncalled s.cfg nul p)
    (hsep : s.cfg.sep = '/') (hq : s.existsL (s.absnorm q) = .ok true) :
    (∀ mode c z cm um, createFile p mode c z cm um s = (.error (.os .EEXIST), s)) ∧
    (s.cfg.endsWithSep p = false → p ≠ [] → ∀ mode, ∃ e, mkdir p mode s = (.error e, s)) := by
  have C := caseOk_of (reachable_inv hs) H
  have hr := rp_of h hu
  have he : s.existsL (s.absnorm p) = .ok true := by
    rw [← hq]; exact C.existsLG (C.recN _) (C.absnorm hr)
  refine ⟨fun mode c z cm um => ?_, fun hes hp mode => ?_⟩
  · unfold createFile createFileI
    have hm : s.cfg.makeStringPath p = p := by
      unfold Cfg.makeStringPath; rw [hsep]
      have : ∀ l : Str, replaceC '/' '/' l = l := fun l => by
        unfold replaceC
        induction l with
        | nil => rfl
        | cons x l ih => simp [ih]; exact fun e => e.symm
      exact this p
    rw [M.bind_eq]
    dsimp only [M.get]
    rw [M.bind_eq, hm, rd_eq (f := fun x => x.existsL (s.absnorm p)) he]
    rfl
  · have hst : s.cfg.stripTrailing p = p := by
      unfold Cfg.stripTrailing
      cases p with
      | nil => rfl
      | cons x l => simp only [List.length_cons, Cfg.stripLoop, hes, Bool.false_eq_true, if_false]
    unfold mkdir
    rw [M.bind_eq]
    dsimp only [M.get]
    rw [hst, if_neg hp, M.bind_eq]
    simp only [H.folds.posix.win, Bool.false_eq_true, if_false, M.pure, pure]
    cases hpar : s.mkdirParent p with
    | error e =>
      rw [rd_eq (f := fun x => x.mkdirParent p) hpar]
      exact ⟨e, rfl⟩
    | ok u =>
      rw [rd_eq (f := fun x => x.mkdirParent p) hpar]
      dsimp only
      rw [M.bind_eq, rd_eq (f := fun x => x.existsL (s.absnorm p)) he]
      dsimp only
      rw [if_pos rfl, M.bind_eq]
      have hb : s.mkdirBroken (s.absnorm p) (s.cfg.endsWithSep p) = .ok false := by
        unfold FS.mkdirBroken; rw [hes]; rfl
      rw [rd_eq (f := fun x => x.mkdirBroken (s.absnorm p) (s.cfg.endsWithSep p)) hb]
      exact ⟨_, rfl⟩

/-! ### A macOS filesystem -/

/-- the default macOS configuration, with ASCII letters -/
def macCfg : Cfg := { demoCfg with isMac := true, caseSens := false, lower := fun w => w.map Char.toLower }

theorem toLower_fixed {c : Char} {x : Char} (hx : x = '.' ∨ x = '/') (h : c.toLower = x) : c = x := by
  unfold Char.toLower at h
  split at h
  · rename_i hc
    exfalso
    have h1 : 65 ≤ c.val.toNat := by simpa [UInt32.le_iff_toNat_le] using hc.1
    have h2 : c.val.toNat ≤ 90 := by simpa [UInt32.le_iff_toNat_le] using hc.2
    have h3 := congrArg UInt32.toNat (congrArg Char.val h)
    rw [UInt32.toNat_add] at h3
    rcases hx with rfl | rfl
    · have h4 : (c.val.toNat + 32) % 2 ^ 32 = 46 := h3
      omega
    · have h4 : (c.val.toNat + 32) % 2 ^ 32 = 47 := h3
      omega
  · exact h

theorem macCfg_folds : Folds macCfg where
  posix := ⟨rfl, rfl, by decide, Or.inr fun p => by
    show (['/'] : Str).isPrefixOf (p.map Char.toLower) = startsWithC '/' p
    have hs : ('/' : Char).toLower = '/' := by decide
    cases p with
    | nil => rfl
    | cons a l =>
      rw [Bool.eq_iff_iff]
      simp only [List.map_cons, List.isPrefixOf, startsWithC, Bool.and_true, beq_iff_eq, List.head?_cons, Option.some.injEq]
      exact ⟨fun e => toLower_fixed (Or.inr rfl) e.symm, fun e => by rw [e, hs]⟩⟩
  cs := rfl
  fixed := by
    intro v hv w h
    change w.map Char.toLower = v.map Char.toLower at h
    have hd : ('.' : Char).toLower = '.' := by decide
    have hs : ('/' : Char).toLower = '/' := by decide
    have hs' : macCfg.sep = '/' := rfl
    rw [hs'] at hv
    simp only [List.mem_cons, List.not_mem_nil, or_false] at hv
    rcases hv with rfl | rfl | rfl | rfl
    · simpa using h
    · rcases w with _ | ⟨a, _ | ⟨b, w⟩⟩
      · cases h
      · simp only [List.map_cons, List.map_nil, List.cons.injEq, and_true, hd] at h; rw [toLower_fixed (Or.inl rfl) h]
      · cases congrArg List.length h
    · rcases w with _ | ⟨a, _ | ⟨b, _ | ⟨c, w⟩⟩⟩
      · cases h
      · cases congrArg List.length h
      · simp only [List.map_cons, List.map_nil, List.cons.injEq, and_true, hd] at h
        rw [toLower_fixed (Or.inl rfl) h.1, toLower_fixed (Or.inl rfl) h.2]
      · cases congrArg List.length h
    · rcases w with _ | ⟨a, _ | ⟨b, w⟩⟩
      · cases h
      · simp only [List.map_cons, List.map_nil, List.cons.injEq, and_true, hs] at h; rw [toLower_fixed (Or.inr rfl) h]
      · cases congrArg List.length h
  dots := by
    have key : ∀ w : Str, (['.', '.'] : Str).isPrefixOf w = (['.', '.'] : Str).isPrefixOf (w.map Char.toLower) := by
      intro w
      have hd : ('.' : Char).toLower = '.' := by decide
      have he : ∀ c : Char, ('.' == c) = ('.' == c.toLower) := by
        intro c
        rw [Bool.eq_iff_iff]
        simp only [beq_iff_eq]
        exact ⟨fun e => by rw [← e, hd], fun e => (toLower_fixed (Or.inl rfl) e.symm).symm⟩
      match w with
      | [] => rfl
      | [a] => simp [List.isPrefixOf]
      | a :: b :: l => simp only [List.isPrefixOf, List.map_cons, he a, he b]
    intro w w' h
    rw [key w, key w']
    exact congrArg _ h

/-- the demo calls on macOS: `/a`, the file `/a/f`, its second name `/g`, the link `/l → a/f` and the directory `/a/d` -/
def macFS : FS := runs demoOps (initFS macCfg 50 0 0 0o022 7 (some 1000))

theorem macFS_reachable : Reachable macFS := ⟨_, _, _, _, _, _, _, _, rfl⟩
theorem macFS_cfg : macFS.cfg = macCfg := runs_cfg
theorem macFS_next : macFS.next = 6 := by decide +kernel

theorem macFS_quiet : CaseQuiet macFS ['n', 'u', 'l', 'l'] where
  folds := by rw [macFS_cfg]; exact macCfg_folds
  twins := by
    have h : ∀ d < 6, ∀ e ∈ (macFS.heap d).entries, ∀ e' ∈ (macFS.heap d).entries, macFS.cfg.lower e.1 = macFS.cfg.lower e'.1 → e = e' := by decide +kernel
    intro d hd
    rw [macFS_next] at hd
    exact h d hd
  names := by
    have h : ∀ d < 6, ∀ e ∈ (macFS.heap d).entries, macFS.cfg.sep ∉ e.1 := by decide +kernel
    intro d hd
    rw [macFS_next] at hd
    exact h d hd
  dev := ⟨[[], ['d', 'e', 'v']], by decide +kernel⟩
  hnul := by decide
  cwd := by unfold Uncalled; decide +kernel
  targets := by
    have h : ∀ x < 6, (macFS.heap x).isLnk = true → ∀ w ∈ split macFS.cfg.sep (macFS.linkTarget (macFS.heap x)), macFS.cfg.lower w ≠ macFS.cfg.lower ['n', 'u', 'l', 'l'] := by
      decide +kernel
    intro x hx
    rw [macFS_next] at hx
    exact h x hx

instance (k : Cfg) (p q : Str) : Decidable (SamePath k p q) := by unfold SamePath; infer_instance
instance (k : Cfg) (nul p : Str) : Decidable (Uncalled k nul p) := by unfold Uncalled; infer_instance

/-- `/A/F` and `/a/f` are the file made under the second name, through the link as well -/
example : macFS.resolve ['/', 'A', '/', 'F'] true true = .ok 3 ∧ macFS.resolve ['/', 'L'] true true = .ok 3 := by
  rw [case_resolve macFS_reachable macFS_quiet (q := ['/', 'a', '/', 'f']) (by decide +kernel) (by decide +kernel),
    case_resolve macFS_reachable macFS_quiet (p := ['/', 'L']) (q := ['/', 'l']) (by decide +kernel) (by decide +kernel)]
  decide +kernel

example : ∃ e, mkdir ['/', 'A', '/', 'D'] 0o777 macFS = (.error e, macFS) :=
  (case_no_second macFS_reachable macFS_quiet (q := ['/', 'a', '/', 'd']) (by decide +kernel) (by decide +kernel) (by decide +kernel) (by decide +kernel)).2
    (by decide +kernel) (by decide) _

/-- on a case-sensitive filesystem they differ -/
example : demo.resolve ['/', 'A', '/', 'F'] = .error (.os .ENOENT) := by decide +kernel

/-- Not so for the null device: it is found only under the spelling it was made with. -/
theorem null_spelling : SamePath macFS.cfg ['/', 'd', 'e', 'v', '/', 'n', 'u', 'l', 'l'] ['/', 'D', 'E', 'V', '/', 'N', 'U', 'L', 'L'] ∧
    macFS.exists_ ['/', 'd', 'e', 'v', '/', 'n', 'u', 'l', 'l'] = .ok true ∧ macFS.exists_ ['/', 'D', 'E', 'V', '/', 'N', 'U', 'L', 'L'] = .ok false := by
  decide +kernel

/-- In a directory without read permission the link `/d/f` to nothing is not seen, so a directory `/d/F` can be made there. -/
def twinsFS : FS := runs [.mkdir ['/', 'd'] 0o777, .createSymlink ['/', 'd', '/', 'f'] ['x'] false, .chmod ['/', 'd'] 0o300 true,
    .mkdir ['/', 'd', '/', 'F'] 0o777, .chmod ['/', 'd'] 0o777 true] (initFS macCfg 50 0 0 0o022 7 (some 1000))

/-- C41 fails without the condition: there are reachable states with names which differ only in case, and then one spelling exists while the other does not. -/
theorem twins_reachable : Reachable twinsFS ∧ ¬ NoTwins twinsFS ∧ SamePath twinsFS.cfg ['/', 'd', '/', 'f'] ['/', 'd', '/', 'F'] ∧
    twinsFS.exists_ ['/', 'd', '/', 'f'] = .ok false ∧ twinsFS.exists_ ['/', 'd', '/', 'F'] = .ok true := by
  refine ⟨⟨_, _, _, _, _, _, _, _, rfl⟩, ?_, by decide +kernel, by decide +kernel, by decide +kernel⟩
  intro h
  have h2 : (['f'], 3) ∈ (twinsFS.heap 2).entries ∧ (['F'], 4) ∈ (twinsFS.heap 2).entries ∧ twinsFS.cfg.lower ['f'] = twinsFS.cfg.lower ['F'] := by decide +kernel
  have := h 2 (by decide +kernel) _ h2.1 _ h2.2.1 h2.2.2
  revert this
  decide

/-- a fresh filesystem has no such names -/
theorem init_noTwins (k : Cfg) (limit uid gid um : Nat) (t : Int) (total : Option Int) : NoTwins (initFS k limit uid gid um t total) := by
  intro d hd e he
  have : d = 0 ∨ d = 1 := by
    have h2 : (initFS k limit uid gid um t total).next = 2 := rfl
    rw [h2] at hd
    omega
  rcases this with rfl | rfl
  · have h0 : ((initFS k limit uid gid um t total).heap 0).entries = [] := rfl
    rw [h0] at he; cases he
  · have h0 : ((initFS k limit uid gid um t total).heap 1).entries = [] := rfl
    rw [h0] at he; cases he

end Verif
