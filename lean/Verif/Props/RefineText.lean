import Verif.Props.RefineRun
import Verif.Props.WrittenThm
import Verif.SpecText
/-!
# C86: histories with relative paths, `os.chdir` and `os.getcwd`
-/

namespace Verif
open Py Spec Cfg

namespace Spec
/-- The calls of the reference file system, made on the fake filesystem with the paths as they are written. -/
def sayCall : Ref.CallOf Str → FS → Ref.Res × FS
  | .mkdir p => doCall (fun _ => .done) (mkdir p 0o777)
  | .rmdir p => doCall (fun _ => .done) (rmdir p)
  | .remove p => doCall (fun _ => .done) (remove p)
  | .rename a b => doCall (fun _ => .done) (rename a b)
  | .link a b => doCall (fun _ => .done) (link a b)
  | .writeBytes p b => doCall (fun n => .num n) (writeBytes p b)
  | .readBytes p => doCall (fun b => .bytes b) (readBytes p)
  | .listdir p => askCall (fun l => .names l) (fun s => s.listdir p)
  | .exists p => askCall (fun b => .bool b) (fun s => s.exists_ p)
  | .isfile p => askCall (fun b => .bool b) (fun s => s.isFile p)
  | .isdir p => askCall (fun b => .bool b) (fun s => s.isDir p)
  | .getsize p => askCall (fun n => .num n) (fun s => s.getsize p)
  | .replace a b => doCall (fun _ => .done) (rename a b true)
  | .makedirs p ok => doCall (fun _ => .done) (makedirs p 0o777 ok)
  | .createDir p => doCall (fun _ => .done) (createDir p)
  | .createFile p b => doCall (fun _ => .done) (createFile p (S_IFREG ||| PERM_DEF_FILE) (some b))
  | .removeAll p => doCall (fun _ => .done) (removeObject p)
  | .samefile p q => askCall (fun b => .bool b) (fun s => s.samefile p q)
  | .lexists p => askCall (fun b => .bool b) (fun s => s.existsL p)
  | .removedirs p => doCall (fun _ => .done) (removedirs p)

/-- what is said, done on the fake filesystem; `os.getcwd` (fake_filesystem.py 3830-3832) gives the current directory -/
def sayOn : Ref.Said → FS → Ref.Res × FS
  | .call c => sayCall c
  | .chdir p => doCall (fun _ => .done) (chdir p)
  | .getcwd => fun s => (.text s.cwd, s)

/-- Where the path goes up, there is something to go up from: what stands before a separator and two dots means something in the tree. -/
def Ups (t : Ref.Tree) (w : Ref.Path) (p : Str) : Prop := ∀ i < p.length, (p.drop i).take 3 = ['/', '.', '.'] → i ≠ 0 →
  Usable (Ref.meaning w (p.take i)) ∧ (t (Ref.meaning w (p.take i))).isSome = true

/-- Where the path goes up, there is something to go up from, and the path does not end with a separator (unless it is the root). -/
def TextOk (t : Ref.Tree) (w : Ref.Path) (p : Str) : Prop := p ≠ [] ∧ Ups t w p ∧ (p = ['/'] ∨ endsWithC '/' p = false)

/-- The path ends with a name. -/
def EndsNamed (p : Str) : Prop :=
  (split '/' p).getLast? ≠ some [] ∧ (split '/' p).getLast? ≠ some ['.'] ∧ (split '/' p).getLast? ≠ some ['.', '.']

/-- The path does not go up. -/
def Level (p : Str) : Prop := ∀ w ∈ split '/' p, (['.', '.'] : Str).isPrefixOf w = false

instance (t : Ref.Tree) (w : Ref.Path) (p : Str) : Decidable (Ups t w p) := by unfold Ups; infer_instance
instance (t : Ref.Tree) (w : Ref.Path) (p : Str) : Decidable (TextOk t w p) := by unfold TextOk; infer_instance
instance (p : Str) : Decidable (EndsNamed p) := by unfold EndsNamed; infer_instance
instance (p : Str) : Decidable (Level p) := by unfold Level; infer_instance

/-- What may be said of the tree `t` in the current directory `w`: `Allowed` of the locations meant; paths that create, remove or rename
end with a name; the path of `os.mkdir` does not go up. -/
def Sayable (k : Cfg) (t : Ref.Tree) (w : Ref.Path) : Ref.Said → Prop
  | .call c => Allowed k (c.map (Ref.meaning w)) ∧
    match c with
    | .readBytes p | .listdir p | .exists p | .isfile p | .isdir p | .getsize p => TextOk t w p
    | .samefile p q => TextOk t w p ∧ TextOk t w q
    | .mkdir p => (TextOk t w p ∧ EndsNamed p) ∧ Level p
    | .rmdir p | .remove p | .writeBytes p _ | .createFile p _ | .removeAll p | .removedirs p | .makedirs p _ | .createDir p | .lexists p =>
      TextOk t w p ∧ EndsNamed p
    | .rename a b | .replace a b | .link a b => (TextOk t w a ∧ EndsNamed a) ∧ TextOk t w b ∧ EndsNamed b
  | .chdir p => TextOk t w p ∧ Usable (Ref.meaning w p)
  | .getcwd => True
end Spec

/-- a way to write a location, for calls that only look -/
structure Word (s : FS) (p : Str) (l : List Str) : Prop where
  ne : p ≠ []
  up : Passable s p
  plain : ∀ w ∈ l, Plain s.cfg.sep w
  norm : s.absnorm p = absPath s.cfg.sep l
  sep : s.cfg.endsWithSep p = false
  dev : absPath s.cfg.sep l ≠ s.devName
  dev' : p ≠ s.devName

section
variable {s : FS} {p : Str} {l : List Str} (hi : Inv s) (ht : s.cfg.Tree) (h : Word s p l)
include hi ht h

theorem Word.resolvePath : s.resolvePath p = s.resolvePath (absPath s.cfg.sep l) := resolvePath_word hi ht _ h.ne (validRel_pass hi ht h.up) h.plain h.norm
theorem Word.resolve (c : Bool) : s.resolve p true c = s.resolve (absPath s.cfg.sep l) true c := by
  have := h.resolvePath hi ht
  unfold FS.resolvePath at this
  show s.resolveG _ _ _ = s.resolveG _ _ _
  unfold FS.resolveG
  rw [this]
theorem Word.sepR : s.cfg.endsWithSep (absPath s.cfg.sep l) = false :=
  absCanon_not_endsWithSep ht.posix (absCanon_names (plain_proper h.plain))
theorem Word.raise (x : Ref) (f m : Bool) : s.raiseForSep p x f m = s.raiseForSep (absPath s.cfg.sep l) x f m := by
  rw [noSep_raise h.sep, noSep_raise (h.sepR hi ht)]
theorem Word.ofType (flag : Nat) : s.isOfTypeG s.rc p flag true = s.isOfTypeG s.rc (absPath s.cfg.sep l) flag true := by
  unfold FS.isOfTypeG
  have e1 := h.resolve hi ht true
  have e2 := fun x m => h.raise hi ht x true m
  unfold FS.resolve at e1
  unfold FS.raiseForSep at e2
  simp only [e1, e2]
theorem Word.exists_ : s.exists_ p = s.exists_ (absPath s.cfg.sep l) := by
  unfold FS.exists_ FS.existsG
  have e1 := h.resolvePath hi ht
  unfold FS.resolvePath at e1
  rw [if_neg h.ne, if_neg absPath_ne_nil, if_neg h.dev', if_neg h.dev]
  simp only [FS.isFileSepG, h.sep, h.sepR hi ht, e1, Bool.false_eq_true, if_false]
theorem Word.isDir : s.isDir p = s.isDir (absPath s.cfg.sep l) := h.ofType hi ht _
theorem Word.isFile : s.isFile p = s.isFile (absPath s.cfg.sep l) := h.ofType hi ht _
theorem Word.stat : s.stat p = s.stat (absPath s.cfg.sep l) := by
  unfold FS.stat
  simp only [h.resolve hi ht, h.raise hi ht]
theorem Word.listdir : s.listdir p = s.listdir (absPath s.cfg.sep l) := by
  unfold FS.listdir
  rw [h.resolvePath hi ht]
theorem Word.getsize : s.getsize p = s.getsize (absPath s.cfg.sep l) := by
  unfold FS.getsize
  simp only [h.resolve hi ht, h.sep, h.sepR hi ht]
theorem Word.chdir : chdir p s = chdir (absPath s.cfg.sep l) s := rd_left (h.resolvePath hi ht)
theorem Word.fileArg : s.fileArg p = s.fileArg (absPath s.cfg.sep l) := by
  unfold FS.fileArg
  rw [if_neg h.dev', if_neg h.dev, h.resolvePath hi ht, h.exists_ hi ht]
theorem Word.readBytes : readBytes p s = readBytes (absPath s.cfg.sep l) s := by
  unfold Verif.readBytes
  refine bind_left ?_
  unfold Verif.openPath
  refine rd_both (h.fileArg hi ht) fun a _ => bind_left ?_
  unfold openObject
  dsimp only
  rw [if_neg (by simp), if_neg (by simp)]
  refine bind_left ?_
  cases a.1 with
  | some x => rfl
  | none => unfold initFileObject; rfl
end

theorem withFile_pres {α : Type} (h : Nat) {m : M α} (hm : Pres m) : Pres (withFile h m) := by
  intro s hi
  have h1 := hm s hi
  have h2 := hClose_pres h (m s).2 h1.inv
  unfold wp at h2 ⊢
  unfold withFile
  rcases e : hClose h (m s).2 with ⟨r, s2⟩
  rw [e] at h2
  have h1 : Good s (m s).2 := h1
  cases r <;> exact ⟨h2.inv, h1.ext.trans h2.ext⟩

theorem callOn_cwd {s : FS} (hi : Inv s) (c : Ref.Call) : (callOn c s).2.cwd = s.cwd := by
  have key : ∀ {α : Type} (f : α → Ref.Res) (m : M α), Pres m → (doCall f m s).2.cwd = s.cwd := fun f m hm => (hm s hi).ext.cwd
  cases c with
  | mkdir p => exact key _ _ (mkdir_pres _ _)
  | rmdir p => exact key _ _ (rmdir_pres _ _)
  | remove p => exact key _ _ (remove_pres _)
  | rename a b => exact key _ _ (rename_pres _ _ _)
  | link a b => exact key _ _ (createLink_pres _ _ _ _)
  | writeBytes p b => exact key _ _ (pres_bind (openPath_pres _ _ _ _ _) fun h => withFile_pres h (write_pres h b))
  | readBytes p => exact key _ _ (pres_bind (openPath_pres _ _ _ _ _) fun h => withFile_pres h (read_pres h none))
  | replace a b => exact key _ _ (rename_pres _ _ _)
  | makedirs p ok => exact key _ _ (makedirs_pres _ _ _)
  | createDir p => exact key _ _ (createDir_pres _ _)
  | createFile p b => exact key _ _ (createFile_pres _ _ _ _ _ _)
  | removeAll p => exact key _ _ (removeObject_pres _)
  | removedirs p => exact key _ _ (removedirs_pres _)
  | _ => rfl

section
variable {k : Cfg} {u : Nat} {s : FS} {w : List Str} {p : Str} (hk : Linux k) (h : RefSt k u s) (hw : Usable w) (hc : s.cwd = absPath '/' w) (hlim : s.limit ≠ 0)
include hk h hw hc hlim

theorem RefSt.means (p : Str) : loc s.cfg.sep (loc s.cfg.sep [] s.cwd) p = (Ref.meaning w p).reverse := by
  rw [h.sep hk, hc, loc_absPath (plain_proper hw.plain)]
  unfold Ref.meaning
  rw [List.reverse_reverse]

theorem RefSt.word (hp : TextOk (treeOf s) w p) (hu : Usable (Ref.meaning w p)) : Word s p (Ref.meaning w p) := by
  have ht := h.tree hk
  have hn : s.absnorm p = absPath s.cfg.sep (Ref.meaning w p) :=
    absnorm_of_loc h.inv ht.posix (plain_proper (h.plain hk hu)) hp.1 (h.means hk hw hc hlim p)
  refine ⟨hp.1, ?_, h.plain hk hu, hn, ?_, h.ne_dev hk hu, ?_⟩
  · intro q r e
    refine ⟨hlim, fun hne => ?_⟩
    rw [h.sep hk] at e
    obtain ⟨h1, h2⟩ := hp.2.1 q.length (by rw [e]; simp) (by rw [e]; simp) (by simpa using hne)
    rw [show p.take q.length = q from by rw [e]; simp] at h1 h2
    refine ⟨Ref.meaning w q, h.plain hk h1, h.means hk hw hc hlim q, ?_⟩
    rw [h.ex hk h1]
    unfold treeOf at h2
    rw [Option.isSome_map] at h2
    rw [h2]
  · rcases hp.2.2 with rfl | e
    · have := absCanon_not_endsWithSep ht.posix (p := absPath s.cfg.sep []) (absCanon_names (by simp))
      rw [h.sep hk] at this
      exact this
    · unfold Cfg.endsWithSep
      rw [ht.posix.altsep, h.sep hk, e]
      simp
  · intro e
    have h0 : s.absnorm p = s.devName := by
      rw [e, absnorm_canon h.inv ht.posix]
      rw [h.devName, h.sep hk]
      exact ⟨[['d', 'e', 'v'], ['n', 'u', 'l', 'l']], by decide, rfl⟩
    exact h.ne_dev hk hu (hn.symm.trans h0)

theorem RefSt.written (hp : TextOk (treeOf s) w p) (hn : EndsNamed p) (hu : Usable (Ref.meaning w p)) :
    ∃ l n, Ref.meaning w p = l ++ [n] ∧ Written s p l n := by
  cases hl : (split '/' p).getLast? with
  | none => exact absurd (List.getLast?_eq_none_iff.mp hl) (split_ne_nil _ _)
  | some n =>
    obtain ⟨ini, hs⟩ := List.getLast?_eq_some_iff.mp hl
    have h1 : n ≠ [] := by rintro rfl; exact hn.1 hl
    have h2 : n ≠ ['.'] := by rintro rfl; exact hn.2.1 hl
    have h3 : n ≠ ['.', '.'] := by rintro rfl; exact hn.2.2 hl
    have hm : ∃ l, Ref.meaning w p = l ++ [n] := by
      unfold Ref.meaning loc
      rw [hs, List.foldl_append]
      generalize List.foldl step _ ini = x
      refine ⟨x.reverse, ?_⟩
      simp [step, h1, h2, h3]
    obtain ⟨l, hm⟩ := hm
    have ht := h.tree hk
    have hW := h.word hk hw hc hlim hp hu
    refine ⟨l, n, hm, ⟨?_, ?_, ?_, ?_, ?_, ?_, ?_, ?_⟩⟩
    · rw [← hm]; exact hW.plain
    · rw [← hm]; exact h.means hk hw hc hlim p
    · rw [h.sep hk]; exact hl
    · exact hW.up
    · rw [h.sep hk, hc]; exact absCanon_names (plain_proper hw.plain)
    · rw [h.devName, h.sep hk]
      exact ⟨[['d', 'e', 'v'], ['n', 'u', 'l', 'l']], by decide, rfl⟩
    · refine h.ne_dev hk (l := l) ⟨fun x hx => hu.plain x (by rw [hm]; simp [hx]), ?_⟩
      have := hu.dev
      rw [hm] at this
      cases l with
      | nil => simp
      | cons a b => exact this
    · rw [← hm]; exact hW.dev

theorem RefSt.sayCall {c : Ref.CallOf Str} (hs : Sayable k (treeOf s) w (.call c)) (hl : ¬ Ref.Lost (treeOf s) w c) :
    sayCall c s = callOn (c.map (Ref.meaning w)) s := by
  have hi := h.inv
  have ht := h.tree hk
  have hsl := h.sep hk
  obtain ⟨ha, hs⟩ := hs
  have key : ∀ {α : Type} (f : α → Ref.Res) {m m' : M α}, m s = m' s → doCall f m s = doCall f m' s := fun f m m' e => by unfold doCall; rw [e]
  have ask : ∀ {α : Type} (f : α → Ref.Res) (a b : Except Err α), a = b → (resOf f a, s) = (resOf f b, s) := fun f a b e => by rw [e]
  have named : ∀ {p}, TextOk (treeOf s) w p ∧ EndsNamed p → Usable (Ref.meaning w p) → ∃ l n, absPath '/' (Ref.meaning w p) = absPath s.cfg.sep (l ++ [n]) ∧ Written s p l n := by
    intro p hp hu
    obtain ⟨l, n, e, hW⟩ := h.written hk hw hc hlim hp.1 hp.2 hu
    exact ⟨l, n, by rw [e, hsl], hW⟩
  have word : ∀ {p}, TextOk (treeOf s) w p → Usable (Ref.meaning w p) → absPath '/' (Ref.meaning w p) = absPath s.cfg.sep (Ref.meaning w p) ∧ Word s p (Ref.meaning w p) := by
    intro p hp hu
    exact ⟨by rw [hsl], h.word hk hw hc hlim hp hu⟩
  cases c with
  | mkdir p =>
    obtain ⟨l, n, e, hW⟩ := named hs.1 ha.1
    refine key _ ?_
    rw [e]
    refine hW.mkdir hi ht _ ?_ fun hb => ?_
    · unfold Spec.dots
      rw [List.countP_eq_zero, hsl]
      intro x hx
      rw [hs.2 x hx]; simp
    rw [hc, ← hsl, h.ex hk hw]
    cases hx : walk s.heap rootRef w with
    | some x => rfl
    | none => exact absurd ⟨(h.treeAt hk w).mpr hx, p, rfl, hsl ▸ hb⟩ hl
  | rmdir p => obtain ⟨l, n, e, hW⟩ := named hs ha.1; exact key _ (by rw [e]; exact hW.rmdir hi ht _)
  | remove p => obtain ⟨l, n, e, hW⟩ := named hs ha.1; exact key _ (by rw [e]; exact hW.remove hi ht)
  | removedirs p => obtain ⟨l, n, e, hW⟩ := named hs ha.1; exact key _ (by rw [e]; exact hW.removedirs hi ht)
  | removeAll p => obtain ⟨l, n, e, hW⟩ := named hs ha.1; exact key _ (by rw [e]; exact hW.removeObject hi ht)
  | createFile p b => obtain ⟨l, n, e, hW⟩ := named hs ha.1; exact key _ (by rw [e]; exact hW.createFile hi ht hsl _ _ _ _ _)
  | createDir p => obtain ⟨l, n, e, hW⟩ := named hs ha; exact key _ (by rw [e]; exact hW.createDir hi ht hsl _)
  | makedirs p ok => obtain ⟨l, n, e, hW⟩ := named hs ha; exact key _ (by rw [e]; exact hW.makedirs hi ht _ _)
  | lexists p => obtain ⟨l, n, e, hW⟩ := named hs ha; exact ask (fun b => .bool b) (s.existsL p) (s.existsL (absPath '/' (Ref.meaning w p))) (by rw [e]; exact hW.existsL hi ht)
  | writeBytes p b => obtain ⟨l, n, e, hW⟩ := named hs ha.1; exact key _ (by rw [e]; exact bind_left (hW.openPath hi ht _ _ _ _))
  | rename a b =>
    obtain ⟨l, n, e, hW⟩ := named hs.1 ha.1; obtain ⟨l', n', e', hW'⟩ := named hs.2 ha.2.2.1
    exact key _ (by rw [e, e', hW.renameOld hi ht, hW'.renameNew hi ht])
  | replace a b =>
    obtain ⟨l, n, e, hW⟩ := named hs.1 ha.1; obtain ⟨l', n', e', hW'⟩ := named hs.2 ha.2.2.1
    exact key _ (by rw [e, e', hW.renameOld hi ht, hW'.renameNew hi ht])
  | link a b =>
    obtain ⟨l, n, e, hW⟩ := named hs.1 ha.1; obtain ⟨l', n', e', hW'⟩ := named hs.2 ha.2.1
    exact key _ (by rw [e, e', hW.linkOld hi ht, hW'.linkNew hi ht])
  | readBytes p => obtain ⟨e, hW⟩ := word hs ha; exact key _ (by rw [e]; exact hW.readBytes hi ht)
  | listdir p => obtain ⟨e, hW⟩ := word hs ha; exact ask (fun b => .names b) (s.listdir p) (s.listdir (absPath '/' (Ref.meaning w p))) (by rw [e]; exact hW.listdir hi ht)
  | «exists» p => obtain ⟨e, hW⟩ := word hs ha; exact ask (fun b => .bool b) (s.exists_ p) (s.exists_ (absPath '/' (Ref.meaning w p))) (by rw [e]; exact hW.exists_ hi ht)
  | isfile p => obtain ⟨e, hW⟩ := word hs ha; exact ask (fun b => .bool b) (s.isFile p) (s.isFile (absPath '/' (Ref.meaning w p))) (by rw [e]; exact hW.isFile hi ht)
  | isdir p => obtain ⟨e, hW⟩ := word hs ha; exact ask (fun b => .bool b) (s.isDir p) (s.isDir (absPath '/' (Ref.meaning w p))) (by rw [e]; exact hW.isDir hi ht)
  | getsize p => obtain ⟨e, hW⟩ := word hs ha; exact ask (fun b => .num b) (s.getsize p) (s.getsize (absPath '/' (Ref.meaning w p))) (by rw [e]; exact hW.getsize hi ht)
  | samefile p q =>
    obtain ⟨e, hW⟩ := word hs.1 ha.1; obtain ⟨e', hW'⟩ := word hs.2 ha.2
    refine ask (fun b => .bool b) (s.samefile p q) (s.samefile (absPath '/' (Ref.meaning w p)) (absPath '/' (Ref.meaning w q))) ?_
    unfold FS.samefile
    rw [e, e', hW.stat hi ht, hW'.stat hi ht]

/-- `os.mkdir` of a bare name in a current directory that does not exist -/
theorem RefSt.lost (hp : TextOk (treeOf s) w p) (hn : EndsNamed p) (hu : Usable (Ref.meaning w p)) (hb : '/' ∉ p) (hx : walk s.heap rootRef w = none) :
    ∃ e, (Verif.mkdir p 0o777 s).1 = .error (.os e) ∧ Ref.Absent (treeOf s) w e ∧ RefSt k u (Verif.mkdir p 0o777 s).2 ∧
      treeOf (Verif.mkdir p 0o777 s).2 = treeOf s ∧ (Verif.mkdir p 0o777 s).2.cwd = s.cwd := by
  have hi := h.inv
  have ht := h.tree hk
  have hsl := h.sep hk
  obtain ⟨l, n, hm, hW⟩ := h.written hk hw hc hlim hp hn hu
  -- the text is the name, and the directory is the current one
  have hsp : split '/' p = [p] := split_no_sep hb
  have hpn : n = p := by
    have := hW.last
    rw [hsl, hsp] at this
    simpa using this.symm
  subst hpn
  have hlw : l = w := by
    obtain ⟨hd, h1, h2⟩ := hW.split hi ht
    rcases h2 with ⟨_, e⟩ | ⟨hne, _, _⟩
    · rw [hc, hsl] at e
      exact (absPath_inj (k := s.cfg) ht.posix (a := l) (b := w) (plain_proper (hW.pl hi ht)) (by rw [hsl]; exact plain_proper hw.plain) (by rw [hsl]; exact e.symm))
    · exfalso
      obtain ⟨m, h3, h4, h5⟩ := splitpath_shape ht.posix n
      rw [h1] at h3 h5
      dsimp only at h3 h5
      rcases h5 with ⟨e, _⟩ | e | ⟨_, h6⟩
      · exact hne e
      · rw [e, hsl] at h3
        exact hb (by rw [h3]; simp)
      · apply hb
        rw [h3, ← hsl]
        simp [Nat.pos_iff_ne_zero.mp h6]
  subst hlw
  obtain ⟨e, he, ha⟩ := h.absent hk hw hx true
  have hnone : walk s.heap rootRef (l ++ [n]) = none := by rw [walk_append, hx]; rfl
  have run : ∃ s', Verif.mkdir n 0o777 s = (.error (.os e), s') := by
    unfold Verif.mkdir
    rw [M.bind_eq]
    dsimp only [M.get]
    rw [hW.strip hi ht, if_neg (hW.ne hi ht), ht.posix.win]
    simp only [Bool.false_eq_true, if_false, false_and]
    have hpar : s.mkdirParent n = .ok () := by
      obtain ⟨hd, h1, h2⟩ := hW.split hi ht
      have : hd = [] := by
        obtain ⟨m, h3, h4, h5⟩ := splitpath_shape ht.posix n
        rw [h1] at h3 h5
        dsimp only at h3 h5
        rcases h5 with ⟨e, _⟩ | e | ⟨_, h6⟩
        · exact e
        · rw [e, hsl] at h3
          exact absurd (by rw [h3]; simp) hb
        · exact absurd (by rw [h3, ← hsl]; simp [Nat.pos_iff_ne_zero.mp h6]) hb
      subst this
      unfold FS.mkdirParent
      dsimp only
      rw [h1]
      rfl
    have hex : s.existsL (absPath s.cfg.sep (l ++ [n])) = .ok false := by
      have hU : Usable (l ++ [n]) := hm ▸ hu
      have := (h.lexists hk hU).step
      unfold callOn askCall at this
      obtain ⟨t1, _⟩ := this
      rw [(h.treeAt hk _).mpr hnone] at t1
      dsimp only at t1
      rw [← hsl] at t1
      rcases hz : s.existsL (absPath s.cfg.sep (l ++ [n])) with z | b
      · rw [hz] at t1; cases z <;> simp [resOf] at t1
      · rw [hz] at t1; simp [resOf] at t1; rw [t1]
    rw [M.bind_eq, rd_eq (f := fun x => x.mkdirParent n) hpar]
    dsimp only
    rw [hW.norm hi ht, M.bind_eq, rd_eq (f := fun x => x.existsL _) hex]
    dsimp only
    rw [if_neg (by simp)]
    unfold mkdirTail
    rw [M.bind_eq]
    dsimp only [M.get]
    rw [hW.splitR hi ht, M.bind_eq]
    rcases hx : newObj (mkDirObj n (andNot 0o777 s.umask)) s with ⟨r, s1⟩
    have hx0 := hx
    injection hx with h1 h2
    subst h1
    dsimp only
    have e1 : s1.resolve (absPath s.cfg.sep l) = .error (.os e) := by
      subst h2
      exact (((new_same s _).agree hi).resolve (Closed.lt hi) _ _ _).trans he
    unfold Verif.addObject
    rw [if_neg absPath_ne_nil, M.bind_eq, rd_eq (f := fun x => x.resolve _) e1]
    exact ⟨_, rfl⟩
  obtain ⟨s', run⟩ := run
  have hb : RefBase k u (Verif.mkdir n 0o777 s).2 :=
    h.toRefBase.next hk (.mkdir n 0o777) rfl (show 0o777 < 0o10000 by decide) (by simp)
  have eff := mkdir_effect h.reach (h.tree hk) (h.mac hk) (h.within hk) n 0o777
  have hcw : (Verif.mkdir n 0o777 s).2.cwd = s.cwd := (mkdir_pres n 0o777 s hi).ext.cwd
  rw [run] at hb eff hcw
  rw [run]
  rcases eff with ⟨e', s1, h1, h2⟩ | ⟨s1, ld, nm, d, x, h1, _⟩
  · injection h1 with h1 h1'; subst h1'
    obtain ⟨k1, k2⟩ := h.unchanged hk hb h2
    exact ⟨e, rfl, ha, k1, k2, hcw⟩
  · injection h1 with h1; cases h1

/-- what `os.chdir` does -/
theorem RefSt.chdir (hp : TextOk (treeOf s) w p) (hu : Usable (Ref.meaning w p)) :
    RefSt k u (Verif.chdir p s).2 ∧ ∃ w', Usable w' ∧ (Verif.chdir p s).2.cwd = absPath '/' w' ∧
      Ref.Tells (treeOf s) w (.chdir p) (resOf (fun _ => .done) (Verif.chdir p s).1) (treeOf (Verif.chdir p s).2) w' := by
  have hi := h.inv
  have ht := h.tree hk
  have hsl := h.sep hk
  have hW := h.word hk hw hc hlim hp hu
  rw [hW.chdir hi ht]
  unfold Ref.Tells
  dsimp only
  generalize Ref.meaning w p = l at hu hW ⊢
  have hq : s.resolvePath (absPath s.cfg.sep l) = .ok (absPath s.cfg.sep l) :=
    resolvePath_plain h.inv (h.tree hk) s.rc (h.plain hk hu) (h.noLink hk l)
  have hcf := h.confirm hk hu
  rcases h.cases hk l with ⟨h1, h2⟩ | ⟨x, h1, h2, _, h3⟩ | ⟨x, b, h1, h2, _, _, hz, _, h3⟩
  · rw [h1] at hcf
    obtain ⟨e, he, ha⟩ := hcf
    have run : Verif.chdir (absPath s.cfg.sep l) s = (.error (.os e), s) := by
      unfold Verif.chdir
      rw [M.bind_eq, rd_eq (f := fun x => x.resolvePath _) hq]
      dsimp only
      rw [M.bind_eq, rd_eq (f := fun x => x.confirmdir _) he]
    rw [run, h2]
    exact ⟨h, w, hw, hc, ⟨e, ha, rfl, rfl⟩, rfl⟩
  · rw [h1] at hcf
    dsimp only at hcf
    rw [if_pos h2] at hcf
    have run : Verif.chdir (absPath s.cfg.sep l) s = (.ok (), { s with cwd := absPath s.cfg.sep l }) := by
      unfold Verif.chdir
      rw [M.bind_eq, rd_eq (f := fun x => x.resolvePath _) hq]
      dsimp only
      rw [M.bind_eq, rd_eq (f := fun x => x.confirmdir _) hcf]
      dsimp only
      rw [M.bind_eq, rd_eq (f := fun x => x.resolve _) (h.res hk hu h1 true)]
      rfl
    have hr : Reachable (Verif.chdir (absPath s.cfg.sep l) s).2 := reachable_runs h.reach [.chdir (absPath s.cfg.sep l)]
    have hi' := reachable_inv hr
    rw [run] at hr hi'
    rw [run, h3]
    obtain ⟨m, m1, m2, m3, m4⟩ := h.one.mount
    refine ⟨⟨⟨hr, h.cfg, ⟨hi', ht, h.one.root, h.one.ent, ⟨m, m1, m2, fun e => by simp at e, fun e => by simp at e⟩, fun e => by simp at e⟩, h.sane, h.limitless, h.uid, h.umask⟩,
      h.devName, h.noDev, h.kind⟩, l, hu, ?_, rfl, rfl, rfl⟩
    show absPath s.cfg.sep l = _
    rw [hsl]
  · rw [h1] at hcf
    dsimp only at hcf
    rw [if_neg (by simp [h2])] at hcf
    have run : Verif.chdir (absPath s.cfg.sep l) s = (.error (.os .ENOTDIR), s) := by
      unfold Verif.chdir
      rw [M.bind_eq, rd_eq (f := fun x => x.resolvePath _) hq]
      dsimp only
      rw [M.bind_eq, rd_eq (f := fun x => x.confirmdir _) hcf]
    rw [run, h3]
    exact ⟨h, w, hw, hc, ⟨rfl, rfl⟩, rfl⟩
end

namespace Spec
/-- what a program gets, one answer after the other -/
def told : List Ref.Said → FS → List Ref.Res
  | [], _ => []
  | c :: cs, s => (sayOn c s).1 :: told cs (sayOn c s).2

/-- the state afterwards -/
def afterTalk : List Ref.Said → FS → FS
  | [], s => s
  | c :: cs, s => afterTalk cs (sayOn c s).2

/-- everything is said in a current directory where it may be said -/
def AllSayable (k : Cfg) : List Ref.Said → FS → Prop
  | [], _ => True
  | c :: cs, s => Sayable k (treeOf s) (Ref.meaning [] s.cwd) c ∧ AllSayable k cs (sayOn c s).2
end Spec

theorem sayOn_limit {s : FS} (hi : Inv s) (c : Ref.Said) : (sayOn c s).2.limit = s.limit := by
  have key : ∀ {α : Type} (f : α → Ref.Res) (m : M α), Pres m → (doCall f m s).2.limit = s.limit := fun f m hm => (hm s hi).ext.limit
  cases c with
  | getcwd => rfl
  | chdir p =>
    show (Verif.chdir p s).2.limit = s.limit
    unfold Verif.chdir
    rw [M.bind_eq]
    rcases e : rd (fun x => x.resolvePath p) s with ⟨r, s1⟩
    have hs1 : s1 = s := by injection e with _ e; exact e.symm
    subst hs1
    cases r with
    | error _ => rfl
    | ok q =>
      dsimp only
      rw [M.bind_eq]
      rcases e : rd (fun x => x.confirmdir q) s1 with ⟨r, s2⟩
      have hs2 : s2 = s1 := by injection e with _ e; exact e.symm
      subst hs2
      cases r with
      | error _ => rfl
      | ok d =>
        dsimp only
        rw [M.bind_eq]
        rcases e : rd (fun x => x.resolve q) s2 with ⟨r, s3⟩
        have hs3 : s3 = s2 := by injection e with _ e; exact e.symm
        subst hs3
        cases r with
        | error _ => rfl
        | ok z => rfl
  | call c =>
    cases c with
    | mkdir p => exact key _ _ (mkdir_pres _ _)
    | rmdir p => exact key _ _ (rmdir_pres _ _)
    | remove p => exact key _ _ (remove_pres _)
    | rename a b => exact key _ _ (rename_pres _ _ _)
    | link a b => exact key _ _ (createLink_pres _ _ _ _)
    | writeBytes p b => exact key _ _ (pres_bind (openPath_pres _ _ _ _ _) fun h => withFile_pres h (write_pres h b))
    | readBytes p => exact key _ _ (pres_bind (openPath_pres _ _ _ _ _) fun h => withFile_pres h (read_pres h none))
    | replace a b => exact key _ _ (rename_pres _ _ _)
    | makedirs p ok => exact key _ _ (makedirs_pres _ _ _)
    | createDir p => exact key _ _ (createDir_pres _ _)
    | createFile p b => exact key _ _ (createFile_pres _ _ _ _ _ _)
    | removeAll p => exact key _ _ (removeObject_pres _)
    | removedirs p => exact key _ _ (removedirs_pres _)
    | _ => rfl

/-- **C86** (one call). In a state that stands for a tree and a current directory of the reference file system, whatever may be said is
answered as the reference file system answers it, and the state afterwards stands for the tree and the directory it then has. -/
theorem talks_step {k : Cfg} (hk : Linux k) {u : Nat} (hu : u < 0o10000) (hr : u &&& PERM_READ = 0) {s : FS} (h : RefSt k u s) {w : List Str}
    (hw : Usable w) (hc : s.cwd = absPath '/' w) (hlim : s.limit ≠ 0) {c : Ref.Said} (hs : Sayable k (treeOf s) w c) :
    RefSt k u (sayOn c s).2 ∧ ∃ w', Usable w' ∧ (sayOn c s).2.cwd = absPath '/' w' ∧
      Ref.Tells (treeOf s) w c (sayOn c s).1 (treeOf (sayOn c s).2) w' := by
  cases c with
  | getcwd => exact ⟨h, w, hw, hc, by rw [← hc]; rfl, rfl, rfl⟩
  | chdir p => exact h.chdir hk hw hc hlim hs.1 hs.2
  | call c =>
    by_cases hl : Ref.Lost (treeOf s) w c
    · obtain ⟨h1, p, rfl, h2⟩ := id hl
      obtain ⟨e, r1, r2, r3, r4, r5⟩ := h.lost hk hw hc hlim hs.2.1.1 hs.2.1.2 hs.1.1 h2 ((h.treeAt hk w).mp h1)
      refine ⟨r3, w, hw, r5.trans hc, rfl, Or.inr ⟨hl, e, r2, ?_, r4⟩⟩
      show resOf _ (Verif.mkdir p 0o777 s).1 = _
      rw [r1]; rfl
    · have e := h.sayCall hk hw hc hlim hs hl
      have hst := refines_step hk hu hr h hs.1
      show RefSt k u (sayCall c s).2 ∧ ∃ w', Usable w' ∧ (sayCall c s).2.cwd = absPath '/' w' ∧ Ref.Tells (treeOf s) w (.call c) (sayCall c s).1 (treeOf (sayCall c s).2) w'
      rw [e]
      exact ⟨hst.st, w, hw, (callOn_cwd h.inv _).trans hc, rfl, Or.inl ⟨hl, hst.step⟩⟩

theorem talks_from {k : Cfg} (hk : Linux k) {u : Nat} (hu : u < 0o10000) (hr : u &&& PERM_READ = 0) (cs : List Ref.Said) :
    ∀ {s : FS} {w : List Str}, RefSt k u s → Usable w → s.cwd = absPath '/' w → s.limit ≠ 0 → AllSayable k cs s →
      ∃ t' w', Ref.Talk (treeOf s) w cs (told cs s) t' w' := by
  induction cs with
  | nil => intro s w _ _ _ _ _; exact ⟨_, _, .nil _ _⟩
  | cons c cs ih =>
    intro s w h hw hc hlim ha
    obtain ⟨h1, w1, h2, h3, h4⟩ := talks_step hk hu hr h hw hc hlim (by
      have e : Ref.meaning [] s.cwd = w := by
        unfold Ref.meaning
        rw [hc, List.reverse_nil, loc_absPath (plain_proper hw.plain), List.reverse_reverse]
      have := ha.1
      rwa [e] at this)
    obtain ⟨t', w', h5⟩ := ih h1 h2 h3 (by rw [sayOn_limit h.inv]; exact hlim) ha.2
    exact ⟨t', w', .cons h4 h5⟩

/-- **C86**. A new fake Linux filesystem of unlimited size, used by root with a umask that leaves the owner's read permission, answers a
program that changes its current directory and writes its paths as it likes as the reference file system does. -/
theorem talks {k : Cfg} (hk : Linux k) {limit : Nat} (hlim : limit ≠ 0) (gid : Nat) (clock : Int) {u : Nat} (hu : u < 0o10000) (hr : u &&& PERM_READ = 0) (cs : List Ref.Said)
    (hc : AllSayable k cs (initFS k limit 0 gid u clock none)) :
    ∃ t w, Ref.Talk Ref.Tree.new [] cs (told cs (initFS k limit 0 gid u clock none)) t w := by
  obtain ⟨h1, h2⟩ := init_refSt hk limit gid u clock
  rw [← h2]
  refine talks_from hk hu hr cs h1 ⟨by simp, by simp⟩ ?_ hlim hc
  show [k.sep] = _
  rw [hk.sep]; rfl

/-! ## A history -/

instance (k : Cfg) (t : Ref.Tree) (w : Ref.Path) (c : Ref.Said) : Decidable (Sayable k t w c) := by
  cases c with
  | call c => cases c <;> simp only [Sayable] <;> infer_instance
  | chdir p => simp only [Sayable]; infer_instance
  | getcwd => simp only [Sayable]; infer_instance

instance allSayableDec (k : Cfg) : ∀ (cs : List Ref.Said) (s : FS), Decidable (AllSayable k cs s)
  | [], _ => isTrue trivial
  | c :: cs, s => by
    have := allSayableDec k cs (sayOn c s).2
    unfold AllSayable; infer_instance

/-- `makedirs("p/q"); chdir("p"); "f".write_bytes; listdir("."); rename("./f", "q//g"); chdir("q"); …`, then the current directory is removed
and its parent becomes a file -/
def talk : List Ref.Said :=
  [.call (.makedirs "p/q".toList false), .chdir "p".toList, .getcwd, .call (.writeBytes "f".toList [1, 2]), .call (.listdir ".".toList),
   .call (.rename "./f".toList "q//g".toList), .call (.readBytes "q/../q/g".toList), .chdir "../p/./q".toList, .getcwd,
   .call (.createDir "../q/../e".toList), .call (.rmdir "../../p/e".toList), .call (.readBytes "g".toList), .call (.samefile "g".toList "/p/./q/g".toList),
   .call (.mkdir "d".toList), .chdir "g".toList, .chdir "z".toList, .call (.link "g".toList "h".toList), .call (.removeAll "/p".toList),
   .call (.exists ".".toList), .call (.mkdir "d".toList), .call (.mkdir "./d".toList), .call (.createFile "/p".toList []), .call (.mkdir "d".toList),
   .call (.mkdir "./d".toList), .call (.isdir "/".toList), .chdir ".".toList, .getcwd, .chdir "/".toList, .getcwd, .call (.isfile "p".toList)]

example : AllSayable demoCfg talk (initFS demoCfg 50 0 0 0o022 7 none) := by decide +kernel

example : told talk (initFS demoCfg 50 0 0 0o022 7 none) =
    [.done, .done, .text "/p".toList, .num 2, .names [['q'], ['f']], .done, .bytes [1, 2], .done, .text "/p/q".toList, .done, .done, .bytes [1, 2], .bool true, .done,
      .err .ENOTDIR, .err .ENOENT, .done, .done, .bool false, .err .ENOENT, .err .ENOENT, .done, .err .ENOTDIR, .err .ENOENT, .bool true,
      .err .ENOTDIR, .text "/p/q".toList, .done, .text ['/'], .bool true] := by decide +kernel

end Verif
