import Verif.Refine
/-!
# C74: the fake filesystem refines the reference file system
-/

namespace Verif
open Py Spec Cfg

namespace Spec
/-- what a caller gets from a call: its value, the `errno` of the OSError it raises, or another exception -/
def resOf {α : Type} (f : α → Ref.Res) : Except Err α → Ref.Res
  | .ok a => f a
  | .error (.os e) => .err e
  | .error _ => .crash

/-- the call `m`, its result seen through `f` -/
def doCall {α : Type} (f : α → Ref.Res) (m : M α) (s : FS) : Ref.Res × FS := (resOf f (m s).1, (m s).2)

/-- the question `q`, its answer seen through `f` -/
def askCall {α : Type} (f : α → Ref.Res) (q : FS → Except Err α) (s : FS) : Ref.Res × FS := (resOf f (q s), s)

/-- The calls of the reference file system, made on the fake filesystem with absolute paths: `os.mkdir`, `os.rmdir`, `os.remove`, `os.rename`,
`os.link`, `Path.write_bytes`, `Path.read_bytes`, `os.listdir`, `os.path.exists`, `os.path.isfile`, `os.path.isdir`, `os.path.getsize`,
`os.replace`, `os.makedirs`, `fs.create_dir`, `fs.create_file`, `fs.remove_object`, `os.path.samefile`, `os.path.lexists`,
`os.removedirs`. -/
def callOn : Ref.Call → FS → Ref.Res × FS
  | .mkdir p => doCall (fun _ => .done) (mkdir (absPath '/' p) 0o777)
  | .rmdir p => doCall (fun _ => .done) (rmdir (absPath '/' p))
  | .remove p => doCall (fun _ => .done) (remove (absPath '/' p))
  | .rename a b => doCall (fun _ => .done) (rename (absPath '/' a) (absPath '/' b))
  | .link a b => doCall (fun _ => .done) (link (absPath '/' a) (absPath '/' b))
  | .writeBytes p b => doCall (fun n => .num n) (writeBytes (absPath '/' p) b)
  | .readBytes p => doCall (fun b => .bytes b) (readBytes (absPath '/' p))
  | .listdir p => askCall (fun l => .names l) (fun s => s.listdir (absPath '/' p))
  | .exists p => askCall (fun b => .bool b) (fun s => s.exists_ (absPath '/' p))
  | .isfile p => askCall (fun b => .bool b) (fun s => s.isFile (absPath '/' p))
  | .isdir p => askCall (fun b => .bool b) (fun s => s.isDir (absPath '/' p))
  | .getsize p => askCall (fun n => .num n) (fun s => s.getsize (absPath '/' p))
  | .replace a b => doCall (fun _ => .done) (rename (absPath '/' a) (absPath '/' b) true)
  | .makedirs p ok => doCall (fun _ => .done) (makedirs (absPath '/' p) 0o777 ok)
  | .createDir p => doCall (fun _ => .done) (createDir (absPath '/' p))
  | .createFile p b => doCall (fun _ => .done) (createFile (absPath '/' p) (S_IFREG ||| PERM_DEF_FILE) (some b))
  | .removeAll p => doCall (fun _ => .done) (removeObject (absPath '/' p))
  | .samefile p q => askCall (fun b => .bool b) (fun s => s.samefile (absPath '/' p) (absPath '/' q))
  | .lexists p => askCall (fun b => .bool b) (fun s => s.existsL (absPath '/' p))
  | .removedirs p => doCall (fun _ => .done) (removedirs (absPath '/' p))

/-- The calls of a history: locations outside `/dev`; the root is only asked, not changed; no rename between two names that differ only in
case (there the fake filesystem does not behave like a case-sensitive one). -/
def Allowed (k : Cfg) : Ref.Call → Prop
  | .mkdir p | .rmdir p | .remove p | .writeBytes p _ | .createFile p _ | .removeAll p | .removedirs p => Usable p ∧ p ≠ []
  | .rename a b | .replace a b => Usable a ∧ a ≠ [] ∧ Usable b ∧ b ≠ [] ∧ (k.lower (absPath '/' a) = k.lower (absPath '/' b) → a = b)
  | .link a b => Usable a ∧ Usable b ∧ b ≠ []
  | .readBytes p | .listdir p | .exists p | .isfile p | .isdir p | .getsize p | .makedirs p _ | .createDir p | .lexists p => Usable p
  | .samefile p q => Usable p ∧ Usable q

/-- The call is answered as in the reference file system, and the state after it stands for its tree. -/
structure Refines (k : Cfg) (u : Nat) (s : FS) (c : Ref.Call) : Prop where
  st : RefSt k u (callOn c s).2
  step : Ref.Step (treeOf s) c (callOn c s).1 (treeOf (callOn c s).2)
end Spec

theorem snoc_of_ne {p : List Str} (h : p ≠ []) : ∃ l n, p = l ++ [n] := by
  rcases List.eq_nil_or_concat p with rfl | ⟨l, n, rfl⟩
  · exact absurd rfl h
  · exact ⟨l, n, List.concat_eq_append ..⟩

section
variable {k : Cfg} {u : Nat} {s : FS} (hk : Linux k) (h : RefSt k u s)
include hk h

theorem RefSt.ask {α : Type} {f : α → Ref.Res} {q : FS → Except Err α} {c : Ref.Call} (hc : callOn c = askCall f q)
    (hs : Ref.Step (treeOf s) c (resOf f (q s)) (treeOf s)) : Refines k u s c := by
  refine ⟨?_, ?_⟩ <;> rw [hc]
  · exact h
  · exact hs

theorem RefSt.noSep {l : List Str} (hl : Usable l) : s.cfg.endsWithSep (absPath s.cfg.sep l) = false :=
  absCanon_not_endsWithSep (h.tree hk).posix (absCanon_names (plain_proper (h.plain hk hl)))

/-! ## Questions -/

theorem RefSt.exists {p : List Str} (hp : Usable p) : Refines k u s (.exists p) := by
  refine h.ask hk rfl ?_
  rw [← h.sep hk, h.ex hk hp]
  refine ⟨?_, rfl⟩
  unfold treeOf
  simp [resOf]

theorem RefSt.mode_dir {l : List Str} {x : Ref} (hx : walk s.heap rootRef l = some x) : (ifmt (s.heap x).mode == S_IFDIR) = (s.heap x).isDir :=
  (h.genuine hk x (walk_lt h.inv _ (root_lt h.inv) hx)).symm

theorem RefSt.mode_file {l : List Str} {x : Ref} (hx : walk s.heap rootRef l = some x) : (ifmt (s.heap x).mode == S_IFREG) = !(s.heap x).isDir := by
  have h1 := h.mode_dir hk hx
  obtain ⟨_, hd | ⟨b, hb, hr, _⟩⟩ := (h.kind l x hx).2
  · rw [hd] at h1 ⊢
    rw [beq_iff_eq] at h1
    rw [h1]; rfl
  · have : (s.heap x).isDir = false := by unfold Obj.isDir; rw [hb]
    rw [this]; exact hr

theorem RefSt.isfile {p : List Str} (hp : Usable p) : Refines k u s (.isfile p) := by
  refine h.ask hk rfl ?_
  refine ⟨?_, rfl⟩
  have := h.ofType hk hp S_IFREG true
  unfold FS.isFile FS.isFileG
  rw [← h.sep hk, this]
  refine ⟨_, rfl, ?_⟩
  rw [h.isFile_iff hk]
  cases hw : walk s.heap rootRef p with
  | none => simp
  | some x => simp only [h.mode_file hk hw]; simp

theorem RefSt.isdir {p : List Str} (hp : Usable p) : Refines k u s (.isdir p) := by
  refine h.ask hk rfl ?_
  refine ⟨?_, rfl⟩
  have := h.ofType hk hp S_IFDIR true
  unfold FS.isDir FS.isDirG
  rw [← h.sep hk, this]
  show Ref.Res.bool _ = _
  congr 1
  rcases h.cases hk p with ⟨h1, h2⟩ | ⟨x, h1, h2, _, h3⟩ | ⟨x, b, h1, h2, _, _, _, _, h3⟩
  · rw [h1, h2]; rfl
  · rw [h3, h1]; simp only [h.mode_dir hk h1, h2]; decide
  · rw [h3, h1]; simp only [h.mode_dir hk h1, h2]; rfl

theorem RefSt.getsize {p : List Str} (hp : Usable p) : Refines k u s (.getsize p) := by
  refine h.ask hk rfl ?_
  rw [← h.sep hk]
  rw [Ref.Step]
  unfold FS.getsize
  rcases h.cases hk p with ⟨h1, h2⟩ | ⟨x, h1, h2, _, h3⟩ | ⟨x, b, h1, h2, _, _, hz, _, h3⟩
  · rw [h2]
    obtain ⟨e, he, ha⟩ := h.absent hk hp h1 true
    rw [he]
    exact ⟨e, ha, rfl, rfl⟩
  · rw [h3, h.res hk hp h1]
    simp only [bind, Except.bind, h.noSep hk hp, Bool.false_and, Bool.false_eq_true, if_false]
    exact ⟨⟨_, rfl⟩, trivial⟩
  · rw [h3, h.res hk hp h1]
    simp only [bind, Except.bind, h.noSep hk hp, Bool.false_and, Bool.false_eq_true, if_false]
    refine ⟨?_, trivial⟩
    unfold FS.stSize
    rw [if_neg (fun e => by rw [(h.tree hk).posix.win] at e; simp at e), hz]
    rfl

/-- The directory bit is the directory. -/
theorem RefSt.bit {l : List Str} {x : Ref} (hx : walk s.heap rootRef l = some x) : ((s.heap x).mode &&& S_IFDIR = 0) ↔ (s.heap x).isDir = false := by
  have hlt := walk_lt h.inv _ (root_lt h.inv) hx
  constructor
  · intro e
    cases hd : (s.heap x).isDir with
    | false => rfl
    | true =>
      have h1 : (s.heap x).mode &&& S_IFMT = S_IFDIR := (h.sane x hlt).1 hd
      have h2 : (s.heap x).mode &&& S_IFMT &&& S_IFDIR = S_IFDIR := by rw [h1]; rfl
      rw [Nat.and_assoc, show S_IFMT &&& S_IFDIR = S_IFDIR from rfl, e] at h2
      exact absurd h2 (by decide)
  · intro e
    by_contra hc
    have := h.sane.bit x hlt hc
    rw [this] at e; simp at e

theorem RefSt.confirm {p : List Str} (hp : Usable p) :
    match walk s.heap rootRef p with
    | none => ∃ e, s.confirmdir (absPath s.cfg.sep p) = .error (.os e) ∧ Ref.Absent (treeOf s) p e
    | some x => s.confirmdir (absPath s.cfg.sep p) = if (s.heap x).isDir then .ok x else .error (.os .ENOTDIR) := by
  unfold FS.confirmdir
  cases hw : walk s.heap rootRef p with
  | none =>
    obtain ⟨e, he, ha⟩ := h.absent hk hp hw true
    rw [he]
    exact ⟨e, rfl, ha⟩
  | some x =>
    rw [h.res hk hp hw]
    simp only [bind, Except.bind, h.bit hk hw]
    cases (s.heap x).isDir <;> rfl

theorem RefSt.listdir {p : List Str} (hp : Usable p) : Refines k u s (.listdir p) := by
  refine h.ask hk rfl ?_
  rw [← h.sep hk]
  have hc := h.confirm hk hp
  rw [Ref.Step]
  have hq : s.resolvePath (absPath s.cfg.sep p) = .ok (absPath s.cfg.sep p) :=
    resolvePath_plain h.inv (h.tree hk) s.rc (h.plain hk hp) (h.noLink hk p)
  have e0 : s.listdir (absPath s.cfg.sep p) = (s.confirmdir (absPath s.cfg.sep p)).bind fun r => match (s.heap r).content with
      | .dir es => .ok (es.map (·.1))
      | .file _ => .error .attributeError := by
    unfold FS.listdir; rw [hq]; rfl
  rcases h.cases hk p with ⟨h1, h2⟩ | ⟨x, h1, h2, _, h3⟩ | ⟨x, b, h1, h2, _, _, hz, _, h3⟩
  · rw [h2]
    rw [h1] at hc
    obtain ⟨e, he, ha⟩ := hc
    rw [e0, he]
    exact ⟨e, ha, rfl, rfl⟩
  · rw [h1] at hc
    dsimp only at hc
    rw [h2, if_pos rfl] at hc
    rw [h3]
    refine ⟨?_, rfl⟩
    rcases hl : s.listdir (absPath s.cfg.sep p) with e | ns
    · exfalso
      rw [e0, hc] at hl
      unfold Obj.isDir at h2
      simp only [Except.bind] at hl
      split at hl
      · simp at hl
      · rename_i hcc; rw [hcc] at h2; simp at h2
    · obtain ⟨q, d, g1, g2, g3, g4, g5⟩ := listdir_entries h.reach hl
      rw [hq] at g1
      injection g1 with g1; subst g1
      have g2' : s.resolve (absPath s.cfg.sep p) true true = .ok d := g2
      rw [h.res hk hp h1] at g2'
      injection g2' with g2'; subst g2'
      refine ⟨ns, rfl, g4, fun n => ?_⟩
      rw [g5, Ne, h.treeAt hk, walk_append, h1]
      cases ha : alookup n (s.heap x).entries <;> simp [walk, ha]
  · rw [h1] at hc
    dsimp only at hc
    rw [h2] at hc
    rw [h3, e0, hc]
    exact ⟨rfl, rfl⟩

/-! ## Changes -/

omit hk h in
theorem read_kept {m u : Nat} (hm : m &&& PERM_READ ≠ 0) (hu : u &&& PERM_READ = 0) : andNot m u &&& PERM_READ ≠ 0 := by
  intro e
  apply hm
  apply Nat.eq_of_testBit_eq
  intro i
  have h1 := congrArg (Nat.testBit · i) e
  have h2 := congrArg (Nat.testBit · i) hu
  simp only [Nat.testBit_and, testBit_andNot, Nat.zero_testBit] at h1 h2 ⊢
  generalize m.testBit i = a at h1 ⊢
  generalize u.testBit i = b at h1 h2
  generalize PERM_READ.testBit i = c at h1 h2 ⊢
  clear e hu hm
  revert a b c; decide

theorem RefSt.did {α : Type} {f : α → Ref.Res} {m : M α} {c : Ref.Call} (hc : callOn c = doCall f m)
    (hs : RefSt k u (m s).2 ∧ Ref.Step (treeOf s) c (resOf f (m s).1) (treeOf (m s).2)) : Refines k u s c := by
  refine ⟨?_, ?_⟩ <;> rw [hc]
  · exact hs.1
  · exact hs.2

theorem RefSt.child {p : List Str} {n : Str} {d : Ref} (hd : walk s.heap rootRef p = some d) :
    walk s.heap rootRef (p ++ [n]) = alookup n (s.heap d).entries := by
  rw [walk_append, hd]
  simp [walk]

theorem RefSt.mkdir (hu : u &&& PERM_READ = 0) {p : List Str} {n : Str} (hp : Usable (p ++ [n])) : Refines k u s (.mkdir (p ++ [n])) := by
  refine h.did hk (f := fun _ => .done) (m := Verif.mkdir (absPath s.cfg.sep (p ++ [n])) 0o777) (by rw [h.sep hk]; rfl) ?_
  have hb : RefBase k u (Verif.mkdir (absPath s.cfg.sep (p ++ [n])) 0o777 s).2 :=
    h.toRefBase.next hk (.mkdir (absPath s.cfg.sep (p ++ [n])) 0o777) rfl (show 0o777 < 0o10000 by decide) (by simp)
  have out := mkdir_outcome h.reach (h.tree hk) (h.mac hk) (h.within hk) (h.genuine hk) (h.readable hk) (h.plain hk hp) (h.noLink hk p)
    (h.ne_dev hk hp.init) (h.ne_dev hk hp) (fun x hx => (h.kind _ _ hx).2.1) 0o777
  have eff := mkdir_effect h.reach (h.tree hk) (h.mac hk) (h.within hk) (absPath s.cfg.sep (p ++ [n])) 0o777
  rw [stripTrailing_canon (h.tree hk).posix (absCanon_names (plain_proper (h.plain hk hp)))] at eff
  rw [Ref.Step, Ref.parent, List.dropLast_concat]
  rcases hr : Verif.mkdir (absPath s.cfg.sep (p ++ [n])) 0o777 s with ⟨r, s'⟩
  rw [hr] at hb out
  dsimp only at hb out ⊢
  rcases eff with ⟨e, s1, h1, h2⟩ | ⟨s1, ld, nm, d, x, h1, h2, h3, h4, h5, _⟩
  · rw [hr] at h1
    injection h1 with h1 h1'; subst h1 h1'
    obtain ⟨k1, k2⟩ := h.unchanged hk hb h2
    refine ⟨k1, ?_⟩
    rw [k2]
    rcases h.cases hk p with ⟨c1, c2⟩ | ⟨d, c1, c2, _, c3⟩ | ⟨d, b, c1, c2, _, _, _, _, c3⟩
    · rw [c2]
      rw [c1] at out
      injection out with out; subst out
      exact ⟨rfl, rfl⟩
    · rw [c3]
      rw [c1] at out
      dsimp only at out ⊢
      rw [if_neg (by simp [c2])] at out
      have hnone : treeOf s (p ++ [n]) = none ↔ alookup n (s.heap d).entries = none := by rw [h.treeAt hk, h.child hk c1]
      split at out
      · rename_i hs
        injection out with out; subst out
        rw [if_neg (fun e => by rw [hnone.mp e] at hs; simp at hs)]
        exact ⟨rfl, rfl⟩
      · rw [h.isRoot hk] at out; simp at out
    · rw [c3]
      rw [c1] at out
      dsimp only at out ⊢
      rw [if_pos c2] at out
      injection out with out; subst out
      exact ⟨rfl, rfl⟩
  · rw [hr] at h1
    injection h1 with h1 h1'; subst h1 h1'
    obtain ⟨rfl, rfl, hd⟩ := h.names hk hp h2
    have hdir : (s'.heap x).isDir = true := by unfold Obj.isDir; rw [h4]
    have hkd : Kind (s'.heap x) := by
      refine ⟨?_, Or.inl hdir⟩
      rw [h5, h.umask]
      have := read_kept (m := 0o777) (u := u) (by decide) hu
      intro e
      apply this
      rw [Nat.and_or_distrib_right] at e
      exact (Nat.or_eq_zero_iff.mp e).2
    obtain ⟨k1, k2⟩ := h.newEntry hk hb hp h2.dir h3 hkd
    refine ⟨k1, ?_⟩
    rw [k2, h.at hk hd, nodeOf_dir h2.dir, nodeOf_dir hdir]
    dsimp only
    rw [if_pos ((h.treeAt hk _).mpr h3.name.absent)]
    exact ⟨rfl, rfl⟩

theorem RefSt.absent_snoc {p : List Str} {n : Str} {e : Errno} (hp : treeOf s p = none) (he : Ref.Absent (treeOf s) p e) : Ref.Absent (treeOf s) (p ++ [n]) e := by
  have key : (∃ pre rest, p ++ [n] = pre ++ rest ∧ rest ≠ [] ∧ (treeOf s).isFile pre) ↔ (∃ pre rest, p = pre ++ rest ∧ rest ≠ [] ∧ (treeOf s).isFile pre) := by
    constructor
    · rintro ⟨pre, rest, e, hne, hf⟩
      obtain ⟨r, w, rfl⟩ := snoc_of_ne hne
      rw [← List.append_assoc] at e
      have := (List.append_inj' e rfl).1
      refine ⟨pre, r, this, ?_, hf⟩
      rintro rfl
      rw [List.append_nil] at this
      subst this
      obtain ⟨i, b, hb⟩ := hf
      rw [hp] at hb; simp at hb
    · rintro ⟨pre, rest, e, hne, hf⟩
      exact ⟨pre, rest ++ [n], by rw [e, List.append_assoc], by simp, hf⟩
  unfold Ref.Absent Ref.Blocked at *
  rw [key]; exact he

/-- a missing name in something that is there -/
theorem RefSt.absent_last {p : List Str} {n : Str} {d : Ref} (hd : walk s.heap rootRef p = some d) :
    Ref.Absent (treeOf s) (p ++ [n]) (if (s.heap d).isDir then .ENOENT else .ENOTDIR) := by
  cases hdir : (s.heap d).isDir with
  | false => exact Or.inl ⟨⟨p, [n], rfl, by simp, (h.isFile_iff hk p).mpr ⟨d, hd, hdir⟩⟩, rfl⟩
  | true =>
    refine Or.inr ⟨?_, rfl⟩
    rintro ⟨pre, rest, e, hne, hf⟩
    obtain ⟨r, w, rfl⟩ := snoc_of_ne hne
    rw [← List.append_assoc] at e
    have := (List.append_inj' e rfl).1
    subst this
    obtain ⟨x, hx, hf⟩ := (h.isFile_iff hk pre).mp hf
    rw [walk_append, hx, Option.bind_some] at hd
    have hent : (s.heap x).entries = [] := mem_entries_nil hf
    cases r with
    | nil => simp [walk] at hd; subst hd; rw [hdir] at hf; simp at hf
    | cons a r => simp [walk, hent, alookup] at hd

theorem RefSt.remove_absent {p : List Str} {n : Str} (hp : Usable (p ++ [n])) (hd : walk s.heap rootRef p = none) :
    ∃ e, Verif.remove (absPath s.cfg.sep (p ++ [n])) s = (.error (.os e), s) ∧ Ref.Absent (treeOf s) (p ++ [n]) e := by
  obtain ⟨e, he, ha⟩ := h.absent hk hp.init hd false
  refine ⟨e, ?_, h.absent_snoc hk ((h.treeAt hk p).mpr hd) ha⟩
  have hw : walk s.heap rootRef (p ++ [n]) = none := by rw [walk_append, hd]; rfl
  have ht := h.tree hk
  have hpl := plain_proper (h.plain hk hp)
  have hchk : s.removeCheckPath (absPath s.cfg.sep (p ++ [n])) = .ok () := by
    unfold FS.removeCheckPath
    rw [h.canon hk hp]
    dsimp only
    rw [h.noSep hk hp, if_neg (by simp), h.ex hk hp, hw]
    rfl
  unfold Verif.remove
  rw [M.bind_eq, rd_eq (f := fun s => s.removeCheckPath _) hchk]
  show removeObject (s.absnorm (absPath s.cfg.sep (p ++ [n]))) s = _
  rw [h.canon hk hp]
  unfold removeObject
  rw [M.bind_eq]
  dsimp only [M.get]
  rw [originalPath_tree ht.cs, h.canon hk hp]
  rw [if_neg (by rw [isRootPath_tree ht]; simpa using absPath_snoc_ne_root (fun w hw => hpl w (by simp [hw])) (hpl n (by simp)))]
  rw [splitpath_absPath ht.posix (fun w hw => hpl w (by simp [hw])) (hpl n (by simp))]
  unfold M.tryCatch
  dsimp only
  rw [M.bind_eq, rd_eq (f := fun x => x.resolve (absPath s.cfg.sep p) true false) he]
  rfl

theorem RefSt.remove {p : List Str} {n : Str} (hp : Usable (p ++ [n])) : Refines k u s (.remove (p ++ [n])) := by
  refine h.did hk (f := fun _ => .done) (m := Verif.remove (absPath s.cfg.sep (p ++ [n]))) (by rw [h.sep hk]; rfl) ?_
  have hb : RefBase k u (Verif.remove (absPath s.cfg.sep (p ++ [n])) s).2 :=
    h.toRefBase.next hk (.remove (absPath s.cfg.sep (p ++ [n]))) rfl trivial (by simp)
  rw [Ref.Step]
  cases hd : walk s.heap rootRef p with
  | none =>
    obtain ⟨e, h1, h2⟩ := h.remove_absent hk hp hd
    rw [h1]
    refine ⟨h, ?_⟩
    rw [(h.treeAt hk (p ++ [n])).mpr (by rw [walk_append, hd]; rfl)]
    exact ⟨e, h2, rfl, rfl⟩
  | some d =>
    have out := remove_outcome h.reach (h.tree hk) (h.mac hk) (h.within hk) (h.genuine hk) (h.readable hk) (h.spot hk hp hd)
    have hc := h.child hk (n := n) hd
    rcases remove_effect h.reach (h.tree hk) (h.mac hk) (h.within hk) (h.genuine hk) (h.nodev hk) (h.ordinary hk hp) with
      ⟨e, h1⟩ | ⟨s', ld, nm, d', x, h1, h2, h3, h4, _⟩
    · rw [h1] at out ⊢
      refine ⟨h, ?_⟩
      dsimp only at out ⊢
      rcases h.cases hk (p ++ [n]) with ⟨c1, c2⟩ | ⟨y, c1, c2, _, c3⟩ | ⟨y, b, c1, c2, _, _, _, _, c3⟩
      · rw [c2]
        rw [← hc, c1] at out
        injection out with out; subst out
        exact ⟨_, h.absent_last hk hd, rfl, rfl⟩
      · rw [c3]
        rw [← hc, c1] at out
        dsimp only at out
        rw [if_pos c2] at out
        injection out with out; subst out
        exact ⟨rfl, rfl⟩
      · rw [← hc, c1] at out
        dsimp only at out
        rw [if_neg (by simp [c2]), if_pos (h.may hk d)] at out
        simp at out
    · obtain ⟨rfl, rfl, hd'⟩ := h.names hk hp h2
      rw [hd] at hd'
      injection hd' with hd'; subst hd'
      rw [h1] at hb ⊢
      dsimp only at hb ⊢
      obtain ⟨k1, k2⟩ := h.entryGone hk hb h2.dir h3 hd (mem_entries_nil h4)
      refine ⟨k1, ?_⟩
      rw [k2]
      rw [h3.was] at hc
      rcases h.cases hk (ld ++ [nm]) with ⟨c1, c2⟩ | ⟨y, c1, c2, _, c3⟩ | ⟨y, b, c1, c2, _, _, _, _, c3⟩
      · rw [c1] at hc; simp at hc
      · rw [c1] at hc; injection hc with hc; subst hc; rw [c2] at h4; simp at h4
      · rw [c3]; exact ⟨rfl, rfl⟩

theorem RefSt.rmdir {p : List Str} {n : Str} (hp : Usable (p ++ [n])) : Refines k u s (.rmdir (p ++ [n])) := by
  refine h.did hk (f := fun _ => .done) (m := Verif.rmdir (absPath s.cfg.sep (p ++ [n]))) (by rw [h.sep hk]; rfl) ?_
  have hb : RefBase k u (Verif.rmdir (absPath s.cfg.sep (p ++ [n])) false s).2 :=
    h.toRefBase.next hk (.rmdir (absPath s.cfg.sep (p ++ [n]))) rfl trivial (by simp)
  have ht := h.tree hk
  have hcf := h.confirm hk hp
  have hfail : ∀ e, s.confirmdir (absPath s.cfg.sep (p ++ [n])) = .error e → Verif.rmdir (absPath s.cfg.sep (p ++ [n])) false s = (.error e, s) := by
    intro e he
    have hchk : s.rmdirCheck (absPath s.cfg.sep (p ++ [n])) false = .error e := by
      unfold FS.rmdirCheck
      rw [if_neg (absPath_ne_dot ht.posix)]
      dsimp only
      rw [h.canon hk hp, he]
      rfl
    unfold Verif.rmdir
    rw [M.bind_eq, rd_eq (f := fun s => s.rmdirCheck _ false) hchk]
  rw [Ref.Step]
  rcases h.cases hk (p ++ [n]) with ⟨c1, c2⟩ | ⟨y, c1, c2, _, c3⟩ | ⟨y, b, c1, c2, _, _, _, _, c3⟩
  · rw [c1] at hcf
    obtain ⟨e, h1, h2⟩ := hcf
    rw [hfail _ h1]
    refine ⟨h, ?_⟩
    rw [c2]
    exact ⟨e, h2, rfl, rfl⟩
  · cases hd : walk s.heap rootRef p with
    | none => rw [walk_append, hd] at c1; simp at c1
    | some d =>
      have hc := h.child hk (n := n) hd
      rw [c1] at hc
      have hdir : (s.heap d).isDir = true := isDir_of_entry (alookup_mem hc.symm)
      have out := rmdir_outcome h.reach ht (h.within hk) (h.genuine hk) (h.readable hk) (h.spot hk hp hd) hdir (h.noLink hk _)
        (fun e he => by rw [← hc] at he; injection he with he; subst he; exact Or.inl c2)
      rw [← hc] at out
      dsimp only at out
      rw [if_neg (by simp [c2]), if_pos (h.may hk d)] at out
      have eff := rmdir_spec h.inv (h.within hk) ht (h.genuine hk) (h.nodev hk) (h.mac hk) (h.ordinary hk hp)
      unfold wp at eff
      rcases hr : Verif.rmdir (absPath s.cfg.sep (p ++ [n])) false s with ⟨r, s'⟩
      rw [hr] at hb out eff
      dsimp only at hb out eff ⊢
      rcases eff with ⟨e, rfl, rfl⟩ | ⟨ld, nm, d', x, rfl, h2, h3, _, h4, _⟩
      · refine ⟨h, ?_⟩
        rw [c3]
        right
        rw [h.empty_iff hk c1]
        split at out
        · rename_i hne
          injection out with out; subst out
          exact ⟨hne, rfl, rfl⟩
        · simp at out
      · obtain ⟨rfl, rfl, hd'⟩ := h.names hk hp h2
        rw [hd] at hd'
        injection hd' with hd'; subst hd'
        have hx : x = y := by have := h3.was; rw [← hc] at this; injection this with this; exact this.symm
        subst hx
        have hemp : (s.heap x).entries = [] := by
          by_contra hne
          rw [if_pos hne] at out; simp at out
        have hg := h3.entryGone h.inv hb.one.inv ht hd h4
        obtain ⟨k1, k2⟩ := h.entryGone hk hb hdir hg hd hemp
        refine ⟨k1, ?_⟩
        rw [k2, c3]
        left
        exact ⟨(h.empty_iff hk c1).mpr hemp, rfl, rfl⟩
  · rw [c1] at hcf
    dsimp only at hcf
    rw [c2, if_neg (by simp)] at hcf
    rw [hfail _ hcf]
    refine ⟨h, ?_⟩
    rw [c3]
    exact ⟨rfl, rfl⟩

theorem RefSt.dev {l : List Str} {x : Ref} (hx : walk s.heap rootRef l = some x) : (s.heap x).dev = some 1 := by
  rcases List.eq_nil_or_concat l with rfl | ⟨p, n, rfl⟩
  · simp [walk] at hx; subst hx; exact h.one.root
  · rw [List.concat_eq_append, walk_append] at hx
    cases hd : walk s.heap rootRef p with
    | none => rw [hd] at hx; simp at hx
    | some d =>
      rw [hd] at hx
      simp only [walk, Option.bind_some] at hx
      cases ha : alookup n (s.heap d).entries with
      | none => rw [ha] at hx; simp at hx
      | some y =>
        rw [ha] at hx
        simp at hx; subst hx
        exact h.one.ent d (walk_lt h.inv _ (root_lt h.inv) hd) _ (alookup_mem ha)

theorem RefSt.devInDir : DevInDir s := by
  intro ld d hd e he _
  rw [h.one.ent d (walk_lt h.inv _ (root_lt h.inv) hd) e he, h.dev hk hd]

/-- The tests at the start of `rename` when there is something at the old location. -/
theorem RefSt.renameFront {a b : List Str} {r : Ref} (ha : Usable a) (hb : Usable b) (hr : walk s.heap rootRef a = some r) (force : Bool) :
    Verif.rename (absPath s.cfg.sep a) (absPath s.cfg.sep b) force s =
      if (walk s.heap rootRef b).isSome then
        (renameToExisting force (absPath s.cfg.sep b) (absPath s.cfg.sep a) r false >>= fun x => match x with
          | none => M.pure ()
          | some new => renameTail (absPath s.cfg.sep a) new r) s
      else renameTail (absPath s.cfg.sep a) (absPath s.cfg.sep b) r s := by
  have ht := h.tree hk
  have hlr : s.lresolve (absPath s.cfg.sep a) = .ok r := by
    rcases h.lres hk ha with ⟨x, h1, h2⟩ | ⟨h1, _⟩
    · rw [hr] at h1; injection h1 with h1; subst h1; exact h2
    · rw [hr] at h1; simp at h1
  have hdl : s.posixDirLinkErrors (absPath s.cfg.sep b) (absPath s.cfg.sep a) false = .ok () := by
    have i1 := h.isLink hk ha
    have i2 := h.isLink hk hb
    have d1 := h.ofType hk ha S_IFDIR false
    have d2 := h.ofType hk hb S_IFDIR false
    unfold FS.posixDirLinkErrors FS.isDir FS.isDirG
    rw [d1, d2, i1, i2]
    simp only [bind, Except.bind, ite_self, Bool.false_eq_true, if_false, Bool.false_and]
  unfold Verif.rename
  rw [M.bind_eq]
  dsimp only [M.get]
  rw [h.canon hk ha, h.canon hk hb, M.bind_eq, rd_eq (f := fun x => x.existsL (absPath s.cfg.sep a)) (h.existsL hk ha), hr]
  dsimp only
  rw [if_neg (by simp), h.noSep hk ha, if_neg (by simp), M.bind_eq, rd_eq (f := fun x => x.lresolve (absPath s.cfg.sep a)) hlr]
  dsimp only
  rw [if_pos (by simp [ht.posix.win]), M.bind_eq,
    rd_eq (f := fun x => x.posixDirLinkErrors (absPath s.cfg.sep b) (absPath s.cfg.sep a) false) hdl]
  dsimp only
  rw [M.bind_eq, rd_eq (f := fun x => x.existsL (absPath s.cfg.sep b)) (h.existsL hk hb)]
  dsimp only
  cases (walk s.heap rootRef b).isSome <;> rfl

theorem RefSt.rename_missing {a b : List Str} (ha : Usable a) (hb : Usable b) (hr : walk s.heap rootRef a = none) (force : Bool) :
    Verif.rename (absPath s.cfg.sep a) (absPath s.cfg.sep b) force s = (.error (.os .ENOENT), s) := by
  unfold Verif.rename
  rw [M.bind_eq]
  dsimp only [M.get]
  rw [h.canon hk ha, h.canon hk hb, M.bind_eq, rd_eq (f := fun x => x.existsL (absPath s.cfg.sep a)) (h.existsL hk ha), hr]
  rfl

/-- the new directory is missing or is a file -/
theorem RefSt.rename_nodir {a b : List Str} {n : Str} {r : Ref} (ha : Usable a) (hne : a ≠ []) (hb : Usable (b ++ [n])) (hr : walk s.heap rootRef a = some r)
    (hnd : ∀ d, walk s.heap rootRef b = some d → (s.heap d).isDir = false) (force : Bool) :
    Verif.rename (absPath s.cfg.sep a) (absPath s.cfg.sep (b ++ [n])) force s =
      (.error (.os (if walk s.heap rootRef b = none then .ENOENT else .ENOTDIR)), s) := by
  have ht := h.tree hk
  have hbp := plain_proper (h.plain hk hb)
  have hw : walk s.heap rootRef (b ++ [n]) = none := by
    rw [walk_append]
    cases hd : walk s.heap rootRef b with
    | none => rfl
    | some d => simp [walk, mem_entries_nil (hnd d hd), alookup]
  have hsp : s.cfg.splitpath (absPath s.cfg.sep (b ++ [n])) = (absPath s.cfg.sep b, n) :=
    splitpath_absPath ht.posix (fun w hw => hbp w (by simp [hw])) (hbp n (by simp))
  rw [h.renameFront hk ha hb hr, hw, if_neg (by simp)]
  unfold renameTail
  rw [M.bind_eq]
  dsimp only [M.get]
  rw [if_neg absPath_ne_nil, hsp, M.bind_eq, rd_eq (f := fun x => x.exists_ (absPath s.cfg.sep b)) (h.ex hk hb.init)]
  cases hd : walk s.heap rootRef b with
  | none => rfl
  | some d =>
    obtain ⟨c, m, rfl⟩ := snoc_of_ne hne
    have hap := plain_proper (h.plain hk ha)
    have hsa : s.cfg.splitpath (absPath s.cfg.sep (c ++ [m])) = (absPath s.cfg.sep c, m) :=
      splitpath_absPath ht.posix (fun w hw => hap w (by simp [hw])) (hap m (by simp))
    cases hc : walk s.heap rootRef c with
    | none => rw [walk_append, hc] at hr; simp at hr
    | some od =>
      dsimp only
      rw [if_neg (by simp), hsa, M.bind_eq, rd_eq (f := fun x => x.resolve (absPath s.cfg.sep c)) (h.res hk ha.init hc true)]
      dsimp only
      rw [M.bind_eq, rd_eq (f := fun x => x.resolve (absPath s.cfg.sep b)) (h.res hk hb.init hd true)]
      dsimp only
      rw [if_neg (by rw [h.dev hk hc, h.dev hk hd]; simp)]
      have : (s.heap d).isDirMode = false := (h.mode_dir hk hd).trans (hnd d hd)
      rw [this, if_pos (by simp), ht.posix.win]
      rfl

theorem RefSt.rename_self {a : List Str} {r : Ref} (ha : Usable a) (hne : a ≠ []) (hr : walk s.heap rootRef a = some r) (force : Bool) :
    Verif.rename (absPath s.cfg.sep a) (absPath s.cfg.sep a) force s = (.ok (), s) := by
  have ht := h.tree hk
  have hgo : s.getObject (absPath s.cfg.sep a) = .ok r := by
    have := h.res hk ha hr true
    have h2 : s.resolveG s.rc (absPath s.cfg.sep a) true = .ok r := this
    unfold FS.resolveG at h2
    rw [resolvePath_plain h.inv ht s.rc (h.plain hk ha) (h.noLink hk a)] at h2
    unfold FS.getObject
    rw [originalPath_tree ht.cs, h.canon hk ha]
    exact h2
  rw [h.renameFront hk ha ha hr, hr, if_pos (by simp), M.bind_eq]
  have : renameToExisting force (absPath s.cfg.sep a) (absPath s.cfg.sep a) r false s = (.ok none, s) := by
    unfold renameToExisting
    rw [M.bind_eq, rd_eq (f := fun x => x.getObject (absPath s.cfg.sep a)) hgo]
    dsimp only
    rw [M.bind_eq]
    dsimp only [M.get]
    rw [if_pos rfl, Bool.and_false, if_neg (by simp)]
    rfl
  rw [this]
  rfl

/-- the last check of `rename` is the check of the locations -/
theorem RefSt.fits {a b : List Str} {on : Str} {od nd r : Ref} (hod : walk s.heap rootRef a = some od) (hr : walk s.heap rootRef (a ++ [on]) = some r)
    (hnd : walk s.heap rootRef b = some nd) (hdir : (s.heap nd).isDir = true) :
    renameFits s r od nd = if (a ++ [on]).isPrefixOf b then .error (.os .EINVAL) else .ok () := by
  unfold renameFits
  rw [if_neg (by rw [h.dev hk hod, h.dev hk hnd]; simp)]
  have key : (∃ l, walk s.heap r l = some nd) ↔ (a ++ [on]).isPrefixOf b = true := by
    rw [List.isPrefixOf_iff_prefix]
    constructor
    · rintro ⟨l, hl⟩
      have : walk s.heap rootRef (a ++ [on] ++ l) = some nd := by rw [walk_append, hr]; exact hl
      exact ⟨l, walk_dir_unique h.inv _ _ this hnd hdir⟩
    · rintro ⟨l, rfl⟩
      rw [walk_append, hr] at hnd
      exact ⟨l, hnd⟩
  by_cases hc : ∃ l, walk s.heap r l = some nd
  · rw [if_pos hc, if_pos (key.mp hc)]
  · rw [if_neg hc, if_neg (fun e => hc (key.mpr e))]

theorem RefSt.renames {a b : List Str} (ha : Usable a) (hane : a ≠ []) (hb : Usable b) (hbne : b ≠ [])
    (hlow : k.lower (absPath '/' a) = k.lower (absPath '/' b) → a = b) (force : Bool) :
    RefSt k u (Verif.rename (absPath s.cfg.sep a) (absPath s.cfg.sep b) force s).2 ∧
      Ref.Renames (treeOf s) a b (resOf (fun _ => .done) (Verif.rename (absPath s.cfg.sep a) (absPath s.cfg.sep b) force s).1)
        (treeOf (Verif.rename (absPath s.cfg.sep a) (absPath s.cfg.sep b) force s).2) := by
  have hbase : RefBase k u (Verif.rename (absPath s.cfg.sep a) (absPath s.cfg.sep b) force s).2 :=
    h.toRefBase.next hk (.rename (absPath s.cfg.sep a) (absPath s.cfg.sep b) force) rfl trivial (by simp)
  rw [Ref.Renames]
  cases hr : walk s.heap rootRef a with
  | none =>
    rw [h.rename_missing hk ha hb hr, (h.treeAt hk a).mpr hr]
    exact ⟨h, rfl, rfl⟩
  | some r =>
    obtain ⟨b, nn, rfl⟩ := snoc_of_ne hbne
    rw [Ref.parent, List.dropLast_concat, h.at hk hr]
    rcases h.cases hk b with ⟨c1, c2⟩ | ⟨nd, c1, c2, _, c3⟩ | ⟨nd, bb, c1, c2, _, _, _, _, c3⟩
    · rw [h.rename_nodir hk ha hane hb hr (fun d hd => by rw [c1] at hd; simp at hd), if_pos c1, c2]
      exact ⟨h, rfl, rfl⟩
    · rw [c3]
      dsimp only
      by_cases hab : a = b ++ [nn]
      · rw [if_pos hab, hab, h.rename_self hk hb hbne (hab ▸ hr)]
        exact ⟨h, rfl, rfl⟩
      rw [if_neg hab]
      obtain ⟨a, on, rfl⟩ := snoc_of_ne hane
      cases hod : walk s.heap rootRef a with
      | none => rw [walk_append, hod] at hr; simp at hr
      | some od =>
        have ea := h.child hk (n := on) hod
        have eb := h.child hk (n := nn) c1
        have so := h.spot hk ha hod
        have sn := h.spot hk hb c1
        by_cases hsame : walk s.heap rootRef (b ++ [nn]) = some r
        · -- two names of one file
          have hrd : (s.heap r).isDir = false := by
            cases hd : (s.heap r).isDir with
            | false => rfl
            | true => exact absurd (walk_dir_unique h.inv _ _ hr hsame hd) hab
          have hl : s.cfg.lower (absPath s.cfg.sep (a ++ [on])) ≠ s.cfg.lower (absPath s.cfg.sep (b ++ [nn])) := by
            rw [h.cfg, hk.sep]
            exact fun e => hab (hlow e)
          rw [rename_same h.reach (h.tree hk) (h.genuine hk) (h.readable hk) so sn (ea.symm.trans hr) (eb.symm.trans hsame) (h.notLnk hk hr) hl]
          refine ⟨h, ?_⟩
          obtain ⟨_, hd | ⟨d, hd, _⟩⟩ := (h.kind _ _ hr).2
          · rw [hd] at hrd; simp at hrd
          · rw [h.at hk hsame, nodeOf_file hd]
            dsimp only
            rw [if_pos rfl]
            exact ⟨rfl, rfl⟩
        · have hdiff : ∀ t, alookup nn (s.heap nd).entries = some t → alookup on (s.heap od).entries ≠ some t := by
            intro t h1 h2
            apply hsame
            rw [eb, h1, ← hr, ea, h2]
          have out := rename_outcome h.reach (h.tree hk) (h.mac hk) (h.within hk) (h.genuine hk) (h.readable hk) (h.devInDir hk) (force := force)
            so sn c2 (h.may hk od) (h.may hk nd) hdiff
          rw [← ea, hr, ← eb] at out
          dsimp only at out
          have hfit := h.fits hk hod hr c1 c2
          -- the tree afterwards
          have eff := rename_effect h.reach (h.tree hk) (h.mac hk) (h.within hk) (h.genuine hk) (h.nodev hk) (h.devInDir hk) (force := force)
            (h.ordinary hk ha) (h.ordinary hk hb)
            ⟨b, nn, fun w hw => plain_proper (h.plain hk hb) w (by simp [hw]), plain_proper (h.plain hk hb) nn (by simp), h.canon hk hb, h.noLink hk b⟩
            (fun _ _ od _ => h.may hk od) (fun _ _ nd _ => h.may hk nd)
            (fun lo o od ln n nd h1 h2 => by rw [h.dev hk h1.loc, h.dev hk h2.loc])
            (fun ln n nd' t h1 h2 => by
              obtain ⟨rfl, rfl, h3⟩ := h.names hk hb h1
              rw [c1] at h3; injection h3 with h3; subst h3
              rw [h.canon hk ha]
              intro e
              rcases h.lres hk ha with ⟨x, g1, g2⟩ | ⟨g1, _⟩
              · rw [g2] at e; injection e with e; subst e
                exact hdiff x h2 (ea.symm.trans g1)
              · rw [hr] at g1; simp at g1)
          have fail : ∀ e, (Verif.rename (absPath s.cfg.sep (a ++ [on])) (absPath s.cfg.sep (b ++ [nn])) force s).1 = .error (.os e) →
              Verif.rename (absPath s.cfg.sep (a ++ [on])) (absPath s.cfg.sep (b ++ [nn])) force s = (.error (.os e), s) := by
            intro e he
            rcases eff with ⟨e', g⟩ | ⟨s', _, _, _, _, _, _, _, g, _⟩
            · rw [g] at he ⊢; dsimp only at he; rw [he]
            · rw [g] at he; simp at he
          have move : (Verif.rename (absPath s.cfg.sep (a ++ [on])) (absPath s.cfg.sep (b ++ [nn])) force s).1 = renameFits s r od nd →
              RefSt k u (Verif.rename (absPath s.cfg.sep (a ++ [on])) (absPath s.cfg.sep (b ++ [nn])) force s).2 ∧
              Ref.Moves (treeOf s) (a ++ [on]) (b ++ [nn])
                (resOf (fun _ => .done) (Verif.rename (absPath s.cfg.sep (a ++ [on])) (absPath s.cfg.sep (b ++ [nn])) force s).1)
                (treeOf (Verif.rename (absPath s.cfg.sep (a ++ [on])) (absPath s.cfg.sep (b ++ [nn])) force s).2) := by
            intro he
            rw [hfit] at he
            unfold Ref.Moves
            rw [Ref.parent, List.dropLast_concat]
            by_cases hpre : (a ++ [on]).isPrefixOf b = true
            · rw [if_pos hpre] at he ⊢
              rw [fail _ he]
              exact ⟨h, rfl, rfl⟩
            · rw [if_neg hpre] at he ⊢
              rcases eff with ⟨e', g⟩ | ⟨s', lo, o, od', ln, n, nd', r', g, g1, g2, g3, g4, _⟩
              · rw [g] at he; simp at he
              · obtain ⟨rfl, rfl, h3⟩ := h.names hk hb g2
                obtain ⟨rfl, rfl, h4⟩ := h.names hk ha g1
                rw [c1] at h3; injection h3 with h3; subst h3
                rw [g] at hbase ⊢
                obtain ⟨k1, k2⟩ := h.moved hk hbase hb h4 c1 c2 g3 g4
                exact ⟨k1, rfl, k2⟩
          rcases h.cases hk (b ++ [nn]) with ⟨t1, t2⟩ | ⟨t, t1, t2, _, t3⟩ | ⟨t, tb, t1, t2, _, t5, _, _, t3⟩
          · rw [t1] at out
            obtain ⟨m1, m2⟩ := move out
            refine ⟨m1, ?_⟩
            rw [t2]
            cases nodeOf r (s.heap r) <;> exact m2
          · rw [t1] at out
            dsimp only [renameVerdict] at out
            rw [if_neg (by rw [h.notLnk hk t1]; simp), if_pos t2, if_neg (by rw [h.notLnk hk hr]; simp)] at out
            rw [t3]
            by_cases hne : (s.heap t).entries ≠ []
            · rw [if_pos hne] at out
              rw [fail _ out]
              refine ⟨h, ?_⟩
              cases nodeOf r (s.heap r) <;> exact Or.inr ⟨fun e => hne ((h.empty_iff hk t1).mp e), rfl, rfl⟩
            · rw [if_neg hne] at out
              have hemp := (h.empty_iff hk t1).mpr (not_not.mp hne)
              rcases h.cases hk (a ++ [on]) with ⟨q1, _⟩ | ⟨x, q1, q2, _, q3⟩ | ⟨x, xb, q1, q2, q6, q5, _, _, q3⟩
              · rw [hr] at q1; simp at q1
              · rw [hr] at q1; injection q1 with q1; subst q1
                have : ifmt (s.heap r).mode ≠ S_IFREG := by
                  have := h.mode_file hk hr
                  rw [q2] at this
                  simpa using this
                rw [if_neg this] at out
                obtain ⟨m1, m2⟩ := move out
                refine ⟨m1, ?_⟩
                rw [nodeOf_dir q2]
                exact Or.inl ⟨hemp, m2⟩
              · rw [hr] at q1; injection q1 with q1; subst q1
                have : ifmt (s.heap r).mode = S_IFREG := by
                  have := h.mode_file hk hr
                  rw [q2] at this
                  simpa using this
                rw [if_pos this] at out
                rw [fail _ out]
                refine ⟨h, ?_⟩
                rw [nodeOf_file q6]
                exact Or.inl ⟨hemp, rfl, rfl⟩
          · rw [t1] at out
            dsimp only [renameVerdict] at out
            rw [if_neg (by rw [h.notLnk hk t1]; simp), if_neg (by rw [t2]; simp)] at out
            rw [t3]
            rcases h.cases hk (a ++ [on]) with ⟨q1, _⟩ | ⟨x, q1, q2, _, q3⟩ | ⟨x, xb, q1, q2, q6, q5, _, _, q3⟩
            · rw [hr] at q1; simp at q1
            · rw [hr] at q1; injection q1 with q1; subst q1
              rw [if_pos q2] at out
              rw [fail _ out, nodeOf_dir q2]
              exact ⟨h, rfl, rfl⟩
            · rw [hr] at q1; injection q1 with q1; subst q1
              rw [if_neg (by rw [q2]; simp)] at out
              obtain ⟨m1, m2⟩ := move out
              refine ⟨m1, ?_⟩
              rw [nodeOf_file q6]
              dsimp only
              rw [if_neg (fun e => hsame (by rw [e]; exact t1))]
              exact m2
    · rw [h.rename_nodir hk ha hane hb hr (fun d hd => by rw [c1] at hd; injection hd with hd; subst hd; exact c2), if_neg (by rw [c1]; simp), c3]
      exact ⟨h, rfl, rfl⟩

theorem RefSt.rename {a b : List Str} (ha : Usable a) (hane : a ≠ []) (hb : Usable b) (hbne : b ≠ [])
    (hlow : k.lower (absPath '/' a) = k.lower (absPath '/' b) → a = b) : Refines k u s (.rename a b) :=
  h.did hk (f := fun _ => .done) (m := Verif.rename (absPath s.cfg.sep a) (absPath s.cfg.sep b)) (by rw [h.sep hk]; rfl)
    (h.renames hk ha hane hb hbne hlow false)

theorem RefSt.replace {a b : List Str} (ha : Usable a) (hane : a ≠ []) (hb : Usable b) (hbne : b ≠ [])
    (hlow : k.lower (absPath '/' a) = k.lower (absPath '/' b) → a = b) : Refines k u s (.replace a b) :=
  h.did hk (f := fun _ => .done) (m := Verif.rename (absPath s.cfg.sep a) (absPath s.cfg.sep b) true) (by rw [h.sep hk]; rfl)
    (h.renames hk ha hane hb hbne hlow true)

omit hk h in
theorem addObject_at {s : FS} {p : Str} {c d : Ref} (hr : s.resolve p = .ok d) (hp : p ≠ []) :
    addObject p c s = if (s.heap d).isDirMode then addEntry d c s else (.error (.os (if s.cfg.isWin then .ENOENT else .ENOTDIR)), s) := by
  unfold addObject
  rw [if_neg hp, M.bind_eq, rd_eq (f := fun x => x.resolve p) hr]
  dsimp only
  rw [M.bind_eq]
  dsimp only [M.get]
  cases (s.heap d).isDirMode <;> rfl

/-- `link` when there is nothing at the new location and something at its parent. -/
theorem RefSt.linkFront {a b : List Str} {n : Str} {d : Ref} (ha : Usable a) (hb : Usable (b ++ [n])) (hw : walk s.heap rootRef (b ++ [n]) = none)
    (hd : walk s.heap rootRef b = some d) :
    Verif.link (absPath s.cfg.sep a) (absPath s.cfg.sep (b ++ [n])) true s =
      match walk s.heap rootRef a with
      | none => (.error (.os .ENOENT), s)
      | some r => if (s.heap r).isDir then (.error (.os .EPERM), s)
        else (addObject (absPath s.cfg.sep b) r >>= fun _ => M.pure r) (s.named r n) := by
  have ht := h.tree hk
  have hbp := plain_proper (h.plain hk hb)
  have hsp : s.cfg.splitpath (absPath s.cfg.sep (b ++ [n])) = (absPath s.cfg.sep b, n) :=
    splitpath_absPath ht.posix (fun w hw => hbp w (by simp [hw])) (hbp n (by simp))
  have hlp : linkParent (absPath s.cfg.sep b) false s = (.ok (), s) := by
    unfold linkParent
    rw [M.bind_eq, rd_eq (f := fun x => x.exists_ (absPath s.cfg.sep b)) (h.ex hk hb.init), hd]
    rfl
  unfold Verif.link createLink
  rw [M.bind_eq]
  dsimp only [M.get]
  rw [h.canon hk hb, M.bind_eq, rd_eq (f := fun x => x.existsL (absPath s.cfg.sep (b ++ [n]))) (h.existsL hk hb), hw]
  dsimp only
  rw [if_neg (by simp), hsp, if_neg absPath_ne_nil, M.bind_eq, hlp]
  dsimp only
  unfold linkTail
  rw [M.bind_eq]
  dsimp only [M.get]
  rw [h.noSep hk ha, h.noSep hk hb, if_neg (by simp), Bool.and_false, if_neg (by simp), M.bind_eq]
  cases hr : walk s.heap rootRef a with
  | none =>
    obtain ⟨e, he, _⟩ := h.absent hk ha hr true
    have : catchOS (rd fun x => x.resolve (absPath s.cfg.sep a) true) (fun _ => M.raise .ENOENT) s = (.error (.os .ENOENT), s) := by
      unfold catchOS M.tryCatch
      rw [rd_eq (f := fun x => x.resolve (absPath s.cfg.sep a) true) he]
      rfl
    rw [this]
  | some r =>
    have : catchOS (rd fun x => x.resolve (absPath s.cfg.sep a) true) (fun _ => M.raise .ENOENT) s = (.ok r, s) := by
      unfold catchOS M.tryCatch
      rw [rd_eq (f := fun x => x.resolve (absPath s.cfg.sep a) true) (h.res hk ha hr true)]
    rw [this]
    dsimp only
    rw [M.bind_eq]
    dsimp only [M.get]
    cases hdir : (s.heap r).isDir with
    | true =>
      rw [if_pos rfl, if_pos (fun e => by rw [h.bit hk hr, hdir] at e; simp at e), ht.posix.win]
      rfl
    | false =>
      have hbit := (h.bit hk hr).mpr hdir
      rw [if_neg (by rw [hbit]; simp), if_neg (by simp)]
      rfl

theorem RefSt.link {a b : List Str} {n : Str} (ha : Usable a) (hb : Usable (b ++ [n])) : Refines k u s (.link a (b ++ [n])) := by
  refine h.did hk (f := fun _ => .done) (m := Verif.link (absPath s.cfg.sep a) (absPath s.cfg.sep (b ++ [n]))) (by rw [h.sep hk]; rfl) ?_
  have hbase : RefBase k u (Verif.link (absPath s.cfg.sep a) (absPath s.cfg.sep (b ++ [n])) true s).2 := by
    have := h.toRefBase.next hk (.createLink (absPath s.cfg.sep a) (absPath s.cfg.sep (b ++ [n])) true false) rfl trivial (by simp)
    have e : Op.next (.createLink (absPath s.cfg.sep a) (absPath s.cfg.sep (b ++ [n])) true false) s =
        (Verif.link (absPath s.cfg.sep a) (absPath s.cfg.sep (b ++ [n])) true s).2 := by
      show ((createLink _ _ _ _).void s).2 = _
      unfold M.void Verif.link
      rw [M.bind_eq]
      rcases createLink (absPath s.cfg.sep a) (absPath s.cfg.sep (b ++ [n])) true false s with ⟨_ | a, t⟩ <;> rfl
    rw [e] at this; exact this
  have ht := h.tree hk
  rw [Ref.Step]
  cases hw : walk s.heap rootRef (b ++ [n]) with
  | some x =>
    have : Verif.link (absPath s.cfg.sep a) (absPath s.cfg.sep (b ++ [n])) true s = (.error (.os .EEXIST), s) := by
      unfold Verif.link createLink
      rw [M.bind_eq]
      dsimp only [M.get]
      rw [h.canon hk hb, M.bind_eq, rd_eq (f := fun x => x.existsL (absPath s.cfg.sep (b ++ [n]))) (h.existsL hk hb), hw]
      rfl
    rw [this, if_pos (by rw [h.at hk hw]; simp)]
    exact ⟨h, rfl, rfl⟩
  | none =>
    rw [if_neg (by rw [(h.treeAt hk _).mpr hw]; simp), Ref.parent, List.dropLast_concat]
    cases hd : walk s.heap rootRef b with
    | none =>
      have hbp := plain_proper (h.plain hk hb)
      have hsp : s.cfg.splitpath (absPath s.cfg.sep (b ++ [n])) = (absPath s.cfg.sep b, n) :=
        splitpath_absPath ht.posix (fun w hw => hbp w (by simp [hw])) (hbp n (by simp))
      have : Verif.link (absPath s.cfg.sep a) (absPath s.cfg.sep (b ++ [n])) true s = (.error (.os .ENOENT), s) := by
        have hlp : linkParent (absPath s.cfg.sep b) false s = (.error (.os .ENOENT), s) := by
          unfold linkParent
          rw [M.bind_eq, rd_eq (f := fun x => x.exists_ (absPath s.cfg.sep b)) (h.ex hk hb.init), hd]
          rfl
        unfold Verif.link createLink
        rw [M.bind_eq]
        dsimp only [M.get]
        rw [h.canon hk hb, M.bind_eq, rd_eq (f := fun x => x.existsL (absPath s.cfg.sep (b ++ [n]))) (h.existsL hk hb), hw]
        dsimp only
        rw [if_neg (by simp), hsp, if_neg absPath_ne_nil, M.bind_eq, hlp]
      rw [this, (h.treeAt hk b).mpr hd]
      exact ⟨h, rfl, rfl⟩
    | some d =>
      have hf := h.linkFront hk ha hb hw hd
      rw [h.at hk hd]
      rcases h.cases hk a with ⟨c1, c2⟩ | ⟨r, c1, c2, _, c3⟩ | ⟨r, bb, c1, c2, c4, _, _, c5, c3⟩
      · rw [c1] at hf
        rw [hf, c2]
        exact ⟨h, rfl, rfl⟩
      · rw [c1] at hf
        dsimp only at hf
        rw [if_pos c2] at hf
        rw [hf, c3]
        exact ⟨h, rfl, rfl⟩
      · rw [c1] at hf
        dsimp only at hf
        rw [if_neg (by rw [c2]; simp)] at hf
        have hres : (s.named r n).resolve (absPath s.cfg.sep b) = .ok d :=
          ((named_agree n c5).resolve (closed_true s) _ _ _).trans (h.res hk hb.init hd true)
        have hmd : ((s.named r n).heap d).isDirMode = (s.heap d).isDir := by
          rw [named_heap]; exact h.mode_dir hk hd
        rw [M.bind_eq, addObject_at hres absPath_ne_nil, hmd] at hf
        cases hdir : (s.heap d).isDir with
        | false =>
          rw [hdir, if_neg (by simp), show (s.named r n).cfg = s.cfg from rfl, ht.posix.win] at hf
          have hf : Verif.link (absPath s.cfg.sep a) (absPath s.cfg.sep (b ++ [n])) true s = (.error (.os .ENOTDIR), s.named r n) := hf
          rw [hf] at hbase ⊢
          obtain ⟨k1, k2⟩ := h.named hbase c5
          refine ⟨k1, ?_⟩
          rw [k2, c3]
          obtain ⟨_, hx | ⟨db, hx, _⟩⟩ := (h.kind _ _ hd).2
          · rw [hdir] at hx; simp at hx
          · rw [nodeOf_file hx]
            exact ⟨rfl, rfl⟩
        | true =>
          rw [hdir, if_pos rfl] at hf
          have hok : ∃ s', addEntry d r (s.named r n) = (.ok (), s') := by
            unfold addEntry
            have e1 : ((s.named r n).heap d).isDir = true := by rw [named_heap]; exact hdir
            have e2 : (s.named r n).isRoot = true := (show s.isRoot = true from h.isRoot hk)
            have e3 : ((s.named r n).heap r).name = n := by rw [named_heap]; simp
            have e4 : ((s.named r n).heap d).entries = (s.heap d).entries := by rw [named_heap]; rfl
            rw [if_neg (by rw [e1]; simp), if_neg (by rw [e2]; simp), e3, e4, ← h.child hk hd, hw, if_neg (by simp)]
            dsimp only
            split
            · rcases changeDiskUsage_cases (((s.named r n).attach d r).sizeOf (((s.named r n).attach d r).next + 1) r)
                (((s.named r n).attach d r).heap d).dev ((s.named r n).attach d r) with g | ⟨_, m, g1, t, g2, _⟩
              · exact ⟨_, g⟩
              · rw [(attach_misc (s.named r n) d r).2.2.1] at g1
                rw [h.limitless m g1] at g2; simp at g2
            · exact ⟨_, rfl⟩
          obtain ⟨s', hae⟩ := hok
          rw [hae] at hf
          have hf : Verif.link (absPath s.cfg.sep a) (absPath s.cfg.sep (b ++ [n])) true s = (.ok r, s') := hf
          rcases link_effect h.reach ht (absPath s.cfg.sep a) (absPath s.cfg.sep (b ++ [n])) true
            (by have := h.res hk ha c1 true; rw [this]; intro e; injection e with e; exact c5 e) with
            ⟨e, s1, g1, _⟩ | ⟨s1, ld, nm, d', r', g1, _, _, g2, g3, _⟩
          · rw [hf] at g1; simp at g1
          · rw [hf] at g1 hbase ⊢
            simp only [Prod.mk.injEq, Except.ok.injEq] at g1
            obtain ⟨rfl, rfl⟩ := g1
            obtain ⟨rfl, rfl, hd'⟩ := h.names hk hb g2
            obtain ⟨k1, k2⟩ := h.secondName hk hbase hb g2.dir g3 c1 c4
            refine ⟨k1, ?_⟩
            rw [k2, c3, nodeOf_dir hdir]
            exact ⟨rfl, rfl⟩

end

end Verif
