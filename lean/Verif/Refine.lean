import Verif.SpecRef
import Verif.Sane
import Verif.DeviceIO
import Verif.Props.Usage
import Verif.Props.Rename
import Verif.Props.WholeFile
import Verif.Props.Links
import Verif.OsPath
import Verif.Props.Hardlink
import Verif.MountFrame
/-!
# The fake filesystem as an implementation of the reference file system: lookups
-/

namespace Verif
open Py Spec Cfg

namespace Spec
/-- the configuration of a Linux filesystem -/
structure Linux (k : Cfg) : Prop where
  tree : k.Tree
  mac : k.isMac = false
  sep : k.sep = '/'
  dev : k.devNull = ['/', 'd', 'e', 'v', '/', 'n', 'u', 'l', 'l']

/-- the directory of the null device -/
def devDir : Str := ['d', 'e', 'v']

/-- A location outside `/dev`, of names without a separator that are not `.` and do not start with `..`. -/
structure Usable (l : List Str) : Prop where
  plain : ∀ w ∈ l, Plain '/' w
  dev : l.head? ≠ some devDir

/-- a directory or a regular file with contents, which its owner may read -/
def Kind (o : Obj) : Prop :=
  o.mode &&& PERM_READ ≠ 0 ∧ (o.isDir = true ∨ ∃ b, o.content = .file (some b) ∧ o.isRegMode = true ∧ o.size = b.length)

/-- what the reference file system has in place of an object -/
def nodeOf (r : Ref) (o : Obj) : Ref.Node :=
  match o.content with
  | .dir _ => .dir
  | .file b => .file r (b.getD [])

/-- the tree of the reference file system a state stands for -/
def treeOf (s : FS) : Ref.Tree := fun l => (walk s.heap rootRef l).map fun r => nodeOf r (s.heap r)
end Spec

/-- A state of a Linux filesystem with one device of unlimited size, made by calls of root that do not give strange modes. -/
structure RefBase (k : Cfg) (u : Nat) (s : FS) : Prop where
  reach : Reachable s
  cfg : s.cfg = k
  one : One false s
  sane : Sane s
  limitless : ∀ m ∈ s.mounts, m.total = none
  uid : s.uid = 0
  umask : s.umask = u

/-- The states reached with the calls of the reference file system. -/
structure RefSt (k : Cfg) (u : Nat) (s : FS) : Prop extends RefBase k u s where
  devName : s.devName = ['/', 'd', 'e', 'v', '/', 'n', 'u', 'l', 'l']
  noDev : walk s.heap rootRef [devDir] = none
  kind : ∀ l x, walk s.heap rootRef l = some x → x ≠ devNullRef ∧ Kind (s.heap x)

theorem RefBase.next {k : Cfg} {u : Nat} {s : FS} (hk : Linux k) (h : RefBase k u s) (o : Op) (h1 : o.env = false) (h2 : SaneOp o)
    (h3 : ∀ p t, o ≠ .addMountPoint p t) : RefBase k u (o.next s) := by
  have e := (run_pres o h1 s h.one.inv).ext
  refine ⟨reachable_runs h.reach [o], e.cfg.trans h.cfg, one_next h.one o h3 (fun e => by simp at e), sane_next o h2 h.one.inv h.sane, ?_,
    e.uid.trans h.uid, e.umask.trans h.umask⟩
  have hm := (mounts_step o (s := s) (by rw [h.cfg]; exact hk.tree.posix.win) h3 (by rintro t p rfl; simp [Op.env] at h1)).1
  intro m hmem
  have : (m.path, m.idev, m.total) ∈ devices (o.next s) := List.mem_map.mpr ⟨m, hmem, rfl⟩
  rw [hm] at this
  obtain ⟨m', h4, h5⟩ := List.mem_map.mp this
  have := h.limitless m' h4
  simp only [Prod.mk.injEq] at h5
  rw [← h5.2.2]; exact this

/-- also after `with open(…) as f: f.op()` -/
theorem RefBase.withFile {k : Cfg} {u : Nat} {α : Type} {s : FS} (hk : Linux k) (hs : RefBase k u s) {h : Nat} {m : M α} {o : Op} (hlt : h < s.hnext)
    (hf : (s.handles h).kind = .file) (ho : o.run = onFile h m) (h1 : o.env = false) (h2 : SaneOp o) (h3 : ∀ p t, o ≠ .addMountPoint p t) :
    RefBase k u (withFile h m s).2 := by
  have e1 : o.next s = (m s).2 := onFile_next hlt hf ho
  have fl := flags_step o s
  have hr := (hs.next hk o h1 h2 h3).next hk (.hClose h) rfl trivial (by simp)
  rw [e1] at hr
  have e3 : Op.next (.hClose h) (m s).2 = (hClose h (m s).2).2 := by
    have hl2 : h < (m s).2.hnext := by rw [← e1]; exact Nat.lt_of_lt_of_le hlt fl.hnext
    have hk2 : ((m s).2.handles h).kind = .file := by rw [← e1, fl.kind h hlt]; exact hf
    exact onFile_next hl2 hk2 rfl
  rw [e3] at hr
  unfold Verif.withFile
  rcases hc : hClose h (m s).2 with ⟨_ | a, t⟩
  · rw [hc] at hr; exact hr
  · rw [hc] at hr; exact hr

theorem RefBase.open {k : Cfg} {u : Nat} {s : FS} (hk : Linux k) (hs : RefBase k u s) (p : Str) (md : OpenModes) (bf : Option Nat) (raw del : Bool) :
    RefBase k u (openPath p md bf raw del s).2 := by
  have hr := hs.next hk (.openPath p md bf raw del) rfl trivial (by simp)
  have e : Op.next (.openPath p md bf raw del) s = (openPath p md bf raw del s).2 := by
    show ((openPath p md bf raw del).void s).2 = _
    unfold M.void
    rw [M.bind_eq]
    rcases openPath p md bf raw del s with ⟨_ | a, t⟩ <;> rfl
  rw [e] at hr; exact hr

theorem Spec.Kind.notLnk {o : Obj} (h : Kind o) (hs : SaneObj o) : o.isLnk = false := by
  rcases h.2 with h | ⟨b, _, h, _⟩
  · have := hs.1 h
    unfold Obj.isLnk; rw [this]; rfl
  · exact (reg_notDir h).2

section
variable {k : Cfg} {u : Nat} {s : FS} (hk : Linux k) (h : RefSt k u s)
include hk h

omit hk in
theorem RefSt.inv : Inv s := h.one.inv
theorem RefSt.tree : s.cfg.Tree := h.cfg ▸ hk.tree
theorem RefSt.sep : s.cfg.sep = '/' := by rw [h.cfg]; exact hk.sep
theorem RefSt.mac : s.cfg.isMac = false := by rw [h.cfg]; exact hk.mac
theorem RefSt.isRoot : s.isRoot = true := by unfold FS.isRoot; rw [h.uid]; rfl
theorem RefSt.genuine : Genuine s := h.sane.genuine
theorem RefSt.readable : Readable s := Or.inl (h.isRoot hk)
theorem RefSt.within : Within s := fun m hm t ht => by rw [h.limitless m hm] at ht; simp at ht
theorem RefSt.may (d : Ref) : mayRemove s d := Or.inl (h.isRoot hk)

theorem RefSt.notLnk {l : List Str} {x : Ref} (hx : walk s.heap rootRef l = some x) : (s.heap x).isLnk = false :=
  (h.kind l x hx).2.notLnk (h.sane x (walk_lt h.inv _ (root_lt h.inv) hx))

theorem RefSt.noLink (l : List Str) : NoLink s.heap rootRef l := by
  induction l using List.reverseRecOn with
  | nil => trivial
  | append_singleton l w ih =>
    rw [noLink_append]
    refine ⟨ih, fun x hx y hy => ⟨?_, trivial⟩⟩
    exact h.notLnk hk (l := l ++ [w]) (by rw [walk_append, hx]; simp [walk, hy])

theorem RefSt.devSplit : s.devName = absPath s.cfg.sep [devDir, ['n', 'u', 'l', 'l']] := by
  rw [h.devName, h.sep hk]; rfl

theorem RefSt.ne_dev {l : List Str} (hl : Usable l) : absPath s.cfg.sep l ≠ s.devName := by
  intro e
  rw [h.devSplit hk] at e
  have := absPath_inj (h.tree hk).posix (a := l) (b := [devDir, ['n', 'u', 'l', 'l']])
    (fun w hw => by rw [h.sep hk]; exact (hl.plain w hw).1) (by rw [h.sep hk]; decide) e
  exact hl.dev (by rw [this]; rfl)

theorem RefSt.nodev : NoDev s := by
  intro l hl e
  rw [h.devSplit hk] at e
  have := absPath_inj (h.tree hk).posix (a := l) (b := [devDir, ['n', 'u', 'l', 'l']]) hl (by rw [h.sep hk]; decide) e
  rw [this, show [devDir, ['n', 'u', 'l', 'l']] = [devDir] ++ [['n', 'u', 'l', 'l']] from rfl, walk_append, h.noDev]
  rfl

theorem RefSt.plain {l : List Str} (hl : Usable l) : ∀ w ∈ l, Plain s.cfg.sep w := by
  rw [h.sep hk]; exact hl.plain

theorem RefSt.canon {l : List Str} (hl : Usable l) : s.absnorm (absPath s.cfg.sep l) = absPath s.cfg.sep l :=
  absnorm_canon h.inv (h.tree hk).posix (absCanon_names (plain_proper (h.plain hk hl)))

theorem RefSt.ordinary {l : List Str} (hl : Usable l) : Ordinary s (absPath s.cfg.sep l) :=
  ⟨⟨l, h.plain hk hl, h.canon hk hl⟩, by rw [h.canon hk hl]; exact h.ne_dev hk hl⟩

theorem RefSt.res {l : List Str} (hl : Usable l) {x : Ref} (hx : walk s.heap rootRef l = some x) (c : Bool) :
    s.resolve (absPath s.cfg.sep l) true c = .ok x :=
  resolve_at h.inv (h.tree hk) (h.genuine hk) (h.readable hk) (h.plain hk hl) (h.ne_dev hk hl) hx (h.notLnk hk hx) c

omit hk h in
/-- The error of the component loop. -/
theorem objLoop_misses {s : FS} (cs : s.cfg.caseSens = true) (hw : s.cfg.isWin = false) (hg : Genuine s) (hi : Inv s) (hr : s.isRoot = true)
    (k : FS.Rec) (c : Bool) : ∀ l r, r < s.next → (s.heap r).isLnk = false → NoLink s.heap r l → walk s.heap r l = none →
    ∃ e, s.objLoop k c r l = .error (.os e) ∧
      (((∃ pre rest x, l = pre ++ rest ∧ rest ≠ [] ∧ walk s.heap r pre = some x ∧ (s.heap x).isDir = false) ∧ e = .ENOTDIR) ∨
       ((¬ ∃ pre rest x, l = pre ++ rest ∧ rest ≠ [] ∧ walk s.heap r pre = some x ∧ (s.heap x).isDir = false) ∧ e = .ENOENT)) := by
  intro l
  induction l with
  | nil => intro r _ _ _ h; simp [walk] at h
  | cons w l ih =>
    intro r hlt hl hn hnone
    have hgr := hg r hlt
    simp only [FS.objLoop, FS.deref, hl, Bool.false_eq_true, if_false, bind, Except.bind, hw]
    cases hd : (s.heap r).isDir with
    | false =>
      rw [hd] at hgr
      rw [← hgr]
      exact ⟨.ENOTDIR, by simp, Or.inl ⟨⟨[], w :: l, r, rfl, by simp, rfl, hd⟩, rfl⟩⟩
    | true =>
      rw [hd] at hgr
      rw [← hgr]
      simp only [Bool.not_true, Bool.false_eq_true, if_false]
      cases hc : (s.heap r).content with
      | file b => unfold Obj.isDir at hd; rw [hc] at hd; simp at hd
      | dir es =>
        have hes : (s.heap r).entries = es := by unfold Obj.entries; rw [hc]
        simp only [getEntry_tree cs]
        cases ha : alookup w es with
        | none =>
          refine ⟨.ENOENT, rfl, Or.inr ⟨?_, rfl⟩⟩
          rintro ⟨pre, rest, x, e, hne, hx, hf⟩
          cases pre with
          | nil => simp [walk] at hx; subst hx; rw [hd] at hf; simp at hf
          | cons a pre =>
            simp only [List.cons_append, List.cons.injEq] at e
            obtain ⟨rfl, _⟩ := e
            simp [walk, hes, ha] at hx
        | some y =>
          have hay : alookup w (s.heap r).entries = some y := by rw [hes]; exact ha
          have hy := hn y hay
          simp only [walk, hay, Option.bind_some] at hnone
          simp only [hr, Bool.not_true, Bool.false_and, Bool.false_eq_true, if_false]
          obtain ⟨e, h1, h2⟩ := ih y (hi.g.entLt r hlt _ (alookup_mem hay)) hy.1 hy.2 hnone
          refine ⟨e, h1, ?_⟩
          have key : (∃ pre rest x, w :: l = pre ++ rest ∧ rest ≠ [] ∧ walk s.heap r pre = some x ∧ (s.heap x).isDir = false) ↔
              (∃ pre rest x, l = pre ++ rest ∧ rest ≠ [] ∧ walk s.heap y pre = some x ∧ (s.heap x).isDir = false) := by
            constructor
            · rintro ⟨pre, rest, x, e, hne, hx, hf⟩
              cases pre with
              | nil => simp [walk] at hx; subst hx; rw [hd] at hf; simp at hf
              | cons a pre =>
                simp only [List.cons_append, List.cons.injEq] at e
                obtain ⟨rfl, e⟩ := e
                exact ⟨pre, rest, x, e, hne, by simpa [walk, hay] using hx, hf⟩
            · rintro ⟨pre, rest, x, e, hne, hx, hf⟩
              exact ⟨w :: pre, rest, x, by rw [e]; rfl, hne, by simpa [walk, hay] using hx, hf⟩
          rw [key]; exact h2

theorem RefSt.isFile_iff (l : List Str) : (treeOf s).isFile l ↔ ∃ x, walk s.heap rootRef l = some x ∧ (s.heap x).isDir = false := by
  unfold Ref.Tree.isFile treeOf
  cases hw : walk s.heap rootRef l with
  | none => simp
  | some x =>
    unfold nodeOf Obj.isDir
    cases hc : (s.heap x).content with
    | dir es => simp [hc]
    | file b => simp [hc]

/-- The error of a lookup where nothing is. -/
theorem RefSt.absent {l : List Str} (hl : Usable l) (hx : walk s.heap rootRef l = none) (c : Bool) :
    ∃ e, s.resolve (absPath s.cfg.sep l) true c = .error (.os e) ∧ Ref.Absent (treeOf s) l e := by
  have hi := h.inv
  have ht := h.tree hk
  have hne : l ≠ [] := by rintro rfl; simp [walk] at hx
  obtain ⟨e, h1, h2⟩ := objLoop_misses ht.cs ht.posix.win (h.genuine hk) hi (h.isRoot hk) s.rc c l rootRef (root_lt hi)
    (h.notLnk hk (l := []) rfl) (h.noLink hk l) hx
  refine ⟨e, ?_, ?_⟩
  · show s.resolveG s.rc (absPath s.cfg.sep l) c = _
    unfold FS.resolveG
    rw [resolvePath_plain hi ht s.rc (h.plain hk hl) (h.noLink hk l)]
    show s.getObjNormG s.rc (absPath s.cfg.sep l) c = _
    unfold FS.getObjNormG
    rw [if_neg, if_neg (h.ne_dev hk hl), originalPath_tree ht.cs, pathComponents_absPath ht.posix (plain_proper (h.plain hk hl))]
    · exact h1
    · intro e
      have := absPath_inj ht.posix (a := l) (b := []) (plain_proper (h.plain hk hl)) (by simp) (e.trans (by rw [absPath_nil]))
      exact hne this
  · unfold Ref.Absent Ref.Blocked
    have key : (∃ pre rest, l = pre ++ rest ∧ rest ≠ [] ∧ (treeOf s).isFile pre) ↔
        (∃ pre rest x, l = pre ++ rest ∧ rest ≠ [] ∧ walk s.heap rootRef pre = some x ∧ (s.heap x).isDir = false) := by
      constructor
      · rintro ⟨pre, rest, e, hne, hf⟩
        obtain ⟨x, h3, h4⟩ := (h.isFile_iff hk pre).mp hf
        exact ⟨pre, rest, x, e, hne, h3, h4⟩
      · rintro ⟨pre, rest, x, e, hne, h3, h4⟩
        exact ⟨pre, rest, e, hne, (h.isFile_iff hk pre).mpr ⟨x, h3, h4⟩⟩
    rw [key]; exact h2

theorem RefSt.ex {l : List Str} (hl : Usable l) : s.exists_ (absPath s.cfg.sep l) = .ok (walk s.heap rootRef l).isSome :=
  exists_plain h.inv (h.tree hk) s.rc (h.plain hk hl) (h.noLink hk l) (h.ne_dev hk hl)

theorem RefSt.treeAt (l : List Str) : treeOf s l = none ↔ walk s.heap rootRef l = none := by
  unfold treeOf; simp

theorem RefSt.at {l : List Str} {x : Ref} (hx : walk s.heap rootRef l = some x) : treeOf s l = some (nodeOf x (s.heap x)) := by
  unfold treeOf; rw [hx]; rfl

omit hk h in
theorem nodeOf_dir {r : Ref} {o : Obj} (h : o.isDir = true) : nodeOf r o = .dir := by
  unfold Obj.isDir at h; unfold nodeOf
  cases hc : o.content with
  | dir es => rfl
  | file b => rw [hc] at h; simp at h

omit hk h in
theorem nodeOf_file {r : Ref} {o : Obj} {b : Bytes} (h : o.content = .file (some b)) : nodeOf r o = .file r b := by
  unfold nodeOf; rw [h]; rfl

/-- what the tree says about a location is what is there -/
theorem RefSt.cases (l : List Str) :
    (walk s.heap rootRef l = none ∧ treeOf s l = none) ∨
    (∃ x, walk s.heap rootRef l = some x ∧ (s.heap x).isDir = true ∧ (s.heap x).mode &&& PERM_READ ≠ 0 ∧ treeOf s l = some .dir) ∨
    (∃ x b, walk s.heap rootRef l = some x ∧ (s.heap x).isDir = false ∧ (s.heap x).content = .file (some b) ∧ (s.heap x).isRegMode = true ∧
      (s.heap x).size = b.length ∧ x ≠ devNullRef ∧ treeOf s l = some (.file x b)) := by
  cases hw : walk s.heap rootRef l with
  | none => exact Or.inl ⟨rfl, (h.treeAt hk l).mpr hw⟩
  | some x =>
    right
    obtain ⟨hn, hkd⟩ := h.kind l x hw
    obtain ⟨h0, h1 | ⟨b, h1, h2, h3⟩⟩ := hkd
    · exact Or.inl ⟨x, rfl, h1, h0, by rw [h.at hk hw, nodeOf_dir h1]⟩
    · exact Or.inr ⟨x, b, rfl, by unfold Obj.isDir; rw [h1], h1, h2, h3, hn, by rw [h.at hk hw, nodeOf_file h1]⟩

theorem RefSt.empty_iff {l : List Str} {x : Ref} (hx : walk s.heap rootRef l = some x) : (treeOf s).empty l ↔ (s.heap x).entries = [] := by
  unfold Ref.Tree.empty
  constructor
  · intro he
    cases hes : (s.heap x).entries with
    | nil => rfl
    | cons e es =>
      have := he e.1
      rw [h.treeAt hk, walk_append, hx] at this
      simp [walk, hes, alookup] at this
  · intro he n
    rw [h.treeAt hk, walk_append, hx]
    simp [walk, he, alookup]

omit hk h in
theorem Spec.Usable.init {l : List Str} {w : Str} (h : Usable (l ++ [w])) : Usable l := by
  refine ⟨fun v hv => h.plain v (by simp [hv]), fun e => h.dev ?_⟩
  cases l with
  | nil => simp at e
  | cons a l => simpa using e

/-- the directory and the name a path stands for -/
theorem RefSt.names {p ld : List Str} {nm n : Str} {d : Ref} (hp : Usable (p ++ [n])) (hN : Names s (absPath s.cfg.sep (p ++ [n])) ld nm d) :
    ld = p ∧ nm = n ∧ walk s.heap rootRef p = some d := by
  obtain ⟨names, h1, h2, h3, h4⟩ := hN.split
  rw [h.canon hk hp] at h3
  have := absPath_inj (h.tree hk).posix (plain_proper (h.plain hk hp)) (by
    intro w hw
    rw [List.mem_append, List.mem_singleton] at hw
    rcases hw with hw | rfl
    · exact h1 w hw
    · exact h2) h3
  have e := List.append_inj' this rfl
  obtain ⟨rfl, e2⟩ := e
  have e2 : n = nm := by simpa using e2
  subst e2
  have hw := (resolve_plain h.inv (h.tree hk) s.rc (h.plain hk hp.init) (h.noLink hk p) (h.ne_dev hk hp.init)).mp h4
  exact ⟨walk_dir_unique h.inv _ _ hN.loc hw.1 hN.dir, rfl, hw.1⟩

theorem RefSt.spot {p : List Str} {n : Str} {d : Ref} (hp : Usable (p ++ [n])) (hd : walk s.heap rootRef p = some d) : Spot s p n d :=
  ⟨h.plain hk hp, h.noLink hk p, h.ne_dev hk hp.init, h.ne_dev hk hp, hd, (h.kind p d hd).2.1⟩

theorem RefSt.lres {l : List Str} (hl : Usable l) : (∃ x, walk s.heap rootRef l = some x ∧ s.lresolve (absPath s.cfg.sep l) = .ok x) ∨
    (walk s.heap rootRef l = none ∧ ∃ e, s.lresolve (absPath s.cfg.sep l) = .error (.os e)) := by
  have hi := h.inv
  have ht := h.tree hk
  rcases List.eq_nil_or_concat l with rfl | ⟨p, n, rfl⟩
  · left
    refine ⟨rootRef, rfl, ?_⟩
    unfold FS.lresolve FS.lresolveG
    rw [if_neg absPath_ne_nil, absPath_nil, if_pos rfl]
  · rw [List.concat_eq_append] at hl ⊢
    have hpl := h.plain hk hl
    cases hd : walk s.heap rootRef p with
    | none =>
      right
      refine ⟨by rw [walk_append, hd]; rfl, ?_⟩
      obtain ⟨e, h1, _⟩ := h.absent hk hl.init hd true
      refine ⟨e, ?_⟩
      have hn : ∀ w ∈ p, Proper s.cfg.sep w := fun w hw => (hpl w (by simp [hw])).1
      have hw := (hpl n (by simp)).1
      have hres : s.resolveG s.rc (absPath s.cfg.sep p) true = .error (.os e) := h1
      unfold FS.lresolve FS.lresolveG
      rw [if_neg absPath_ne_nil, if_neg (absPath_snoc_ne_root hn hw)]
      have hlp : s.lparent (absPath s.cfg.sep (p ++ [n])) = (absPath s.cfg.sep p, n) := by
        unfold FS.lparent
        simp only [stripTrailing_canon ht.posix (absCanon_names (plain_proper hpl)), absPath_ne_dot ht.posix, if_false, originalPath_tree ht.cs,
          splitpath_absPath ht.posix hn hw, absPath_ne_nil]
      rw [hlp, hres]; rfl
    | some d =>
      have hsp := h.spot hk hl hd
      cases ha : alookup n (s.heap d).entries with
      | none =>
        right
        refine ⟨by rw [walk_append, hd]; simp [walk, ha], ?_⟩
        exact spot_lresolve_none hi ht (h.genuine hk) (h.readable hk) hsp ha
      | some e =>
        left
        refine ⟨e, by rw [walk_append, hd]; simp [walk, ha], ?_⟩
        exact spot_lresolve hi ht (h.genuine hk) (h.readable hk) hsp ha

/-- `isfile`, `isdir`, `islink` -/
theorem RefSt.ofType {l : List Str} (hl : Usable l) (f : Nat) (fw : Bool) : s.isOfTypeG s.rc (absPath s.cfg.sep l) f fw =
    .ok (match walk s.heap rootRef l with | none => false | some e => ifmt (s.heap e).mode == f) := by
  have hes := absCanon_not_endsWithSep (h.tree hk).posix (absCanon_names (plain_proper (h.plain hk hl)))
  have hres : (∃ x, walk s.heap rootRef l = some x ∧ s.resolveFG s.rc (absPath s.cfg.sep l) fw true = .ok x) ∨
      (walk s.heap rootRef l = none ∧ ∃ e, s.resolveFG s.rc (absPath s.cfg.sep l) fw true = .error (.os e)) := by
    cases fw with
    | false => exact h.lres hk hl
    | true =>
      cases hw : walk s.heap rootRef l with
      | some x => exact Or.inl ⟨x, rfl, h.res hk hl hw true⟩
      | none => exact Or.inr ⟨rfl, (h.absent hk hl hw true).imp fun e he => he.1⟩
  unfold FS.isOfTypeG
  rcases hres with ⟨x, h1, h2⟩ | ⟨h1, e, h2⟩
  · rw [h1]
    simp only [h2, bind, Except.bind, FS.raiseForSepG, hes, pure, Except.pure, Bool.false_eq_true, if_false]
  · rw [h1, h2]; rfl

theorem RefSt.isLink {l : List Str} (hl : Usable l) : s.isLink (absPath s.cfg.sep l) = .ok false := by
  have := h.ofType hk hl S_IFLNK false
  unfold FS.isLink FS.isLinkG
  rw [this]
  cases hw : walk s.heap rootRef l with
  | none => rfl
  | some x => exact congrArg _ (h.notLnk hk hw)

theorem RefSt.existsL {l : List Str} (hl : Usable l) : s.existsL (absPath s.cfg.sep l) = .ok (walk s.heap rootRef l).isSome := by
  have h1 := h.isLink hk hl
  have h2 := h.ex hk hl
  unfold FS.isLink at h1
  unfold FS.exists_ at h2
  unfold FS.existsL FS.existsLG
  rw [h1]
  exact h2

/-! ## What the effects on the state mean for the tree -/

variable {s' : FS}

theorem RefSt.unchanged (hb : RefBase k u s') (hu : Unchanged s s') : RefSt k u s' ∧ treeOf s' = treeOf s := by
  have hi := h.inv
  have hwk : ∀ l, walk s'.heap rootRef l = walk s.heap rootRef l := fun l =>
    walk_congr hi.g.entLt (fun x hx => by rw [hu.obj x hx]) l _ (root_lt hi)
  have hlt : ∀ {l x}, walk s.heap rootRef l = some x → x < s.next := fun hx => walk_lt hi _ (root_lt hi) hx
  refine ⟨⟨hb, ?_, by rw [hwk]; exact h.noDev, fun l x hx => ?_⟩, ?_⟩
  · have := h.devName
    unfold FS.devName at this ⊢
    rw [hu.obj _ (devNull_lt hi)]; exact this
  · rw [hwk] at hx
    rw [hu.obj x (hlt hx)]; exact h.kind l x hx
  · funext l
    unfold treeOf
    rw [hwk]
    cases hx : walk s.heap rootRef l with
    | none => rfl
    | some x => simp only [Option.map_some]; rw [hu.obj x (hlt hx)]

theorem RefSt.newNode (hb : RefBase k u s') {d x : Ref} {ld : List Str} {nm : Str} (hl : Usable (ld ++ [nm])) (hd : (s.heap d).isDir = true)
    (hname : NewName s s' (ld ++ [nm]) x) (hfresh : s.next ≤ x)
    (hlisted : (s'.heap d).entries = (s.heap d).entries ++ [(nm, x)])
    (hdir : s'.heap d = { s.heap d with content := (s'.heap d).content, nlink := (s.heap d).nlink + 1 })
    (hothers : ∀ y < s.next, y ≠ d → s'.heap y = s.heap y) (hx : Kind (s'.heap x)) :
    RefSt k u s' ∧ treeOf s' = (treeOf s).set (ld ++ [nm]) (some (nodeOf x (s'.heap x))) := by
  have hi := h.inv
  have hlt : ∀ {l x}, walk s.heap rootRef l = some x → x < s.next := fun hx => walk_lt hi _ (root_lt hi) hx
  have hnode : ∀ y < s.next, nodeOf y (s'.heap y) = nodeOf y (s.heap y) ∧ (Kind (s.heap y) → Kind (s'.heap y)) := by
    intro y hy
    by_cases e : y = d
    · subst e
      have hd' : (s'.heap y).isDir = true := by
        have : (s'.heap y).entries ≠ [] := by rw [hlisted]; simp
        cases hc : (s'.heap y).content with
        | dir es => unfold Obj.isDir; rw [hc]
        | file b => unfold Obj.entries at this; rw [hc] at this; simp at this
      refine ⟨by rw [nodeOf_dir hd', nodeOf_dir hd], fun hkd => ⟨?_, Or.inl hd'⟩⟩
      rw [hdir]
      exact hkd.1
    · rw [hothers y hy e]; exact ⟨rfl, id⟩
  have hxn : x ≠ devNullRef := fun e => by have := devNull_lt hi; rw [← e] at this; exact Nat.not_lt.mpr hfresh this
  refine ⟨⟨hb, ?_, ?_, fun l y hy => ?_⟩, ?_⟩
  · have := h.devName
    unfold FS.devName at this ⊢
    rw [hothers _ (devNull_lt hi) (isDir_ne_devNull hi hd).symm]; exact this
  · rw [hname.elsewhere _ (fun e => hl.dev (by rw [← e]; rfl))]; exact h.noDev
  · by_cases e : l = ld ++ [nm]
    · rw [e, hname.here] at hy
      injection hy with hy; subst hy
      exact ⟨hxn, hx⟩
    · rw [hname.elsewhere l e] at hy
      exact ⟨(h.kind l y hy).1, (hnode y (hlt hy)).2 (h.kind l y hy).2⟩
  · funext l
    unfold Ref.Tree.set treeOf
    by_cases e : l = ld ++ [nm]
    · rw [if_pos e, e, hname.here]; rfl
    · rw [if_neg e, hname.elsewhere l e]
      cases hy : walk s.heap rootRef l with
      | none => rfl
      | some y => simp only [Option.map_some]; rw [(hnode y (hlt hy)).1]

theorem RefSt.newEntry (hb : RefBase k u s') {d x : Ref} {ld : List Str} {nm : Str} (hl : Usable (ld ++ [nm])) (hd : (s.heap d).isDir = true)
    (hn : NewEntry s s' d ld nm x) (hx : Kind (s'.heap x)) :
    RefSt k u s' ∧ treeOf s' = (treeOf s).set (ld ++ [nm]) (some (nodeOf x (s'.heap x))) :=
  h.newNode hk hb hl hd hn.name hn.fresh hn.listed hn.dir hn.others hx

theorem RefSt.entryGone (hb : RefBase k u s') {d e : Ref} {ld : List Str} {nm : Str} (hd : (s.heap d).isDir = true)
    (hg : EntryGone s s' d ld nm e) (hld : walk s.heap rootRef ld = some d) (he : (s.heap e).entries = []) :
    RefSt k u s' ∧ treeOf s' = (treeOf s).set (ld ++ [nm]) none := by
  have hi := h.inv
  have hw : walk s.heap rootRef (ld ++ [nm]) = some e := by rw [walk_append, hld]; simp [walk, hg.was]
  have hwk : ∀ l, l ≠ ld ++ [nm] → walk s'.heap rootRef l = walk s.heap rootRef l := by
    intro l hl
    by_cases hp : ld ++ [nm] <+: l
    · obtain ⟨rest, rfl⟩ := hp
      rw [hg.name.gone, walk_append, hw]
      cases rest with
      | nil => simp at hl
      | cons a rest => simp [walk, he, alookup]
    · exact hg.name.elsewhere l hp
  have hde : d ≠ e := entry_ne hi (h.tree hk) (walk_lt hi _ (root_lt hi) hld) hg.was
  have hnode : ∀ y, nodeOf y (s'.heap y) = nodeOf y (s.heap y) ∧ (Kind (s.heap y) → Kind (s'.heap y)) := by
    intro y
    by_cases e1 : y = d
    · subst e1
      have hd' : (s'.heap y).isDir = true := by rw [hg.dir]; rfl
      refine ⟨by rw [nodeOf_dir hd', nodeOf_dir hd], fun hkd => ⟨?_, Or.inl hd'⟩⟩
      rw [hg.dir]
      exact hkd.1
    · by_cases e2 : y = e
      · subst e2; rw [hg.object]; exact ⟨rfl, id⟩
      · rw [hg.others y e1 e2]; exact ⟨rfl, id⟩
  refine ⟨⟨hb, ?_, ?_, fun l y hy => ?_⟩, ?_⟩
  · have := h.devName
    unfold FS.devName at this ⊢
    rw [hg.others _ (isDir_ne_devNull hi hd).symm (h.kind _ _ hw).1.symm]; exact this
  · by_cases hh : [devDir] = ld ++ [nm]
    · have := hg.name.gone []
      rw [List.append_nil, ← hh] at this; exact this
    · rw [hwk _ hh]; exact h.noDev
  · by_cases hl : l = ld ++ [nm]
    · have := hg.name.gone []
      rw [List.append_nil, ← hl, hy] at this; simp at this
    · rw [hwk l hl] at hy
      exact ⟨(h.kind l y hy).1, (hnode y).2 (h.kind l y hy).2⟩
  · funext l
    unfold Ref.Tree.set treeOf
    by_cases hl : l = ld ++ [nm]
    · have := hg.name.gone []
      rw [List.append_nil] at this
      rw [if_pos hl, hl, this]; rfl
    · rw [if_neg hl, hwk l hl]
      cases hy : walk s.heap rootRef l with
      | none => rfl
      | some y => simp only [Option.map_some]; rw [(hnode y).1]

/-- new contents of one file -/
theorem RefSt.holds (hb : RefBase k u s') {r : Ref} {b c : Bytes} (hr : r ≠ devNullRef) (hc : (s.heap r).content = .file (some c))
    (hh : Holds s s' r b) : RefSt k u s' ∧ treeOf s' = (treeOf s).store r b := by
  have hent : ∀ x, (s'.heap x).entries = (s.heap x).entries := by
    intro x
    by_cases e : x = r
    · subst e; unfold Obj.entries; rw [hh.data, hc]
    · rw [hh.others x e]
  have hwk : ∀ l, walk s'.heap rootRef l = walk s.heap rootRef l := fun l =>
    walk_congr h.inv.g.entLt (fun x _ => hent x) l _ (root_lt h.inv)
  refine ⟨⟨hb, ?_, by rw [hwk]; exact h.noDev, fun l x hx => ?_⟩, ?_⟩
  · have := h.devName
    unfold FS.devName at this ⊢
    rw [hh.others _ hr.symm]; exact this
  · rw [hwk] at hx
    refine ⟨(h.kind l x hx).1, ?_⟩
    by_cases e : x = r
    · subst e
      refine ⟨by rw [(hh.shape.objs x).mode]; exact (h.kind l x hx).2.1, Or.inr ⟨b, hh.data, ?_, hh.size⟩⟩
      unfold Obj.isRegMode
      rw [(hh.shape.objs x).mode]
      rcases (h.kind l x hx).2.2 with h1 | ⟨_, _, h2, _⟩
      · unfold Obj.isDir at h1; rw [hc] at h1; simp at h1
      · exact h2
    · rw [hh.others x e]; exact (h.kind l x hx).2
  · funext l
    unfold Ref.Tree.store treeOf
    rw [hwk]
    cases hx : walk s.heap rootRef l with
    | none => rfl
    | some x =>
      simp only [Option.map_some]
      by_cases e : x = r
      · subst e
        rw [nodeOf_file hh.data, nodeOf_file hc]; simp
      · rw [hh.others x e]
        cases hc2 : (s.heap x).content with
        | dir es => simp [nodeOf, hc2]
        | file o => simp [nodeOf, hc2, e]

/-- reading changes nothing -/
theorem RefSt.onlyRead (hb : RefBase k u s') {r : Ref} (hh : OnlyRead s s' r) : RefSt k u s' ∧ treeOf s' = treeOf s := by
  have hobj : ∀ x, (s'.heap x).content = (s.heap x).content ∧ (s'.heap x).mode = (s.heap x).mode ∧ (s'.heap x).name = (s.heap x).name ∧
      (s'.heap x).size = (s.heap x).size := by
    intro x
    rw [hh.heap, upd_apply]
    split <;> rename_i e
    · subst e; exact ⟨rfl, rfl, rfl, rfl⟩
    · exact ⟨rfl, rfl, rfl, rfl⟩
  have hwk : ∀ l, walk s'.heap rootRef l = walk s.heap rootRef l := fun l =>
    walk_congr h.inv.g.entLt (fun x _ => by unfold Obj.entries; rw [(hobj x).1]) l _ (root_lt h.inv)
  refine ⟨⟨hb, ?_, by rw [hwk]; exact h.noDev, fun l x hx => ?_⟩, ?_⟩
  · have := h.devName
    unfold FS.devName at this ⊢
    rw [(hobj _).2.2.1]; exact this
  · rw [hwk] at hx
    refine ⟨(h.kind l x hx).1, ?_⟩
    have := (h.kind l x hx).2
    unfold Kind Obj.isDir Obj.isRegMode at this ⊢
    rw [(hobj x).1, (hobj x).2.1, (hobj x).2.2.2]; exact this
  · funext l
    unfold treeOf
    rw [hwk]
    cases hx : walk s.heap rootRef l with
    | none => rfl
    | some x => simp only [Option.map_some]; unfold nodeOf; rw [(hobj x).1]

end

theorem Spec.Kind.congr {o o' : Obj} (hc : o'.content = o.content) (hm : o'.mode = o.mode) (hz : o'.size = o.size) (h : Kind o) : Kind o' := by
  unfold Kind Obj.isDir Obj.isRegMode at h ⊢
  rw [hc, hm, hz]; exact h

/-- everything at one location is now at another -/
theorem RefSt.moved {k : Cfg} {u : Nat} {s s' : FS} (hk : Linux k) (h : RefSt k u s) (hb : RefBase k u s') {lo ln : List Str} {on nn : Str}
    {od nd r : Ref} (hln : Usable (ln ++ [nn])) (hod : walk s.heap rootRef lo = some od)
    (hnd : walk s.heap rootRef ln = some nd) (hdir : (s.heap nd).isDir = true) (hM : Moved s s' (lo ++ [on]) (ln ++ [nn])) (hR : Renamed s s' od on nd nn r) :
    RefSt k u s' ∧ treeOf s' = (treeOf s).move (lo ++ [on]) (ln ++ [nn]) := by
  have hi := h.inv
  have hodir := isDir_of_entry (alookup_mem hR.was)
  have hr : walk s.heap rootRef (lo ++ [on]) = some r := by rw [walk_append, hod]; simp [walk, hR.was]
  have htn : ∀ t, alookup nn (s.heap nd).entries = some t → t ≠ devNullRef := fun t ht =>
    (h.kind (ln ++ [nn]) t (by rw [walk_append, hnd]; simp [walk, ht])).1
  have hdirs : ∀ x, x = od ∨ x = nd → (s.heap x).isDir = true := by rintro x (rfl | rfl); exacts [hodir, hdir]
  have hnode : ∀ x, nodeOf x (s'.heap x) = nodeOf x (s.heap x) ∧ (Kind (s.heap x) → Kind (s'.heap x)) := by
    intro x
    by_cases e1 : x = od ∨ x = nd
    · obtain ⟨h1, h2⟩ := hR.dirs x e1
      refine ⟨by rw [nodeOf_dir h2, nodeOf_dir (hdirs x e1)], fun hkd => ⟨?_, Or.inl h2⟩⟩
      rw [h1]; exact hkd.1
    · by_cases e2 : x = r
      · subst e2
        rw [hR.obj]; exact ⟨rfl, Kind.congr rfl rfl rfl⟩
      · by_cases e3 : alookup nn (s.heap nd).entries = some x
        · rw [hR.target x e3]; exact ⟨rfl, Kind.congr rfl rfl rfl⟩
        · rw [hR.others x (fun e => e1 (Or.inl e)) (fun e => e1 (Or.inr e)) e2 e3]; exact ⟨rfl, id⟩
  have hmove : ∀ l, walk s'.heap rootRef l = if (ln ++ [nn]).isPrefixOf l then walk s.heap rootRef (lo ++ [on] ++ l.drop (ln ++ [nn]).length)
      else if (lo ++ [on]).isPrefixOf l then none else walk s.heap rootRef l := by
    intro l
    by_cases h1 : (ln ++ [nn]).isPrefixOf l = true
    · rw [if_pos h1]
      obtain ⟨rest, rfl⟩ := List.isPrefixOf_iff_prefix.mp h1
      rw [hM.here, List.drop_left]
    · rw [if_neg h1]
      by_cases h2 : (lo ++ [on]).isPrefixOf l = true
      · rw [if_pos h2]
        obtain ⟨rest, rfl⟩ := List.isPrefixOf_iff_prefix.mp h2
        exact hM.gone rest
      · rw [if_neg h2]
        exact hM.elsewhere l (fun e => h2 (List.isPrefixOf_iff_prefix.mpr e)) (fun e => h1 (List.isPrefixOf_iff_prefix.mpr e))
  refine ⟨⟨hb, ?_, ?_, fun l x hx => ?_⟩, ?_⟩
  · have := h.devName
    unfold FS.devName at this ⊢
    rw [hR.others _ (isDir_ne_devNull hi hodir).symm (isDir_ne_devNull hi hdir).symm (h.kind _ _ hr).1.symm (fun e => htn _ e rfl)]; exact this
  · rw [hmove]
    rw [if_neg, h.noDev, ite_self]
    intro e
    obtain ⟨rest, e⟩ := List.isPrefixOf_iff_prefix.mp e
    apply hln.dev
    cases ln with
    | nil => simp only [List.nil_append, List.singleton_append, List.cons.injEq] at e; rw [← e.1]; rfl
    | cons a l => simp only [List.cons_append, List.cons.injEq] at e; rw [← e.1]; rfl
  · rw [hmove] at hx
    have : ∃ l', walk s.heap rootRef l' = some x := by
      split at hx
      · exact ⟨_, hx⟩
      · split at hx
        · simp at hx
        · exact ⟨_, hx⟩
    obtain ⟨l', hl'⟩ := this
    exact ⟨(h.kind l' x hl').1, (hnode x).2 (h.kind l' x hl').2⟩
  · have e : treeOf s' = fun l => (walk s'.heap rootRef l).map fun r => nodeOf r (s.heap r) := by
      funext l
      unfold treeOf
      congr 1
      funext x
      exact (hnode x).1
    rw [e]
    funext l
    unfold Ref.Tree.move
    rw [hmove]
    split
    · rfl
    · split <;> rfl

/-- a second name -/
theorem RefSt.secondName {k : Cfg} {u : Nat} {s s' : FS} (hk : Linux k) (h : RefSt k u s) (hb : RefBase k u s') {d r : Ref} {ld : List Str} {nm : Str}
    (hl : Usable (ld ++ [nm])) (hd : (s.heap d).isDir = true) (hn : SecondName s s' d ld nm r) {lr : List Str} {b : Bytes}
    (hr : walk s.heap rootRef lr = some r) (hf : (s.heap r).content = .file (some b)) :
    RefSt k u s' ∧ treeOf s' = (treeOf s).set (ld ++ [nm]) (some (.file r b)) := by
  have hi := h.inv
  have hlt : ∀ {l x}, walk s.heap rootRef l = some x → x < s.next := fun hx => walk_lt hi _ (root_lt hi) hx
  have hnode : ∀ y < s.next, nodeOf y (s'.heap y) = nodeOf y (s.heap y) ∧ (Kind (s.heap y) → Kind (s'.heap y)) := by
    intro y hy
    by_cases e : y = d
    · subst e
      have hd' : (s'.heap y).isDir = true := by
        have : (s'.heap y).entries ≠ [] := by rw [hn.listed]; simp
        cases hc : (s'.heap y).content with
        | dir es => unfold Obj.isDir; rw [hc]
        | file b => unfold Obj.entries at this; rw [hc] at this; simp at this
      refine ⟨by rw [nodeOf_dir hd', nodeOf_dir hd], fun hkd => ⟨?_, Or.inl hd'⟩⟩
      rw [hn.dir]
      exact hkd.1
    · by_cases e2 : y = r
      · subst e2; rw [hn.object]; exact ⟨rfl, Kind.congr rfl rfl rfl⟩
      · rw [hn.others y hy e e2]; exact ⟨rfl, id⟩
  have hrk := h.kind _ _ hr
  refine ⟨⟨hb, ?_, ?_, fun l y hy => ?_⟩, ?_⟩
  · have := h.devName
    unfold FS.devName at this ⊢
    rw [hn.others _ (devNull_lt hi) (isDir_ne_devNull hi hd).symm hrk.1.symm]; exact this
  · rw [hn.name.elsewhere _ (fun e => hl.dev (by rw [← e]; rfl))]; exact h.noDev
  · by_cases e : l = ld ++ [nm]
    · rw [e, hn.name.here] at hy
      injection hy with hy; subst hy
      exact ⟨hrk.1, (hnode r (hlt hr)).2 hrk.2⟩
    · rw [hn.name.elsewhere l e] at hy
      exact ⟨(h.kind l y hy).1, (hnode y (hlt hy)).2 (h.kind l y hy).2⟩
  · funext l
    unfold Ref.Tree.set treeOf
    by_cases e : l = ld ++ [nm]
    · rw [if_pos e, e, hn.name.here]
      simp only [Option.map_some]
      rw [(hnode r (hlt hr)).1, nodeOf_file hf]
    · rw [if_neg e, hn.name.elsewhere l e]
      cases hy : walk s.heap rootRef l with
      | none => rfl
      | some y => simp only [Option.map_some]; rw [(hnode y (hlt hy)).1]

/-- another name attribute is not seen -/
theorem RefSt.named {k : Cfg} {u : Nat} {s : FS} (h : RefSt k u s) {r : Ref} {nm : Str} (hb : RefBase k u (s.named r nm)) (hr : r ≠ devNullRef) :
    RefSt k u (s.named r nm) ∧ treeOf (s.named r nm) = treeOf s := by
  have hh := fun x => named_heap s r x nm
  have hwk : ∀ l, walk (s.named r nm).heap rootRef l = walk s.heap rootRef l := fun l =>
    walk_congr h.inv.g.entLt (fun x _ => by rw [hh]; rfl) l _ (root_lt h.inv)
  refine ⟨⟨hb, ?_, by rw [hwk]; exact h.noDev, fun l x hx => ?_⟩, ?_⟩
  · have := h.devName
    unfold FS.devName at this ⊢
    rw [hh, if_neg hr.symm]; exact this
  · rw [hwk] at hx
    rw [hh]
    exact ⟨(h.kind l x hx).1, (h.kind l x hx).2.congr rfl rfl rfl⟩
  · funext l
    unfold treeOf
    rw [hwk]
    cases hx : walk s.heap rootRef l with
    | none => rfl
    | some x => simp only [Option.map_some]; rw [hh]; rfl

end Verif
