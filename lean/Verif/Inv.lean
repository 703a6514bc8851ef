import Verif.Wp
import Verif.FileIO
import Verif.PathLemmas
import Mathlib.Algebra.BigOperators.Group.Finset.Basic
import Mathlib.Algebra.Order.BigOperators.Group.Finset
/-!
# The structural invariant of the object graph and its preservation by the primitives
-/

namespace Verif
open Py

/-- Number of directory entries referring to `r` (in all directory objects). -/
def refs (hp : Ref → Obj) (nx : Nat) (r : Ref) : Nat :=
  ∑ d ∈ Finset.range nx, ((hp d).entries.map Prod.snd).count r

/-- The parent chain of `r` ends. -/
inductive Rooted (hp : Ref → Obj) : Ref → Prop
  | top {r} : (hp r).parent = none → Rooted hp r
  | up {r p} : (hp r).parent = some p → Rooted hp p → Rooted hp r

/-- `a` is on the parent chain of `r` (including `r`). -/
inductive Anc (hp : Ref → Obj) (a : Ref) : Ref → Prop
  | refl : Anc hp a a
  | up {r p} : (hp r).parent = some p → Anc hp a p → Anc hp a r

/-- Structural invariant of the heap `hp` with `nx` objects and `li` the last inode number. -/
structure InvG (hp : Ref → Obj) (nx li : Nat) : Prop where
  two : 2 ≤ nx
  entLt : ∀ d < nx, ∀ e ∈ (hp d).entries, e.2 < nx
  entRoot : ∀ d < nx, ∀ e ∈ (hp d).entries, e.2 ≠ rootRef
  keys : ∀ d < nx, ((hp d).entries.map Prod.fst).Nodup
  dirEnt : ∀ d < nx, ∀ e ∈ (hp d).entries, (hp e.2).isDir = true →
    (hp e.2).parent = some d ∧ (hp e.2).name = e.1
  parDir : ∀ r < nx, ∀ p, (hp r).parent = some p → p < nx ∧ (hp p).isDir = true
  dirMode : ∀ r < nx, (hp r).isDir = true → (hp r).mode &&& S_IFDIR ≠ 0
  entIno : ∀ d < nx, ∀ e ∈ (hp d).entries, (hp e.2).ino ≠ none
  inoLe : ∀ r < nx, ∀ i, (hp r).ino = some i → i ≤ li
  inoInj : ∀ r < nx, ∀ q < nx, ∀ i, (hp r).ino = some i → (hp q).ino = some i → r = q
  rootDir : (hp rootRef).isDir = true
  rootPar : (hp rootRef).parent = none
  rootIno : (hp rootRef).ino ≠ none

/-- Link counts are right and parent chains end. -/
structure InvT (hp : Ref → Obj) (nx : Nat) : Prop where
  nlink : ∀ r < nx, (hp r).nlink =
    ((if (hp r).isDir then 1 + (hp r).entries.length else 0 : Nat) + refs hp nx r : Nat)
  rooted : ∀ r < nx, Rooted hp r

/-- Mount points have different device numbers, at most the last number given. -/
structure InvM (ms : List Mount) (ld : Nat) : Prop where
  devLe : ∀ m ∈ ms, m.idev ≤ ld
  devNodup : (ms.map Mount.idev).Nodup
  pathNodup : (ms.map Mount.path).Nodup

/-- Case-sensitive POSIX filesystems (the default Linux configuration). -/
structure Cfg.Tree (k : Cfg) : Prop where
  cs : k.caseSens = true
  posix : k.Posix

/-- The root directory, the null device, the current directory, the names in directories. -/
structure InvN (s : FS) : Prop where
  rootMode : ifmt (s.heap rootRef).mode = S_IFDIR
  devFile : (s.heap devNullRef).isDir = false
  devMode : ifmt (s.heap devNullRef).mode = S_IFREG
  cwd : s.cfg.Posix → Spec.isAbs s.cfg.sep s.cwd
  names : s.cfg.Posix → s.cfg.isMac = false → ∀ d < s.next, ∀ e ∈ (s.heap d).entries,
    Spec.Proper s.cfg.sep e.1
  rootMount : ∃ m ∈ s.mounts, m.path = s.cfg.root
  rootName : (s.heap rootRef).name = s.cfg.root

/-- The invariant: structure, mount points, names and (on case-sensitive POSIX filesystems) link counts and
absence of parent cycles. -/
structure Inv (s : FS) : Prop where
  g : InvG s.heap s.next s.lastIno
  m : InvM s.mounts s.lastDev
  n : InvN s
  t : s.cfg.Tree → InvT s.heap s.next

/-- Used sizes only grow within the limits. -/
def Quota (ms ms' : List Mount) : Prop :=
  ∀ m' ∈ ms', ∀ t, m'.total = some t → m'.used ≤ max t 0 ∨
    ∃ m ∈ ms, m.idev = m'.idev ∧ m.total = m'.total ∧ m'.used ≤ m.used

theorem Quota.refl (ms : List Mount) : Quota ms ms := fun m hm _ _ => Or.inr ⟨m, hm, rfl, rfl, le_refl _⟩
theorem Quota.trans {a b c : List Mount} (h : Quota a b) (k : Quota b c) : Quota a c := by
  intro m hm t ht
  rcases k m hm t ht with h1 | ⟨m', hm', e1, e2, h1⟩
  · exact Or.inl h1
  · rcases h m' hm' t (e2.trans ht) with h2 | ⟨m'', hm'', e3, e4, h2⟩
    · exact Or.inl (le_trans h1 h2)
    · exact Or.inr ⟨m'', hm'', e3.trans e1, e4.trans e2, le_trans h1 h2⟩

/-- What every operation keeps: configuration, user, current directory, umask, existing objects, their kinds,
file types and inode numbers; disk usage does not grow over the limits. -/
structure Ext (s s' : FS) : Prop where
  cfg : s'.cfg = s.cfg
  limit : s'.limit = s.limit
  uid : s'.uid = s.uid
  gid : s'.gid = s.gid
  cwd : s'.cwd = s.cwd
  umask : s'.umask = s.umask
  clock : s'.clock = s.clock
  next : s.next ≤ s'.next
  kind : ∀ r < s.next, (s'.heap r).isDir = (s.heap r).isDir
  ftype : ∀ r < s.next, ifmt (s'.heap r).mode = ifmt (s.heap r).mode
  ino : ∀ r < s.next, (s.heap r).ino ≠ none → (s'.heap r).ino = (s.heap r).ino
  quota : Quota s.mounts s'.mounts

theorem Ext.refl (s : FS) : Ext s s :=
  ⟨rfl, rfl, rfl, rfl, rfl, rfl, rfl, Nat.le_refl _, fun _ _ => rfl, fun _ _ => rfl, fun _ _ _ => rfl, Quota.refl _⟩
theorem Ext.trans {a b c : FS} (h : Ext a b) (k : Ext b c) : Ext a c :=
  ⟨k.cfg.trans h.cfg, k.limit.trans h.limit, k.uid.trans h.uid, k.gid.trans h.gid, k.cwd.trans h.cwd,
    k.umask.trans h.umask, k.clock.trans h.clock,
    Nat.le_trans h.next k.next,
    fun r hr => (k.kind r (Nat.lt_of_lt_of_le hr h.next)).trans (h.kind r hr),
    fun r hr => (k.ftype r (Nat.lt_of_lt_of_le hr h.next)).trans (h.ftype r hr),
    fun r hr hi => (k.ino r (Nat.lt_of_lt_of_le hr h.next) (by rw [h.ino r hr hi]; exact hi)).trans (h.ino r hr hi),
    h.quota.trans k.quota⟩

/-- outcome of an operation started in `s` -/
structure Good (s s' : FS) : Prop where
  inv : Inv s'
  ext : Ext s s'

theorem Good.trans {a b c : FS} (h : Ext a b) (k : Good b c) : Good a c := ⟨k.inv, h.trans k.ext⟩
theorem Good.refl {s : FS} (h : Inv s) : Good s s := ⟨h, Ext.refl s⟩

/-! ## Reference counts -/

theorem refs_congr {hp hp' : Ref → Obj} {nx : Nat} (r : Ref)
    (h : ∀ d < nx, (hp' d).entries = (hp d).entries) : refs hp' nx r = refs hp nx r := by
  unfold refs
  apply Finset.sum_congr rfl
  intro d hd
  rw [h d (Finset.mem_range.mp hd)]

theorem refs_pos {hp : Ref → Obj} {nx d r : Nat} (hd : d < nx) {e : Str × Ref}
    (he : e ∈ (hp d).entries) (hr : e.2 = r) : 0 < refs hp nx r := by
  unfold refs
  apply Nat.lt_of_lt_of_le _ (Finset.single_le_sum (f := fun d => ((hp d).entries.map Prod.snd).count r)
    (fun _ _ => Nat.zero_le _) (Finset.mem_range.mpr hd))
  apply List.count_pos_iff.mpr
  exact List.mem_map.mpr ⟨e, he, hr⟩

theorem refs_zero {hp : Ref → Obj} {nx r : Nat} (h : ∀ d < nx, ∀ e ∈ (hp d).entries, e.2 ≠ r) :
    refs hp nx r = 0 := by
  unfold refs
  apply Finset.sum_eq_zero
  intro d hd
  apply List.count_eq_zero.mpr
  intro hm
  obtain ⟨e, he, hr⟩ := List.mem_map.mp hm
  exact h d (Finset.mem_range.mp hd) e he hr

/-- changing the entries of one directory -/
theorem refs_upd {hp hp' : Ref → Obj} {nx d : Nat} (r : Ref) (hd : d < nx)
    (h : ∀ x < nx, x ≠ d → (hp' x).entries = (hp x).entries) :
    refs hp' nx r + ((hp d).entries.map Prod.snd).count r =
      refs hp nx r + ((hp' d).entries.map Prod.snd).count r := by
  unfold refs
  have hm : d ∈ Finset.range nx := Finset.mem_range.mpr hd
  rw [← Finset.add_sum_erase _ _ hm, ← Finset.add_sum_erase (Finset.range nx)
    (fun d => ((hp d).entries.map Prod.snd).count r) hm]
  have : ∑ x ∈ (Finset.range nx).erase d, ((hp' x).entries.map Prod.snd).count r =
      ∑ x ∈ (Finset.range nx).erase d, ((hp x).entries.map Prod.snd).count r := by
    apply Finset.sum_congr rfl
    intro x hx
    rw [h x (Finset.mem_range.mp (Finset.mem_of_mem_erase hx)) (Finset.ne_of_mem_erase hx)]
  rw [this]
  omega

theorem refs_succ (hp : Ref → Obj) (nx r : Nat) :
    refs hp (nx + 1) r = refs hp nx r + ((hp nx).entries.map Prod.snd).count r := by
  unfold refs
  rw [Finset.sum_range_succ]

/-! ## Parent chains -/

theorem Rooted.congr {hp hp' : Ref → Obj} {r : Ref} (h : ∀ x, (hp' x).parent = (hp x).parent)
    (hr : Rooted hp r) : Rooted hp' r := by
  induction hr with
  | top h0 => exact .top (by rw [h]; exact h0)
  | up h0 _ ih => exact .up (by rw [h]; exact h0) ih

/-- Giving `c` a new parent `d` keeps chains finite if `c` is not an ancestor of `d`. -/
theorem Rooted.reparent {hp hp' : Ref → Obj} {c d : Ref}
    (hd : Rooted hp d) (hno : ¬ Anc hp c d) (hc : (hp' c).parent = some d)
    (ho : ∀ x, x ≠ c → (hp' x).parent = (hp x).parent) {r : Ref} (hr : Rooted hp r) : Rooted hp' r := by
  have key : ∀ x, Rooted hp x → ¬ Anc hp c x → Rooted hp' x := by
    intro x hx
    induction hx with
    | @top r h0 =>
      intro hn
      have : r ≠ c := fun e => hn (e ▸ .refl)
      exact .top (by rw [ho r this]; exact h0)
    | @up r p h0 _ ih =>
      intro hn
      have : r ≠ c := fun e => hn (e ▸ .refl)
      exact .up (by rw [ho r this]; exact h0) (ih fun a => hn (.up h0 a))
  induction hr with
  | @top r h0 =>
    by_cases e : r = c
    · subst e; exact .up hc (key d hd hno)
    · exact .top (by rw [ho r e]; exact h0)
  | @up r p h0 _ ih =>
    by_cases e : r = c
    · subst e; exact .up hc (key d hd hno)
    · exact .up (by rw [ho r e]; exact h0) ih

/-- On chains that do not meet `c`, only the part off `c` matters. -/
theorem Rooted.of_off {hp hp' : Ref → Obj} {c x : Ref} (hx : Rooted hp x) (hn : ¬ Anc hp c x)
    (ho : ∀ y, y ≠ c → (hp' y).parent = (hp y).parent) : Rooted hp' x := by
  induction hx with
  | @top r h0 =>
    have : r ≠ c := fun e => hn (e ▸ .refl)
    exact .top (by rw [ho r this]; exact h0)
  | @up r p h0 _ ih =>
    have : r ≠ c := fun e => hn (e ▸ .refl)
    exact .up (by rw [ho r this]; exact h0) (ih fun a => hn (.up h0 a))

end Verif
