import Verif.Props.RefinePrune
/-!
# C74, continued: whole histories
-/

namespace Verif
open Py Spec Cfg

namespace Spec
/-- what a sequence of calls gives, one after the other -/
def answers : List Ref.Call → FS → List Ref.Res
  | [], _ => []
  | c :: cs, s => (callOn c s).1 :: answers cs (callOn c s).2

/-- the state after a sequence of calls -/
def after : List Ref.Call → FS → FS
  | [], s => s
  | c :: cs, s => after cs (callOn c s).2
end Spec

/-- **C74** (one call). In a state that stands for a tree of the reference file system, each call is answered as the reference file
system answers it, and the state afterwards stands for the tree the reference file system then has. -/
theorem refines_step {k : Cfg} (hk : Linux k) {u : Nat} (hu : u < 0o10000) (hr : u &&& PERM_READ = 0) {s : FS} (h : RefSt k u s) {c : Ref.Call}
    (hc : Allowed k c) : Refines k u s c := by
  cases c with
  | mkdir p => obtain ⟨l, n, rfl⟩ := snoc_of_ne hc.2; exact h.mkdir hk hr hc.1
  | rmdir p => obtain ⟨l, n, rfl⟩ := snoc_of_ne hc.2; exact h.rmdir hk hc.1
  | remove p => obtain ⟨l, n, rfl⟩ := snoc_of_ne hc.2; exact h.remove hk hc.1
  | rename a b => exact h.rename hk hc.1 hc.2.1 hc.2.2.1 hc.2.2.2.1 hc.2.2.2.2
  | link a b => obtain ⟨l, n, rfl⟩ := snoc_of_ne hc.2.2; exact h.link hk hc.1 hc.2.1
  | writeBytes p b => obtain ⟨l, n, rfl⟩ := snoc_of_ne hc.2; exact h.writeBytes hk hu hr hc.1 b
  | readBytes p => exact h.readBytes hk hc
  | listdir p => exact h.listdir hk hc
  | «exists» p => exact h.exists hk hc
  | isfile p => exact h.isfile hk hc
  | isdir p => exact h.isdir hk hc
  | getsize p => exact h.getsize hk hc
  | replace a b => exact h.replace hk hc.1 hc.2.1 hc.2.2.1 hc.2.2.2.1 hc.2.2.2.2
  | makedirs p ok => exact h.makedirs hk hr hc ok
  | createDir p => exact h.createDir hk hc
  | createFile p b => obtain ⟨l, n, rfl⟩ := snoc_of_ne hc.2; exact h.createFile hk hc.1 b
  | removeAll p => obtain ⟨l, n, rfl⟩ := snoc_of_ne hc.2; exact h.removeAll hk hc.1
  | samefile p q => exact h.samefile hk hc.1 hc.2
  | lexists p => exact h.lexists hk hc
  | removedirs p => obtain ⟨l, n, rfl⟩ := snoc_of_ne hc.2; exact h.removedirs hk hc.1

theorem init_refSt {k : Cfg} (hk : Linux k) (limit gid u : Nat) (clock : Int) :
    RefSt k u (initFS k limit 0 gid u clock none) ∧ treeOf (initFS k limit 0 gid u clock none) = Ref.Tree.new := by
  have H := init_heap k limit 0 gid u clock none
  have hwk : ∀ l, walk (initFS k limit 0 gid u clock none).heap rootRef l = if l = [] then some rootRef else none := by
    intro l
    cases l with
    | nil => rfl
    | cons w l => simp [walk, (H rootRef).1, alookup]
  refine ⟨⟨⟨⟨k, limit, 0, gid, u, clock, none, [], rfl⟩, rfl, (one_init hk.tree limit 0 gid u clock (by simp)).weaken, sane_init _ _ _ _ _ _ _, ?_, rfl, rfl⟩, ?_, ?_, ?_⟩, ?_⟩
  · intro m hm
    have : m ∈ [_] := hm
    rw [List.mem_singleton] at this
    rw [this]
  · show k.devNull = _
    exact hk.dev
  · rw [hwk]; rfl
  · intro l x hx
    rw [hwk] at hx
    split at hx
    · injection hx with hx; subst hx
      refine ⟨by decide, ?_, Or.inl ((H rootRef).2.2.2.mpr rfl)⟩
      show (S_IFDIR ||| PERM_DEF) &&& PERM_READ ≠ 0
      decide
    · simp at hx
  · funext l
    unfold treeOf Ref.Tree.new
    rw [hwk]
    split
    · simp only [Option.map_some]
      rw [nodeOf_dir ((H rootRef).2.2.2.mpr rfl)]
    · rfl

/-- the same from any state that stands for a tree -/
theorem refines_from {k : Cfg} (hk : Linux k) {u : Nat} (hu : u < 0o10000) (hr : u &&& PERM_READ = 0) (cs : List Ref.Call) :
    ∀ {s : FS}, RefSt k u s → (∀ c ∈ cs, Allowed k c) →
      RefSt k u (after cs s) ∧ Ref.Run (treeOf s) cs (answers cs s) (treeOf (after cs s)) := by
  induction cs with
  | nil => intro s h _; exact ⟨h, .nil _⟩
  | cons c cs ih =>
    intro s h hc
    have h1 := refines_step hk hu hr h (hc c (by simp))
    have h2 := ih h1.st fun c' hc' => hc c' (by simp [hc'])
    exact ⟨h2.1, .cons h1.step h2.2⟩

/-- **C74**. A new fake Linux filesystem of unlimited size, used by root with a umask that leaves the owner's read permission, answers
every sequence of calls as the reference file system does: there is a run of the reference file system from the tree with the root only
that gives the very same results. -/
theorem refines {k : Cfg} (hk : Linux k) (limit gid : Nat) (clock : Int) {u : Nat} (hu : u < 0o10000) (hr : u &&& PERM_READ = 0) (cs : List Ref.Call)
    (hc : ∀ c ∈ cs, Allowed k c) :
    ∃ t, Ref.Run Ref.Tree.new cs (answers cs (initFS k limit 0 gid u clock none)) t := by
  obtain ⟨h1, h2⟩ := init_refSt hk limit gid u clock
  have := (refines_from hk hu hr cs h1 hc).2
  rw [h2] at this
  exact ⟨_, this⟩

/-! ## A history -/

theorem demoCfg_linux : Linux demoCfg := ⟨demoCfg_tree, rfl, rfl, rfl⟩

/-- two directories, a file with two names, a rename over a directory, and some errors -/
def refCalls : List Ref.Call :=
  [.mkdir [['a']], .writeBytes [['a'], ['f']] [104, 105], .link [['a'], ['f']] [['g']], .writeBytes [['g']] [1, 2, 3], .readBytes [['a'], ['f']],
   .mkdir [['b']], .rename [['a']] [['b']], .rename [['b']] [['b'], ['x']], .exists [['a']], .getsize [['b'], ['f']], .rmdir [['b']],
   .remove [['g']], .listdir [['b']], .remove [['b'], ['f']], .rmdir [['b']], .listdir [], .readBytes [['g']], .mkdir [['q'], ['r']],
   .makedirs [['q'], ['r'], ['s']] false, .makedirs [['q'], ['r']] true, .makedirs [['q'], ['r']] false, .createFile [['q'], ['n'], ['f']] [7],
   .createDir [['q'], ['n'], ['f'], ['x']], .createFile [['q'], ['n'], ['f'], ['x'], ['y']] [], .replace [['q'], ['n'], ['f']] [['h']],
   .samefile [['h']] [['q'], ['n'], ['f']], .samefile [['q'], ['n']] [['q'], ['n']], .removeAll [['q']], .lexists [['q'], ['r']], .removeAll [['q']],
   .makedirs [['u'], ['v'], ['w']] false, .removedirs [['u'], ['v']], .removedirs [['u'], ['v'], ['w']], .exists [['u']], .removedirs [['h']],
   .remove [['h']], .makedirs [['u'], ['v']] false, .removedirs [['u'], ['v']], .exists [['u']]]

instance (l : List Str) : Decidable (Usable l) :=
  decidable_of_iff ((∀ w ∈ l, Plain '/' w) ∧ l.head? ≠ some devDir) ⟨fun h => ⟨h.1, h.2⟩, fun h => ⟨h.1, h.2⟩⟩

instance (k : Cfg) (c : Ref.Call) : Decidable (Allowed k c) := by
  cases c <;> simp only [Allowed] <;> infer_instance

example : ∀ c ∈ refCalls, Allowed demoCfg c := by decide +kernel

example : answers refCalls (initFS demoCfg 50 0 0 0o022 7 none) =
    [.done, .num 2, .done, .num 3, .bytes [1, 2, 3], .done, .done, .err .EINVAL, .bool false, .num 3, .err .ENOTEMPTY, .done, .names [['f']], .done,
      .done, .names [], .err .ENOENT, .err .ENOENT, .done, .done, .err .EEXIST, .done, .err .ENOTDIR, .err .ENOTDIR, .done, .err .ENOENT, .bool true, .done,
      .bool false, .err .ENOENT, .done, .err .ENOTEMPTY, .done, .bool false, .err .ENOTDIR, .done, .done, .err .EBUSY, .bool false] := by decide +kernel

end Verif
