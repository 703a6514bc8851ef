import Verif.Props.WrittenMake
import Verif.WholeFile
import Verif.Text
/-!
# C85: the theorems

`Spec.Written s p l n` says that the text `p`, read from the current directory, means the name `n` in the directory `l`.
Each call does with `p` what it does with the absolute path of that place.
-/

namespace Verif
open Py Spec Cfg

section
variable {s : FS} {p : Str} {l : List Str} {n : Str} (hs : Reachable s) (ht : s.cfg.Tree) (h : Written s p l n)
include hs ht h

/-- (C85) Reading calls. -/
theorem written_read : (∀ f, s.stat p f = s.stat (absPath s.cfg.sep (l ++ [n])) f) ∧ s.readlink p = s.readlink (absPath s.cfg.sep (l ++ [n])) ∧
    s.listdir p = s.listdir (absPath s.cfg.sep (l ++ [n])) ∧ (∀ m f, s.access p m f = s.access (absPath s.cfg.sep (l ++ [n])) m f) ∧
    s.exists_ p = s.exists_ (absPath s.cfg.sep (l ++ [n])) ∧ s.existsL p = s.existsL (absPath s.cfg.sep (l ++ [n])) ∧
    s.isLink p = s.isLink (absPath s.cfg.sep (l ++ [n])) ∧ s.isFile p = s.isFile (absPath s.cfg.sep (l ++ [n])) ∧
    (∀ f, s.isDir p f = s.isDir (absPath s.cfg.sep (l ++ [n])) f) ∧ (∀ a f, s.getxattr p a f = s.getxattr (absPath s.cfg.sep (l ++ [n])) a f) ∧
    (∀ f, s.listxattr p f = s.listxattr (absPath s.cfg.sep (l ++ [n])) f) := by
  have hi := reachable_inv hs
  exact ⟨h.stat hi ht, h.readlink hi ht, h.listdir hi ht, h.access hi ht, h.exists_ hi ht, h.existsL hi ht, h.isLink hi ht, h.isFile hi ht,
    h.isDir hi ht, h.getxattr hi ht, h.listxattr hi ht⟩

/-- (C85) Calls that change what is there: the result and the whole state afterwards are the same. -/
theorem written_attr : (∀ m f, chmod p m f s = chmod (absPath s.cfg.sep (l ++ [n])) m f s) ∧
    (∀ u g f, chown p u g f s = chown (absPath s.cfg.sep (l ++ [n])) u g f s) ∧
    (∀ t f, utime p t f s = utime (absPath s.cfg.sep (l ++ [n])) t f s) ∧ (∀ k, truncate p k s = truncate (absPath s.cfg.sep (l ++ [n])) k s) ∧
    chdir p s = chdir (absPath s.cfg.sep (l ++ [n])) s ∧
    (∀ a v fl f, setxattr p a v fl f s = setxattr (absPath s.cfg.sep (l ++ [n])) a v fl f s) ∧
    (∀ a f, removexattr p a f s = removexattr (absPath s.cfg.sep (l ++ [n])) a f s) := by
  have hi := reachable_inv hs
  exact ⟨h.chmod hi ht, h.chown hi ht, h.utime hi ht, h.truncate hi ht, h.chdir hi ht, h.setxattr hi ht, h.removexattr hi ht⟩

/-- (C85) Removing and renaming. -/
theorem written_remove : remove p s = remove (absPath s.cfg.sep (l ++ [n])) s ∧ (∀ b, rmdir p b s = rmdir (absPath s.cfg.sep (l ++ [n])) b s) ∧
    removedirs p s = removedirs (absPath s.cfg.sep (l ++ [n])) s ∧
    (∀ new f, rename p new f s = rename (absPath s.cfg.sep (l ++ [n])) new f s) ∧
    (∀ old f, rename old p f s = rename old (absPath s.cfg.sep (l ++ [n])) f s) := by
  have hi := reachable_inv hs
  exact ⟨h.remove hi ht, h.rmdir hi ht, h.removedirs hi ht, h.renameOld hi ht, h.renameNew hi ht⟩

/-- (C85) Creating. A bare name is in the current directory: `os.mkdir` needs it to exist still, and `os.mknod` is excepted. -/
theorem written_make (hsl : s.cfg.sep = '/') :
    (∀ m, dots s.cfg.sep p = 0 → (s.cfg.sep ∉ p → s.exists_ s.cwd = .ok true) → mkdir p m s = mkdir (absPath s.cfg.sep (l ++ [n])) m s) ∧
    (∀ m ok, makedirs p m ok s = makedirs (absPath s.cfg.sep (l ++ [n])) m ok s) ∧
    (∀ m, s.cfg.sep ∈ p → mknod p m s = mknod (absPath s.cfg.sep (l ++ [n])) m s) ∧
    (∀ t cm, createSymlink p t cm s = createSymlink (absPath s.cfg.sep (l ++ [n])) t cm s) ∧
    (∀ m c size cm um, createFileI p m c size cm um s = createFileI (absPath s.cfg.sep (l ++ [n])) m c size cm um s) ∧
    (∀ m, createDir p m s = createDir (absPath s.cfg.sep (l ++ [n])) m s) ∧
    (∀ new f, link p new f s = link (absPath s.cfg.sep (l ++ [n])) new f s) ∧
    (∀ old f, link old p f s = link old (absPath s.cfg.sep (l ++ [n])) f s) := by
  have hi := reachable_inv hs
  exact ⟨fun m hf hc => h.mkdir hi ht m hf hc, h.makedirs hi ht, fun m hc => h.mknod hi ht m hc, h.symlink hi ht hsl, h.createFile hi ht hsl, h.createDir hi ht hsl,
    h.linkOld hi ht, h.linkNew hi ht⟩

/-- (C85) Opening, and reading and writing whole files. -/
theorem written_open : (∀ md bf raw del, openPath p md bf raw del s = openPath (absPath s.cfg.sep (l ++ [n])) md bf raw del s) ∧
    readBytes p s = readBytes (absPath s.cfg.sep (l ++ [n])) s ∧ (∀ b, writeBytes p b s = writeBytes (absPath s.cfg.sep (l ++ [n])) b s) ∧
    (∀ cd, readText cd p s = readText cd (absPath s.cfg.sep (l ++ [n])) s) ∧
    (∀ cd t, writeText cd p t s = writeText cd (absPath s.cfg.sep (l ++ [n])) t s) := by
  have hi := reachable_inv hs
  refine ⟨h.openPath hi ht, ?_, fun b => ?_, fun cd => ?_, fun cd t => ?_⟩
  · exact bind_left (h.openPath hi ht _ _ _ _)
  · exact bind_left (h.openPath hi ht _ _ _ _)
  · exact bind_left (h.openPath hi ht _ _ _ _)
  · exact bind_left (h.openPath hi ht _ _ _ _)

/-- (C85) `os.open`, with every combination of flags. -/
theorem written_osOpen (hw : Within s) (hg : Genuine s) (hwin : s.cfg.isWin = false) (f : OFlags) (mode : Nat) :
    osOpen p f mode s = osOpen (absPath s.cfg.sep (l ++ [n])) f mode s := h.osOpen hs ht hwin hw hg f mode
end

/-! ## an example: in `/a`, the file `/a/f` can be written `f`, `./f`, `.//f`, `/a//./f` -/

/-- the demo file system after `os.chdir("/a")` -/
def inA : FS := runs (demoOps ++ [.chdir ['/', 'a']]) (initFS demoCfg 50 0 0 0o022 7 (some 1000))

theorem inA_reachable : Reachable inA := ⟨_, _, _, _, _, _, _, _, rfl⟩
theorem inA_cfg : inA.cfg = demoCfg := runs_cfg
theorem inA_tree : inA.cfg.Tree := by rw [inA_cfg]; exact demoCfg_tree
example : inA.cwd = ['/', 'a'] := by decide +kernel

theorem inA_within : Within inA := by
  have h : inA.mounts.all (fun m => match m.total with | none => true | some t => decide (m.used ≤ t)) = true := by
    decide +kernel
  intro m hm t ht
  have := List.all_eq_true.mp h m hm
  rw [ht] at this
  exact of_decide_eq_true this

theorem inA_genuine : Genuine inA := by
  intro x hx
  rw [show inA.next = 6 from by decide +kernel] at hx
  have h : ∀ x < 6, (inA.heap x).isDir = (inA.heap x).isDirMode := by decide +kernel
  exact h x hx

/-- decidable form of `Written` -/
theorem written_of_check {s : FS} (hp : s.cfg.Posix) {p : Str} {l : List Str} {n : Str} (c d : List Str)
    (h : (∀ w ∈ l ++ [n], Plain s.cfg.sep w) ∧ loc s.cfg.sep (loc s.cfg.sep [] s.cwd) p = (l ++ [n]).reverse ∧
      (split s.cfg.sep p).getLast? = some n ∧ dots s.cfg.sep p = 0 ∧
      ((∀ w ∈ c, Proper s.cfg.sep w) ∧ s.cwd = absPath s.cfg.sep c) ∧ ((∀ w ∈ d, Proper s.cfg.sep w) ∧ s.devName = absPath s.cfg.sep d) ∧
      absPath s.cfg.sep l ≠ s.devName ∧ absPath s.cfg.sep (l ++ [n]) ≠ s.devName) : Written s p l n :=
  ⟨h.1, h.2.1, h.2.2.1, passable_of_dots hp h.2.2.2.1, ⟨c, h.2.2.2.2.1⟩, ⟨d, h.2.2.2.2.2.1⟩, h.2.2.2.2.2.2.1, h.2.2.2.2.2.2.2⟩

/-- in `/a`, `.//f` is the existing file `/a/f` -/
theorem inA_f : Written inA ['.', '/', '/', 'f'] [['a']] ['f'] := written_of_check inA_tree.posix [['a']] [['d', 'e', 'v'], ['n', 'u', 'l', 'l']] (by decide +kernel)
/-- in `/a`, `d/./n` is the free name `/a/d/n` -/
theorem inA_n : Written inA ['d', '/', '.', '/', 'n'] [['a'], ['d']] ['n'] := written_of_check inA_tree.posix [['a']] [['d', 'e', 'v'], ['n', 'u', 'l', 'l']] (by decide +kernel)
/-- in `/a`, the bare name `z` is the free name `/a/z` -/
theorem inA_z : Written inA ['z'] [['a']] ['z'] := written_of_check inA_tree.posix [['a']] [['d', 'e', 'v'], ['n', 'u', 'l', 'l']] (by decide +kernel)

theorem inA_abs (l : List Str) : absPath inA.cfg.sep l = absPath '/' l := by rw [inA_cfg]; rfl

example : inA.stat ['.', '/', '/', 'f'] true = inA.stat ['/', 'a', '/', 'f'] true := by
  have h := (written_read inA_reachable inA_tree inA_f).1 true
  rwa [inA_abs] at h
example : inA.exists_ ['.', '/', '/', 'f'] = .ok true := by decide +kernel
example : chmod ['.', '/', '/', 'f'] 0o600 true inA = chmod ['/', 'a', '/', 'f'] 0o600 true inA := by
  have h := (written_attr inA_reachable inA_tree inA_f).1 0o600 true
  rwa [inA_abs] at h
example : remove ['.', '/', '/', 'f'] inA = remove ['/', 'a', '/', 'f'] inA := by
  have h := (written_remove inA_reachable inA_tree inA_f).1
  rwa [inA_abs] at h
example : mkdir ['d', '/', '.', '/', 'n'] 0o777 inA = mkdir ['/', 'a', '/', 'd', '/', 'n'] 0o777 inA := by
  have h := (written_make inA_reachable inA_tree inA_n (by rw [inA_cfg]; rfl)).1 0o777 (by decide +kernel) (fun _ => by decide +kernel)
  rwa [inA_abs] at h
example : mkdir ['z'] 0o777 inA = mkdir ['/', 'a', '/', 'z'] 0o777 inA := by
  have h := (written_make inA_reachable inA_tree inA_z (by rw [inA_cfg]; rfl)).1 0o777 (by decide +kernel) (fun _ => by decide +kernel)
  rwa [inA_abs] at h
example : (mkdir ['z'] 0o777 inA).1 = .ok () := by decide +kernel
example : writeBytes ['z'] [1] inA = writeBytes ['/', 'a', '/', 'z'] [1] inA := by
  have h := (written_open inA_reachable inA_tree inA_z).2.2.1 [1]
  rwa [inA_abs] at h
example (f : OFlags) (mode : Nat) : osOpen ['z'] f mode inA = osOpen ['/', 'a', '/', 'z'] f mode inA := by
  have h := written_osOpen inA_reachable inA_tree inA_z inA_within inA_genuine (by rw [inA_cfg]; rfl) f mode
  rwa [inA_abs] at h

/-! ## paths that go up: in `/a`, the file `/a/f` can be written `d/../f` and `../a/f` -/

/-- In `/a`, `d/../f` is the existing file `/a/f`: `/a/d` exists. -/
theorem inA_up : Written inA ['d', '/', '.', '.', '/', 'f'] [['a']] ['f'] := by
  have h := written_of_check (s := inA) (p := ['f']) (l := [['a']]) (n := ['f']) inA_tree.posix [['a']] [['d', 'e', 'v'], ['n', 'u', 'l', 'l']] (by decide +kernel)
  refine ⟨h.plain, by decide +kernel, by decide +kernel, ?_, h.cwd, h.null, h.dev, h.dev'⟩
  intro q r e
  have hsep : inA.cfg.sep = '/' := by rw [inA_cfg]; rfl
  rw [hsep] at e
  refine ⟨by decide +kernel, fun _ => ⟨[['a'], ['d']], by decide +kernel, ?_, by decide +kernel⟩⟩
  have hq : q = ['d'] := by
    match q, e with
    | [x], e => injection e with e _; rw [← e]
    | [], e => simp at e
    | [_, _], e => simp at e
    | [_, _, _], e => simp at e
    | [_, _, _, _], e => simp at e
    | [_, _, _, _, _], e => simp at e
    | _ :: _ :: _ :: _ :: _ :: _ :: q, e =>
      have := congrArg List.length e
      simp at this
  subst hq
  decide +kernel

/-- In `/a`, `../g` is `/g`: nothing stands before the two dots. -/
theorem inA_out : Written inA ['.', '.', '/', 'g'] [] ['g'] := by
  have h := written_of_check (s := inA) (p := ['/', 'g']) (l := []) (n := ['g']) inA_tree.posix [['a']] [['d', 'e', 'v'], ['n', 'u', 'l', 'l']] (by decide +kernel)
  refine ⟨h.plain, by decide +kernel, by decide +kernel, ?_, h.cwd, h.null, h.dev, h.dev'⟩
  intro q r e
  exfalso
  have hsep : inA.cfg.sep = '/' := by rw [inA_cfg]; rfl
  rw [hsep] at e
  match q, e with
  | [], e => simp at e
  | [_], e => simp at e
  | [_, _], e => simp at e
  | [_, _, _], e => simp at e
  | _ :: _ :: _ :: _ :: q, e =>
    have := congrArg List.length e
    simp at this

/-- In `/a`, `d/../n` is the free name `/a/n`: `/a/d` exists. -/
theorem inA_new : Written inA ['d', '/', '.', '.', '/', 'n'] [['a']] ['n'] := by
  have h := written_of_check (s := inA) (p := ['n']) (l := [['a']]) (n := ['n']) inA_tree.posix [['a']] [['d', 'e', 'v'], ['n', 'u', 'l', 'l']] (by decide +kernel)
  refine ⟨h.plain, by decide +kernel, by decide +kernel, ?_, h.cwd, h.null, h.dev, h.dev'⟩
  intro q r e
  have hsep : inA.cfg.sep = '/' := by rw [inA_cfg]; rfl
  rw [hsep] at e
  refine ⟨by decide +kernel, fun _ => ⟨[['a'], ['d']], by decide +kernel, ?_, by decide +kernel⟩⟩
  have hq : q = ['d'] := by
    match q, e with
    | [x], e => injection e with e _; rw [← e]
    | [], e => simp at e
    | [_, _], e => simp at e
    | [_, _, _], e => simp at e
    | [_, _, _, _], e => simp at e
    | [_, _, _, _, _], e => simp at e
    | _ :: _ :: _ :: _ :: _ :: _ :: q, e =>
      have := congrArg List.length e
      simp at this
  subst hq
  decide +kernel

example : inA.stat ['d', '/', '.', '.', '/', 'f'] true = inA.stat ['/', 'a', '/', 'f'] true := by
  have h := (written_read inA_reachable inA_tree inA_up).1 true
  rwa [inA_abs] at h
example : inA.exists_ ['d', '/', '.', '.', '/', 'f'] = .ok true := by decide +kernel
example : inA.isFile ['.', '.', '/', 'g'] = inA.isFile ['/', 'g'] := by
  have h := (written_read inA_reachable inA_tree inA_out).2.2.2.2.2.2.2.1
  rwa [inA_abs] at h
example : inA.isFile ['.', '.', '/', 'g'] = .ok true := by decide +kernel
example (f : OFlags) (mode : Nat) : osOpen ['d', '/', '.', '.', '/', 'n'] f mode inA = osOpen ['/', 'a', '/', 'n'] f mode inA := by
  have h := written_osOpen inA_reachable inA_tree inA_new inA_within inA_genuine (by rw [inA_cfg]; rfl) f mode
  rwa [inA_abs] at h

/-! ## where it fails -/

/-- C85 does not hold where the path goes up from what does not exist: the place is found by the calls that only normalise the path
(`os.remove`, `os.rename`, `os.mkdir`'s test), and not by those that also validate it (fake_filesystem.py 1908-1917), so a file whose
`stat` fails can be removed under the same name. -/
theorem written_up_counterexample : ∃ s, Reachable s ∧ s.cfg.Tree ∧
    loc s.cfg.sep (loc s.cfg.sep [] s.cwd) ['x', '/', '.', '.', '/', 'f'] = ([['a'], ['f']] : List Str).reverse ∧
    s.existsL ['/', 'a', '/', 'x'] = .ok false ∧
    s.exists_ ['x', '/', '.', '.', '/', 'f'] = .ok false ∧ s.exists_ ['/', 'a', '/', 'f'] = .ok true ∧
    (remove ['x', '/', '.', '.', '/', 'f'] s).1 = .ok () ∧
    (remove ['x', '/', '.', '.', '/', 'f'] s).2.exists_ ['/', 'a', '/', 'f'] = .ok false :=
  ⟨inA, inA_reachable, inA_tree, by decide +kernel, by decide +kernel, by decide +kernel, by decide +kernel, by decide +kernel,
    by decide +kernel⟩

/-- C85 does not hold of `os.mkdir` where the directory part goes up at its end: the test of the parent cuts the path at the first
`/..` (fake_filesystem.py 2824-2831), so `os.mkdir("/../z")` finds no parent, though it means `/z`. -/
theorem written_mkdir_counterexample : ∃ s, Reachable s ∧ s.cfg.Tree ∧
    loc s.cfg.sep (loc s.cfg.sep [] s.cwd) ['/', '.', '.', '/', 'z'] = ([['z']] : List Str).reverse ∧
    (mkdir ['/', '.', '.', '/', 'z'] 0o777 s).1 = .error (.os .ENOENT) ∧ (mkdir ['/', 'z'] 0o777 s).1 = .ok () ∧
    (writeBytes ['/', '.', '.', '/', 'z'] [1] s).1.isOk = true :=
  ⟨inA, inA_reachable, inA_tree, by decide +kernel, by decide +kernel, by decide +kernel, by decide +kernel⟩

/-- C85 does not hold of a bare name given to `os.mknod`: the node is made in the root directory, not in the current one
(fake_filesystem.py 2098-2116, 4394-4435), so `os.mknod("z")` in `/a` makes `/z`. -/
theorem written_mknod_counterexample : ∃ s, Reachable s ∧ s.cfg.Tree ∧ Written s ['z'] [['a']] ['z'] ∧
    (mknod ['z'] (S_IFREG ||| 0o644) s).1 = .ok () ∧
    ((mknod ['z'] (S_IFREG ||| 0o644) s).2.existsL ['/', 'a', '/', 'z']) = .ok false ∧
    ((mknod ['z'] (S_IFREG ||| 0o644) s).2.existsL ['/', 'z']) = .ok true :=
  ⟨inA, inA_reachable, inA_tree, inA_z, by decide +kernel, by decide +kernel, by decide +kernel⟩

end Verif
