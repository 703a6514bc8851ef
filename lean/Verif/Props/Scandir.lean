import Verif.Props.Walk
/-!
# C47: os.scandir
-/

namespace Verif
open Py Spec Cfg

namespace Spec
/-- What a user sees of the entry `nm` with the object `y` in a directory scanned as `dir`. -/
structure Scanned (s : FS) (dir nm : Str) (y : Ref) (e : FS.DirEntry) : Prop where
  name : e.name = nm
  path : e.path = s.cfg.joinpaths [dir, nm]
  /-- `is_symlink` tells whether the entry is a symlink -/
  symlink : e.is_symlink = (s.heap y).isLnk
  /-- `is_dir(follow_symlinks=False)` tells whether the entry itself is a directory -/
  isDir : e.is_dir false = (s.heap y).isDir
  /-- `is_dir()` agrees with `os.path.isdir` -/
  dirFollow : s.isDir e.abspath = .ok (e.is_dir true)
  /-- a regular entry is a file or a directory, never both, and a symlink is neither unless followed -/
  file : e.is_file false = (!(s.heap y).isLnk && !(s.heap y).isDir)
  /-- `stat(follow_symlinks=False)` gives the entry itself -/
  stat : e.stat s false = .ok y
end Spec

theorem absPath_tidy {s : FS} (hi : Inv s) (hp : s.cfg.Posix) {names : List Str} (hn : ∀ w ∈ names, Plain s.cfg.sep w) :
    Tidy s.cfg (absPath s.cfg.sep names) := by
  refine ⟨by simp [absPath], ?_⟩
  intro r e
  have hc := absCanon_names (plain_proper hn)
  by_cases hr : r = []
  · exact hr
  exfalso
  rcases List.eq_nil_or_concat names with rfl | ⟨l, w, rfl⟩
  · simp [absPath, Py.join] at e
    cases r with
    | nil => exact hr rfl
    | cons a r => simp at e
  · have hw : Proper s.cfg.sep w := (hn w (by simp)).1
    rcases List.eq_nil_or_concat l with rfl | ⟨l', w', rfl⟩
    · have : absPath s.cfg.sep ([] ++ [w]) = [] ++ s.cfg.sep :: w := by simp [absPath, Py.join]
      rw [List.concat_eq_append, this] at e
      exact proper_last hw r [] e
    · have hne : l'.concat w' ≠ [] := by simp
      have : absPath s.cfg.sep ((l'.concat w').concat w) = absPath s.cfg.sep (l'.concat w') ++ s.cfg.sep :: w := by
        rw [List.concat_eq_append (as := l'.concat w')]
        unfold absPath
        rw [join_append _ hne (by simp)]
        simp [Py.join]
      rw [this] at e
      exact proper_last hw r _ e

theorem scanLoop_ok {s : FS} (W : WalkOk s) {path q : Str} {names : List Str} {d : Ref} (h : DirAt s q names d)
    (hdev : ∀ c y, alookup c (s.heap d).entries = some y → absPath s.cfg.sep (names ++ [c]) ≠ s.devName) :
    ∀ es : List (Str × Ref), (∀ e ∈ es, alookup e.1 (s.heap d).entries = some e.2) →
      ∃ out, s.scanLoop path q (es.map (·.1)) = .ok out ∧ List.Forall₂ (fun e o => Scanned s path e.1 e.2 o) es out := by
  intro es
  induction es with
  | nil => intro _; exact ⟨[], rfl, .nil⟩
  | cons e es ih =>
    intro he
    obtain ⟨out, ho, hf⟩ := ih (fun x hx => he x (by simp [hx]))
    obtain ⟨c, y⟩ := e
    have hc : alookup c (s.heap d).entries = some y := he (c, y) (by simp)
    have hcp : Plain s.cfg.sep c := W.names d (h.lt W) _ (alookup_mem hc)
    obtain ⟨b, hb⟩ := h.isDir_total W hcp
    have hl := h.isLink_child W hc
    simp only [List.map_cons, FS.scanLoop, hb, hl, ho, bind, Except.bind, pure, Except.pure]
    refine ⟨_, rfl, List.Forall₂.cons ?_ hf⟩
    have hylt := W.inv.g.entLt d (h.lt W) _ (alookup_mem hc)
    have hld : (s.heap y).isLnk = true → (s.heap y).isDir = false := by
      intro hl
      cases hd : (s.heap y).isDir with
      | false => rfl
      | true =>
        have := dirMode_of_isDir W hylt hd
        rw [lnk_not_dirMode hl] at this; simp at this
    have hbd : (s.heap y).isLnk = false → b = (s.heap y).isDir := by
      intro hl
      have := h.isDir_child W hc hl (hdev c y hc)
      rw [hb] at this
      injection this
    refine ⟨rfl, rfl, rfl, ?_, by simp [FS.DirEntry.is_dir, hb], ?_, ?_⟩
    · cases hl' : (s.heap y).isLnk with
      | true => simp [FS.DirEntry.is_dir, hl', hld hl']
      | false => simp [FS.DirEntry.is_dir, hl', hbd hl']
    · cases hl' : (s.heap y).isLnk with
      | true => simp [FS.DirEntry.is_file, hl']
      | false => simp [FS.DirEntry.is_file, hl', hbd hl']
    · exact lresolve_join W.inv W.tree h.tidy hcp.1 h.res (W.dirs d (h.lt W) h.dir) hc

/-- C47: scanning the directory that the normalized absolute form of `p` leads to: the scan ends without an error, and yields an entry for
each name in the directory, in its order, each described faithfully. -/
theorem scandir_spec {s : FS} (hs : Reachable s) (ht : s.cfg.Tree) (W : Walkable s) {p : Str} {names : List Str} {d : Ref}
    (hn : s.absnorm p = absPath s.cfg.sep names) (hpl : ∀ w ∈ names, Plain s.cfg.sep w)
    (hr : s.resolve (absPath s.cfg.sep names) = .ok d) (hd : (s.heap d).isDir = true)
    (hdev : ∀ c y, alookup c (s.heap d).entries = some y → absPath s.cfg.sep (names ++ [c]) ≠ s.devName) :
    ∃ out, s.scandir p = .ok out ∧ List.Forall₂ (fun e o => Scanned s p e.1 e.2 o) (s.heap d).entries out := by
  have hi := reachable_inv hs
  have W : WalkOk s := ⟨hi, ht, W.genuine, W.readable, W.dirs, W.noDev, W.names⟩
  have hD : DirAt s (absPath s.cfg.sep names) names d :=
    ⟨absPath_tidy hi ht.posix hpl, ((resolveG_ok hi ht _).mp hr).2.1, absnorm_canon hi ht.posix (absCanon_names (plain_proper hpl)), hpl, hd, hr⟩
  obtain ⟨out, ho, hf⟩ := scanLoop_ok W (path := p) hD hdev (s.heap d).entries (by
    intro e he
    exact alookup_of_mem (hi.g.keys d (hD.lt W)) he)
  refine ⟨out, ?_, hf⟩
  unfold FS.scandir FS.confirmdir
  rw [hn]
  simp only [hr, bind, Except.bind]
  rw [if_neg (dirMode_bit (dirMode_of_isDir W (hD.lt W) hd))]
  dsimp only
  have hd' := hd
  unfold Obj.isDir at hd'
  cases hc : (s.heap d).content with
  | file _ => rw [hc] at hd'; simp at hd'
  | dir es =>
    have : (s.heap d).entries = es := mem_entries hc
    rw [this] at ho
    exact ho

example : ∃ out, demo.scandir ['/', 'a', '/', '.'] = .ok out ∧
    List.Forall₂ (fun e o => Scanned demo ['/', 'a', '/', '.'] e.1 e.2 o) (demo.heap 2).entries out := by
  refine scandir_spec demo_reachable demo_tree demo_walkable (names := [['a']]) (d := 2) ?_ ?_ ?_ ?_ ?_
  · decide +kernel
  · rw [demo_sep]; decide
  · decide +kernel
  · decide +kernel
  · intro c y hc e
    have hw : Spec.walk demo.heap rootRef ([['a']] ++ [c]) = some y := by
      rw [walk_append]
      have : Spec.walk demo.heap rootRef [['a']] = some 2 := by decide +kernel
      rw [this]
      simp [Spec.walk, hc]
    have := demo_noDev _ (walk_proper demo_inv demo_tree.posix demo_mac (root_lt demo_inv) hw) e
    rw [hw] at this; simp at this

/-- Scanning the demo filesystem after making a broken link `/x → nope`. -/
def brokenFS : FS := runs (demoOps ++ [.createSymlink ['/', 'x'] ['n', 'o'] false]) (initFS demoCfg 50 0 0 0o022 7 (some 1000))

/-- C47, a deviation from `os.DirEntry`: `is_file()` is true for a broken symlink (it only means "not a directory"). -/
theorem scandir_broken_counterexample :
    (match brokenFS.scandir ['/'] with
     | .ok out => out.any (fun e => e.name == ['x'] && e.is_symlink && e.is_file true)
     | .error _ => false) = true ∧ brokenFS.exists_ ['/', 'x'] = .ok false := by
  decide +kernel

end Verif
