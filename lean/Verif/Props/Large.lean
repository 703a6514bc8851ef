import Verif.Props.Data
import Verif.Props.Modes
import Verif.Props.Create
import Verif.Props.Append
/-!
# C83: files with a size but without contents

`create_file(path, st_size=n)` makes a file that has a size and no contents, to simulate large files.
-/

namespace Verif
open Py Spec Cfg

namespace Spec
/-- `r` is a file with a size and no contents -/
def Large (s : FS) (r : Ref) : Prop := (s.heap r).content = .file none
end Spec

/-- C83: `create_file(p, st_size=n)` fails without a trace, or makes exactly one new name for a file of size `n` without contents; its device is charged with `n` bytes. -/
theorem createFile_large {s : FS} (hs : Reachable s) (ht : s.cfg.Tree) (hw : Within s) (p : Str) (mode : Nat) (contents : Option Bytes) (n : Nat)
    {cm : Bool} (um : Bool)
    (hcm : cm = false ∨ ∀ names nm, (∀ w ∈ names, Proper s.cfg.sep w) → Proper s.cfg.sep nm →
      s.absnorm (s.cfg.makeStringPath p) = absPath s.cfg.sep (names ++ [nm]) → s.exists_ (absPath s.cfg.sep names) = .ok true)
    (hmay : ∀ ld nm d, Names s (s.cfg.makeStringPath p) ld nm d → mayRemove s d) :
    (∃ e s', createFile p mode contents (some n) cm um s = (.error e, s') ∧ Unchanged s s') ∨
    ∃ s' ld nm d x, createFile p mode contents (some n) cm um s = (.ok x, s') ∧
      Names s (s.cfg.makeStringPath p) ld nm d ∧ NewEntry s s' d ld nm x ∧ Large s' x ∧ (s'.statOf x).size = n ∧
      (s'.heap x).mode = (if um then andNot mode s.umask else mode) ∧ (s'.heap x).nlink = 1 ∧
      (s'.heap x).dev = (s.heap d).dev ∧ s'.mounts = charge (s.heap d).dev n s.mounts := by
  have hi := reachable_inv hs
  have hk := createFileI_spec hi hw ht (p := p) mode contents (some n) um hcm
  have hg := createFileI_pres p mode contents (some n) cm um s hi
  unfold wp at hk hg
  unfold createFile
  rcases hr : createFileI p mode contents (some n) cm um s with ⟨r, s'⟩
  rw [hr] at hk hg
  simp only [newContents] at hk hg
  rcases hk with ⟨e, h1, h2⟩ | ⟨ld, nm, d, h2, ⟨h1, h3, _⟩ | ⟨h1, h3⟩⟩
  · exact Or.inl ⟨e, s', by rw [h1], h2.unchanged hi⟩
  · exact absurd (hmay ld nm d h2) h3
  · obtain ⟨ep, ho⟩ := h3.obj
    have hN : NewEntry s s' d ld nm s.next := h3.added.newEntry hi hg.inv ht (by rw [ho]; rfl) h2.loc
    have hcfg : s'.cfg = s.cfg := by rw [hN.rest]
    refine Or.inr ⟨s', ld, nm, d, s.next, by rw [h1], h2, hN, by unfold Large; rw [ho], ?_, by rw [ho]; rfl,
      by rw [ho]; rfl, by rw [ho]; rfl, h3.mounts⟩
    show s'.stSize (s'.heap s.next) = n
    unfold FS.stSize
    rw [hcfg, ht.posix.win, if_neg (by simp), ho]

/-- C83: reading, writing and truncating through a file object of such a file raise FakeLargeFileIoException and change nothing. -/
theorem large_refused {s : FS} {h : Nat} (hl : Large s (s.handles h).obj) :
    (∀ n, read h n s = (.error .largeFile, s)) ∧ (∀ b, write h b s = (.error .largeFile, s)) ∧ (∀ n, hTruncate h n s = (.error .largeFile, s)) := by
  have hlg : s.isLarge (s.handles h).obj = true := by unfold FS.isLarge; rw [hl]
  refine ⟨fun n => ?_, fun b => ?_, fun n => ?_⟩
  · unfold read
    rw [M.bind_eq]; dsimp only [M.get]; rw [if_pos hlg]; rfl
  · unfold write
    rw [M.bind_eq]; dsimp only [M.get]; rw [if_pos hlg]; rfl
  · unfold hTruncate
    rw [M.bind_eq]; dsimp only [M.get]; rw [if_pos hlg]; rfl

/-- C83: `os.read` raises the same and changes no file. -/
theorem large_osRead {s : FS} {fd : Int} {h : Nat} (hg : s.getOpen fd = .ok h) (hk : (s.handles h).kind = .file) (hl : Large s (s.handles h).obj) (n : Nat) :
    ∃ s', osRead fd n s = (.error .largeFile, s') ∧ s' = { s with handles := s'.handles } := by
  refine ⟨s.setH h fun H => { H with rawIo := true }, ?_, rfl⟩
  unfold osRead
  rw [M.bind_eq, rd_eq (f := fun x => x.getOpen fd) hg]
  dsimp only
  rw [M.bind_eq]
  show (if (s.handles h).kind ≠ .file then _ else _ : M Bytes) s = _
  rw [if_neg (by rw [hk]; simp), M.bind_eq]
  show read h (some n) (s.setH h fun H => { H with rawIo := true }) = _
  have ho : ((s.setH h fun H => { H with rawIo := true }).handles h).obj = (s.handles h).obj := by
    show (upd s.handles h _ h).obj = _
    rw [upd_same]
  exact (large_refused (s := s.setH h fun H => { H with rawIo := true }) (h := h) (by rw [ho]; exact hl)).1 _

/-- C83: opening such a file without truncating it changes no file; the file object has nothing to read. Opening it with truncation (`w`) makes it an ordinary empty
file and gives back its space. -/
theorem open_large {s : FS} (hs : Reachable s) {p : Str} {r : Ref} (hp : p ≠ s.devName) (hex : s.exists_ p = .ok true)
    (hres : s.resolve p true false = .ok r) (hl : Large s r) (hd : (s.heap r).isDirMode = false)
    (hn : r ≠ devNullRef) (md : OpenModes) (hm : md.mustNotExist = false) (hok : ¬ OpenDenied s r md) (bf : Option Nat) (raw del : Bool) :
    (md.truncate = false → ∃ h s', openPath p md bf raw del s = (.ok h, s') ∧ s'.isOpen h = true ∧ (s'.handles h).obj = r ∧ s'.heap = s.heap ∧ s'.mounts = s.mounts) ∧
    (md.canWrite = true → md.truncate = true → fits (s.heap r).dev (-(s.stSize (s.heap r) : Int)) s.mounts = true →
      ∃ h s', openPath p md bf raw del s = (.ok h, s') ∧ s'.isOpen h = true ∧ (s'.handles h).obj = r ∧ (s'.heap r).content = .file (some []) ∧ (s'.heap r).size = 0 ∧
        (∀ x, x ≠ r → s'.heap x = s.heap x) ∧ s'.mounts = charge (s.heap r).dev (-(s.stSize (s.heap r) : Int)) s.mounts) := by
  obtain ⟨q, _, ha⟩ := fileArg_existing hp hex hres
  have hk := openObject_existing hl hd hn p q md
  have hq := fq_openObject (some r) p q md s
  unfold wp at hk
  rcases ho : openObject (some r) p q md s with ⟨res, s1⟩
  rw [ho] at hk hq
  constructor
  · intro htr
    rcases hk with ⟨_, h2, _⟩ | ⟨_, _, h3, _⟩ | ⟨_, _, h3, _, _⟩ | ⟨h1, h2, h3, s0, h4, h5⟩
    · rw [hm] at h2; cases h2
    · exact absurd h3 hok
    · rw [htr] at h3; cases h3
    · rw [htr] at h4 h5
      simp only [Bool.and_false, Bool.false_eq_true, if_false] at h4 h5
      subst h4
      dsimp only at h1; subst h1
      obtain ⟨fd, s', e1, e2, e3, e4, e5⟩ := openPath_after (FdInv.quiet (reachable_fdInv hs) hq) bf raw del ha ho
        (by rw [h5]; unfold Obj.isDir; rw [hl])
      refine ⟨_, s', e1, ?_, by rw [e4]; rfl, ?_, ?_⟩
      · rw [isOpen_iff, e2.hfd]; exact ⟨_, e2.slot.here, by simp⟩
      · rw [e5]; show s1.heap = _; rw [h5]
      · rw [e5]; show s1.mounts = _; rw [h5]
  · intro hcw htr hfit
    rcases hk with ⟨_, h2, _⟩ | ⟨_, _, h3, _⟩ | ⟨_, _, _, h3, _⟩ | ⟨h1, h2, h3, s0, h4, h5⟩
    · rw [hm] at h2; cases h2
    · exact absurd h3 hok
    · rw [hfit] at h3; cases h3
    · rw [htr, hcw] at h4
      rw [htr] at h5
      simp only [Bool.and_self, if_true] at h4 h5
      dsimp only at h1; subst h1
      have hheap : ∀ x, x ≠ r → s1.heap x = s.heap x := by
        intro x hx
        rw [h5, h4]
        simp [FS.setObj, FS.withContents, upd_apply, hx]
      have hr : (s1.heap r).content = .file (some []) ∧ (s1.heap r).size = 0 := by
        rw [h5, h4]
        simp [FS.setObj, FS.withContents]
      have hmt : s1.mounts = charge (s.heap r).dev (-(s.stSize (s.heap r) : Int)) s.mounts := by
        rw [h5, h4]
        show (s.withContents r []).mounts = _
        unfold FS.withContents
        simp only [show (s.heap r).content = .file none from hl]
        simp
      obtain ⟨fd, s', e1, e2, e3, e4, e5⟩ := openPath_after (FdInv.quiet (reachable_fdInv hs) hq) bf raw del ha ho
        (by unfold Obj.isDir; rw [hr.1])
      have hh : s'.heap = s1.heap := by rw [e5]
      refine ⟨_, s', e1, ?_, by rw [e4]; rfl, by rw [hh]; exact hr.1, by rw [hh]; exact hr.2, fun x hx => by rw [hh]; exact hheap x hx, ?_⟩
      · rw [isOpen_iff, e2.hfd]; exact ⟨_, e2.slot.here, by simp⟩
      · rw [e5]; exact hmt

/-- C83: `os.truncate(p, n)` of such a file sets its size, charges the device with the difference and leaves it without contents; or it fails with ENOSPC and changes nothing. -/
theorem truncate_large {s : FS} {p : Str} {r : Ref} (hr : s.resolve p = .ok r) (hl : Large s r) (hlk : (s.heap r).isLnk = false) (n : Nat) :
    (fits (s.heap r).dev ((n : Int) - (s.statOf r).size) s.mounts = true → ∃ s', truncate p n s = (.ok (), s') ∧
      s'.mounts = charge (s.heap r).dev ((n : Int) - (s.statOf r).size) s.mounts ∧
      s'.heap r = { s.heap r with size := n, epoch := (s.heap r).epoch + 1 } ∧ (∀ x, x ≠ r → s'.heap x = s.heap x) ∧
      (∀ q f c, s'.resolve q f c = s.resolve q f c)) ∧
    (fits (s.heap r).dev ((n : Int) - (s.statOf r).size) s.mounts = false → truncate p n s = (.error (.os .ENOSPC), s)) := by
  have hrun : truncate p n s = setSize r n s := by
    unfold truncate
    show M.bind (rd fun s => s.resolve p) _ s = _
    simp only [M.bind, rd, M.ofRead, hr]
  have hf : (s.heap r).isDir = false := by unfold Obj.isDir; rw [hl]
  rw [hrun, setSize_eq hl]
  show (fits _ ((n : Int) - s.stSize (s.heap r)) _ = true → _) ∧ (fits _ ((n : Int) - s.stSize (s.heap r)) _ = false → _)
  refine ⟨fun h => ?_, fun h => ?_⟩
  · rw [if_pos h]
    have hd := withSize_data (s := s) (r := r) hf n none
    refine ⟨_, rfl, rfl, ?_, hd.others, hd.resolve hlk⟩
    show upd s.heap r _ r = _
    rw [upd_same]
    simp only [sized, Option.map_none]
    rw [← show (s.heap r).content = .file none from hl]
  · rw [if_neg (by simp [h])]

/-! ## Cases -/

/-- a file /b of 40 bytes without contents, on a device of 100 -/
def largeFS : FS := runs [.createFile "/b".toList (S_IFREG ||| 0o666) none (some 40) true false] (initFS demoCfg 50 0 0 0o022 7 (some 100))
theorem largeFS_reachable : Reachable largeFS := ⟨_, _, _, _, _, _, _, _, rfl⟩

theorem largeFS_large : Large largeFS 2 ∧ (largeFS.statOf 2).size = 40 ∧ largeFS.resolve "/b".toList = .ok 2 := by
  refine ⟨?_, ?_, ?_⟩
  · unfold Large; decide +kernel
  · decide +kernel
  · decide +kernel

example : ∃ h s', openPath "/b".toList ⟨true, true, false, false, false, false⟩ none false false largeFS = (.ok h, s') ∧ s'.isOpen h = true ∧ (s'.handles h).obj = 2 ∧
    s'.heap = largeFS.heap ∧ s'.mounts = largeFS.mounts :=
  (open_large largeFS_reachable (by decide +kernel) (by decide +kernel) (by decide +kernel) largeFS_large.1 (by decide +kernel) (by decide +kernel) _ rfl (by decide +kernel) none false false).1 rfl
example : ∃ h s', openPath "/b".toList ⟨false, false, true, true, false, false⟩ none false false largeFS = (.ok h, s') ∧ s'.isOpen h = true ∧ (s'.handles h).obj = 2 ∧
    (s'.heap 2).content = .file (some []) ∧ (s'.heap 2).size = 0 ∧ (∀ x, x ≠ 2 → s'.heap x = largeFS.heap x) ∧ s'.mounts = charge (largeFS.heap 2).dev (-40) largeFS.mounts :=
  (open_large largeFS_reachable (by decide +kernel) (by decide +kernel) (by decide +kernel) largeFS_large.1 (by decide +kernel) (by decide +kernel) _ rfl (by decide +kernel) none false false).2 rfl rfl (by decide +kernel)
example : truncate "/b".toList 200 largeFS = (.error (.os .ENOSPC), largeFS) :=
  (truncate_large largeFS_large.2.2 largeFS_large.1 (by decide +kernel) 200).2 (by decide +kernel)

/-- Opening such a file for update and closing the file object again, without a write, empties it: the size is lost. -/
theorem large_update_counterexample :
    let s1 := (openPath "/b".toList rpMode none false false largeFS).2
    let s2 := (hClose 3 s1).2
    (openPath "/b".toList rpMode none false false largeFS).1 = .ok 3 ∧ (hClose 3 s1).1 = .ok () ∧ (s2.heap 2).content = .file (some []) ∧ (s2.heap 2).size = 0 := by
  decide +kernel

/-- Closing one opened for appending raises TypeError and leaves it open. -/
theorem large_append_counterexample :
    let s1 := (openPath "/b".toList abMode none false false largeFS).2
    (openPath "/b".toList abMode none false false largeFS).1 = .ok 3 ∧ (hClose 3 s1).1 = .error .typeError ∧ (hClose 3 s1).2.isOpen 3 = true := by
  decide +kernel

/-- A file made by `os.mknod` counts as one: it can be opened for reading, but not be read. -/
theorem mknod_large_counterexample :
    let s1 := (mknod "/n".toList (S_IFREG ||| 0o600) largeFS).2
    let s2 := (openPath "/n".toList ⟨true, true, false, false, false, false⟩ none false false s1).2
    (mknod "/n".toList (S_IFREG ||| 0o600) largeFS).1 = .ok () ∧ s1.resolve "/n".toList = .ok 3 ∧ (s1.statOf 3).size = 0 ∧
      (openPath "/n".toList ⟨true, true, false, false, false, false⟩ none false false s1).1 = .ok 3 ∧ (read 3 none s2).1 = .error .largeFile := by
  decide +kernel

/-- `os.mknod` of a relative name puts the file into the root directory, whatever the working directory is. -/
theorem mknod_relative_counterexample :
    let s1 := runs [.mkdir "/d".toList 0o777, .chdir "/d".toList] largeFS
    let s2 := (mknod "n".toList (S_IFREG ||| 0o600) s1).2
    s1.cwd = "/d".toList ∧ (mknod "n".toList (S_IFREG ||| 0o600) s1).1 = .ok () ∧ s2.exists_ "/n".toList = .ok true ∧ s2.exists_ "n".toList = .ok false := by
  decide +kernel
end Verif
