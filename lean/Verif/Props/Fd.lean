import Verif.FdInv
import Verif.DemoFacts
/-!
# C29: file descriptors

Specification vocabulary: a descriptor is *in use* (`Spec.InUse`) if the table of open files has an entry for it.
-/

namespace Verif
open Py Spec Cfg

/-- **C29** (`open`). Opening a path gives the new file the smallest descriptor not in use; that descriptor, and no
other, becomes in use, the descriptor leads to the new file object, and no other open file is affected. A failing
`open` leaves the set of descriptors alone. -/
theorem open_lowest {s : FS} (hr : Reachable s) (p : Str) (md : OpenModes) (bf : Option Nat) (raw del : Bool) :
    match openPath p md bf raw del s with
    | (.ok h, s') => ¬ InUse s (s'.handles h).fd ∧ (∀ i < (s'.handles h).fd, InUse s i) ∧
        (∀ i, InUse s' i ↔ InUse s i ∨ i = (s'.handles h).fd) ∧
        s'.getOpen (s'.handles h).fd = .ok h ∧ (∀ i, i ≠ (s'.handles h).fd → s'.openFiles[i]? = s.openFiles[i]?) ∧
        ¬ s.isOpen h ∧ s'.isOpen h
    | (.error _, s') => s'.openFiles = s.openFiles := by
  have hi := reachable_fdInv hr
  have ht := openPath_table hi p md bf raw del
  unfold wp at ht
  cases he : openPath p md bf raw del s with
  | mk r s' =>
    rw [he] at ht
    obtain ⟨hi', ht⟩ := ht
    cases r with
    | error e => exact ht.openFiles
    | ok h =>
      obtain ⟨fd, s0, q0, ho, _⟩ := ht
      have hu : ∀ i, InUse s0 i ↔ InUse s i := fun i => by unfold InUse; rw [q0.openFiles]
      dsimp only
      rw [ho.hfd]
      have hoth : ∀ i, i ≠ fd → s'.openFiles[i]? = s.openFiles[i]? := fun i hne => by rw [ho.slot.others i hne, q0.openFiles]
      refine ⟨fun h => ho.fresh ((hu _).mpr h), fun i hlt => (hu _).mp (ho.lowest i hlt), ?_, ?_, hoth, ?_, ?_⟩
      · intro i
        by_cases hne : i = fd
        · subst hne
          exact ⟨fun _ => Or.inr rfl, fun _ => ⟨_, ho.slot.here⟩⟩
        · unfold InUse
          rw [hoth i hne]
          simp [hne]
      · rcases getOpen_spec hi' fd with ⟨_, h2⟩ | ⟨g, l, h1, h2⟩
        · exact absurd ⟨_, ho.slot.here⟩ h2
        · rw [h1]
          rw [ho.slot.here] at h2
          injection h2 with h2; injection h2 with h2; injection h2 with h2 _
          rw [h2]
      · intro hop
        obtain ⟨l, h1, h2⟩ := isOpen_slot hop
        have := (hi.mem _ _ h1 _ h2).1
        rw [ho.handle, q0.hnext] at this
        exact Nat.lt_irrefl _ this
      · rw [isOpen_iff, ho.hfd]
        exact ⟨_, ho.slot.here, by simp⟩

/-- **C29** (`os.open`). The returned descriptor is the smallest one not in use. -/
theorem osOpen_lowest {s : FS} (hr : Reachable s) (p : Str) (f : OFlags) (mode : Nat) {fd : Nat} {s' : FS}
    (h : osOpen p f mode s = (.ok fd, s')) :
    ¬ InUse s fd ∧ (∀ i < fd, InUse s i) ∧ (∀ i, InUse s' i ↔ InUse s i ∨ i = fd) ∧
      (∀ i, i ≠ fd → s'.openFiles[i]? = s.openFiles[i]?) := by
  have ht := osOpen_table (reachable_fdInv hr) p f mode
  unfold wp at ht
  rw [h] at ht
  obtain ⟨hi', g, s0, s1, q0, ho, q1⟩ := ht
  have hu : ∀ i, InUse s0 i ↔ InUse s i := fun i => by unfold InUse; rw [q0.openFiles]
  have hoth : ∀ i, i ≠ fd → s'.openFiles[i]? = s.openFiles[i]? := fun i hne => by
    rw [q1.openFiles, ho.slot.others i hne, q0.openFiles]
  refine ⟨fun h => ho.fresh ((hu _).mpr h), fun i hlt => (hu _).mp (ho.lowest i hlt), ?_, hoth⟩
  intro i
  by_cases hne : i = fd
  · subst hne
    exact ⟨fun _ => Or.inr rfl, fun _ => ⟨_, by rw [q1.openFiles]; exact ho.slot.here⟩⟩
  · unfold InUse
    rw [hoth i hne]
    simp [hne]

/-- **C29** (standard streams). After every history the descriptors 0, 1 and 2 are in use, lead to the three standard
streams and to nothing else, and closing them does nothing. -/
theorem std_kept {s : FS} (hr : Reachable s) (i : Nat) (h : i < 3) :
    s.openFiles[i]? = some (some [i]) ∧ (s.handles i).kind = .std ∧ s.getOpen i = .ok i ∧ osClose i s = (.ok (), s) := by
  have hi := reachable_fdInv hr
  obtain ⟨h1, h2⟩ := hi.std i h
  have hg : s.getOpen i = .ok i := by
    rcases getOpen_spec hi i with ⟨_, e2⟩ | ⟨g, l, e1, e2⟩
    · exact absurd ⟨_, h1⟩ e2
    · rw [e1]
      rw [h1] at e2
      injection e2 with e2; injection e2 with e2; injection e2 with e2 _
      rw [e2]
  refine ⟨h1, h2, hg, ?_⟩
  show M.bind (rd fun s => s.getOpen i) _ s = _
  unfold M.bind
  rw [rd_eq (f := fun s => s.getOpen i) hg]
  show hClose i s = _
  unfold hClose
  show M.bind M.get _ s = _
  simp only [M.bind, M.get, h2]
  rfl

/-- **C29** (unambiguous). After every history: an open file object sits at exactly one descriptor, its own `fileno()`. -/
theorem fd_unambiguous {s : FS} (hr : Reachable s) {i : Nat} {l : List Nat} (h : s.openFiles[i]? = some (some l)) :
    (∀ g ∈ l, (s.handles g).fd = i) ∧ l.Nodup ∧ ∃ g l', l = g :: l' ∧ s.getOpen i = .ok g := by
  have hi := reachable_fdInv hr
  refine ⟨fun g hg => (hi.mem i l h g hg).2, hi.dist i l h, ?_⟩
  rcases getOpen_spec hi i with ⟨_, e2⟩ | ⟨g, l', e1, e2⟩
  · exact absurd ⟨_, h⟩ e2
  · rw [h] at e2
    injection e2 with e2; injection e2 with e2
    exact ⟨g, l', e2, e1⟩

/-- **C29** (sharing). If after a call two different file objects are open at one descriptor, they already were before
the call, or the call was `open(fd)` / `os.fdopen(fd)` of that descriptor. -/
theorem fd_shared_only_by_fdopen {s : FS} (hr : Reachable s) (o : Op) {g h : Nat} (hne : g ≠ h)
    (hg : (o.next s).isOpen g) (hh : (o.next s).isOpen h) (he : ((o.next s).handles g).fd = ((o.next s).handles h).fd) :
    (s.isOpen g ∧ s.isOpen h ∧ (s.handles g).fd = (s.handles h).fd) ∨
    ∃ md bf c, o = .openFd ((o.next s).handles g).fd md bf c := by
  have hi := reachable_fdInv hr
  have hstep := (fdInv_step o s hi).2
  obtain ⟨l, g1, g2⟩ := isOpen_slot hg
  obtain ⟨l', h1, h2⟩ := isOpen_slot hh
  rw [← he, g1] at h1
  injection h1 with h1; injection h1 with h1
  subst h1
  rcases hstep _ _ g1 with ⟨l0, e1, e2, _⟩ | ⟨e1, _⟩ | ⟨md, bf, c, l0, e1, _⟩
  · left
    have a := (hi.mem _ _ e1 g (e2 g2)).2
    have b := (hi.mem _ _ e1 h (e2 h2)).2
    refine ⟨isOpen_iff.mpr ⟨l0, by rw [a]; exact e1, e2 g2⟩, isOpen_iff.mpr ⟨l0, by rw [b]; exact e1, e2 h2⟩, by rw [a, b]⟩
  · subst e1
    rw [List.mem_singleton] at g2 h2
    exact absurd (g2.trans h2.symm) hne
  · right; exact ⟨md, bf, c, e1⟩

/-- A closed file object is never reopened by any later call: every open file object was open before the call or is
new. -/
theorem closed_stays_closed {s : FS} (hr : Reachable s) (o : Op) {h : Nat} (hold : h < s.hnext) (hc : s.isOpen h = false) :
    (o.next s).isOpen h = false := by
  have hi := reachable_fdInv hr
  have hstep := (fdInv_step o s hi).2
  cases ho : (o.next s).isOpen h with
  | false => rfl
  | true =>
    exfalso
    have hno : ∀ (i : Nat) (l : List Nat), s.openFiles[i]? = some (some l) → h ∈ l → False := by
      intro i l e1 e2
      have := isOpen_iff.mpr ⟨l, by rw [(hi.mem _ _ e1 _ e2).2]; exact e1, e2⟩
      rw [hc] at this; simp at this
    obtain ⟨l, h1, h2⟩ := isOpen_slot ho
    rcases hstep _ _ h1 with ⟨l0, e1, e2, _⟩ | ⟨e1, _⟩ | ⟨md, bf, c, l0, _, e1, e2⟩
    · exact hno _ _ e1 (e2 h2)
    · subst e1
      rw [List.mem_singleton] at h2
      omega
    · rw [e2] at h2
      rcases List.mem_append.mp h2 with h2 | h2
      · exact hno _ _ e1 h2
      · rw [List.mem_singleton] at h2; omega

/-- **C29** (bad descriptors). A descriptor that is not in use is refused with EBADF by every function taking one,
without any effect. -/
theorem bad_fd {s : FS} (hr : Reachable s) (fd : Nat) (h : ¬ InUse s fd) :
    (∀ n, osRead fd n s = (.error (.os .EBADF), s)) ∧ (∀ b, osWrite fd b s = (.error (.os .EBADF), s)) ∧
    osClose fd s = (.error (.os .EBADF), s) ∧ (∀ n, ftruncate fd n s = (.error (.os .EBADF), s)) ∧
    s.fstat fd = .error (.os .EBADF) ∧ (∀ md bf c, openFd fd md bf c s = (.error (.os .EBADF), s)) := by
  have hg : s.getOpen fd = .error (.os .EBADF) := by
    rcases getOpen_spec (reachable_fdInv hr) fd with ⟨e, _⟩ | ⟨g, l, _, e2⟩
    · exact e
    · exact absurd ⟨_, e2⟩ h
  have hb : ∀ {α : Type} (f : Nat → M α), M.bind (rd fun s => s.getOpen fd) f s = (.error (.os .EBADF), s) := by
    intro α f
    unfold M.bind
    rw [show (rd fun s => s.getOpen fd) s = (.error (.os .EBADF), s) from rd_eq (f := fun s => s.getOpen fd) hg]
  refine ⟨fun n => hb _, fun b => hb _, hb _, fun n => hb _, ?_, fun md bf c => hb _⟩
  unfold FS.fstat
  rw [hg]
  rfl

/-- **C29** (close). A successful `os.close` of a descriptor above the standard streams frees exactly that descriptor. -/
theorem close_frees {s : FS} (hr : Reachable s) (fd : Nat) (h3 : 3 ≤ fd) {s' : FS} (h : osClose fd s = (.ok (), s')) :
    InUse s fd ∧ ¬ InUse s' fd ∧ ∀ i, i ≠ fd → s'.openFiles[i]? = s.openFiles[i]? := by
  have hi := reachable_fdInv hr
  have ht := osClose_table hi fd
  unfold wp at ht
  rw [h] at ht
  obtain ⟨_, ⟨_, e, _, he⟩ | ⟨g, hg, hc⟩⟩ := ht
  · simp at he
  · obtain ⟨i, l, e1, e2⟩ := getOpen_slot hg
    have e2 : fd = i := by have := e2 (by omega); omega
    subst e2
    have hm := hi.mem fd _ e1 g (by simp)
    have hopen : s.isOpen g = true := isOpen_iff.mpr ⟨_, by rw [hm.2]; exact e1, by simp⟩
    have hcf : (s.handles g).closefd = true := by
      obtain ⟨a, b, c, d⟩ := hi.head fd _ e1
      injection c with c _
      rw [c]; exact d
    have hk : (s.handles g).kind ≠ .std := by
      intro hk
      have hlt : g < 3 := by
        rcases Nat.lt_or_ge g 3 with h | h
        · exact h
        · exact absurd hk (hi.notStd g h hm.1)
      have := (hi.std g hlt).1
      have := (hi.mem g _ this g (by simp)).2
      omega
    refine ⟨⟨_, e1⟩, ?_⟩
    rcases hc with ⟨_, hc⟩ | ⟨_, hc⟩ | ⟨hc, _⟩
    · rcases hc with ⟨e, he⟩ | hc | ⟨_, hc⟩
      · simp at he
      · exact absurd hc hk
      · rw [hopen] at hc; simp at hc
    · rw [hm.2] at hc
      refine ⟨?_, hc.others⟩
      rintro ⟨l, hl⟩
      rw [hc.here] at hl; simp at hl
    · rw [hcf] at hc; simp at hc

/-- Negative numbers are not refused: `get_open_file` indexes the table from the end (fresh filesystem; `-1` is taken
for descriptor 2). -/
theorem negative_fd_counterexample : ∃ s : FS, Reachable s ∧ s.getOpen (-1) = .ok 2 := by
  refine ⟨_, ⟨demo.cfg, 50, 0, 0, 0o022, 7, none, [], rfl⟩, rfl⟩

/-- Example: three files opened, the middle one closed, the next `open` gets its descriptor. -/
example : let rd1 : OpenModes := ⟨true, true, false, false, false, false⟩
    let s := runs [.openPath "/a/f".toList rd1 none false false, .openPath "/g".toList rd1 none false false,
      .openPath "/a/f".toList rd1 none false false, .osClose 4] demo
    s.openFiles = [some [0], some [1], some [2], some [3], none, some [5]] ∧
    (openPath "/g".toList rd1 none false false s).1.toOption = some 6 ∧
    ((openPath "/g".toList rd1 none false false s).2.handles 6).fd = 4 := by
  refine ⟨?_, ?_, ?_⟩ <;> decide +kernel

end Verif
