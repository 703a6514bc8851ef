import Verif.Props.RefineOpen
import Verif.InTree
/-!
# C76, continued: calls on names while descriptors are open
-/

namespace Verif
open Py Spec Cfg

/-- nothing of handles and descriptors has changed -/
structure SameTab (s s' : FS) : Prop where
  handles : s'.handles = s.handles
  hnext : s'.hnext = s.hnext
  openFiles : s'.openFiles = s.openFiles

instance : TreeRel SameTab where
  refl _ := ⟨rfl, rfl, rfl⟩
  trans h k := ⟨k.handles.trans h.handles, k.hnext.trans h.hnext, k.openFiles.trans h.openFiles⟩
  tree _ _ _ _ _ _ := ⟨rfl, rfl, rfl⟩

theorem named_inTree (s : FS) (i : Nat) : (sysOf s).Named i ↔ InTree (treeOf s) i := by
  unfold Ref.Sys.Named InTree
  refine exists_congr fun l => ?_
  rw [names_tree]
  cases treeOf s l with
  | none => simp
  | some n => cases n <;> simp

section
variable {t t' : Ref.Tree} {r : Ref.Res}

theorem moves_ids {a b : Ref.Path} (h : Ref.Moves t a b r t') {i : Nat} (hi : InTree t' i) : InTree t i := by
  unfold Ref.Moves Ref.Fails at h
  split at h
  · rw [h.2] at hi; exact hi
  · rw [h.2] at hi; exact inTree_move hi

theorem renames_ids {a b : Ref.Path} (h : Ref.Renames t a b r t') {i : Nat} (hi : InTree t' i) : InTree t i := by
  unfold Ref.Renames Ref.Fails at h
  repeat' split at h
  all_goals first
    | (rw [h.2] at hi; exact hi)
    | exact moves_ids h hi
    | (rcases h with ⟨_, h⟩ | ⟨_, h⟩ <;> first | (rw [h.2] at hi; exact hi) | exact moves_ids h hi)

theorem makesDirs_ids {p : Ref.Path} (h : Ref.MakesDirs t p r t') {i : Nat} (hi : InTree t' i) : InTree t i := by
  unfold Ref.MakesDirs Ref.Fails at h
  rcases h with ⟨_, _, h⟩ | ⟨_, _, h⟩ <;> rw [h] at hi
  · exact hi
  · exact inTree_grow hi

theorem prunes_ids {p : Ref.Path} (h : Ref.Prunes t p r t') {i : Nat} (hi : InTree t' i) : InTree t i := by
  induction h with
  | stop _ => exact hi
  | root _ => exact hi
  | up _ _ ih => rcases inTree_set (ih hi) with h | ⟨_, h⟩ <;> [exact h; simp at h]

/-- Only writing and creating a file can give a tree with a file that was not in it. -/
theorem step_ids {c : Ref.Call} (h : Ref.Step t c r t') (hw : ∀ p b, c ≠ .writeBytes p b) (hf : ∀ p b, c ≠ .createFile p b) {i : Nat}
    (hi : InTree t' i) : InTree t i := by
  cases c with
  | writeBytes p b => exact absurd rfl (hw p b)
  | createFile p b => exact absurd rfl (hf p b)
  | rename a b => rw [Ref.Step] at h; exact renames_ids h hi
  | replace a b => rw [Ref.Step] at h; exact renames_ids h hi
  | makedirs p ok =>
    rw [Ref.Step] at h
    unfold Ref.Fails at h
    repeat' split at h
    all_goals first
      | (rw [h.2] at hi; exact hi)
      | exact makesDirs_ids h hi
  | createDir p =>
    rw [Ref.Step] at h
    unfold Ref.Fails at h
    repeat' split at h
    all_goals first
      | (rw [h.2] at hi; exact hi)
      | exact makesDirs_ids h hi
  | mkdir p =>
    rw [Ref.Step] at h
    unfold Ref.Fails at h
    repeat' split at h
    all_goals rw [h.2] at hi
    all_goals first
      | exact hi
      | (rcases inTree_set hi with h | ⟨_, h⟩ <;> [exact h; simp at h])
  | rmdir p =>
    rw [Ref.Step] at h
    unfold Ref.Fails at h
    repeat' split at h
    · obtain ⟨e, _, _, h⟩ := h; rw [h] at hi; exact hi
    · rw [h.2] at hi; exact hi
    · rcases h with ⟨_, _, h⟩ | ⟨_, _, h⟩ <;> rw [h] at hi
      · rcases inTree_set hi with h | ⟨_, h⟩ <;> [exact h; simp at h]
      · exact hi
  | remove p =>
    rw [Ref.Step] at h
    unfold Ref.Fails at h
    repeat' split at h
    · obtain ⟨e, _, _, h⟩ := h; rw [h] at hi; exact hi
    · rw [h.2] at hi; exact hi
    · rw [h.2] at hi
      rcases inTree_set hi with h | ⟨_, h⟩ <;> [exact h; simp at h]
  | removeAll p =>
    rw [Ref.Step] at h
    unfold Ref.Fails at h
    repeat' split at h
    · rw [h.2] at hi; exact inTree_cut hi
    · obtain ⟨e, _, _, h⟩ := h; rw [h] at hi; exact hi
  | link a b =>
    rw [Ref.Step] at h
    unfold Ref.Fails at h
    repeat' split at h
    all_goals rw [h.2] at hi
    all_goals first
      | exact hi
      | (rcases inTree_set hi with h | ⟨_, h⟩
         · exact h
         · injection h with h; injection h with h1 h2; subst h1; exact ⟨_, _, ‹_›⟩)
  | readBytes p =>
    rw [Ref.Step] at h
    unfold Ref.Fails at h
    repeat' split at h
    all_goals (rw [h.2] at hi; exact hi)
  | listdir p =>
    rw [Ref.Step] at h
    unfold Ref.Fails at h
    repeat' split at h
    all_goals first | (rw [h.2] at hi; exact hi) | (obtain ⟨e, _, _, h⟩ := h; rw [h] at hi; exact hi)
  | getsize p =>
    rw [Ref.Step] at h
    unfold Ref.Fails at h
    repeat' split at h
    all_goals first | (rw [h.2] at hi; exact hi) | (obtain ⟨e, _, _, h⟩ := h; rw [h] at hi; exact hi)
  | samefile p q =>
    rw [Ref.Step] at h
    unfold Ref.Fails at h
    repeat' split at h
    all_goals first | (rw [h.2] at hi; exact hi) | (obtain ⟨e, _, _, h⟩ := h; rw [h] at hi; exact hi)
  | «exists» p => rw [Ref.Step] at h; rw [h.2] at hi; exact hi
  | lexists p => rw [Ref.Step] at h; rw [h.2] at hi; exact hi
  | removedirs p =>
    rw [Ref.Step] at h
    unfold Ref.Fails at h
    repeat' split at h
    · obtain ⟨e, _, _, h⟩ := h; rw [h] at hi; exact hi
    · rw [h.2] at hi; exact hi
    · rcases h with ⟨_, _, h⟩ | ⟨_, h⟩
      · rw [h] at hi; exact hi
      · rcases inTree_set (prunes_ids h hi) with h | ⟨_, h⟩ <;> [exact h; simp at h]
  | isfile p => rw [Ref.Step] at h; rw [h.2] at hi; exact hi
  | isdir p => rw [Ref.Step] at h; rw [h.2] at hi; exact hi
end

section
variable {k : Cfg} {u : Nat} {s s' : FS}

/-- what a call on names keeps: the bytes of all files, except those of `P`, and all descriptors -/
theorem SysSt.held (hs : SysSt k u s) (hr : RefSt k u s') (he : Held s s') (ht : SameTab s s') :
    SysSt k u s' ∧ (sysOf s').fds = (sysOf s).fds ∧ ∀ P, (sysOf s).Keeps (sysOf s') P := by
  have st : Steady s.hnext s s' := by
    refine Steady.of (by rw [ht.hnext]) he.next (fun r hr => ?_) fun g _ _ => Or.inl (by rw [ht.handles])
    cases hd : (s.heap r).isDir with
    | true =>
      intro b hb
      unfold Obj.isDir at hd
      rw [hb] at hd
      simp at hd
    | false => exact .of (he.data r hr hd).1 (he.data r hr hd).2.1 (he.data r hr hd).2.2
  obtain ⟨h1, h2⟩ := hs.sameFds hr st ht.openFiles fun fd h3 hsl => by
    exfalso
    rcases fds_cases hs fd with ⟨_, hn⟩ | ⟨g, _, hg, _, hlt, _⟩
    · exact hn h3 ⟨_, hsl⟩
    · rw [hsl] at hg
      simp only [Option.some.injEq, List.cons.injEq, and_true] at hg
      rw [hg] at hlt
      exact Nat.lt_irrefl _ hlt
  exact ⟨h1, h2, fun P => keeps_files (fun x hx => Or.inr ⟨he.kind x hx, fun hd => (he.data x hx hd).1⟩) fun i => hs.live⟩

theorem SysSt.treeHeld (hs : SysSt k u s) {c : Ref.Call} (hc : Refines k u s c) (he : Held s (callOn c s).2) (ht : SameTab s (callOn c s).2)
    (hi : ∀ i, (sysOf s).Opened i → InTree (treeOf (callOn c s).2) i → InTree (treeOf s) i) : FdRefines k u s (.tree c) := by
  obtain ⟨h1, h2, h3⟩ := hs.held hc.st he ht
  refine ⟨h1, ?_⟩
  rw [Ref.FdStep, sysOf_tree]
  refine ⟨?_, h2, h3 _, fun i ho hn => ?_⟩
  · show Ref.Step _ c (callOn c s).1 (sysOf (callOn c s).2).tree
    rw [sysOf_tree]; exact hc.step
  · exact (named_inTree s i).mpr (hi i ho ((named_inTree _ i).mp hn))

/-- calls made of frames -/
theorem SysSt.treeFrame (hs : SysSt k u s) {c : Ref.Call} (hc : Refines k u s c) {α : Type} {f : α → Ref.Res} {m : M α} (e : callOn c = doCall f m)
    (hm : Fr Held m) (ht : Fr SameTab m) (hw : ∀ p b, c ≠ .writeBytes p b) (hf : ∀ p b, c ≠ .createFile p b) : FdRefines k u s (.tree c) := by
  refine hs.treeHeld hc ?_ ?_ fun i _ hi => step_ids hc.step hw hf hi
  · rw [e]; exact hm s
  · rw [e]; exact ht s

/-- questions -/
theorem SysSt.treeAsk (hs : SysSt k u s) {c : Ref.Call} (hc : Refines k u s c) {α : Type} {f : α → Ref.Res} {q : FS → Except Err α} (e : callOn c = askCall f q)
    (hw : ∀ p b, c ≠ .writeBytes p b) (hf : ∀ p b, c ≠ .createFile p b) : FdRefines k u s (.tree c) := by
  refine hs.treeHeld hc ?_ ?_ fun i _ hi => step_ids hc.step hw hf hi
  · rw [e]; exact Held.heap rfl rfl
  · rw [e]; exact ⟨rfl, rfl, rfl⟩

/-! ## Reading and writing whole files -/

/-- the same descriptors are in use, by the same handles -/
def SameSlots (s s' : FS) : Prop := ∀ (fd : Nat) (l : List Nat), s'.openFiles[fd]? = some (some l) ↔ s.openFiles[fd]? = some (some l)

theorem SysSt.sameSlots (hs : SysSt k u s) (hr : RefSt k u s') (st : Steady s.hnext s s') (ht : SameSlots s s') :
    SysSt k u s' ∧ (sysOf s').fds = (sysOf s).fds := by
  have hi := reachable_fdInv hs.reach
  have key : ∀ fd, 3 ≤ fd → ∀ g, s.openFiles[fd]? = some (some [g]) → HOk s g → HOk s' g ∧ SameView (s.handles g) (s'.handles g) :=
    fun fd _ g hg hok => st.keep g (hi.mem fd _ hg g (by simp)).1 (Nat.ne_of_lt (hi.mem fd _ hg g (by simp)).1) hok
  refine ⟨⟨hr, fun fd h3 l hl => ?_⟩, funext fun fd => ?_⟩
  · rw [ht] at hl
    obtain ⟨g, rfl, hok⟩ := hs.slots fd h3 l hl
    exact ⟨g, rfl, (key fd h3 g hl hok).1⟩
  · rcases fds_cases hs fd with ⟨h1, h2⟩ | ⟨g, h3, hsl, _, _, _, _, h1, hok⟩
    · rw [h1]
      rcases Nat.lt_or_ge fd 3 with h3 | h3
      · unfold sysOf; dsimp only; rw [if_pos h3]
      · unfold sysOf; dsimp only; rw [if_neg (by omega)]
        split
        · rename_i x l e; exact absurd ⟨_, (ht _ _).mp e⟩ (h2 h3)
        · rfl
    · rw [h1, fds_slot h3 ((ht _ _).mpr hsl), (key fd h3 g hsl hok).2.desc]

theorem tot_hClose {h : Nat} {r : Ref} {s0 : FS} (g : Go h r s0 s) (hk : (s.handles h).kind = .file) (hw : s.cfg.isWin = false)
    (hc : (s.handles h).closefd = true) (hd : (s.handles h).deleteOnClose = false) :
    ∃ s', hClose h s = (.ok (), s') ∧ Steady h s0 s' ∧ s'.openFiles = s.openFiles.set (s.handles h).fd none := by
  rw [hClose_file hk g.pre.isOpen]
  have last : ∀ s1, Go h r s0 s1 → s1.openFiles = s.openFiles → ∃ s', (closeTable (s.handles h) h >>= fun _ => closeDelete (s.handles h)) s1 = (.ok (), s') ∧
      Steady h s0 s' ∧ s'.openFiles = s.openFiles.set (s.handles h).fd none := by
    intro s1 g1 e1
    unfold closeTable closeDelete
    rw [hc, hd]
    refine ⟨{ s1 with openFiles := s1.openFiles.set (s.handles h).fd none, freeFds := (s.handles h).fd :: s1.freeFds }, rfl,
      g1.steady.trans (Steady.heap (Nat.le_refl _) rfl rfl fun _ _ _ => rfl), by rw [← e1]⟩
  unfold closeHead
  split
  · rw [M.bindAssoc, M.bind_eq]
    obtain ⟨a, s1, e, g1⟩ := (tot_flush g).out
    have q := fq_flush h s
    rw [e] at q ⊢
    dsimp only at q ⊢
    rw [M.bind_eq, M.bind_eq]
    dsimp only [M.get]
    rw [if_neg (by rw [q.cfg, hw]; simp)]
    exact last s1 g1 q.openFiles
  · exact last s g rfl

/-- Opening a file, doing something with it and closing it: the other handles show what they showed, and no descriptor is left. -/
theorem tmp_file {s1 s2 : FS} {r : Ref} {fd : Nat} {md : OpenModes} {α : Type} {body : M α} (st : Steady s.hnext s s1) (hx : s1.hnext = s.hnext)
    (ht : s1.openFiles = s.openFiles) (hw : s.cfg.isWin = false) (hcfg : s1.cfg = s.cfg) (op : Opened s1 s2 fd s1.hnext)
    (hh : s2.handles s1.hnext = { mkHandle s1 r md none true false false 0 with fd := fd })
    (he : s2 = { s1 with openFiles := s2.openFiles, freeFds := s2.freeFds, handles := s2.handles, hnext := s2.hnext })
    (hn : r ≠ devNullRef) (hd : ∃ C, (s1.heap r).content = .file (some C) ∧ (s1.heap r).size = C.length) (hl : ∀ m ∈ s1.mounts, m.total = none)
    (hb : ∀ g : Go s.hnext r s2 s2, Tot s.hnext r s2 body s2) (hq : Fr Quiet body) :
    ∃ a s3, withFile s.hnext body s2 = (.ok a, s3) ∧ Steady s.hnext s s3 ∧ SameSlots s s3 := by
  rw [hx] at op hh
  have hop : s2.isOpen s.hnext = true := isOpen_iff.mpr ⟨_, by rw [op.hfd]; exact op.slot.here, by simp⟩
  have hp : Pre s.hnext r s2 := ⟨hop, by rw [hh]; rfl, hn, by rw [he]; exact hd, by rw [he]; exact hl⟩
  obtain ⟨a, s3, e1, g1⟩ := (hb ⟨hp, .refl _ _, .refl _⟩).out
  have q := hq s2
  rw [e1] at q
  dsimp only at q
  have hf := g1.fixed
  have hc2 : s2.cfg = s.cfg := by rw [he]; exact hcfg
  obtain ⟨s4, e2, g2, e3⟩ := tot_hClose g1 (hf.kind.trans (by rw [hh]; rfl)) (by rw [q.cfg, hc2]; exact hw)
    (hf.closefd.trans (by rw [hh]; rfl)) (hf.del.trans (by rw [hh]; rfl))
  refine ⟨a, s4, ?_, ?_, ?_⟩
  · unfold withFile
    rw [e1]
    dsimp only
    rw [e2]
  · refine st.trans (Steady.trans (b := s2) ?_ g2)
    exact Steady.heap (by rw [op.hnext, hx]; exact Nat.le_succ _) (by rw [he]) (by rw [he]) fun g hg _ => op.old g (by rw [← hx]; exact hg)
  · intro j l
    rw [e3, q.openFiles, hf.fd, op.hfd]
    by_cases ej : j = fd
    · subst ej
      have hlen : j < s2.openFiles.length := (List.getElem?_eq_some_iff.mp op.slot.here).1
      rw [List.getElem?_set_self hlen]
      refine ⟨fun h => by simp at h, fun h => absurd ⟨l, ?_⟩ op.fresh⟩
      rw [ht]; exact h
    · rw [List.getElem?_set_ne (Ne.symm ej), op.slot.others j ej, ht]

theorem SysSt.treeTable (hs : SysSt k u s) {c : Ref.Call} (hc : Refines k u s c) (st : Steady s.hnext s (callOn c s).2) (ss : SameSlots s (callOn c s).2)
    (hd : (sysOf s).Keeps (sysOf (callOn c s).2) (fun i => ∃ p b, c = .writeBytes p b ∧ (sysOf s).names p = some (.file i)))
    (hi : ∀ i, (sysOf s).Opened i → InTree (treeOf (callOn c s).2) i → InTree (treeOf s) i) : FdRefines k u s (.tree c) := by
  obtain ⟨h1, h2⟩ := hs.sameSlots hc.st st ss
  refine ⟨h1, ?_⟩
  rw [Ref.FdStep, sysOf_tree]
  refine ⟨?_, h2, hd, fun i ho hn => ?_⟩
  · show Ref.Step _ c (callOn c s).1 (sysOf (callOn c s).2).tree
    rw [sysOf_tree]; exact hc.step
  · exact (named_inTree s i).mpr (hi i ho ((named_inTree _ i).mp hn))

theorem SysSt.treeSame (hs : SysSt k u s) {c : Ref.Call} (hc : Refines k u s c) (e : (callOn c s).2 = s) : FdRefines k u s (.tree c) := by
  refine hs.treeHeld hc ?_ ?_ fun i _ hi => by rw [e] at hi; exact hi
  · rw [e]; exact Held.heap rfl rfl
  · rw [e]; exact ⟨rfl, rfl, rfl⟩

theorem SysSt.readBytes (hk : Linux k) (hs : SysSt k u s) {p : List Str} (hp : Usable p) : FdRefines k u s (.tree (.readBytes p)) := by
  have hc := hs.toRefSt.readBytes hk hp
  have ha := hs.toRefSt.arg hk hp
  have ec : (callOn (.readBytes p) s).2 = ((openPath (absPath s.cfg.sep p) rbMode none false false >>= fun h => withFile h (Verif.read h none)) s).2 := by
    rw [hs.sep hk]; rfl
  rcases hs.toRefSt.cases hk p with ⟨h1, h2⟩ | ⟨x, h1, h2, _, h3⟩ | ⟨x, C, h1, h2, h4, h5, hz, hn, h3⟩
  · refine hs.treeSame hc ?_
    rw [h1] at ha
    have : openObject none (absPath s.cfg.sep p) (absPath s.cfg.sep p) rbMode s = (.error (.os .ENOENT), s) := rfl
    rw [ec, M.bind_eq, openPath_err none false false ha this]
  · refine hs.treeSame hc ?_
    rw [h1] at ha
    have : openObject (some x) (absPath s.cfg.sep p) (absPath s.cfg.sep p) rbMode s = (.error (.os .EISDIR), s) := by
      unfold openObject
      rw [if_neg (by simp [rbMode])]
      dsimp only
      rw [M.bind_eq]
      have e : initFileObject (some x) (absPath s.cfg.sep p) (absPath s.cfg.sep p) rbMode s = (.ok x, s) := by
        unfold initFileObject
        dsimp only
        rw [M.bind_eq]
        dsimp only [M.get]
        rw [hs.toRefSt.isRoot hk]
        rfl
      rw [e]
      dsimp only
      rw [M.bind_eq]
      dsimp only [M.get]
      rw [hs.toRefSt.dirMode hk h1, h2, if_pos rfl, hs.isWin hk]
      rfl
    rw [ec, M.bind_eq, openPath_err none false false ha this]
  · rw [h1] at ha
    have hl := hs.toRefSt.leads hk hp h1 h4 h5 hn
    have hr := readBytes_existing hs.reach hl
    have er : Verif.readBytes (absPath s.cfg.sep p) s = (openPath (absPath s.cfg.sep p) rbMode none false false >>= fun h => withFile h (Verif.read h none)) s := rfl
    rw [er] at hr
    have hoo := openObject_existing h4 (by rw [hs.toRefSt.dirMode hk h1]; exact h2) hn (absPath s.cfg.sep p) (absPath s.cfg.sep p) rbMode
    unfold wp at hoo
    rcases ho : openObject (some x) (absPath s.cfg.sep p) (absPath s.cfg.sep p) rbMode s with ⟨r, s1⟩
    rw [ho] at hoo
    dsimp only at hoo
    rcases hoo with ⟨_, g1, _⟩ | ⟨_, _, g1, _⟩ | ⟨_, _, g1, _⟩ | ⟨rfl, _, _, s0, hs0, hs1⟩
    · simp [rbMode] at g1
    · exact absurd g1 (hs.toRefSt.notDenied hk x _)
    · simp [rbMode] at g1
    · have e1 : s1 = s := by
        rw [hs1, hs0]; rfl
      subst e1
      obtain ⟨fd, s2, k1, k2, k3, k4, k5⟩ := openPath_after (reachable_fdInv hs.reach) none false false ha ho h2
      have hu : (s2.handles s1.hnext).read = true ∧ (s2.handles s1.hnext).append = false := by rw [k4]; exact ⟨rfl, rfl⟩
      obtain ⟨a, s3, e3, st3, ss3⟩ := tmp_file (body := Verif.read s1.hnext none) (.refl _ s1) rfl rfl (hs.isWin hk) rfl k2 k4 k5 hn ⟨C, h4, hz⟩ hs.limitless
        (fun g => tot_read g hu.1 hu.2 none) (fq_read _ _)
      rw [M.bind_eq, k1] at hr ec
      dsimp only at hr ec
      rw [e3] at hr ec
      dsimp only at hr ec
      refine hs.treeTable hc (by rw [ec]; exact st3) (by rw [ec]; exact ss3) ?_ fun i _ hi => step_ids hc.step (by simp) (by simp) hi
      rw [ec]
      refine keeps_of (r := x) (fun y hy => by rw [hr.2.2.2.heap]; exact upd_ne _ _ hy) (Or.inr ?_)
      rw [hr.2.2.2.heap]
      simp [upd_same]

theorem SysSt.writeBytes (hk : Linux k) (hs : SysSt k u s) (hu : u < 0o10000) (hu2 : u &&& PERM_READ = 0) {p : List Str} {n : Str} (hp : Usable (p ++ [n]))
    (b : Bytes) : FdRefines k u s (.tree (.writeBytes (p ++ [n]) b)) := by
  have hc := hs.toRefSt.writeBytes hk hu hu2 hp b
  have ha := hs.toRefSt.arg hk hp
  have ec : (callOn (.writeBytes (p ++ [n]) b) s).2 =
      ((openPath (absPath s.cfg.sep (p ++ [n])) wbMode none false false >>= fun h => withFile h (Verif.write h b)) s).2 := by
    rw [hs.sep hk]; rfl
  rcases hs.toRefSt.cases hk (p ++ [n]) with ⟨h1, h2⟩ | ⟨x, h1, h2, _, h3⟩ | ⟨x, C, h1, h2, h4, h5, hz, hn, h3⟩
  · rw [h1] at ha
    have hobj := hs.toRefSt.openObject_none hk hp
    rw [M.bind_eq, hs.toRefSt.createFront hk hp h1] at hobj
    rcases hs.toRefSt.cases hk p with ⟨c1, c2⟩ | ⟨d, c1, c2, _, c3⟩ | ⟨d, db, c1, c2, c4, _, _, _, c3⟩
    · rw [if_pos c1, if_neg (by simp)] at hobj
      refine hs.treeSame hc ?_
      rw [ec, M.bind_eq, openPath_err none false false ha hobj]
    · have hnew := open_new hs.reach (hs.toRefSt.tree hk) (hs.toRefSt.within hk) (hs.toRefSt.ne_dev hk hp) (by rw [hs.toRefSt.ex hk hp, h1]; rfl)
        wbMode none false false (fun _ _ _ d _ => hs.toRefSt.may hk d)
      obtain ⟨i, s0, ho⟩ := hs.toRefSt.opens hk hu hp h1 c1 c2
      rcases hnew with ⟨e, s', g, _⟩ | ⟨h, s1, s2, q, ld, nm, d', x, g1, _, gq, gn, ne, gc, _, _, ge, _, _, _, _, gz, gm, fd, gh, hh, op⟩
      · rw [ho] at g; injection g with g _; simp at g
      · have hrest := ne.rest
        have hx1 : s1.hnext = s.hnext := by rw [hrest]
        have hq : s.resolvePath (absPath s.cfg.sep (p ++ [n])) = .ok (absPath s.cfg.sep (p ++ [n])) :=
          resolvePath_plain hs.inv (hs.toRefSt.tree hk) s.rc (hs.toRefSt.plain hk hp) (hs.toRefSt.noLink hk _)
        rw [hq] at gq; injection gq with gq; subst gq
        rw [makeStringPath_slash (hs.sep hk)] at gn
        obtain ⟨rfl, rfl, hd'⟩ := hs.toRefSt.names hk hp gn
        have hdd : ∀ y, (s.heap y).isDir = false → y ≠ d' := by
          rintro y hy rfl
          rw [gn.dir] at hy; simp at hy
        have hlt : x < s2.next := by
          have hb := hs.toRefSt.toRefBase.open hk (absPath s.cfg.sep (ld ++ [nm])) wbMode none false false
          rw [g1] at hb
          have hi : Inv s2 := reachable_inv hb.reach
          exact walk_lt hi (ld ++ [nm]) (root_lt hi) (by rw [ge]; exact ne.name.here)
        have hnx : s.next ≤ s1.next := by
          rw [ge] at hlt
          exact Nat.le_of_lt (Nat.lt_of_le_of_lt ne.fresh hlt)
        have st : Steady s.hnext s s1 := by
          refine Steady.of (by rw [hrest]) hnx (fun y hy => ?_) fun g _ _ => Or.inl (by rw [hrest])
          cases hyd : (s.heap y).isDir with
          | true =>
            intro b hb
            unfold Obj.isDir at hyd
            rw [hb] at hyd
            simp at hyd
          | false => rw [ne.others y hy (hdd y hyd)]; exact Newer.refl _
        have hup : (s2.handles s.hnext).update = true := by rw [← hx1, ← hh, gh]; rfl
        have hnn : x ≠ devNullRef := fun e => Nat.not_lt.mpr ne.fresh (by rw [e]; exact devNull_lt hs.inv)
        subst hh
        obtain ⟨a, s3, e3, st3, ss3⟩ := tmp_file (body := Verif.write s.hnext b) st hx1 (by rw [hrest]) (hs.isWin hk) (by rw [hrest]) op gh ge hnn
          ⟨[], gc, by rw [gz]; rfl⟩ (by rw [gm]; exact hs.limitless) (fun g => tot_write g hup b) (fq_write _ _)
        rw [M.bind_eq, g1] at ec
        dsimp only at ec
        rw [hx1, e3] at ec
        dsimp only at ec
        have hr := writeBytes_new hs.reach (hs.toRefSt.tree hk) (hs.toRefSt.within hk) (by rw [hs.umask]; exact hu) (hs.toRefSt.ne_dev hk hp)
          (by rw [hs.toRefSt.ex hk hp, h1]; rfl) (fun _ _ _ d _ => hs.toRefSt.may hk d) b
        have er : Verif.writeBytes (absPath s.cfg.sep (ld ++ [nm])) b s = (.ok a, s3) := by
          have : Verif.writeBytes (absPath s.cfg.sep (ld ++ [nm])) b s =
            (openPath (absPath s.cfg.sep (ld ++ [nm])) wbMode none false false >>= fun h => withFile h (Verif.write h b)) s := rfl
          rw [this, M.bind_eq, g1]
          dsimp only
          rw [hx1, e3]
        rcases hr with ⟨e, s', w1, _⟩ | ⟨res, s', s1', q', ld', nm', dd, y, w1, _, wq, wn, we, _, w2⟩
        · rw [er] at w1; injection w1 with w1 _; simp at w1
        · rw [er] at w1
          injection w1 with w1 w3
          subst w1 w3
          rcases w2 with ⟨_, w2⟩ | ⟨w2, _⟩
          swap
          · simp at w2
          rw [hq] at wq; injection wq with wq; subst wq
          rw [makeStringPath_slash (hs.sep hk)] at wn
          obtain ⟨e1, e2, hd2⟩ := hs.toRefSt.names hk hp wn
          have hdy : dd ≠ y := fun e => Nat.not_lt.mpr we.fresh (by rw [← e]; exact walk_lt hs.inv _ (root_lt hs.inv) hd2)
          have hdir : (s3.heap dd).isDir = true := by
            rw [w2.others dd hdy]
            exact isDir_of_entry (e := (nm', y)) (by rw [we.listed]; simp)
          have hheap : ∀ z < s.next, z ≠ dd → s3.heap z = s.heap z := fun z hz hzd => by
            rw [w2.others z (fun e => Nat.not_lt.mpr we.fresh (e ▸ hz)), we.others z hz hzd]
          refine hs.treeTable hc (by rw [ec]; exact st3) (by rw [ec]; exact ss3) ?_ fun i hio hi => ?_
          · rw [ec]
            refine keeps_files (fun z hz => Or.inr ?_) fun i => hs.live
            by_cases e : z = dd
            · subst e
              rw [hdir, wn.dir]
              exact ⟨rfl, fun e => by simp at e⟩
            · rw [hheap z hz e]; exact ⟨rfl, fun _ => rfl⟩
          · have hlt := hs.live (Or.inr hio)
            have hst := hc.step
            rw [Ref.Step, h2, Ref.parent, List.dropLast_concat, c3] at hst
            obtain ⟨_, j, _, hj⟩ := hst
            rw [hj] at hi
            rcases inTree_set hi with hi | ⟨b', hi⟩
            · exact hi
            · exfalso
              simp only [Option.some.injEq, Ref.Node.file.injEq] at hi
              have h5 : treeOf (callOn (.writeBytes (ld ++ [nm]) b) s).2 (ld ++ [nm]) = some (.file i b) := by
                rw [hj]; unfold Ref.Tree.set; rw [if_pos rfl, hi.1]
              rw [ec] at h5
              unfold treeOf at h5
              have hwk : walk s3.heap rootRef (ld ++ [nm]) = some y := by
                rw [← e1, ← e2, ← we.name.here]
                have := w2.shape.ents
                generalize rootRef = r
                induction (ld' ++ [nm']) generalizing r with
                | nil => rfl
                | cons w l ih => simp only [walk, this]; cases alookup w (s1'.heap r).entries <;> simp [ih]
              rw [hwk, Option.map_some, nodeOf_file w2.data] at h5
              simp only [Option.some.injEq, Ref.Node.file.injEq] at h5
              exact Nat.not_lt.mpr we.fresh (by rw [h5.1]; exact hlt)
    · rw [if_neg (by rw [c1]; simp)] at hobj
      rw [hs.toRefSt.createTail_file hk hp c1 c2] at hobj
      have hop := openPath_err none false false ha hobj
      rw [M.bind_eq, hop] at ec
      dsimp only at ec
      refine hs.treeHeld hc ?_ ?_ fun i hio hi => ?_
      · rw [ec]; exact OpRel.new s _ trivial
      · rw [ec]; exact ⟨rfl, rfl, rfl⟩
      · have hst := hc.step
        rw [Ref.Step, h2, Ref.parent, List.dropLast_concat, c3] at hst
        rw [hst.2] at hi; exact hi
  · refine hs.treeSame hc ?_
    rw [h1] at ha
    have : openObject (some x) (absPath s.cfg.sep (p ++ [n])) (absPath s.cfg.sep (p ++ [n])) wbMode s = (.error (.os .EISDIR), s) := by
      unfold openObject
      rw [if_neg (by simp [wbMode])]
      dsimp only
      rw [M.bind_eq]
      have e : initFileObject (some x) (absPath s.cfg.sep (p ++ [n])) (absPath s.cfg.sep (p ++ [n])) wbMode s = (.error (.os .EISDIR), s) := by
        unfold initFileObject
        dsimp only
        rw [M.bind_eq]
        dsimp only [M.get]
        rw [if_neg (by rw [hs.toRefSt.isRoot hk]; simp), if_pos (by simp [wbMode]), M.bind_eq]
        unfold setContents
        rw [if_pos h2]
      rw [e]
    rw [ec, M.bind_eq, openPath_err none false false ha this]
  · rw [h1] at ha
    have hl := hs.toRefSt.leads hk hp h1 h4 h5 hn
    have hr := writeBytes_existing hs.reach hl b
    have er : Verif.writeBytes (absPath s.cfg.sep (p ++ [n])) b s =
      (openPath (absPath s.cfg.sep (p ++ [n])) wbMode none false false >>= fun h => withFile h (Verif.write h b)) s := rfl
    rw [er] at hr
    have hoo := openObject_existing h4 (by rw [hs.toRefSt.dirMode hk h1]; exact h2) hn (absPath s.cfg.sep (p ++ [n])) (absPath s.cfg.sep (p ++ [n])) wbMode
    unfold wp at hoo
    have hq := fq_openObject (some x) (absPath s.cfg.sep (p ++ [n])) (absPath s.cfg.sep (p ++ [n])) wbMode s
    rcases ho : openObject (some x) (absPath s.cfg.sep (p ++ [n])) (absPath s.cfg.sep (p ++ [n])) wbMode s with ⟨r, s1⟩
    rw [ho] at hoo hq
    dsimp only at hoo hq
    rcases hoo with ⟨_, g1, _⟩ | ⟨_, _, g1, _⟩ | ⟨_, _, _, g1, _⟩ | ⟨rfl, _, _, s0, hs0, hs1⟩
    · simp [wbMode] at g1
    · exact absurd g1 (hs.toRefSt.notDenied hk x _)
    · rw [fits_limitless hs.limitless] at g1; simp at g1
    · have hF : Found s s1 x [] C := by
        rw [if_pos (by simp [wbMode])] at hs0
        rw [if_pos (by simp [wbMode])] at hs1
        rw [hs1, hs0]
        have := (found_empty h4).times s.clock s.clock
        convert this using 4
        rw [hs.isWin hk]; rfl
      obtain ⟨fd, s2, k1, k2, k3, k4, k5⟩ := openPath_after (FdInv.quiet (reachable_fdInv hs.reach) hq) none false false ha ho
        (by unfold Obj.isDir; rw [hF.data])
      have hrest := hF.rest
      have st : Steady s.hnext s s1 := by
        refine Steady.of (by rw [hrest]) (by rw [hF.next]) (fun y hy => ?_) fun g _ _ => Or.inl (by rw [hrest])
        by_cases e : y = x
        · subst e
          intro b hb' hzb
          rw [h4] at hb'
          simp only [Content.file.injEq, Option.some.injEq] at hb'
          subst hb'
          exact ⟨[], hF.data, hF.size, hF.epoch.1, hF.epoch.2⟩
        · rw [hF.others y e]; exact Newer.refl _
      have hx1 : s1.hnext = s.hnext := by rw [hrest]
      have hup : (s2.handles s.hnext).update = true := by rw [← hx1, k4]; rfl
      obtain ⟨a, s3, e3, st3, ss3⟩ := tmp_file (body := Verif.write s.hnext b) st hx1 (by rw [hrest]) (hs.isWin hk) (by rw [hrest]) k2 k4 k5 hn
        ⟨[], hF.data, hF.size⟩ (hF.shape.limitless hs.limitless) (fun g => tot_write g hup b) (fq_write _ _)
      rw [M.bind_eq, k1] at hr ec
      dsimp only at hr ec
      rw [hx1, e3] at hr ec
      dsimp only at hr ec
      refine hs.treeTable hc (by rw [ec]; exact st3) (by rw [ec]; exact ss3) ?_ fun i _ hi => ?_
      · rw [ec]
        refine keeps_of (r := x) (fun y hy => hr.2.2.1.others y hy) (Or.inl ⟨_, _, rfl, ?_⟩)
        rw [names_tree, h3]
      · have hst := hc.step
        rw [Ref.Step, h3] at hst
        rw [hst.2] at hi; exact inTree_store hi

theorem SysSt.createFile (hk : Linux k) (hs : SysSt k u s) {p : List Str} {n : Str} (hp : Usable (p ++ [n])) (b : Bytes) :
    FdRefines k u s (.tree (.createFile (p ++ [n]) b)) := by
  have e : callOn (.createFile (p ++ [n]) b) =
      doCall (fun _ => .done) (Verif.createFile (absPath '/' (p ++ [n])) (S_IFREG ||| PERM_DEF_FILE) (some b) none true false) := rfl
  obtain ⟨_, h2, h3⟩ := hs.toRefSt.createFile_all hk hp b (m := Verif.createFile (absPath '/' (p ++ [n])) (S_IFREG ||| PERM_DEF_FILE) (some b) none true false)
    (by rw [hs.sep hk])
  refine hs.treeHeld (hs.toRefSt.createFile hk hp b) ?_ ?_ fun i ho hi => ?_
  · rw [e]; exact h2
  · rw [e]; exact fr_createFile (R := SameTab) _ _ _ _ _ _ s
  · rw [e] at hi; exact h3 i (hs.live (Or.inr ho)) hi

/-- the calls of the reference file system, while descriptors are open -/
theorem SysSt.tree (hk : Linux k) (hs : SysSt k u s) (hu : u < 0o10000) (hr : u &&& PERM_READ = 0) {c : Ref.Call} (hc : Allowed k c) :
    FdRefines k u s (.tree c) := by
  have h := refines_step hk hu hr hs.toRefSt hc
  cases c with
  | mkdir p => exact hs.treeFrame h rfl (fo_mkdir _ _ fun _ => trivial) (fr_mkdir _ _) (by simp) (by simp)
  | rmdir p => exact hs.treeFrame h rfl (fo_rmdir _ _) (fr_rmdir _ _) (by simp) (by simp)
  | remove p => exact hs.treeFrame h rfl (fo_remove _) (fr_remove _) (by simp) (by simp)
  | rename a b => exact hs.treeFrame h rfl (fo_rename _ _ _) (fr_rename _ _ _) (by simp) (by simp)
  | link a b => exact hs.treeFrame h rfl (fo_createLink _ _ _ _) (fr_createLink _ _ _ _) (by simp) (by simp)
  | writeBytes p b => obtain ⟨l, n, rfl⟩ := snoc_of_ne hc.2; exact hs.writeBytes hk hu hr hc.1 b
  | readBytes p => exact hs.readBytes hk hc
  | listdir p => exact hs.treeAsk h rfl (by simp) (by simp)
  | «exists» p => exact hs.treeAsk h rfl (by simp) (by simp)
  | isfile p => exact hs.treeAsk h rfl (by simp) (by simp)
  | isdir p => exact hs.treeAsk h rfl (by simp) (by simp)
  | getsize p => exact hs.treeAsk h rfl (by simp) (by simp)
  | replace a b => exact hs.treeFrame h rfl (fo_rename _ _ _) (fr_rename _ _ _) (by simp) (by simp)
  | makedirs p ok => exact hs.treeFrame h rfl (fo_makedirs _ _ _ fun _ => trivial) (fr_makedirs _ _ _) (by simp) (by simp)
  | createDir p => exact hs.treeFrame h rfl (fo_createDir _ _ trivial) (fr_createDir _ _) (by simp) (by simp)
  | createFile p b => obtain ⟨l, n, rfl⟩ := snoc_of_ne hc.2; exact hs.createFile hk hc.1 b
  | removeAll p => exact hs.treeFrame h rfl (fo_removeObject _) (fr_removeObject _) (by simp) (by simp)
  | samefile p q => exact hs.treeAsk h rfl (by simp) (by simp)
  | lexists p => exact hs.treeAsk h rfl (by simp) (by simp)
  | removedirs p => exact hs.treeFrame h rfl (fo_removedirs _) (fr_removedirs _) (by simp) (by simp)

end

/-! ## Whole histories -/

namespace Spec
/-- The calls of a history: those of `Allowed` on names; `os.open` outside `/dev`, with flags that ask for reading or writing or both,
`O_EXCL` only with `O_CREAT`, `O_APPEND` only for writing alone, and a mode that lets the owner read; descriptors are not the standard streams. -/
def FdAllowed (k : Cfg) : Ref.FdCall → Prop
  | .tree c => Allowed k c
  | .open p f mode => Usable p ∧ OpenAllowed f mode
  | .read fd _ | .write fd _ | .close fd | .size fd => 3 ≤ fd

/-- what a sequence of calls gives, one after the other -/
def fdAnswers : List Ref.FdCall → FS → List Ref.Res
  | [], _ => []
  | c :: cs, s => (fdCallOn c s).1 :: fdAnswers cs (fdCallOn c s).2

/-- the state after a sequence of calls -/
def fdAfter : List Ref.FdCall → FS → FS
  | [], s => s
  | c :: cs, s => fdAfter cs (fdCallOn c s).2
end Spec

/-- **C76** (one call). In a state that stands for a system of the reference file system with descriptors, each call is answered as the
reference file system answers it, and the state afterwards stands for the system it then has. -/
theorem fdRefines_step {k : Cfg} (hk : Linux k) {u : Nat} (hu : u < 0o10000) (hr : u &&& PERM_READ = 0) {s : FS} (h : SysSt k u s) {c : Ref.FdCall}
    (hc : FdAllowed k c) : FdRefines k u s c := by
  cases c with
  | tree c => exact h.tree hk hu hr hc
  | «open» p f mode => exact h.open hk hu hr hc.1 hc.2
  | read fd n => exact h.read hk hc n
  | write fd b => exact h.write hk hc b
  | close fd => exact h.close hk hc
  | size fd => exact h.size hk hc

theorem fdRefines_from {k : Cfg} (hk : Linux k) {u : Nat} (hu : u < 0o10000) (hr : u &&& PERM_READ = 0) (cs : List Ref.FdCall) :
    ∀ {s : FS}, SysSt k u s → (∀ c ∈ cs, FdAllowed k c) →
      SysSt k u (fdAfter cs s) ∧ Ref.FdRun (sysOf s) cs (fdAnswers cs s) (sysOf (fdAfter cs s)) := by
  induction cs with
  | nil => intro s h _; exact ⟨h, .nil _⟩
  | cons c cs ih =>
    intro s h hc
    have h1 := fdRefines_step hk hu hr h (hc c (by simp))
    have h2 := ih h1.st fun c' hc' => hc c' (by simp [hc'])
    exact ⟨h2.1, .cons h1.step h2.2⟩

theorem init_sysSt {k : Cfg} (hk : Linux k) (limit gid u : Nat) (clock : Int) :
    SysSt k u (initFS k limit 0 gid u clock none) ∧ (sysOf (initFS k limit 0 gid u clock none)).IsNew := by
  obtain ⟨h1, h2⟩ := init_refSt hk limit gid u clock
  have hnone : ∀ fd, 3 ≤ fd → (initFS k limit 0 gid u clock none).openFiles[fd]? = none := by
    intro fd h3
    rw [List.getElem?_eq_none_iff]
    exact h3
  refine ⟨⟨h1, fun fd h3 l hl => ?_⟩, fun l => ?_, fun fd => ?_⟩
  · rw [hnone fd h3] at hl; simp at hl
  · rw [names_tree, h2]
    unfold Ref.Tree.new
    by_cases e : l = [] <;> simp [e]
  · show (if fd < 3 then _ else _) = _
    split
    · rfl
    · rw [hnone fd (by omega)]

/-- **C76**. A new fake Linux filesystem of unlimited size, used by root with a umask that leaves the owner's read permission, answers
every sequence of calls on names and descriptors as the reference file system with descriptors does. -/
theorem fdRefines {k : Cfg} (hk : Linux k) (limit gid : Nat) (clock : Int) {u : Nat} (hu : u < 0o10000) (hr : u &&& PERM_READ = 0) (cs : List Ref.FdCall)
    (hc : ∀ c ∈ cs, FdAllowed k c) :
    ∃ y y', y.IsNew ∧ Ref.FdRun y cs (fdAnswers cs (initFS k limit 0 gid u clock none)) y' := by
  obtain ⟨h1, h2⟩ := init_sysSt hk limit gid u clock
  exact ⟨_, _, h2, (fdRefines_from hk hu hr cs h1 hc).2⟩

/-! ## A history -/

/-- a file is written through one descriptor and read through another, appended to, removed and replaced while it is open -/
def fdCalls : List Ref.FdCall :=
  [.tree (.mkdir [['a']]), .open [['a'], ['f']] ⟨true, true, true, true, false, false⟩ 0o644, .write 3 [1, 2, 3, 4], .read 3 10,
   .open [['a'], ['f']] ⟨true, false, false, false, false, false⟩ 0o644, .read 4 2, .open [['a'], ['f']] ⟨false, true, false, false, false, true⟩ 0o600,
   .write 5 [9], .read 4 10, .size 3, .tree (.link [['a'], ['f']] [['g']]), .tree (.remove [['a'], ['f']]), .write 3 [7], .tree (.readBytes [['g']]),
   .tree (.writeBytes [['g']] [5]), .read 4 10, .tree (.remove [['g']]), .write 5 [8, 8], .size 4, .close 4, .read 4 1,
   .open [['a'], ['f']] ⟨true, false, false, false, false, false⟩ 0o644, .open [['a'], ['f']] ⟨true, false, true, true, false, false⟩ 0o644,
   .read 4 5, .write 4 [1], .open [['a'], ['f']] ⟨true, false, true, true, false, false⟩ 0o644, .open [['a']] ⟨true, false, false, false, false, false⟩ 0o644,
   .write 6 [1], .close 6, .tree (.rename [['a']] [['b']]), .open [['b'], ['f']] ⟨false, true, false, false, true, false⟩ 0o644, .write 6 [3, 3],
   .tree (.createFile [['c'], ['x']] [1]), .read 4 5, .tree (.removeAll [['b']]), .size 4, .size 3]

instance (f : Ref.Flags) (m : Nat) : Decidable (OpenAllowed f m) :=
  decidable_of_iff ((f.rd = true ∨ f.wr = true) ∧ (f.excl = true → f.creat = true) ∧ (f.append = true → f.wr = true ∧ f.rd = false) ∧ m &&& PERM_READ ≠ 0)
    ⟨fun h => ⟨h.1, h.2.1, h.2.2.1, h.2.2.2⟩, fun h => ⟨h.1, h.2, h.3, h.4⟩⟩

instance (k : Cfg) (c : Ref.FdCall) : Decidable (FdAllowed k c) := by
  cases c <;> simp only [FdAllowed] <;> infer_instance

example : ∀ c ∈ fdCalls, FdAllowed demoCfg c := by decide +kernel

example : fdAnswers fdCalls (initFS demoCfg 50 0 0 0o022 7 none) =
    [.done, .num 3, .num 4, .bytes [], .num 4, .bytes [1, 2], .num 5, .num 1, .bytes [3, 4, 9], .num 5, .done, .done, .num 1, .bytes [1, 2, 3, 4, 7],
      .num 1, .bytes [], .done, .num 2, .num 3, .done, .err .EBADF, .err .ENOENT, .num 4, .bytes [], .err .EBADF, .err .EEXIST, .num 6, .err .EBADF,
      .done, .done, .num 6, .num 2, .done, .bytes [3, 3], .done, .num 2, .num 3] := by decide +kernel

end Verif
