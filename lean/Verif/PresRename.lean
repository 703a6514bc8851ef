import Verif.PresOps
import Verif.LookupTree
/-!
# `rename` preserves the invariant
-/

namespace Verif
open Py Spec Cfg

/-- giving a new name to an object that no directory entry refers to, or to a file -/
theorem good_setName {s : FS} (hi : Inv s) (r : Ref) (nm : Str) (hr : r ≠ rootRef)
    (hno : (s.heap r).isDir = true → ∀ x < s.next, ∀ e ∈ (s.heap x).entries, e.2 ≠ r) :
    Good s (s.setObj r fun o => { o with name := nm }) := by
  have hp : ∀ x, ((s.setObj r fun o => { o with name := nm }).heap x) =
      if x = r then { s.heap r with name := nm } else s.heap x := fun x => by
    show upd s.heap r _ x = _; rw [upd_apply]
  have f : ∀ {β : Type} (g : Obj → β) (_ : ∀ o m, g { o with name := m } = g o) (x : Ref),
      g ((s.setObj r fun o => { o with name := nm }).heap x) = g (s.heap x) := by
    intro β g hg x
    rw [hp]; split
    · rename_i e; rw [hg, e]
    · rfl
  have hent := f Obj.entries (fun _ _ => rfl)
  have hdir := f Obj.isDir (fun _ _ => rfl)
  have hnl := f Obj.nlink (fun _ _ => rfl)
  have hino := f Obj.ino (fun _ _ => rfl)
  have hpar := f Obj.parent (fun _ _ => rfl)
  have hmode := f Obj.mode (fun _ _ => rfl)
  have g := hi.g
  refine ⟨⟨?_, hi.m, ?_, ?_⟩, ?_⟩
  · constructor
    · exact g.two
    · intro d hd e he; rw [hent] at he; exact g.entLt d hd e he
    · intro d hd e he; rw [hent] at he; exact g.entRoot d hd e he
    · intro d hd; rw [hent]; exact g.keys d hd
    · intro d hd e he hk
      rw [hent] at he; rw [hdir] at hk; rw [hpar]
      have := g.dirEnt d hd e he hk
      refine ⟨this.1, ?_⟩
      rw [hp, if_neg]
      · exact this.2
      · intro ee; exact hno (ee ▸ hk) d hd e he ee
    · intro x hx p hpp; rw [hpar] at hpp; rw [hdir]; exact g.parDir x hx p hpp
    · intro x hx hk
      rw [hdir] at hk
      rw [hmode]; exact g.dirMode x hx hk
    · intro d hd e he; rw [hent] at he; rw [hino]; exact g.entIno d hd e he
    · intro x hx i; rw [hino]; exact g.inoLe x hx i
    · intro x hx q hq i; rw [hino, hino]; exact g.inoInj x hx q hq i
    · rw [hdir]; exact g.rootDir
    · rw [hpar]; exact g.rootPar
    · rw [hino]; exact g.rootIno
  · constructor
    · rw [hmode]; exact hi.n.rootMode
    · rw [hdir]; exact hi.n.devFile
    · rw [hmode]; exact hi.n.devMode
    · exact hi.n.cwd
    · intro p m d hd e he; rw [hent] at he; exact hi.n.names p m d hd e he
    · exact hi.n.rootMount
    · rw [hp, if_neg hr.symm]; exact hi.n.rootName
  · intro cs
    have t := hi.t cs
    constructor
    · intro x hx
      rw [hnl, hdir, hent, refs_congr x (fun d _ => hent d)]
      exact t.nlink x hx
    · intro x hx
      exact (t.rooted x hx).congr hpar
  · exact ⟨rfl, rfl, rfl, rfl, rfl, rfl, rfl, Nat.le_refl _, fun x _ => hdir x, fun x _ => by rw [hmode],
      fun x _ _ => hino x, Quota.refl _⟩

theorem normEntry_idem (s : FS) (es : List (Str × Ref)) (nm : Str) :
    s.normEntry es (s.normEntry es nm) = s.normEntry es nm := by
  unfold FS.normEntry
  by_cases cs : s.cfg.caseSens = true
  · simp [cs]
  · simp only [cs, Bool.false_eq_true, if_false]
    cases he : es.find? (fun e => s.cfg.lower e.1 == s.cfg.lower nm) with
    | none => simp only [he]
    | some e =>
      have h1 := List.find?_some he
      have : s.cfg.lower e.1 = s.cfg.lower nm := by simpa using h1
      simp only [this, he]

theorem getEntry_norm (s : FS) (es : List (Str × Ref)) (nm : Str) :
    s.getEntry es (s.normEntry es nm) = s.getEntry es nm := by
  unfold FS.getEntry; rw [normEntry_idem]

/-- Removing an entry, not recursively: exactly that entry is gone. -/
theorem removeEntry_flat {s : FS} {d : Ref} (nm : Str) :
    wp (removeEntry d nm false) (fun r s' => r = .ok () → ∃ e, s.getEntry (s.heap d).entries nm = .ok e ∧
      s'.heap = (s.detached d (s.normEntry (s.heap d).entries nm) e).heap) s := by
  unfold wp removeEntry removeEntryF
  split
  · simp
  · simp only [getEntry_norm]
    split
    · simp
    · rename_i e he
      have key : ∀ s1 : FS, s1.heap = s.heap → (detach d (s.normEntry (s.heap d).entries nm) e s1).1 = .ok () →
          (detach d (s.normEntry (s.heap d).entries nm) e s1).2.heap =
            (s.detached d (s.normEntry (s.heap d).entries nm) e).heap := by
        intro s1 h1 h2
        have hs : (s1.detached d (s.normEntry (s.heap d).entries nm) e).heap =
            (s.detached d (s.normEntry (s.heap d).entries nm) e).heap := by
          funext x; rw [detached_heap, detached_heap, h1]
        rcases detach_spec s1 d (s.normEntry (s.heap d).entries nm) e with h3 | ⟨x, h3, _⟩
        · rw [h3, ← hs]
        · rw [h3] at h2; simp at h2
      split
      · simp
      · split
        · rename_i hh; simp at hh
        · split
          · show wp (changeDiskUsage (-(s.sizeOf (s.next + 1) e : Int)) (s.heap e).dev >>=
              fun _ => detach d (s.normEntry (s.heap d).entries nm) e) (fun r s' => r = .ok () →
                ∃ e, s.getEntry (s.heap d).entries nm = .ok e ∧
                  s'.heap = (s.detached d (s.normEntry (s.heap d).entries nm) e).heap) s
            apply wp_seq _ (changeDiskUsage_shrink _ _ s)
            · intro e s' _ h; simp at h
            · intro _ s1 h1 hr
              exact ⟨e, he, key s1 h1.2 hr⟩
          · intro hr
            exact ⟨e, he, key s rfl hr⟩

theorem removeObject_shrink (p : Str) {s : FS} (h : Inv s) :
    wp (removeObject p) (fun _ s' => Good s s' ∧ Shrink s s') s := by
  unfold removeObject
  apply wp_getBind
  apply wp_ite
  · intro _; exact ⟨Good.refl h, Shrink.refl s⟩
  · intro _
    apply wp_tryCatch
    have : wp (do
        let d ← rd (·.resolve (s.cfg.splitpath (s.absnorm (s.originalPath p))).1 true false)
        removeEntry d (s.cfg.splitpath (s.absnorm (s.originalPath p))).2 true) (fun _ s' => Good s s' ∧ Shrink s s') s := by
      apply wp_readBind
      · intro e _; exact ⟨Good.refl h, Shrink.refl s⟩
      · intro d hd
        exact wp_mono (removeEntry_post h (resolve_lt h hd) _ _) fun _ _ hp => ⟨hp.good, hp.shrink⟩
    apply wp_mono this
    intro r s' hg
    cases r with
    | ok a => exact hg
    | error e => cases e <;> exact hg

theorem noRef_of_shrink {s s' : FS} (hs : Shrink s s') {r : Ref}
    (h : ∀ x < s.next, ∀ e ∈ (s.heap x).entries, e.2 ≠ r) : ∀ x < s'.next, ∀ e ∈ (s'.heap x).entries, e.2 ≠ r :=
  fun x hx e he => h x (hs.next ▸ hx) e ((hs.entries x).subset he)

theorem renameCommit_good {s : FS} (h : Inv s) {od nd : Ref} {oldNm newNm : Str} (hod : od < s.next) (hnd : nd < s.next)
    (hanc : ∀ r, s.getEntry (s.heap od).entries oldNm = .ok r → (s.heap od).isDir = true → s.cfg.Tree → ¬ Anc s.heap r nd)
    (hnm : s.cfg.Posix → s.cfg.isMac = false → Proper s.cfg.sep newNm) :
    wp (renameCommit od nd oldNm newNm) (fun _ s' => Good s s') s := by
  unfold renameCommit
  apply wp_getBind
  apply wp_ite
  · intro _; exact Good.refl h
  intro hdir
  have hdir : (s.heap od).isDir = true := by simpa using hdir
  apply wp_rd (Good.refl h)
  intro r hr
  have hmem := getEntry_mem hr
  have hrlt := h.g.entLt od hod _ hmem
  have hrroot := h.g.entRoot od hod _ hmem
  have h1 : wp (removeEntry od oldNm false) (fun res s' => RemPost s s' od ∧ (res = .ok () →
      s'.heap = (s.detached od (s.normEntry (s.heap od).entries oldNm) r).heap)) s := by
    refine ⟨removeEntry_post h hod _ _, fun hres => ?_⟩
    obtain ⟨e, he, heq⟩ := removeEntry_flat (s := s) (d := od) oldNm hres
    rw [hr] at he; injection he with he; subst he
    exact heq
  apply wp_seq _ h1
  · intro e s1 hs1; exact hs1.1.good
  intro _ s1 hs1
  obtain ⟨hp1, hheap⟩ := hs1
  have hheap := hheap rfl
  have hsh := hp1.shrink
  have hnext : s1.next = s.next := hsh.next
  have hno : (s1.heap r).isDir = true → ∀ x < s1.next, ∀ e ∈ (s1.heap x).entries, e.2 ≠ r := by
    intro hd x hx e he her
    rw [hnext] at hx
    rw [hsh.kind] at hd
    have he0 := (hsh.entries x).subset he
    subst her
    obtain ⟨hx1, hx2⟩ := h.g.dirEnt x hx e he0 hd
    obtain ⟨ho1, ho2⟩ := h.g.dirEnt od hod _ hmem hd
    rw [ho1] at hx1; injection hx1 with hx1
    subst hx1
    rw [hheap, detached_heap] at he
    simp [Obj.entries] at he
    have := (mem_aerase.mp he).2
    rw [ho2] at hx2
    exact this hx2.symm
  have hg2 := good_setName hp1.good.inv r newNm hrroot hno
  apply wp_modifyBind
  apply wp_getBind
  dsimp only
  -- the state with the new name
  generalize hs2 : (s1.setObj r fun o => { o with name := newNm }) = s2 at hg2 ⊢
  have hg02 : Good s s2 := Good.trans hp1.good.ext hg2
  have hname2 : (s2.heap r).name = newNm := by
    rw [← hs2]; show (upd s1.heap r _ r).name = _; rw [upd_same]
  have hent2 : ∀ x, (s2.heap x).entries = (s1.heap x).entries := by
    intro x; rw [← hs2]; show (upd s1.heap r _ x).entries = _
    rw [upd_apply]; split
    · rename_i e; rw [e]; rfl
    · rfl
  have hpar2 : ∀ x, (s2.heap x).parent = (s.heap x).parent := by
    intro x; rw [← hsh.parent x, ← hs2]; show (upd s1.heap r _ x).parent = _
    rw [upd_apply]; split
    · rename_i e; rw [e]
    · rfl
  have hkind2 : ∀ x, (s2.heap x).isDir = (s1.heap x).isDir := by
    intro x; rw [← hs2]; show (upd s1.heap r _ x).isDir = _
    rw [upd_apply]; split
    · rename_i e; rw [e]; rfl
    · rfl
  have hnext2 : s2.next = s.next := by rw [← hs2]; exact hnext
  have hcfg2 : s2.cfg = s.cfg := hg02.ext.cfg
  have pre : ∀ s3, Inv s3 → Shrink s2 s3 → AddPre s3 nd r := by
    intro s3 h3 hs3
    refine ⟨by rw [hs3.next, hnext2]; exact hnd, by rw [hs3.next, hnext2]; exact hrlt, hrroot, ?_, ?_, ?_⟩
    · intro hd
      rw [hs3.kind, hkind2] at hd
      apply noRef_of_shrink hs3
      intro x hx e he
      rw [hent2] at he
      exact hno hd x (by rw [hnext]; rw [hnext2] at hx; exact hx) e he
    · intro hd cs ha
      rw [hs3.cfg, hcfg2] at cs
      exact hanc r hr hdir cs (ha.congr fun x => by rw [← hpar2, ← hs3.parent])
    · intro p m
      rw [hs3.cfg, hcfg2] at p m ⊢
      rw [hs3.name, hname2]; exact hnm p m
  apply wp_ite
  · intro _
    apply wp_seq _ (removeEntry_post hg02.inv (hnext2 ▸ hnd) _ _)
    · intro e s3 h3; exact Good.trans hg02.ext h3.good
    · intro _ s3 h3
      apply wp_end (Good.trans hg02.ext h3.good)
      exact addEntry_good h3.good.inv (pre s3 h3.good.inv h3.shrink)
  · intro _
    apply wp_end hg02
    exact addEntry_good hg02.inv (pre s2 hg02.inv (Shrink.refl _))

/-! ## What is moved -/

/-- every directory found by a lookup is below the root directory -/
theorem Closed.anc {s : FS} (h : Inv s) : Closed s fun r => r < s.next ∧ ((s.heap r).isDir = true → Anc s.heap rootRef r) := by
  refine ⟨⟨root_lt h, fun _ => .refl⟩, ⟨devNull_lt h, fun hd => by rw [h.n.devFile] at hd; simp at hd⟩, ?_⟩
  intro d ⟨hd, ha⟩ e he
  refine ⟨h.g.entLt d hd e he, fun hk => ?_⟩
  have hdir : (s.heap d).isDir = true := by
    unfold Obj.isDir; unfold Obj.entries at he
    split at he <;> simp_all
  exact .up (h.g.dirEnt d hd e he hk).1 (ha hdir)

theorem lresolve_root (s : FS) (k : FS.Rec) : s.lresolveG k s.cfg.root = .ok rootRef := by
  unfold FS.lresolveG; simp [Cfg.root]

theorem stripTrailing_canon {k : Cfg} (hp : k.Posix) {p : Str} (h : AbsCanon k.sep p) : k.stripTrailing p = p := by
  unfold Cfg.stripTrailing
  cases p.length with
  | zero => rfl
  | succ n => simp [Cfg.stripLoop, absCanon_not_endsWithSep hp h]

theorem absPath_ne_nil {c : Char} {l : List Str} : absPath c l ≠ [] := by simp [absPath]
theorem absPath_ne_dot {k : Cfg} (hp : k.Posix) {l : List Str} : absPath k.sep l ≠ dot := by
  intro e
  exact dot_not_abs hp (e ▸ ⟨_, rfl⟩)
theorem absPath_snoc_ne_root {k : Cfg} {l : List Str} {w : Str} (hn : ∀ x ∈ l, Proper k.sep x) (hw : Proper k.sep w) :
    absPath k.sep (l ++ [w]) ≠ k.root := by
  intro e
  have := (absPath_eq_root (k := k) (l := l ++ [w]) (by
    intro x hx
    rcases List.mem_append.mp hx with hx | hx
    · exact proper_compOk (hn x hx)
    · simp at hx; subst hx; exact proper_compOk hw)).mp e
  simp at this

/-- `lresolve` of an absolute path is an entry of the directory found for its parent. -/
theorem lresolve_tree {s : FS} (h : s.cfg.Tree) (k : FS.Rec) {names : List Str} {w : Str}
    (hn : ∀ x ∈ names, Proper s.cfg.sep x) (hw : Proper s.cfg.sep w) {x : Ref} :
    s.lresolveG k (absPath s.cfg.sep (names ++ [w])) = .ok x ↔
    ∃ r, s.resolveG k (absPath s.cfg.sep names) true = .ok r ∧ (s.heap r).isDir = true ∧
      (s.heap r).mode &&& PERM_READ ≠ 0 ∧ alookup w (s.heap r).entries = some x := by
  have hcan : AbsCanon s.cfg.sep (absPath s.cfg.sep (names ++ [w])) := ⟨_, by
    intro x hx
    rcases List.mem_append.mp hx with hx | hx
    · exact hn x hx
    · simp at hx; subst hx; exact hw, rfl⟩
  unfold FS.lresolveG
  rw [if_neg absPath_ne_nil, if_neg (absPath_snoc_ne_root hn hw)]
  have hl : s.lparent (absPath s.cfg.sep (names ++ [w])) = (absPath s.cfg.sep names, w) := by
    unfold FS.lparent
    simp only [stripTrailing_canon h.posix hcan, absPath_ne_dot h.posix, if_false, originalPath_tree h.cs,
      splitpath_absPath h.posix hn hw, absPath_ne_nil]
  rw [hl]
  cases hr : s.resolveG k (absPath s.cfg.sep names) true with
  | error e => simp [bind, Except.bind]
  | ok r =>
    simp only [bind, Except.bind, Except.ok.injEq, exists_eq_left']
    unfold FS.lentry
    cases hc : (s.heap r).content with
    | file b => simp [Obj.isDir, hc]
    | dir es =>
      simp only [Obj.isDir, hc, mem_entries hc, getEntry_tree h.cs, hw.1, if_false]
      by_cases hm : (s.heap r).mode &&& PERM_READ = 0
      · simp [hm]
      · simp only [hm, if_false]
        cases alookup w es with
        | none => simp
        | some v => simpa using fun _ => hm

theorem renameTail_good {s : FS} (h : Inv s) {old new : Str} {oldO : Ref}
    (hO : s.cfg.Tree → ∀ od r, s.resolve (s.cfg.splitpath old).1 = .ok od → (s.heap od).isDir = true →
      s.getEntry (s.heap od).entries (s.cfg.splitpath old).2 = .ok r → r = oldO ∨ oldO = rootRef)
    (hnm : s.cfg.Posix → s.cfg.isMac = false → Proper s.cfg.sep (s.cfg.splitpath new).2) :
    wp (renameTail old new oldO) (fun _ s' => Good s s') s := by
  unfold renameTail
  apply wp_getBind
  apply wp_ite
  · intro _; exact Good.refl h
  intro _
  apply wp_rd (Good.refl h)
  intro _ _
  apply wp_ite
  · intro _; exact Good.refl h
  intro _
  apply wp_rd (Good.refl h)
  intro od hod
  apply wp_rd (Good.refl h)
  intro nd hnd
  apply wp_ite
  · intro _; exact Good.refl h
  intro _
  apply wp_ite
  · intro _; exact Good.refl h
  intro _
  apply wp_ite
  · intro _; exact Good.refl h
  intro hndir
  apply wp_ite
  · intro _; exact Good.refl h
  intro hpar
  have hlt := resolve_lt h hnd
  apply renameCommit_good h (resolve_lt h hod) hlt _ hnm
  intro r hr hdir cs ha
  have hndir : (s.heap nd).isDir = true := by simpa using hndir
  rcases hO cs od r hod hdir hr with rfl | rfl
  · exact hpar (hasParent_of_anc h cs hlt ha)
  · exact hpar (hasParent_of_anc h cs hlt (((Closed.anc h).resolve hnd).2 hndir))

/-- the name and the entry of the old path -/
theorem old_entry {s0 s : FS} (h0 : Inv s0) (h : Inv s) (hs : Shrink s0 s) (cs : s0.cfg.Tree) {p : Str} {oldO : Ref}
    (hl : s0.lresolve (s0.absnorm p) = .ok oldO) (od r : Ref) (hod : s.resolve (s.cfg.splitpath (s0.absnorm p)).1 = .ok od)
    (hdir : (s.heap od).isDir = true)
    (hr : s.getEntry (s.heap od).entries (s.cfg.splitpath (s0.absnorm p)).2 = .ok r) : r = oldO ∨ oldO = rootRef := by
  have cs' : s.cfg.Tree := by rw [hs.cfg]; exact cs
  rcases absCanon_cases (h0.absnorm cs.posix p) with e | ⟨names, w, hn, hw, e⟩
  · right
    rw [e, absPath_nil] at hl
    unfold FS.lresolve at hl
    rw [lresolve_root] at hl
    injection hl with hl; exact hl.symm
  · left
    rw [e, hs.cfg, splitpath_absPath cs.posix hn hw] at hod hr
    rw [e] at hl
    obtain ⟨r0, h1, h2, h3, h4⟩ := (lresolve_tree cs s0.rc hn hw).mp hl
    have hne : od ≠ devNullRef := fun e => by rw [e, h.n.devFile] at hdir; simp at hdir
    have hod0 := hs.resolve h0 h cs hod hne
    have : s0.resolveG s0.rc (absPath s0.cfg.sep names) true = .ok od := hod0
    rw [h1] at this; injection this with this; subst this
    rw [getEntry_tree cs'.cs] at hr
    cases ha : alookup w (s.heap r0).entries with
    | none => simp [ha] at hr
    | some y =>
      simp [ha] at hr; subst hr
      have := alookup_sublist (hs.entries r0) (h0.g.keys r0 (resolve_lt h0 hod0)) ha
      rw [h4] at this; injection this with this; exact this.symm

/-! ## The new name -/

theorem origComps_proper {s : FS} (h : Inv s) (hp : s.cfg.Posix) (hm : s.cfg.isMac = false) :
    ∀ l r, r < s.next → (∀ w ∈ l, Proper s.cfg.sep w) →
      (∀ w ∈ s.origComps r l, Proper s.cfg.sep w) ∧ (s.origComps r l).length = l.length := by
  intro l
  induction l with
  | nil => intro r _ _; simp [FS.origComps]
  | cons c l ih =>
    intro r hr hl
    unfold FS.origComps
    split
    · exact ⟨hl, rfl⟩
    · rename_i nm r' hc
      obtain ⟨h1, h2⟩ := ih r' (dirContent_lt h hr hc) (fun w hw => hl w (by simp [hw]))
      have hnm := h.n.names hp hm r hr _ (dirContent_mem hc).1
      refine ⟨?_, by simp [h2]⟩
      intro w hw
      rcases List.mem_cons.mp hw with rfl | hw
      · exact hnm
      · exact h1 w hw

theorem originalPath_proper {s : FS} (h : Inv s) (hp : s.cfg.Posix) (hm : s.cfg.isMac = false) {names : List Str}
    (hn : ∀ x ∈ names, Proper s.cfg.sep x) :
    ∃ names', (∀ x ∈ names', Proper s.cfg.sep x) ∧ names'.length = names.length ∧
      s.originalPath (absPath s.cfg.sep names) = absPath s.cfg.sep names' := by
  unfold FS.originalPath
  split
  · exact ⟨names, hn, rfl, rfl⟩
  · rw [components_of_absPath hp hn]
    obtain ⟨h1, h2⟩ := origComps_proper h hp hm names rootRef (root_lt h) hn
    refine ⟨_, h1, h2, ?_⟩
    have : ¬ isAbs s.cfg.sep (join s.cfg.sep (s.origComps rootRef names)) := isAbs_join_names h1
    simp only [Cfg.startsWithSep, hp.altsep, startsWithC_eq, this, decide_false, Bool.or_false, Bool.not_false,
      Bool.and_true]
    rw [if_pos (by simp [absPath])]
    rfl

theorem originalPath_root {s : FS} (hp : s.cfg.Posix) : s.originalPath s.cfg.root = s.cfg.root := by
  unfold FS.originalPath
  split
  · rfl
  · simp [Cfg.pathComponents, Cfg.root, FS.origComps, join, Cfg.startsWithSep, startsWithC, hp.altsep]

/-- renaming onto the root directory does not get as far as moving anything -/
theorem rename_root_err {s : FS} (h : Inv s) (hp : s.cfg.Posix) (hm : s.cfg.isMac = false) {names : List Str} {w : Str}
    (hn : ∀ x ∈ names, Proper s.cfg.sep x) (hw : Proper s.cfg.sep w) {oldO : Ref}
    (hl : s.lresolve (absPath s.cfg.sep (names ++ [w])) = .ok oldO) :
    oldO ≠ rootRef ∧ (s.heap rootRef).hasContents = true := by
  have hall : ∀ x ∈ names ++ [w], Proper s.cfg.sep x := by
    intro x hx
    rcases List.mem_append.mp hx with hx | hx
    · exact hn x hx
    · simp at hx; subst hx; exact hw
  have hcan : AbsCanon s.cfg.sep (absPath s.cfg.sep (names ++ [w])) := ⟨_, hall, rfl⟩
  obtain ⟨names', hn', hlen, ho⟩ := originalPath_proper h hp hm hall
  obtain ⟨L, y, e⟩ : ∃ L y, names' = L ++ [y] := by
    rcases List.eq_nil_or_concat names' with e | ⟨L, y, e⟩
    · rw [e] at hlen; simp at hlen
    · exact ⟨L, y, by rw [e, List.concat_eq_append]⟩
  subst e
  have hL : ∀ x ∈ L, Proper s.cfg.sep x := fun x hx => hn' x (by simp [hx])
  have hlp : s.lparent (absPath s.cfg.sep (names ++ [w])) = (absPath s.cfg.sep L, y) := by
    unfold FS.lparent
    simp only [stripTrailing_canon hp hcan, absPath_ne_dot hp, if_false, ho,
      splitpath_absPath hp hL (hn' y (by simp)), absPath_ne_nil]
  have hy := hn' y (by simp)
  unfold FS.lresolve FS.lresolveG at hl
  rw [if_neg absPath_ne_nil, if_neg (absPath_snoc_ne_root hn hw), hlp] at hl
  obtain ⟨r, h1, h2⟩ := except_bind_ok hl
  have hent : ∃ nm, (nm, oldO) ∈ (s.heap r).entries := by
    unfold FS.lentry at h2
    split at h2
    · simp at h2
    · rename_i es hes
      split at h2
      · simp at h2
      · rw [if_neg hy.1] at h2
        split at h2
        · rename_i x hx
          injection h2 with h2; subst h2
          exact ⟨_, by rw [mem_entries hes]; exact getEntry_mem hx⟩
        · simp at h2
  obtain ⟨nm, hent⟩ := hent
  have hr : s.resolve (absPath s.cfg.sep L) = .ok r := h1
  refine ⟨h.g.entRoot r (resolve_lt h hr) _ hent, ?_⟩
  cases hc : (s.heap rootRef).hasContents with
  | true => rfl
  | false =>
    exfalso
    have hroot : (s.heap rootRef).entries = [] := by
      unfold Obj.hasContents at hc
      unfold Obj.entries
      split <;> simp_all
    have hdev : (s.heap devNullRef).entries = [] := by
      have := h.n.devFile
      unfold Obj.isDir at this; unfold Obj.entries
      split <;> simp_all
    have cl : Closed s fun x => x = rootRef ∨ x = devNullRef := by
      refine ⟨Or.inl rfl, Or.inr rfl, ?_⟩
      rintro d (rfl | rfl) e he
      · rw [hroot] at he; simp at he
      · rw [hdev] at he; simp at he
    rcases cl.resolve hr with e | e
    · rw [e, hroot] at hent; simp at hent
    · rw [e, hdev] at hent; simp at hent

theorem splitpath_join_name {k : Cfg} (h : k.Posix) {a nm : Str} (hn : Proper k.sep nm) :
    (k.splitpath (k.joinpaths [a, nm])).2 = nm := by
  have hlast : ∀ l : Str, split k.sep (l ++ k.sep :: nm) = split k.sep l ++ [nm] := by
    intro l; rw [split_append_sep, split_no_sep hn.2.2.2]
  have key : ∀ q : Str, (split k.sep q).getLastD [] = nm → (k.splitpath q).2 = nm := by
    intro q hq
    unfold Cfg.splitpath
    simp only [h.normcase, h.drive, Bool.false_eq_true, if_false, false_and]
    split
    · exact hq
    · split
      · exact hq
      · exact hq
  apply key
  have hna : ¬ isAbs k.sep nm := by
    rintro ⟨q, rfl⟩; exact hn.2.2.2 (by simp)
  rw [join_two h, if_neg hna]
  split
  · rename_i hh
    rcases hh with rfl | ⟨r, rfl⟩
    · simp [split_no_sep hn.2.2.2]
    · have : r ++ [k.sep] ++ nm = r ++ k.sep :: nm := by simp
      rw [this, hlast]; simp
  · rw [hlast]; simp

theorem renameToExisting_good {s : FS} (h : Inv s) {force : Bool} {new old : Str} {oldO : Ref} {endsSep : Bool}
    (hnew : ∃ p, new = s.absnorm p) (hold : ∃ p, old = s.absnorm p) (hl : s.lresolve old = .ok oldO) :
    wp (renameToExisting force new old oldO endsSep) (fun r s' => Good s s' ∧ Shrink s s' ∧ ∀ new', r = .ok (some new') →
      s.cfg.Posix → s.cfg.isMac = false → Proper s.cfg.sep (s.cfg.splitpath new').2) s := by
  have hcan : s.cfg.Posix → AbsCanon s.cfg.sep new := fun hp => by obtain ⟨p, rfl⟩ := hnew; exact h.absnorm hp p
  have hcano : s.cfg.Posix → AbsCanon s.cfg.sep old := fun hp => by obtain ⟨p, rfl⟩ := hold; exact h.absnorm hp p
  have herr : ∀ e : Err, ∀ s', Good s s' → Shrink s s' → Good s s' ∧ Shrink s s' ∧ ∀ new', (Except.error e : Except Err (Option Str)) = .ok (some new') →
      s.cfg.Posix → s.cfg.isMac = false → Proper s.cfg.sep (s.cfg.splitpath new').2 :=
    fun e s' h1 h2 => ⟨h1, h2, fun _ e => by simp at e⟩
  have hnone : ∀ s', Good s s' → Shrink s s' → Good s s' ∧ Shrink s s' ∧ ∀ new', (Except.ok none : Except Err (Option Str)) = .ok (some new') →
      s.cfg.Posix → s.cfg.isMac = false → Proper s.cfg.sep (s.cfg.splitpath new').2 :=
    fun s' h1 h2 => ⟨h1, h2, fun _ e => by simp at e⟩
  have r1 := Good.refl h
  have r2 := Shrink.refl s
  unfold renameToExisting
  apply wp_readBind
  · intro e _; exact herr e s r1 r2
  intro newO hnewO
  apply wp_getBind
  -- proper unless the root directory
  have hprop : s.cfg.Posix → Proper s.cfg.sep (s.cfg.splitpath new).2 ∨ (new = s.cfg.root ∧ newO = rootRef) := by
    intro hp
    rcases absCanon_cases (hcan hp) with e | ⟨names, w, hn, hw, e⟩
    · right
      rw [absPath_nil] at e
      refine ⟨e, ?_⟩
      have hc : isAbs s.cfg.sep s.cwd := (h.n.cwd hp)
      rw [e] at hnewO
      unfold FS.getObject at hnewO
      rw [originalPath_root hp, absnorm_root hp hc] at hnewO
      simp [FS.getObjNormG] at hnewO; exact hnewO.symm
    · left; rw [e, splitpath_absPath hp hn hw]; exact hw
  apply wp_ite
  · intro _
    apply wp_ite
    · intro _; exact herr _ s r1 r2
    · intro _; exact hnone s r1 r2
  intro hne
  have hroot : s.cfg.Posix → s.cfg.isMac = false → newO = rootRef → new = s.cfg.root →
      oldO ≠ rootRef ∧ (s.heap rootRef).hasContents = true := by
    intro hp hm _ hnr
    rcases absCanon_cases (hcano hp) with e | ⟨names, w, hn, hw, e⟩
    · rw [absPath_nil] at e; exact absurd (e.trans hnr.symm) hne
    · rw [e] at hl; exact rename_root_err h hp hm hn hw hl
  apply wp_ite
  · intro heq
    apply wp_read
    refine ⟨r1, r2, fun new' hnew' hp hm => ?_⟩
    rcases hprop hp with hpr | ⟨e1, e2⟩
    · unfold FS.renameSame at hnew'
      dsimp only at hnew'
      split at hnew'
      · injection hnew' with hnew'; injection hnew' with hnew'; subst hnew'; exact hpr
      · split at hnew'
        · rename_i r hr
          injection hnew' with hnew'; subst hnew'
          obtain ⟨_, _, hr⟩ := except_bind_ok hr
          obtain ⟨_, _, hr⟩ := except_bind_ok hr
          have fin : ∀ b : Bool, (if b = true then
              (Except.ok (some (s.cfg.joinpaths [s.originalPath (s.cfg.splitpath new).1, (s.cfg.splitpath new).2])) :
                Except Err (Option Str)) else Except.ok none) = .ok (some new') →
              Proper s.cfg.sep (s.cfg.splitpath new').2 := by
            intro b hr
            split at hr
            · injection hr with hr; injection hr with hr; subst hr
              rw [splitpath_join_name hp hpr]; exact hpr
            · simp at hr
          split at hr
          · obtain ⟨o, _, hr⟩ := except_bind_ok hr
            obtain ⟨b, _, hr⟩ := except_bind_ok hr
            exact fin b hr
          · obtain ⟨b, _, hr⟩ := except_bind_ok hr
            exact fin b hr
        · split at hnew' <;> simp at hnew'
    · exact absurd (heq.trans e2) (hroot hp hm e2 e1).1
  intro hneq
  apply wp_ite
  · intro hdl
    apply wp_readBind
    · intro e _; exact herr e s r1 r2
    · intro _ hrd
      apply wp_pure
      refine ⟨r1, r2, fun new' hnew' hp hm => ?_⟩
      injection hnew' with hnew'; injection hnew' with hnew'; subst hnew'
      rcases hprop hp with hpr | ⟨e1, e2⟩
      · exact hpr
      · exfalso
        have hc := (hroot hp hm e2 e1).2
        subst e2
        unfold FS.renameDirLinkErr at hrd
        simp [hp.win, root_not_lnk h, hc, hm] at hrd
  intro hndl
  apply wp_ite
  · intro _; exact herr _ s r1 r2
  intro _
  apply wp_ite
  · intro _; exact herr _ s r1 r2
  intro _
  apply wp_seq _ (removeObject_shrink new h)
  · intro e s1 h1; exact herr e s1 h1.1 h1.2
  · intro _ s1 h1
    apply wp_pure
    refine ⟨h1.1, h1.2, fun new' hnew' hp hm => ?_⟩
    injection hnew' with hnew'; injection hnew' with hnew'; subst hnew'
    rcases hprop hp with hpr | ⟨e1, e2⟩
    · exact hpr
    · exfalso
      subst e2
      apply hndl
      simp [Obj.isDirMode, h.n.rootMode]

theorem rename_pres (old new : Str) (force : Bool) : Pres (rename old new force) := by
  intro s h
  unfold rename
  apply wp_getBind
  dsimp only
  apply wp_rd (Good.refl h)
  intro _ _
  apply wp_ite
  · intro _; exact Good.refl h
  intro _
  have tail : wp (do
      let oldO ← rd (·.lresolve (s.absnorm old))
      if !s.cfg.isWin then rd (·.posixDirLinkErrors (s.absnorm new) (s.absnorm old) (s.cfg.endsWithSep old))
      if ← rd (·.existsL (s.absnorm new)) then
        match ← renameToExisting force (s.absnorm new) (s.absnorm old) oldO (s.cfg.endsWithSep old) with
        | none => M.pure ()
        | some new => renameTail (s.absnorm old) new oldO
      else renameTail (s.absnorm old) (s.absnorm new) oldO) (fun _ s' => Good s s') s := by
    apply wp_rd (Good.refl h)
    intro oldO hl
    have tail2 : wp (do
        if ← rd (·.existsL (s.absnorm new)) then
          match ← renameToExisting force (s.absnorm new) (s.absnorm old) oldO (s.cfg.endsWithSep old) with
          | none => M.pure ()
          | some new => renameTail (s.absnorm old) new oldO
        else renameTail (s.absnorm old) (s.absnorm new) oldO) (fun _ s' => Good s s') s := by
      apply wp_rd (Good.refl h)
      intro b hb
      apply wp_ite
      · intro _
        apply wp_seq _ (renameToExisting_good h ⟨new, rfl⟩ ⟨old, rfl⟩ hl)
        · intro e s1 h1; exact h1.1
        · intro r s1 h1
          obtain ⟨hg, hsh, hnm⟩ := h1
          cases r with
          | none => exact hg
          | some new' =>
            apply wp_end hg
            apply renameTail_good hg.inv
            · intro cs od r hod hdir hr
              rw [hsh.cfg] at cs
              exact old_entry h hg.inv hsh cs hl od r hod hdir hr
            · intro p m
              rw [hsh.cfg] at p m ⊢
              exact hnm new' rfl p m
      · intro hbf
        apply renameTail_good h
        · intro cs od r hod hdir hr
          exact old_entry h h (Shrink.refl s) cs hl od r hod hdir hr
        · intro p _
          exact splitName_ok h hb hbf p
    apply wp_ite
    · intro _
      apply wp_rd (Good.refl h)
      intro _ _; exact tail2
    · intro _; exact tail2
  apply wp_ite
  · intro _
    apply wp_rd (Good.refl h)
    intro _ _; exact tail
  · intro _; exact tail

end Verif
