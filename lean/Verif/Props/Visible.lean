import Verif.Track
/-!
# C32: what other file objects of the same file see
-/

namespace Verif
open Py Spec Cfg

namespace Spec
/-- the bytes a `read(n)` at the position `pos` of a file with the bytes `D` has to return -/
def readAt (D : Bytes) (pos : Nat) : Option Nat → Bytes
  | none => D.drop pos
  | some n => (D.drop pos).take n
end Spec

theorem bioRead_readAt (D : Bytes) (pos : Nat) (n : Option Nat) : Bio.read D pos n = readAt D pos n := by
  cases n <;> rfl

/-- The handle `h`, opened without append mode, will read the bytes `D` of its file. -/
structure Sees (s : FS) (h : Nat) (D : Bytes) : Prop where
  append : (s.handles h).append = false
  notNull : (s.handles h).obj ≠ devNullRef
  bytes : bytesOf s (s.handles h).obj = some D
  clean : (s.handles h).fileEpoch = (s.heap (s.handles h).obj).epoch → (s.handles h).buf = D

/-- Reading returns the bytes of the file from the position of the handle on. -/
theorem okp_readSees {s : FS} {h : Nat} {D : Bytes} (k : Sees s h D) (hrd : (s.handles h).read = true) (n : Option Nat) :
    Okp (read h n) (fun b s' => b = readAt D (s.handles h).pos n ∧ (s'.handles h).pos = (s.handles h).pos + b.length) s := by
  have hC := bytesOf_some.mp k.bytes
  unfold read
  apply okp_get
  dsimp only
  rw [if_neg (by unfold FS.isLarge; rw [hC]; simp)]
  apply okp_checkOpen
  intro hop
  rw [if_neg (by rw [hrd]; simp)]
  have hs : ∃ s1, syncIo h s = (.ok (), s1) ∧ s1.heap = s.heap ∧ s1.openFiles = s.openFiles ∧ (s1.handles h).buf = D ∧
      (s1.handles h).pos = (s.handles h).pos ∧ (s1.handles h).append = false ∧ (s1.handles h).obj = (s.handles h).obj ∧
      (s1.handles h).update = (s.handles h).update ∧ (s1.handles h).fd = (s.handles h).fd := by
    refine ⟨_, syncIo_eq rfl k.notNull hC, rfl, rfl, ?_⟩
    rw [setH_same]
    unfold Handle.synced
    split
    · rename_i e
      exact ⟨k.clean e, rfl, k.append, rfl, rfl, rfl⟩
    · exact ⟨rfl, by dsimp only; rw [k.append]; rfl, k.append, rfl, rfl, rfl⟩
  obtain ⟨s1, e1, q1, q2, q3, q4, q5, q6, q7, q8⟩ := hs
  apply okp_eqBind e1
  have hop1 : s1.isOpen h = true := by unfold FS.isOpen at hop ⊢; rw [q2, q8]; exact hop
  have hfl : Okp (flush h) (fun _ s2 => (s2.handles h).buf = D ∧ (s2.handles h).pos = (s.handles h).pos ∧ (s2.handles h).append = false) s1 := by
    by_cases hu : (s1.handles h).update = true
    · refine okp_wp (wp_mono (flush_spec hop1 hu q5 (by rw [q6]; exact k.notNull) rfl (by rw [q6, q1]; exact hC)) ?_)
      rintro r s2 (⟨e, _⟩ | ⟨_, f, e⟩) _ ha
      · rw [e] at ha; cases ha
      · rw [e]; exact ⟨q3, q4, q5⟩
    · rw [Bool.not_eq_true] at hu
      constructor
      intro _ s2 e
      rw [flush_readonly hop1 hu] at e
      injection e with _ e; subst e
      exact ⟨q3, q4, q5⟩
  apply okp_seq _ hfl
  rintro _ s2 ⟨b1, b2, b3⟩
  have fin : ∀ s3 : FS, s3.handles h = s2.handles h → Okp (do
      let H ← hget h
      if H.append then
        match Bio.seek H.buf H.pos H.readSeek H.readWhence with
        | none => M.throw .valueError
        | some p => do
          let r := Bio.read H.buf p n
          hmod h fun H => { H with readSeek := (p + r.length : Nat), readWhence := 0, pos := H.buf.length }
          M.pure r
      else do
        let r := Bio.read H.buf H.pos n
        hmod h fun H => { H with pos := H.pos + r.length }
        M.pure r)
      (fun b s' => b = readAt D (s.handles h).pos n ∧ (s'.handles h).pos = (s.handles h).pos + b.length) s3 := by
    intro s3 e3
    apply okp_hget
    rw [e3, if_neg (by rw [b3]; simp)]
    dsimp only
    apply okp_hmodBind
    apply okp_pure
    rw [b1, b2, bioRead_readAt]
    refine ⟨rfl, ?_⟩
    rw [setH_same, e3, b2]
  apply okp_ite
  · intro _
    apply okp_modifyBind
    exact fin _ rfl
  · intro _
    exact fin _ rfl

/-- a handle that never writes stays clean -/
theorem clean_step {s : FS} {h : Nat} (hs : InStep s) (hl : h < s.hnext) (hu : (s.handles h).update = false) (hd : (s.handles h).deleteOnClose = false)
    (ha : (s.handles h).append = false) (hn : (s.handles h).obj ≠ devNullRef) (hc : Clean h s) (o : Op) : Clean h (o.next s) := by
  by_cases hca : CallOn h s o
  · have fl := flags_step o s
    have := (callOn_keptH hca hu hd).clean (fun _ e b hb => hc e b (bytesOf_some.mpr hb))
    intro e b hb
    exact this (by rw [fl.obj h hl]; exact hn) e b (bytesOf_some.mp hb)
  · exact ((obs_step hca).keep hl ha hn (hs h hl)).2.2 hc

theorem clean_runs {h : Nat} (ops : List Op) : ∀ {s : FS}, Reachable s → h < s.hnext → (s.handles h).update = false → (s.handles h).deleteOnClose = false →
    (s.handles h).append = false → (s.handles h).obj ≠ devNullRef → Clean h s → Clean h (runs ops s) := by
  induction ops with
  | nil => intro s _ _ _ _ _ _ hc; exact hc
  | cons o ops ih =>
    intro s hr hl hu hd ha hn hc
    have fl := flags_step o s
    exact ih (reachable_runs hr [o]) (Nat.lt_of_lt_of_le hl fl.hnext) (by rw [fl.update h hl]; exact hu) (by rw [fl.del h hl]; exact hd)
      (by rw [fl.append h hl]; exact ha) (by rw [fl.obj h hl]; exact hn) (clean_step (reachable_inStep hr) hl hu hd ha hn hc o)

/-- **C32** (readers). A file object opened for reading only always reads the bytes the file has at that moment: whatever
calls were made since it was opened (`ops`: through it, through other file objects and descriptors, or by path), a
successful `read` returns the bytes of the file from the position reported by `tell` on, and moves the position. -/
theorem reader_current {s : FS} (hr : Reachable s) {p : Str} {md : OpenModes} {bf : Option Nat} {raw : Bool} {h : Nat} {s1 : FS}
    (ho : openPath p md bf raw false s = (.ok h, s1)) (hw : md.canWrite = false) (ha : md.append = false) (hrd : md.canRead = true)
    (hn : (s1.handles h).obj ≠ devNullRef) (ops : List Op) {n : Option Nat} {b D : Bytes} {s3 : FS}
    (hread : read h n (runs ops s1) = (.ok b, s3)) (hD : bytesOf (runs ops s1) (s1.handles h).obj = some D) :
    ∃ pos : Nat, (tell h (runs ops s1)).1 = .ok (pos : Int) ∧ b = readAt D pos n ∧ (tell h s3).1 = .ok ((pos + b.length : Nat) : Int) := by
  have hr1 : Reachable s1 := by
    have := reachable_runs hr [.openPath p md bf raw false]
    have e : runs [.openPath p md bf raw false] s = s1 := by
      show ((openPath p md bf raw false).void s).2 = s1
      unfold M.void; rw [M.bind_eq, ho]; rfl
    rwa [e] at this
  obtain ⟨g1, g2, g3, g4, g5, g6⟩ := open_rights hr ho
  obtain ⟨s0, r, fd, hh, hheap, _, _, _⟩ := openPath_ok hr ho
  have hobj : (s1.handles h).obj = r := by rw [hh]; rfl
  have hc1 : Clean h s1 := by
    intro _ x hx
    have hx' : bytesOf s0 r = some x := by rw [hobj] at hx; unfold bytesOf at hx ⊢; rw [← hheap]; exact hx
    rw [hh]
    show (s0.byteContents r).getD [] = x
    rw [byteContents_bytesOf (by rw [← hobj]; exact hn), hx']; rfl
  have fl := flags_runs ops s1
  have hc := clean_runs ops hr1 g1 (by rw [g4, hw]) g6 (by rw [g5, ha]) hn hc1
  have hob := fl.obj h g1
  have hsee : Sees (runs ops s1) h D := ⟨by rw [fl.append h g1, g5, ha], by rw [hob]; exact hn, by rw [hob]; exact hD, fun e => hc e D (by rw [hob]; exact hD)⟩
  have hu : ((runs ops s1).handles h).update = false := by rw [fl.update h g1, g4, hw]
  have hap := hsee.append
  obtain ⟨e1, e2⟩ := (okp_readSees hsee (by rw [fl.read h g1, g3, hrd]) n).elim b s3 hread
  have hop : (runs ops s1).isOpen h = true := by
    by_contra hx
    have hC := bytesOf_some.mp hsee.bytes
    unfold read at hread
    rw [M.bind_eq] at hread
    dsimp only [M.get] at hread
    rw [if_neg (by unfold FS.isLarge; rw [hC]; simp)] at hread
    rw [M.bind_eq] at hread
    unfold checkOpen at hread
    rw [if_neg hx] at hread
    injection hread with hread _; cases hread
  have tl : ∀ t : FS, t.isOpen h = true → (t.handles h).update = false → (t.handles h).append = false → (tell h t).1 = .ok ((t.handles h).pos : Int) := by
    intro t h1 h2 h3
    unfold tell
    rw [M.bind_eq, checkOpen_ok h1]
    dsimp only
    rw [M.bind_eq, flush_readonly h1 h2]
    dsimp only
    rw [M.bind_eq]
    dsimp only [hget]
    rw [if_pos h3]; rfl
  have qr : Quiet (runs ops s1) s3 := by have := fq_read h n (runs ops s1); rw [hread] at this; exact this
  refine ⟨_, tl _ hop hu hap, e1, ?_⟩
  rw [tl s3 ?_ (by rw [qr.update]; exact hu) (by rw [qr.append]; exact hap), e2]
  unfold FS.isOpen at hop ⊢
  rw [qr.openFiles, qr.fd]; exact hop

/-- another handle of the file that was just flushed -/
theorem flushed_sees {s s' : FS} {h g : Nat} {r : Ref} {D : Bytes} (f : Flushed s s' h r D) (hi : FdInv s) (hs : InStep s) (hg : g ≠ h)
    (hop : s.isOpen g = true) (hk : (s.handles g).kind = .file) (ho : (s.handles g).obj = r) (ha : (s.handles g).append = false) (hr : r ≠ devNullRef) :
    Sees s' g D ∧ (s'.handles g).pos = (s.handles g).pos ∧ (s'.handles g).read = (s.handles g).read ∧ (s'.handles g).kind = (s.handles g).kind ∧ (s'.handles g).fd = (s.handles g).fd := by
  obtain ⟨l, hl, hm⟩ := isOpen_iff.mp hop
  have hlt : g < s.hnext := (hi.mem _ _ hl _ hm).1
  have hfd : 3 ≤ (s.handles g).fd := by
    by_contra hx
    have h3 := hi.std (s.handles g).fd (by omega)
    rw [h3.1] at hl
    injection hl with hl; injection hl with hl
    subst hl
    rw [List.mem_singleton] at hm
    rw [← hm, hk] at h3
    exact absurd h3.2 (by simp)
  have hmem : g ∈ s.openHandles := by
    unfold FS.openHandles
    rw [List.mem_flatMap]
    refine ⟨some l, ?_, hm⟩
    rw [List.mem_iff_getElem?]
    refine ⟨(s.handles g).fd - 3, ?_⟩
    rw [List.getElem?_drop, Nat.add_sub_cancel' hfd]; exact hl
  have hw := f.hand g hg
  rw [if_pos ⟨hmem, by unfold Handle.follows; exact ⟨hk, ho, ha⟩⟩] at hw
  have hne : ¬ (s.handles g).fileEpoch = (s'.heap r).epoch := by
    have h1 := (hs g hlt).le
    rw [ho] at h1
    have := f.newer
    omega
  have hw2 : s'.handles g = { s.handles g with buf := D, pos := (s.handles g).pos, fileEpoch := (s'.heap r).epoch } := by
    have hp : (if (s.handles g).append = true then D.length else (s.handles g).pos) = (s.handles g).pos := by rw [ha]; rfl
    rw [hw]; unfold Handle.synced; rw [if_neg hne, hp]
  rw [hw2]
  refine ⟨⟨?_, ?_, ?_, ?_⟩, rfl, rfl, rfl, rfl⟩
  · rw [hw2]; exact ha
  · rw [hw2]; show (s.handles g).obj ≠ _; rw [ho]; exact hr
  · rw [hw2]; show bytesOf s' (s.handles g).obj = _; rw [ho]; exact bytesOf_some.mpr f.content
  · rw [hw2]; intro _; rfl

/-- **C32** (flush). After a successful `flush` through the writable file object `h` every other open file object `g` of the
same file that is not in append mode reads the new bytes `D` of the file from its own position on. -/
theorem flush_visible {s s' : FS} (hr : Reachable s) {h g : Nat} (hf : flush h s = (.ok (), s')) (hu : (s.handles h).update = true)
    (hn : (s.handles h).obj ≠ devNullRef) (hb : bytesOf s (s.handles h).obj ≠ none)
    (hg : g ≠ h) (hop : s.isOpen g = true) (hk : (s.handles g).kind = .file) (ho : (s.handles g).obj = (s.handles h).obj)
    (ha : (s.handles g).append = false) (hrd : (s.handles g).read = true) :
    ∃ D, bytesOf s' (s.handles h).obj = some D ∧
      ∀ n b s'', read g n s' = (.ok b, s'') → b = readAt D (s.handles g).pos n := by
  have hoh : s.isOpen h = true := by
    by_contra hx
    unfold flush at hf
    rw [M.bind_eq] at hf
    unfold checkOpen at hf
    rw [if_neg hx] at hf
    injection hf with hf _; cases hf
  obtain ⟨C, hC⟩ := Option.ne_none_iff_exists'.mp hb
  have key : ∃ D, Flushed s s' h (s.handles h).obj D := by
    by_cases hap : (s.handles h).append = true
    · have := flush_append_spec hoh hu hap hn rfl (bytesOf_some.mp hC)
      unfold wp at this; rw [hf] at this
      rcases this with ⟨e, _⟩ | ⟨_, f, _⟩
      · cases e
      · exact ⟨_, f⟩
    · rw [Bool.not_eq_true] at hap
      have := flush_spec hoh hu hap hn rfl (bytesOf_some.mp hC)
      unfold wp at this; rw [hf] at this
      rcases this with ⟨e, _⟩ | ⟨_, f, _⟩
      · cases e
      · exact ⟨_, f⟩
  obtain ⟨D, f⟩ := key
  refine ⟨D, bytesOf_some.mpr f.content, fun n b s'' hb => ?_⟩
  obtain ⟨k, k1, k2, _⟩ := flushed_sees f (reachable_fdInv hr) (reachable_inStep hr) hg hop hk ho ha hn
  rw [← k1]
  exact ((okp_readSees k (by rw [k2]; exact hrd) n).elim b s'' hb).1

/-- **C32** (close). The same after a successful `close` of `h`. -/
theorem close_visible {s s' : FS} (hr : Reachable s) {h g : Nat} (hf : hClose h s = (.ok (), s')) (hkh : (s.handles h).kind = .file)
    (hu : (s.handles h).update = true) (hraw : (s.handles h).rawIo = false) (hd : (s.handles h).deleteOnClose = false) (hoh : s.isOpen h = true)
    (hn : (s.handles h).obj ≠ devNullRef) (hb : bytesOf s (s.handles h).obj ≠ none)
    (hg : g ≠ h) (hop : s.isOpen g = true) (hk : (s.handles g).kind = .file) (ho : (s.handles g).obj = (s.handles h).obj)
    (ha : (s.handles g).append = false) (hrd : (s.handles g).read = true) :
    ∃ D, bytesOf s' (s.handles h).obj = some D ∧
      ∀ n b s'', read g n s' = (.ok b, s'') → b = readAt D (s.handles g).pos n := by
  obtain ⟨C, hC⟩ := Option.ne_none_iff_exists'.mp hb
  have hfl : ∃ s1 D, flush h s = (.ok (), s1) ∧ Flushed s s1 h (s.handles h).obj D ∧ s'.handles = s1.handles ∧
      ∀ x, bytesOf s' x = bytesOf s1 x ∧ (s'.heap x).epoch = (s1.heap x).epoch := by
    unfold hClose at hf
    rw [M.bind_eq] at hf
    dsimp only [M.get] at hf
    rw [hkh] at hf
    dsimp only at hf
    rw [if_neg (by rw [hoh]; simp), if_pos ⟨hu, hraw⟩, hd] at hf
    rw [M.bind_eq] at hf
    rcases hfl : flush h s with ⟨e | u, s1⟩
    · rw [hfl] at hf; injection hf with hf _; cases hf
    rw [hfl] at hf
    dsimp only at hf
    rw [M.bind_eq] at hf
    dsimp only [M.get] at hf
    have key : ∃ D, Flushed s s1 h (s.handles h).obj D := by
      by_cases hap : (s.handles h).append = true
      · have := flush_append_spec hoh hu hap hn rfl (bytesOf_some.mp hC)
        unfold wp at this; rw [hfl] at this
        rcases this with ⟨e, _⟩ | ⟨_, f, _⟩
        · cases e
        · exact ⟨_, f⟩
      · rw [Bool.not_eq_true] at hap
        have := flush_spec hoh hu hap hn rfl (bytesOf_some.mp hC)
        unfold wp at this; rw [hfl] at this
        rcases this with ⟨e, _⟩ | ⟨_, f, _⟩
        · cases e
        · exact ⟨_, f⟩
    obtain ⟨D, f⟩ := key
    refine ⟨s1, D, rfl, f, ?_⟩
    have fin : ∀ t : FS, ((do
        if (s.handles h).closefd then closeOpenFile (s.handles h).fd
        else M.modify fun s' => { s' with openFiles := s'.openFiles.modify (s.handles h).fd fun e => e.map fun l => l.erase h }
        if false = true then do
          let s' ← M.get
          removeObject (s'.objPath (s.handles h).obj) : M Unit) t).2.heap = t.heap ∧ ((do
        if (s.handles h).closefd then closeOpenFile (s.handles h).fd
        else M.modify fun s' => { s' with openFiles := s'.openFiles.modify (s.handles h).fd fun e => e.map fun l => l.erase h }
        if false = true then do
          let s' ← M.get
          removeObject (s'.objPath (s.handles h).obj) : M Unit) t).2.handles = t.handles := by
      intro t
      dsimp only
      split
      · exact ⟨rfl, rfl⟩
      · exact ⟨rfl, rfl⟩
    by_cases hw : s1.cfg.isWin = true ∧ (s1.handles h).changed = true
    · rw [if_pos hw] at hf
      rw [M.bind_eq] at hf
      dsimp only [M.modify] at hf
      have e := congrArg Prod.snd hf
      dsimp only at e
      obtain ⟨f1, f2⟩ := fin (s1.setObj (s.handles h).obj fun o => { o with mtime := s1.clock })
      subst e
      refine ⟨f2, fun x => ?_⟩
      have hx : ((s1.setObj (s.handles h).obj fun o => { o with mtime := s1.clock }).heap x).content = (s1.heap x).content ∧
          ((s1.setObj (s.handles h).obj fun o => { o with mtime := s1.clock }).heap x).epoch = (s1.heap x).epoch := by
        simp only [FS.setObj, upd_apply]
        split
        · rename_i e; subst e; exact ⟨rfl, rfl⟩
        · exact ⟨rfl, rfl⟩
      refine ⟨?_, ?_⟩
      · refine bytesOf_content ?_
        exact (congrArg (fun hp => (hp x).content) f1).trans hx.1
      · exact (congrArg (fun hp => (hp x).epoch) f1).trans hx.2
    · rw [if_neg hw] at hf
      have e := congrArg Prod.snd hf
      dsimp only at e
      obtain ⟨f1, f2⟩ := fin s1
      subst e
      exact ⟨f2, fun x => ⟨bytesOf_content (congrArg (fun hp => (hp x).content) f1), congrArg (fun hp => (hp x).epoch) f1⟩⟩
  obtain ⟨s1, D, hfl, f, hh, hx⟩ := hfl
  obtain ⟨k, k1, k2, _⟩ := flushed_sees f (reachable_fdInv hr) (reachable_inStep hr) hg hop hk ho ha hn
  have k' : Sees s' g D := ⟨by rw [hh]; exact k.append, by rw [hh]; exact k.notNull, by rw [hh, (hx _).1]; exact k.bytes,
    by rw [hh, (hx _).2]; exact k.clean⟩
  refine ⟨D, by rw [(hx _).1]; exact bytesOf_some.mpr f.content, fun n b s'' hb => ?_⟩
  rw [← k1, ← hh]
  exact ((okp_readSees k' (by rw [hh, k2]; exact hrd) n).elim b s'' hb).1

/-! ## Examples -/

/-- `/a/f` of the example is opened with `rb` (3) and with `r+b` (4); the second writes -/
def rwOps : List Op := [.openPath ['/', 'a', '/', 'f'] rpMode none false false, .hRead 3 (some 1), .hWrite 4 [7, 8, 9]]

/-- the hypotheses of `reader_current`: the reader sees the two old bytes before the flush and the new one after it -/
example : (openPath ['/', 'a', '/', 'f'] rbMode none false false demo).1 = .ok 3 ∧
    (let s1 := (openPath ['/', 'a', '/', 'f'] rbMode none false false demo).2
     (s1.handles 3).obj = 3 ∧ (read 3 none (runs rwOps s1)).1 = .ok [105] ∧ (read 3 none (runs (rwOps ++ [.hFlush 4]) s1)).1 = .ok [8, 9]) := by
  refine ⟨?_, ?_, ?_, ?_⟩ <;> decide +kernel

/-- the hypotheses of `flush_visible` and `close_visible` -/
example : let s := runs (.openPath ['/', 'a', '/', 'f'] rbMode none false false :: rwOps) demo
    Reachable s ∧ (flush 4 s).1 = .ok () ∧ (hClose 4 s).1 = .ok () ∧ (s.handles 4).update = true ∧ (s.handles 4).obj = 3 ∧ s.isOpen 3 = true ∧ s.isOpen 4 = true ∧
      (s.handles 3).obj = 3 ∧ (s.handles 3).append = false ∧ (s.handles 3).read = true ∧ (s.handles 3).kind = .file ∧ (s.handles 4).kind = .file ∧
      (s.handles 4).rawIo = false ∧ (s.handles 4).deleteOnClose = false ∧ bytesOf s 3 = some [104, 105] := by
  refine ⟨reachable_runs demo_reachable _, ?_⟩
  decide +kernel

/-- C32 does not hold for data that has not been flushed: what the file object 3 wrote is lost when the file object 4 of the
same file is flushed, although 3 is closed properly afterwards. -/
theorem unflushed_lost_counterexample :
    let s := runs [.openPath ['/', 'a', '/', 'f'] rpMode none false false, .openPath ['/', 'a', '/', 'f'] rpMode none false false,
      .hWrite 3 [1, 2, 3, 4, 5], .hWrite 4 [9], .hFlush 4, .hClose 3, .hClose 4] demo
    Reachable s ∧ bytesOf s 3 = some [9, 105] := by
  refine ⟨reachable_runs demo_reachable _, ?_⟩
  decide +kernel

end Verif
