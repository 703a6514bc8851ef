import Verif.ReadOnly
import Verif.EffData
import Verif.Props.Create
import Verif.DemoFacts
/-!
# C33: open modes

`Spec.CallOn` says which calls go through a given file object; `Spec.FilesKept` (ReadOnly.lean) that no file changed.
-/

namespace Verif
open Py Spec Cfg

/-! ## Mode strings -/

theorem mem_replaceRU {c : Char} (h : c ≠ 'U') : ∀ m : Str, c ∈ replaceRU m ↔ c ∈ m := by
  intro m
  induction m using replaceRU.induct with
  | case1 r ih => unfold replaceRU; simp [ih, h]
  | case2 d r hn ih =>
    rw [replaceRU.eq_def]
    split
    · rename_i r' e; injection e with e1 e2; exact (hn r' e1 e2).elim
    · rename_i e; injection e with e1 e2; subst e1; subst e2; simp [ih]
    · rename_i e; cases e
  | case3 => simp [replaceRU]

theorem mem_replaceRU_U : ∀ m : Str, ('r' ∈ replaceRU m ∨ 'U' ∈ replaceRU m) ↔ ('r' ∈ m ∨ 'U' ∈ m) := by
  intro m
  induction m using replaceRU.induct with
  | case1 r ih => unfold replaceRU; simp
  | case2 d r hn ih =>
    rw [replaceRU.eq_def]
    split
    · rename_i r' e; injection e with e1 e2; exact (hn r' e1 e2).elim
    · rename_i e; injection e with e1 e2; subst e1; subst e2
      simp only [List.mem_cons]
      constructor
      · rintro ((h | h) | (h | h))
        · exact Or.inl (Or.inl h)
        · rcases ih.mp (Or.inl h) with h | h
          · exact Or.inl (Or.inr h)
          · exact Or.inr (Or.inr h)
        · exact Or.inr (Or.inl h)
        · rcases ih.mp (Or.inr h) with h | h
          · exact Or.inl (Or.inr h)
          · exact Or.inr (Or.inr h)
      · rintro ((h | h) | (h | h))
        · exact Or.inl (Or.inl h)
        · rcases ih.mpr (Or.inl h) with h | h
          · exact Or.inl (Or.inr h)
          · exact Or.inr (Or.inr h)
        · exact Or.inr (Or.inl h)
        · rcases ih.mpr (Or.inr h) with h | h
          · exact Or.inl (Or.inr h)
          · exact Or.inr (Or.inr h)
    · rename_i e; cases e
  | case3 => simp [replaceRU]

/-- the normalised mode string -/
def normMode (m : Str) : Str := replaceC 'U' 'r' (replaceRU (m.filter fun c => c ≠ 't' ∧ c ≠ 'b'))

theorem mem_normMode {c : Char} (h1 : c ≠ 'U') (h2 : c ≠ 'r') (h3 : c ≠ 't') (h4 : c ≠ 'b') (m : Str) : c ∈ normMode m ↔ c ∈ m := by
  unfold normMode replaceC
  rw [List.mem_map]
  constructor
  · rintro ⟨x, hx, e⟩
    by_cases hu : x = 'U'
    · rw [if_pos hu] at e; exact absurd e.symm h2
    · rw [if_neg hu] at e; subst e
      rw [mem_replaceRU hu, List.mem_filter] at hx; exact hx.1
  · intro hc
    refine ⟨c, ?_, by rw [if_neg h1]⟩
    rw [mem_replaceRU h1, List.mem_filter]
    exact ⟨hc, by simp [h3, h4]⟩

theorem mem_normMode_r (m : Str) : 'r' ∈ normMode m ↔ ('r' ∈ m ∨ 'U' ∈ m) := by
  have e : ∀ c : Char, c ≠ 't' → c ≠ 'b' → (c ∈ m.filter (fun c => decide (c ≠ 't' ∧ c ≠ 'b')) ↔ c ∈ m) := by
    intro c h1 h2; rw [List.mem_filter]; simp [h1, h2]
  rw [← e 'r' (by decide) (by decide), ← e 'U' (by decide) (by decide), ← mem_replaceRU_U]
  unfold normMode replaceC
  rw [List.mem_map]
  constructor
  · rintro ⟨x, hx, e⟩
    by_cases hu : x = 'U'
    · subst hu; exact Or.inr hx
    · rw [if_neg hu] at e; subst e; exact Or.inl hx
  · rintro (h | h)
    · exact ⟨'r', h, by simp⟩
    · exact ⟨'U', h, by simp⟩

/-- **C33** (mode strings). For every mode string `open` accepts: the file must exist exactly for `r` (or the old `U`),
must not exist exactly for `x`, is emptied exactly for `w` and is appended to exactly for `a`; it may be read exactly for
`r`, `U` and `+`, and written exactly for `w`, `a`, `x` and `+`. -/
theorem mode_meaning {m : Str} {md : OpenModes} (h : parseMode m = some md) :
    (md.mustExist = true ↔ 'r' ∈ m ∨ 'U' ∈ m) ∧ (md.mustNotExist = true ↔ 'x' ∈ m) ∧
    (md.truncate = true ↔ 'w' ∈ m) ∧ (md.append = true ↔ 'a' ∈ m) ∧
    (md.canRead = true ↔ 'r' ∈ m ∨ 'U' ∈ m ∨ '+' ∈ m) ∧
    (md.canWrite = true ↔ 'w' ∈ m ∨ 'a' ∈ m ∨ 'x' ∈ m ∨ '+' ∈ m) := by
  unfold parseMode at h
  split at h
  · simp at h
  · have hr := mem_normMode_r m
    have hw := mem_normMode (c := 'w') (by decide) (by decide) (by decide) (by decide) m
    have ha := mem_normMode (c := 'a') (by decide) (by decide) (by decide) (by decide) m
    have hx := mem_normMode (c := 'x') (by decide) (by decide) (by decide) (by decide) m
    have hp := mem_normMode (c := '+') (by decide) (by decide) (by decide) (by decide) m
    change openModeMap (normMode m) = some md at h
    rw [← or_assoc, ← hr, ← hw, ← ha, ← hx, ← hp]
    generalize normMode m = n at h
    unfold openModeMap at h
    split at h <;> first | (injection h with h; subst h; simp) | simp at h

example : (parseMode "rb+".toList).isSome = true ∧ (parseMode "rU".toList).isSome = true ∧ (parseMode "xb".toList).isSome = true ∧
  parseMode "rw".toList = none := by decide

/-! ## What a handle may do -/

namespace Spec
/-- The call `o`, made in the state `s`, goes through the file object `h`: one of its methods, or `os.read`, `os.write`,
`os.close` of a descriptor that leads to it. -/
inductive CallOn (h : Nat) (s : FS) : Op → Prop
  | read (n : Option Nat) : CallOn h s (.hRead h n)
  | write (b : Bytes) : CallOn h s (.hWrite h b)
  | seek (off : Int) (whence : Nat) : CallOn h s (.hSeek h off whence)
  | tell : CallOn h s (.hTell h)
  | truncate (n : Option Nat) : CallOn h s (.hTruncate h n)
  | flush : CallOn h s (.hFlush h)
  | close : CallOn h s (.hClose h)
  | osRead (fd : Int) (n : Nat) : s.getOpen fd = .ok h → CallOn h s (.osRead fd n)
  | osWrite (fd : Int) (b : Bytes) : s.getOpen fd = .ok h → CallOn h s (.osWrite fd b)
  | osClose (fd : Int) : s.getOpen fd = .ok h → CallOn h s (.osClose fd)
end Spec

theorem ro_void {h : Nat} {α : Type} {m : M α} (hm : Ro h m) : Ro h m.void := ro_bind hm fun _ => ro_pure _

theorem ro_onFile {h : Nat} {α : Type} {m : M α} (hm : Ro h m) : Ro h (onFile h m) := by
  unfold onFile
  refine ro_getBind fun s _ _ => ?_
  apply ro_ite
  · intro _; exact ro_void hm
  · intro _; exact ro_throw _

/-- A call that goes through a file object without write access changes no file. -/
theorem callOn_keptH {h : Nat} {s : FS} {o : Op} (hc : CallOn h s o) (hu : (s.handles h).update = false)
    (hd : (s.handles h).deleteOnClose = false) : KeptH h s (o.next s) := by
  cases hc with
  | read n => exact (ro_onFile (ro_read n) s hu hd)
  | write b => exact (ro_onFile (ro_write b) s hu hd)
  | seek a w => exact (ro_onFile (ro_seek a w) s hu hd)
  | tell => exact (ro_onFile ro_tell s hu hd)
  | truncate n => exact (ro_onFile (ro_hTruncate n) s hu hd)
  | flush => exact (ro_onFile ro_flush s hu hd)
  | close => exact (ro_onFile ro_hClose s hu hd)
  | osRead fd n hg =>
    have e : osRead fd n s = (hget h >>= fun H => (if H.kind ≠ .file then M.throw .attributeError else M.pure ()) >>= fun _ =>
        hmod h (fun H => { H with rawIo := true }) >>= fun _ => read h (some n)) s := by
      unfold osRead
      rw [M.bind_eq, rd_eq (f := fun s => s.getOpen fd) hg]
      dsimp only
      rw [M.bind_eq, M.bind_eq]
      dsimp only [hget]
      by_cases hk : (s.handles h).kind = .file
      · rw [if_neg (by simp [hk]), if_neg (by simp [hk])]; rfl
      · rw [if_pos hk, if_pos hk]
    have k : Ro h (hget h >>= fun H => (if H.kind ≠ .file then M.throw .attributeError else M.pure ()) >>= fun _ =>
        hmod h (fun H => { H with rawIo := true }) >>= fun _ => read h (some n)) := by
      refine ro_hgetBind fun H _ _ => ?_
      refine ro_bind (ro_ite (fun _ => ro_throw _) fun _ => ro_pure _) fun _ => ?_
      exact ro_bind (ro_hmod _ fun _ => ⟨rfl, rfl, rfl, rfl, rfl⟩) fun _ => ro_read _
    have := (ro_void k s hu hd)
    unfold M.void at this
    rw [M.bind_eq, ← e] at this
    exact this
  | osWrite fd b hg =>
    have e : osWrite fd b s = (hget h >>= fun H => (if H.kind = .dir then M.raise .EBADF else M.pure ()) >>= fun _ =>
        (if H.kind = .std then M.throw .attributeError else M.pure ()) >>= fun _ =>
        hmod h (fun H => { H with rawIo := true }) >>= fun _ => syncIo h >>= fun _ =>
        hmod h (fun H => { H with flushPos := H.pos }) >>= fun _ => write h b >>= fun _ => flush h >>= fun _ => M.pure b.length) s := by
      unfold osWrite
      rw [M.bind_eq, rd_eq (f := fun s => s.getOpen fd) hg]
      dsimp only
      rw [M.bind_eq, M.bind_eq]
      dsimp only [hget]
      cases hk : (s.handles h).kind with
      | dir => rfl
      | std => rfl
      | file => rfl
    have k : Ro h (hget h >>= fun H => (if H.kind = .dir then M.raise .EBADF else M.pure ()) >>= fun _ =>
        (if H.kind = .std then M.throw .attributeError else M.pure ()) >>= fun _ =>
        hmod h (fun H => { H with rawIo := true }) >>= fun _ => syncIo h >>= fun _ =>
        hmod h (fun H => { H with flushPos := H.pos }) >>= fun _ => write h b >>= fun _ => flush h >>= fun _ => M.pure b.length) := by
      refine ro_hgetBind fun H _ _ => ?_
      refine ro_bind (ro_ite (fun _ => ro_raise _) fun _ => ro_pure _) fun _ => ?_
      refine ro_bind (ro_ite (fun _ => ro_throw _) fun _ => ro_pure _) fun _ => ?_
      refine ro_bind (ro_hmod _ fun _ => ⟨rfl, rfl, rfl, rfl, rfl⟩) fun _ => ?_
      refine ro_bind ro_syncIo fun _ => ?_
      refine ro_bind (ro_hmod _ fun _ => ⟨rfl, rfl, rfl, rfl, rfl⟩) fun _ => ?_
      refine ro_bind (ro_write _) fun _ => ?_
      exact ro_bind ro_flush fun _ => ro_pure _
    have := (ro_void k s hu hd)
    unfold M.void at this
    rw [M.bind_eq, ← e] at this
    exact this
  | osClose fd hg =>
    show KeptH h s (osClose fd s).2
    unfold osClose
    rw [M.bind_eq, rd_eq (f := fun s => s.getOpen fd) hg]
    exact (ro_hClose s hu hd)

theorem callOn_kept {h : Nat} {s : FS} {o : Op} (hc : CallOn h s o) (hu : (s.handles h).update = false)
    (hd : (s.handles h).deleteOnClose = false) : FilesKept s (o.next s) := (callOn_keptH hc hu hd).files

/-- the rights given to a handle by `open` -/
theorem open_rights {s : FS} (hr : Reachable s) {p : Str} {md : OpenModes} {bf : Option Nat} {raw del : Bool} {h : Nat} {s1 : FS}
    (ho : openPath p md bf raw del s = (.ok h, s1)) :
    h < s1.hnext ∧ (s1.handles h).kind = .file ∧ (s1.handles h).read = md.canRead ∧ (s1.handles h).update = md.canWrite ∧
      (s1.handles h).append = md.append ∧ (s1.handles h).deleteOnClose = del := by
  have ht := openPath_table (reachable_fdInv hr) p md bf raw del
  unfold wp at ht
  rw [ho] at ht
  obtain ⟨_, fd, s0, _, hop, o, he, _⟩ := ht
  rw [he, hop.hnext]
  exact ⟨Nat.lt_succ_self _, rfl, rfl, rfl, rfl, rfl⟩

/-- the rights given to a handle by `os.fdopen` -/
theorem openFd_rights {s : FS} {fd : Nat} {md : OpenModes} {bf : Option Nat} {cf : Bool} {h : Nat} {s1 : FS}
    (ho : openFd fd md bf cf s = (.ok h, s1)) :
    h < s1.hnext ∧ (s1.handles h).kind = .file ∧ (s1.handles h).read = md.canRead ∧ (s1.handles h).update = md.canWrite ∧
      (s1.handles h).append = md.append := by
  have : wp (openFd fd md bf cf) (fun r s1 => ∀ h, r = .ok h → h < s1.hnext ∧ (s1.handles h).kind = .file ∧
      (s1.handles h).read = md.canRead ∧ (s1.handles h).update = md.canWrite ∧ (s1.handles h).append = md.append) s := by
    unfold openFd
    refine wp_seq (fun _ _ => True) trivial (fun _ _ _ => by simp) ?_
    intro w s1 _
    refine wp_seq (fun _ _ => True) trivial (fun _ _ _ => by simp) ?_
    intro W s2 _
    split
    · intro h e; cases e
    apply wp_getBind
    dsimp only
    refine wp_seq (fun _ _ => True) trivial (fun _ _ _ => by simp) ?_
    intro r s3 _
    apply wp_getBind
    refine wp_bindOk (a := s3.hnext) rfl ?_
    refine wp_bindOk (a := ()) rfl ?_
    apply wp_pure
    intro h e
    injection e with e
    subst e
    simp [mkHandle]
  unfold wp at this
  rw [ho] at this
  exact this h rfl

/-- the rights given to a descriptor by `os.open` -/
theorem osOpen_rights {s : FS} (hr : Reachable s) {p : Str} {f : OFlags} {mode : Nat} {fd : Nat} {s1 : FS}
    (ho : osOpen p f mode s = (.ok fd, s1)) : ∃ h, s1.getOpen fd = .ok h ∧
    h < s1.hnext ∧ (s1.handles h).read = !f.wronly ∧ (s1.handles h).update = (f.rdwr || f.wronly) ∧
      (s1.handles h).append = f.append ∧ (s1.handles h).deleteOnClose = false := by
  have hi := reachable_fdInv hr
  have key : ∀ {s0 s2 : FS} {fd : Nat}, Opened s0 s2 fd s0.hnext → FdInv s2 → s2.getOpen fd = .ok s0.hnext := by
    intro s0 s2 fd hop hi2
    rcases getOpen_spec hi2 fd with ⟨_, h2⟩ | ⟨g, l, h1, h2⟩
    · exact absurd ⟨_, hop.slot.here⟩ h2
    · rw [h1]
      rw [hop.slot.here] at h2
      injection h2 with h2; injection h2 with h2; injection h2 with h2 _
      rw [h2]
  have : wp (osOpen p f mode) (fun r s1 => ∀ fd, r = .ok fd → ∃ h, s1.getOpen fd = .ok h ∧
    h < s1.hnext ∧ (s1.handles h).read = !f.wronly ∧ (s1.handles h).update = (f.rdwr || f.wronly) ∧
      (s1.handles h).append = f.append ∧ (s1.handles h).deleteOnClose = false) s := by
    unfold osOpen
    dsimp only
    split
    · intro fd e; cases e
    apply wp_getBind
    refine wp_seq (fun _ s' => s' = s) rfl (fun _ _ _ => by simp) ?_
    intro a s1 e1
    subst e1
    split
    · skip
      split
      · intro fd e; cases e
      refine register_spec hi _ (by simp) (by simp [mkHandle]) ?_
      intro fd s' hop hi' hh _
      apply wp_pure
      intro fd' e
      injection e with e
      subst e
      refine ⟨s1.hnext, key hop hi', by rw [hop.hnext]; exact Nat.lt_succ_self _, ?_⟩
      rw [hh]
      simp [mkHandle, OFlags.modes]
    · refine wp_seq (fun r s' => ∀ h, r = .ok h → FdInv s' ∧ h < s'.hnext ∧ (s'.getOpen (s'.handles h).fd = .ok h) ∧
          (s'.handles h).read = !f.wronly ∧ (s'.handles h).update = (f.rdwr || f.wronly) ∧
          (s'.handles h).append = f.append ∧ (s'.handles h).deleteOnClose = false) ?_ (fun _ _ _ => by simp) ?_
      · refine wp_mono (openPath_table hi p f.modes none true false) ?_
        rintro r s' ⟨hi', h2⟩ h e
        subst e
        obtain ⟨fd, s0, _, hop, o, he, _⟩ := h2
        have hfd : (s'.handles h).fd = fd := hop.hfd
        refine ⟨hi', by rw [hop.hnext]; exact Nat.lt_succ_self _, ?_, ?_⟩
        · rw [hfd]; have hh := hop.handle; subst hh; exact key hop hi'
        · rw [he]; simp [mkHandle, OFlags.modes]
      · intro h s2 h2
        obtain ⟨hi2, hl, hg, h3⟩ := h2 h rfl
        refine wp_bindOk (a := s2.handles h) (s' := s2) rfl ?_
        have fin : ∀ s3, Quiet s2 s3 → ∃ h', s3.getOpen (s2.handles h).fd = .ok h' ∧ h' < s3.hnext ∧ (s3.handles h').read = !f.wronly ∧
            (s3.handles h').update = (f.rdwr || f.wronly) ∧ (s3.handles h').append = f.append ∧ (s3.handles h').deleteOnClose = false := by
          intro s3 q
          refine ⟨h, ?_, by rw [q.hnext]; exact hl, by rw [q.read]; exact h3.1, by rw [q.update]; exact h3.2.1,
            by rw [q.append]; exact h3.2.2.1, by rw [q.del]; exact h3.2.2.2⟩
          unfold FS.getOpen at hg ⊢
          rw [q.openFiles]; exact hg
        split
        · refine wp_seq (fun _ s3 => Quiet s2 s3) (fr_chmod p mode true s2) (fun _ _ _ => by simp) ?_
          intro _ s3 q
          apply wp_pure
          intro fd e
          injection e with e
          subst e
          exact fin s3 q
        · apply wp_pure
          intro fd e
          injection e with e
          subst e
          exact fin s2 (TreeRel.refl _)
  unfold wp at this
  rw [ho] at this
  exact this fd rfl

/-- **C33** (no write access). A file object opened without write access never changes a file: whatever other calls were
made since (`ops`), a call that goes through it leaves every object, except for access times, and every disk usage as it was. -/
theorem readonly_never_changes {s : FS} (hr : Reachable s) {p : Str} {md : OpenModes} {bf : Option Nat} {raw : Bool} {h : Nat} {s1 : FS}
    (ho : openPath p md bf raw false s = (.ok h, s1)) (hw : md.canWrite = false) (ops : List Op) {o : Op}
    (hc : CallOn h (runs ops s1) o) : FilesKept (runs ops s1) (o.next (runs ops s1)) := by
  obtain ⟨h1, _, _, h2, _, h3⟩ := open_rights hr ho
  have hf := flags_runs ops s1
  exact callOn_kept hc (by rw [hf.update h h1, h2, hw]) (by rw [hf.del h h1, h3])

/-- **C33** (no write access, `os.open`). The same for descriptors of `os.open` without `O_WRONLY` and `O_RDWR`. -/
theorem osReadonly_never_changes {s : FS} (hr : Reachable s) {p : Str} {f : OFlags} {mode : Nat} {fd : Nat} {s1 : FS}
    (ho : osOpen p f mode s = (.ok fd, s1)) (hw : f.wronly = false ∧ f.rdwr = false) :
    ∃ h, s1.getOpen fd = .ok h ∧ ∀ (ops : List Op) (o : Op), CallOn h (runs ops s1) o → FilesKept (runs ops s1) (o.next (runs ops s1)) := by
  obtain ⟨h, hg, h1, _, h2, _, h3⟩ := osOpen_rights hr ho
  refine ⟨h, hg, fun ops o hc => ?_⟩
  have hf := flags_runs ops s1
  exact callOn_kept hc (by rw [hf.update h h1, h2, hw.1, hw.2]; rfl) (by rw [hf.del h h1, h3])

/-- Reading through a file object without read access yields no data. -/
theorem read_nothing {h : Nat} {s : FS} (hr : (s.handles h).read = false) (n : Option Nat) {b : Bytes} {s' : FS}
    (e : read h n s = (.ok b, s')) : b = [] ∧ n = some 0 := by
  have : wp (read h n) (fun r _ => ∀ b, r = .ok b → b = [] ∧ n = some 0) s := by
    unfold read
    apply wp_getBind
    dsimp only
    rw [hr]
    split
    · intro b e; cases e
    refine wp_seq (fun _ _ => True) trivial (fun _ _ _ => by simp) ?_
    intro _ s1 _
    rw [if_pos rfl]
    split
    · rename_i hn
      intro b e; injection e with e; exact ⟨e.symm, hn.1⟩
    · unfold hRaise
      refine wp_bindOk (a := s1.handles h) (s' := s1) rfl ?_
      split
      · intro b e; cases e
      · intro b e; cases e
  unfold wp at this
  rw [e] at this
  exact this b rfl

/-- **C33** (no read access). A file object opened without read access never yields data, whatever happened since: a
call of `read` raises, except that asking for 0 bytes may give 0 bytes. -/
theorem writeonly_never_reads {s : FS} (hr : Reachable s) {p : Str} {md : OpenModes} {bf : Option Nat} {raw del : Bool} {h : Nat} {s1 : FS}
    (ho : openPath p md bf raw del s = (.ok h, s1)) (hw : md.canRead = false) (ops : List Op) (n : Option Nat) :
    (∃ e s2, read h n (runs ops s1) = (.error e, s2)) ∨ n = some 0 ∧ ∃ s2, read h n (runs ops s1) = (.ok [], s2) := by
  obtain ⟨h1, _, h2, _⟩ := open_rights hr ho
  have hf := flags_runs ops s1
  rcases he : read h n (runs ops s1) with ⟨r, s2⟩
  cases r with
  | error e => exact Or.inl ⟨e, s2, rfl⟩
  | ok b =>
    obtain ⟨rfl, hn⟩ := read_nothing (by rw [hf.read h h1, h2, hw]) n he
    exact Or.inr ⟨hn, s2, rfl⟩

/-- **C33** (no read access, `os.open` with `O_WRONLY`). -/
theorem osWriteonly_never_reads {s : FS} (hr : Reachable s) {p : Str} {f : OFlags} {mode : Nat} {fd : Nat} {s1 : FS}
    (ho : osOpen p f mode s = (.ok fd, s1)) (hw : f.wronly = true) :
    ∃ h, s1.getOpen fd = .ok h ∧ ∀ (ops : List Op) (fd' : Int) (n : Nat) (b : Bytes) (s2 : FS), (runs ops s1).getOpen fd' = .ok h →
      osRead fd' n (runs ops s1) = (.ok b, s2) → b = [] := by
  obtain ⟨h, hg, h1, h2, _⟩ := osOpen_rights hr ho
  refine ⟨h, hg, fun ops fd' n b s2 hg' he => ?_⟩
  have hf := flags_runs ops s1
  have hrd : ((runs ops s1).handles h).read = false := by rw [hf.read h h1, h2, hw]; rfl
  have : wp (osRead fd' n) (fun r _ => ∀ b, r = .ok b → b = []) (runs ops s1) := by
    unfold osRead
    refine wp_bindOk (rd_eq (f := fun s => s.getOpen fd') hg') ?_
    refine wp_bindOk (a := (runs ops s1).handles h) (s' := runs ops s1) rfl ?_
    split
    · intro b e; cases e
    refine wp_bindOk (a := ()) rfl ?_
    intro b e
    refine (read_nothing (h := h) (n := some n) (b := b) ?_ (Prod.ext e rfl)).1
    simpa [FS.setH] using hrd
  unfold wp at this
  rw [he] at this
  exact this b rfl

/-! ## What opening does -/

theorem fileArg_existing {s : FS} {p : Str} {r : Ref} (hp : p ≠ s.devName) (hex : s.exists_ p = .ok true)
    (hres : s.resolve p true false = .ok r) : ∃ q, s.resolvePath p = .ok q ∧ s.fileArg p = .ok (some r, q) := by
  unfold FS.resolve FS.resolveFG at hres
  rw [if_pos rfl] at hres
  unfold FS.resolveG at hres
  obtain ⟨q, hq, hx⟩ := except_bind_ok hres
  refine ⟨q, hq, ?_⟩
  unfold FS.fileArg
  rw [if_neg hp]
  have hq' : s.resolvePath p = .ok q := hq
  rw [hq']
  show (do let b ← s.exists_ p; if b = true then _ else _) = _
  rw [hex]
  show (do let r ← s.getObjNormG s.rc q false; _) = _
  rw [hx]
  rfl

theorem fileArg_missing {s : FS} {p : Str} (hp : p ≠ s.devName) (hex : s.exists_ p = .ok false) :
    (∃ e, s.fileArg p = .error e ∧ s.resolvePath p = .error e) ∨ ∃ q, s.resolvePath p = .ok q ∧ s.fileArg p = .ok (none, q) := by
  unfold FS.fileArg
  rw [if_neg hp]
  cases hq : s.resolvePath p with
  | error e => exact Or.inl ⟨e, rfl, rfl⟩
  | ok q =>
    refine Or.inr ⟨q, rfl, ?_⟩
    show (do let b ← s.exists_ p; if b = true then _ else _) = _
    rw [hex]
    rfl

/-- `open` once the file is there: a new handle on it. -/
theorem openPath_after {s s1 : FS} {p q : Str} {a : Option Ref} {r : Ref} {md : OpenModes} (hi : FdInv s1) (bf : Option Nat) (raw del : Bool)
    (ha : s.fileArg p = .ok (a, q)) (ho : openObject a p q md s = (.ok r, s1)) (hd : (s1.heap r).isDir = false) :
    ∃ fd s', openPath p md bf raw del s = (.ok s1.hnext, s') ∧ Opened s1 s' fd s1.hnext ∧ FdInv s' ∧
      s'.handles s1.hnext = { mkHandle s1 r md bf true raw del 0 with fd := fd } ∧
      s' = { s1 with openFiles := s'.openFiles, freeFds := s'.freeFds, handles := s'.handles, hnext := s'.hnext } := by
  have : wp (openPath p md bf raw del) (fun res s' => ∃ fd, res = .ok s1.hnext ∧ Opened s1 s' fd s1.hnext ∧ FdInv s' ∧
      s'.handles s1.hnext = { mkHandle s1 r md bf true raw del 0 with fd := fd } ∧
      s' = { s1 with openFiles := s'.openFiles, freeFds := s'.freeFds, handles := s'.handles, hnext := s'.hnext }) s := by
    unfold openPath
    refine wp_bindOk (rd_eq (f := fun s => s.fileArg p) ha) ?_
    refine wp_bindOk (a := r) (s' := s1) ho ?_
    apply wp_getBind
    dsimp only
    rw [if_neg (by rw [hd]; simp)]
    refine register_spec hi _ (by simp [mkHandle]) (by simp [mkHandle]) ?_
    intro fd s' h1 h2 h3 h4
    exact ⟨fd, rfl, h1, h2, h3, h4⟩
  unfold wp at this
  rcases e : openPath p md bf raw del s with ⟨res, s'⟩
  rw [e] at this
  obtain ⟨fd, h0, h1⟩ := this
  dsimp only at h0
  subst h0
  exact ⟨fd, s', rfl, h1⟩

theorem openPath_failed {s s1 : FS} {p q : Str} {a : Option Ref} {e : Err} {md : OpenModes} (bf : Option Nat) (raw del : Bool)
    (ha : s.fileArg p = .ok (a, q)) (ho : openObject a p q md s = (.error e, s1)) : openPath p md bf raw del s = (.error e, s1) := by
  unfold openPath
  rw [M.bind_eq, rd_eq (f := fun s => s.fileArg p) ha]
  dsimp only
  rw [M.bind_eq, ho]

/-- The user may not open the object in this mode. -/
def Spec.OpenDenied (s : FS) (r : Ref) (md : OpenModes) : Prop :=
  s.isRoot = false ∧ ((md.canRead = true ∧ (s.heap r).mode &&& PERM_READ = 0) ∨ (md.canWrite = true ∧ (s.heap r).mode &&& PERM_WRITE = 0))

instance (s : FS) (r : Ref) (md : OpenModes) : Decidable (OpenDenied s r md) := by unfold OpenDenied; infer_instance

/-- `openObject` on an existing file. -/
theorem openObject_existing {s : FS} {r : Ref} {old : Option Bytes} (hc : (s.heap r).content = .file old) (hd : (s.heap r).isDirMode = false)
    (hn : r ≠ devNullRef) (p q : Str) (md : OpenModes) :
    wp (openObject (some r) p q md) (fun res s' =>
      (res = .error (.os .EEXIST) ∧ md.mustNotExist = true ∧ s' = s) ∨
      (res = .error (.os .EACCES) ∧ md.mustNotExist = false ∧ OpenDenied s r md ∧ s' = s) ∨
      (res = .error (.os .ENOSPC) ∧ md.canWrite = true ∧ md.truncate = true ∧
        fits (s.heap r).dev (-(s.stSize (s.heap r) : Int)) s.mounts = false ∧ s' = s) ∨
      (res = .ok r ∧ md.mustNotExist = false ∧ ¬ OpenDenied s r md ∧
        ∃ s0, (s0 = if md.canWrite && md.truncate then s.withContents r [] else s) ∧
          s' = if md.truncate then s0.setObj r fun o => { o with mtime := s.clock, ctime := if s.cfg.isWin then o.ctime else s.clock } else s0)) s := by
  unfold openObject
  have main : md.mustNotExist = false → wp (do
      let r ← initFileObject (some r) p q md
      let s ← M.get
      if (s.heap r).isDirMode then M.raise (if s.cfg.isWin then .EACCES else .EISDIR)
      if md.truncate then
        M.modify fun s => s.setObj r fun o =>
          { o with mtime := s.clock, ctime := if s.cfg.isWin then o.ctime else s.clock }
      M.pure r) (fun res s' =>
      (res = .error (.os .EEXIST) ∧ md.mustNotExist = true ∧ s' = s) ∨
      (res = .error (.os .EACCES) ∧ md.mustNotExist = false ∧ OpenDenied s r md ∧ s' = s) ∨
      (res = .error (.os .ENOSPC) ∧ md.canWrite = true ∧ md.truncate = true ∧
        fits (s.heap r).dev (-(s.stSize (s.heap r) : Int)) s.mounts = false ∧ s' = s) ∨
      (res = .ok r ∧ md.mustNotExist = false ∧ ¬ OpenDenied s r md ∧
        ∃ s0, (s0 = if md.canWrite && md.truncate then s.withContents r [] else s) ∧
          s' = if md.truncate then s0.setObj r fun o => { o with mtime := s.clock, ctime := if s.cfg.isWin then o.ctime else s.clock } else s0)) s := by
    intro hne
    have hden : (!s.isRoot && ((md.canRead && (s.heap r).mode &&& PERM_READ == 0) || (md.canWrite && (s.heap r).mode &&& PERM_WRITE == 0))) = true ↔
        OpenDenied s r md := by
      unfold OpenDenied; simp
    have hfin : ∀ s0 : FS, (s0 = if md.canWrite && md.truncate then s.withContents r [] else s) → ¬ OpenDenied s r md →
        wp (do
      let s ← M.get
      if (s.heap r).isDirMode then M.raise (if s.cfg.isWin then .EACCES else .EISDIR)
      if md.truncate then
        M.modify fun s => s.setObj r fun o =>
          { o with mtime := s.clock, ctime := if s.cfg.isWin then o.ctime else s.clock }
      M.pure r) (fun res s' =>
      (res = .error (.os .EEXIST) ∧ md.mustNotExist = true ∧ s' = s) ∨
      (res = .error (.os .EACCES) ∧ md.mustNotExist = false ∧ OpenDenied s r md ∧ s' = s) ∨
      (res = .error (.os .ENOSPC) ∧ md.canWrite = true ∧ md.truncate = true ∧
        fits (s.heap r).dev (-(s.stSize (s.heap r) : Int)) s.mounts = false ∧ s' = s) ∨
      (res = .ok r ∧ md.mustNotExist = false ∧ ¬ OpenDenied s r md ∧
        ∃ s0, (s0 = if md.canWrite && md.truncate then s.withContents r [] else s) ∧
          s' = if md.truncate then s0.setObj r fun o => { o with mtime := s.clock, ctime := if s.cfg.isWin then o.ctime else s.clock } else s0)) s0 := by
      intro s0 he hnd
      apply wp_getBind
      have hm : (s0.heap r).isDirMode = false := by
        rw [he]
        split
        · have : (s.withContents r []).heap r = _ := (withContents_data (by unfold Obj.isDir; rw [hc]) []).keep
          unfold Obj.isDirMode at hd ⊢
          rw [this]; exact hd
        · exact hd
      dsimp only
      rw [hm, if_neg (by simp)]
      have hcl : s0.clock = s.clock := by rw [he]; split <;> rfl
      have hcf : s0.cfg = s.cfg := by rw [he]; split <;> rfl
      by_cases ht : md.truncate = true
      · rw [if_pos ht]
        refine wp_bindOk (a := ()) (s' := s0.setObj r fun o => { o with mtime := s0.clock, ctime := if s0.cfg.isWin then o.ctime else s0.clock }) rfl ?_
        refine Or.inr (Or.inr (Or.inr ⟨rfl, hne, hnd, s0, he, ?_⟩))
        rw [if_pos ht, hcl, hcf]; rfl
      · rw [if_neg ht]
        exact Or.inr (Or.inr (Or.inr ⟨rfl, hne, hnd, s0, he, by rw [if_neg ht]; rfl⟩))
    unfold initFileObject
    by_cases hden' : OpenDenied s r md
    · refine wp_bindErr (e := .os .EACCES) (s' := s) ?_ (Or.inr (Or.inl ⟨rfl, hne, hden', rfl⟩))
      dsimp only
      rw [M.bind_eq]
      dsimp only [M.get]
      rw [if_pos (hden.mpr hden')]
      rfl
    · by_cases ht : (md.canWrite && md.truncate) = true
      · by_cases hf : fits (s.heap r).dev (-(s.stSize (s.heap r) : Int)) s.mounts = true
        · refine wp_bindOk (a := r) (s' := s.withContents r []) ?_ (hfin _ (by rw [if_pos ht]) hden')
          dsimp only
          rw [M.bind_eq]
          dsimp only [M.get]
          rw [if_neg (fun h => hden' (hden.mp h)), if_pos ht, M.bind_eq, setContents_eq hc hn]
          rw [if_pos (by simpa using hf)]
          rfl
        · refine wp_bindErr (e := .os .ENOSPC) (s' := s) ?_ (Or.inr (Or.inr (Or.inl ⟨rfl, ?_, ?_, by simpa using hf, rfl⟩)))
          · dsimp only
            rw [M.bind_eq]
            dsimp only [M.get]
            rw [if_neg (fun h => hden' (hden.mp h)), if_pos ht, M.bind_eq, setContents_eq hc hn]
            rw [if_neg (by simpa using hf)]
          · simp at ht; exact ht.1
          · simp at ht; exact ht.2
      · refine wp_bindOk (a := r) (s' := s) ?_ (hfin _ (by rw [if_neg ht]) hden')
        dsimp only
        rw [M.bind_eq]
        dsimp only [M.get]
        rw [if_neg (fun h => hden' (hden.mp h)), if_neg ht]
        rfl
  by_cases hne : md.mustNotExist = true
  · rw [if_pos hne]
    refine wp_bindOk (a := true) (s' := s) rfl ?_
    exact wp_bindErr (e := .os .EEXIST) (s' := s) rfl (Or.inl ⟨rfl, hne, rfl⟩)
  · rw [if_neg hne]
    exact main (by simpa using hne)

/-- **C33** (existing files). Opening an existing regular file: `x` is refused with EEXIST and a user without the
permission is refused with EACCES, without any effect (the only other failure is that a filesystem already over its
limit refuses to empty a file). Otherwise the new file object is on that file, sees its contents, and the contents are
emptied for `w` and kept otherwise; no other object changes. -/
theorem open_existing {s : FS} (hs : Reachable s) {p : Str} {r : Ref} {old : Bytes} (hp : p ≠ s.devName) (hex : s.exists_ p = .ok true)
    (hres : s.resolve p true false = .ok r) (hc : (s.heap r).content = .file (some old)) (hd : (s.heap r).isDirMode = false)
    (hn : r ≠ devNullRef) (md : OpenModes) (bf : Option Nat) (raw del : Bool) :
    match openPath p md bf raw del s with
    | (.error e, s') => s' = s ∧ ((e = .os .EEXIST ∧ md.mustNotExist = true) ∨ (e = .os .EACCES ∧ md.mustNotExist = false ∧ OpenDenied s r md) ∨
        (e = .os .ENOSPC ∧ md.canWrite = true ∧ md.truncate = true ∧ fits (s.heap r).dev (-(s.stSize (s.heap r) : Int)) s.mounts = false))
    | (.ok h, s') => md.mustNotExist = false ∧ ¬ OpenDenied s r md ∧ s'.isOpen h = true ∧
        (s'.handles h).obj = r ∧ (s'.handles h).buf = (if md.canWrite && md.truncate then [] else old) ∧
        (s'.heap r).content = .file (some (if md.canWrite && md.truncate then [] else old)) ∧
        (∀ x, x ≠ r → s'.heap x = s.heap x) ∧ (s'.heap r).mode = (s.heap r).mode ∧
        (s'.heap r).atime = (s.heap r).atime ∧ (s'.heap r).mtime = (if md.truncate then s.clock else (s.heap r).mtime) ∧
        (s'.heap r).ctime = (if md.truncate = true ∧ s.cfg.isWin = false then s.clock else (s.heap r).ctime) := by
  obtain ⟨q, _, ha⟩ := fileArg_existing hp hex hres
  have hk := openObject_existing hc hd hn p q md
  have hq := fq_openObject (some r) p q md s
  unfold wp at hk
  rcases ho : openObject (some r) p q md s with ⟨res, s1⟩
  rw [ho] at hk hq
  rcases hk with ⟨h1, h2, h3⟩ | ⟨h1, h2, h3, h4⟩ | ⟨h1, h2, h3, h4, h5⟩ | ⟨h1, h2, h3, s0, h4, h5⟩
  · dsimp only at h1 h3; subst h1; subst h3
    rw [openPath_failed bf raw del ha ho]
    exact ⟨rfl, Or.inl ⟨rfl, h2⟩⟩
  · dsimp only at h1 h4; subst h1; subst h4
    rw [openPath_failed bf raw del ha ho]
    exact ⟨rfl, Or.inr (Or.inl ⟨rfl, h2, h3⟩)⟩
  · dsimp only at h1 h5; subst h1; subst h5
    rw [openPath_failed bf raw del ha ho]
    exact ⟨rfl, Or.inr (Or.inr ⟨rfl, h2, h3, h4⟩)⟩
  · dsimp only at h1 h5; subst h1
    have hc0 : (s0.heap r).content = .file (some (if md.canWrite && md.truncate then [] else old)) ∧ (∀ x, x ≠ r → s0.heap x = s.heap x) ∧
        (s0.heap r).mode = (s.heap r).mode ∧ (s0.heap r).atime = (s.heap r).atime ∧ (s0.heap r).mtime = (s.heap r).mtime ∧ (s0.heap r).ctime = (s.heap r).ctime := by
      rw [h4]
      split
      · exact ⟨by simp [FS.withContents], fun x hx => by simp [FS.withContents, upd_apply, hx], by simp [FS.withContents], by simp [FS.withContents],
          by simp [FS.withContents], by simp [FS.withContents]⟩
      · exact ⟨hc, fun _ _ => rfl, rfl, rfl, rfl, rfl⟩
    have hc1 : (s1.heap r).content = .file (some (if md.canWrite && md.truncate then [] else old)) ∧ (∀ x, x ≠ r → s1.heap x = s.heap x) ∧
        (s1.heap r).mode = (s.heap r).mode ∧ (s1.heap r).atime = (s.heap r).atime ∧ (s1.heap r).mtime = (if md.truncate then s.clock else (s.heap r).mtime) ∧
        (s1.heap r).ctime = (if md.truncate = true ∧ s.cfg.isWin = false then s.clock else (s.heap r).ctime) := by
      rw [h5]
      split
      · rename_i ht
        refine ⟨by simpa [FS.setObj] using hc0.1, fun x hx => ?_, by simpa [FS.setObj] using hc0.2.2.1, by simpa [FS.setObj] using hc0.2.2.2.1,
          by simp [FS.setObj], ?_⟩
        · simp only [FS.setObj, upd_apply, if_neg hx]; exact hc0.2.1 x hx
        · cases hw : s.cfg.isWin
          · simp [FS.setObj, ht]
          · simpa [FS.setObj, ht] using hc0.2.2.2.2.2
      · rename_i ht
        refine ⟨hc0.1, hc0.2.1, hc0.2.2.1, hc0.2.2.2.1, ?_, ?_⟩
        · exact hc0.2.2.2.2.1
        · rw [if_neg (fun h => ht h.1)]; exact hc0.2.2.2.2.2
    obtain ⟨fd, s', e1, e2, e3, e4, e5⟩ := openPath_after (FdInv.quiet (reachable_fdInv hs) hq) bf raw del ha ho
      (by unfold Obj.isDir; rw [hc1.1])
    rw [e1]
    have hheap : s'.heap = s1.heap := by rw [e5]
    refine ⟨h2, h3, ?_, by rw [e4]; rfl, ?_, by rw [hheap]; exact hc1.1, by rw [hheap]; exact hc1.2.1, by rw [hheap]; exact hc1.2.2⟩
    · rw [isOpen_iff, e2.hfd]; exact ⟨_, e2.slot.here, by simp⟩
    · rw [e4]
      show (s1.byteContents r).getD [] = _
      unfold FS.byteContents
      rw [if_neg hn, hc1.1]
      rfl

/-- **C33** (missing files, `r`). Opening a path that does not exist, in a mode that requires existence, fails without any
effect; with ENOENT if the path can be resolved at all. -/
theorem open_missing {s : FS} {p : Str} (hp : p ≠ s.devName) (hex : s.exists_ p = .ok false) (md : OpenModes) (hm : md.mustExist = true)
    (bf : Option Nat) (raw del : Bool) :
    ∃ e, openPath p md bf raw del s = (.error e, s) ∧ (md.mustNotExist = false → (∃ q, s.resolvePath p = .ok q) → e = .os .ENOENT) := by
  rcases fileArg_missing hp hex with ⟨e, h1, h2⟩ | ⟨q, h1, h2⟩
  · refine ⟨e, ?_, fun _ ⟨q, hq⟩ => by rw [h2] at hq; cases hq⟩
    unfold openPath
    rw [M.bind_eq, rd_eq (f := fun s => s.fileArg p) h1]
  · have hk : wp (openObject none p q md) (fun res s' => s' = s ∧ ∃ e, res = .error e ∧ (md.mustNotExist = false → e = .os .ENOENT)) s := by
      unfold openObject
      have main : ∀ {k : Ref → M Ref}, wp (initFileObject none p q md >>= k)
          (fun res s' => s' = s ∧ ∃ e, res = .error e ∧ (md.mustNotExist = false → e = .os .ENOENT)) s := by
        intro k
        refine wp_bindErr (e := .os .ENOENT) (s' := s) ?_ ⟨rfl, _, rfl, fun _ => rfl⟩
        unfold initFileObject
        dsimp only
        rw [if_pos hm]
        rfl
      by_cases hne : md.mustNotExist = true
      · rw [if_pos hne]
        rw [if_neg (by simp)]
        apply wp_getBind
        refine wp_seq (fun _ s' => s' = s) rfl (fun e s' he => ⟨he, e, rfl, fun h => by rw [hne] at h; cases h⟩) ?_
        intro l s1 e
        subst e
        refine wp_bindOk (a := l && !s1.cfg.isWin) (s' := s1) rfl ?_
        dsimp only
        split
        · exact ⟨rfl, _, rfl, fun h => by rw [hne] at h; cases h⟩
        · exact main
      · rw [if_neg hne]; exact main
    unfold wp at hk
    rcases ho : openObject none p q md s with ⟨res, s1⟩
    rw [ho] at hk
    obtain ⟨h3, e, h4, h5⟩ := hk
    dsimp only at h3 h4
    subst h3 h4
    exact ⟨e, openPath_failed bf raw del h2 ho, fun h _ => h5 h⟩

theorem charge_zero (d : Option Nat) (ms : List Mount) : charge d 0 ms = ms := by
  cases d with
  | none => rfl
  | some i =>
    show changeUsed i 0 ms = ms
    induction ms with
    | nil => rfl
    | cons m ms ih =>
      unfold changeUsed
      rw [ih, Int.add_zero]
      split <;> rfl

theorem newFile_notDir (u : Nat) : ifmt (andNot (S_IFREG ||| PERM_DEF_FILE) u) ≠ S_IFDIR := by
  intro h
  have := congrArg (·.testBit 14) h
  simp only [ifmt, Nat.testBit_and, testBit_andNot] at this
  rw [show (S_IFREG ||| PERM_DEF_FILE).testBit 14 = false from by decide, show S_IFDIR.testBit 14 = true from by decide] at this
  simp at this

theorem openObject_new {s : FS} (hi : Inv s) (hw : Within s) (ht : s.cfg.Tree) (p q : Str) (md : OpenModes) :
    wp (openObject none p q md) (fun res s' =>
      (∃ e, res = .error e ∧ s' = s) ∨
      md.mustExist = false ∧ CreatePost s (s.cfg.makeStringPath q) (S_IFREG ||| PERM_DEF_FILE) (some []) 0 true res s') s := by
  unfold openObject
  have main : wp (do
      let r ← initFileObject none p q md
      let s ← M.get
      if (s.heap r).isDirMode then M.raise (if s.cfg.isWin then .EACCES else .EISDIR)
      if md.truncate then
        M.modify fun s => s.setObj r fun o =>
          { o with mtime := s.clock, ctime := if s.cfg.isWin then o.ctime else s.clock }
      M.pure r) (fun res s' =>
      (∃ e, res = .error e ∧ s' = s) ∨
      md.mustExist = false ∧ CreatePost s (s.cfg.makeStringPath q) (S_IFREG ||| PERM_DEF_FILE) (some []) 0 true res s') s := by
    refine wp_seq (fun res s' => (∃ e, res = .error e ∧ s' = s) ∨
        md.mustExist = false ∧ CreatePost s (s.cfg.makeStringPath q) (S_IFREG ||| PERM_DEF_FILE) (some []) 0 true res s') ?_
        (fun e s' h => ?_) ?_
    · unfold initFileObject
      dsimp only
      by_cases hm : md.mustExist = true
      · rw [if_pos hm]
        exact Or.inl ⟨_, rfl, rfl⟩
      · rw [if_neg hm]
        have hm' : md.mustExist = false := by simpa using hm
        have tail : ∀ target : Str, wp (do
            let s ← M.get
            if s.cfg.endsWithSep target then
              M.raise (if s.cfg.isWin then .EINVAL else if s.cfg.isMac then .ENOENT else .EISDIR)
            createFileI q (S_IFREG ||| PERM_DEF_FILE) (some []) none false true) (fun res s' => (∃ e, res = .error e ∧ s' = s) ∨
            md.mustExist = false ∧ CreatePost s (s.cfg.makeStringPath q) (S_IFREG ||| PERM_DEF_FILE) (some []) 0 true res s') s := by
          intro target
          apply wp_getBind
          dsimp only
          split
          · exact Or.inl ⟨_, rfl, rfl⟩
          · refine wp_mono (createFileI_spec hi hw ht (p := q) (cm := false) (S_IFREG ||| PERM_DEF_FILE) (some []) none true (Or.inl rfl)) ?_
            intro res s' h
            exact Or.inr ⟨hm', h⟩
        refine wp_seq (fun _ s' => s' = s) rfl (fun _ _ h => Or.inl ⟨_, rfl, h⟩) ?_
        intro l s1 e
        subst e
        split
        · refine wp_seq (fun _ s' => s' = s1) rfl (fun _ _ h => Or.inl ⟨_, rfl, h⟩) ?_
          intro l s2 e
          subst e
          exact tail _
        · exact tail _
    · rcases h with ⟨e', h1, h2⟩ | h
      · exact Or.inl ⟨e, rfl, h2⟩
      · exact Or.inr h
    · intro r s1 h
      rcases h with ⟨e, h1, _⟩ | ⟨hm, h⟩
      · cases h1
      · rcases h with ⟨e, h1, _⟩ | ⟨ld, nm, d, h2, ⟨h1, _, _⟩ | ⟨h1, h3⟩⟩
        · cases h1
        · cases h1
        · injection h1 with h1
          subst h1
          obtain ⟨ep, ho⟩ := h3.obj
          apply wp_getBind
          have hmode : (s1.heap s.next).mode = andNot (S_IFREG ||| PERM_DEF_FILE) s.umask := by rw [ho]; rfl
          have hnd : (s1.heap s.next).isDirMode = false := by
            unfold Obj.isDirMode
            rw [hmode]
            simpa using newFile_notDir s.umask
          dsimp only
          rw [hnd, if_neg (by simp)]
          have fin : ∀ s2, s2 = s1 → wp (M.pure s.next) (fun res s' =>
              (∃ e, res = .error e ∧ s' = s) ∨
              md.mustExist = false ∧ CreatePost s (s.cfg.makeStringPath q) (S_IFREG ||| PERM_DEF_FILE) (some []) 0 true res s') s2 := by
            intro s2 e
            subst e
            exact Or.inr ⟨hm, Or.inr ⟨ld, nm, d, h2, Or.inr ⟨rfl, h3⟩⟩⟩
          split
          · refine wp_bindOk (a := ()) (s' := s1.setObj s.next fun o => { o with mtime := s1.clock, ctime := if s1.cfg.isWin then o.ctime else s1.clock }) rfl ?_
            apply fin
            have hclk : s1.clock = s.clock := by rw [h3.added.env]
            unfold FS.setObj
            have : upd s1.heap s.next { s1.heap s.next with mtime := s1.clock, ctime := if s1.cfg.isWin then (s1.heap s.next).ctime else s1.clock } = s1.heap := by
              funext x
              simp only [upd_apply]
              split
              · rename_i e; subst e
                rw [ho, hclk]
                simp [freshObj, mkFileObj]
              · rfl
            rw [this]
          · exact fin s1 rfl
  by_cases hne : md.mustNotExist = true
  · rw [if_pos hne, if_neg (by simp)]
    apply wp_getBind
    refine wp_seq (fun _ s' => s' = s) rfl (fun e s' he => Or.inl ⟨e, rfl, he⟩) ?_
    intro l s1 e
    subst e
    refine wp_bindOk (a := l && !s1.cfg.isWin) (s' := s1) rfl ?_
    dsimp only
    split
    · exact Or.inl ⟨_, rfl, rfl⟩
    · exact main
  · rw [if_neg hne]; exact main

/-- **C33 and C28** (new files). Opening a path that does not exist either fails without a trace or, only in a mode that does not
require existence, makes exactly one new name for a new empty regular file whose mode is `0o666 & ~umask`; the new file object is on it. -/
theorem open_new {s : FS} (hs : Reachable s) (ht : s.cfg.Tree) (hw : Within s) {p : Str} (hp : p ≠ s.devName) (hex : s.exists_ p = .ok false)
    (md : OpenModes) (bf : Option Nat) (raw del : Bool) (hmay : ∀ q ld nm d, Names s q ld nm d → mayRemove s d) :
    (∃ e s', openPath p md bf raw del s = (.error e, s') ∧ Unchanged s s') ∨
    ∃ h s1 s' q ld nm d x, openPath p md bf raw del s = (.ok h, s') ∧ md.mustExist = false ∧
      s.resolvePath p = .ok q ∧ Names s (s.cfg.makeStringPath q) ld nm d ∧ NewEntry s s1 d ld nm x ∧
      (s1.heap x).content = .file (some []) ∧ (s1.heap x).mode = andNot (S_IFREG ||| PERM_DEF_FILE) s.umask ∧ (s1.heap x).nlink = 1 ∧
      s' = { s1 with openFiles := s'.openFiles, freeFds := s'.freeFds, handles := s'.handles, hnext := s'.hnext } ∧
      (s'.handles h).obj = x ∧ (s'.handles h).buf = [] ∧ s'.isOpen h = true ∧ h < s'.hnext ∧ (s1.heap x).size = 0 ∧ s1.mounts = s.mounts ∧
      ∃ fd, s'.handles h = { mkHandle s1 x md bf true raw del 0 with fd := fd } ∧ h = s1.hnext ∧ Opened s1 s' fd s1.hnext := by
  have hi := reachable_inv hs
  rcases fileArg_missing hp hex with ⟨e, h1, h2⟩ | ⟨q, h1, h2⟩
  · refine Or.inl ⟨e, s, ?_, Unchanged.refl s⟩
    unfold openPath
    rw [M.bind_eq, rd_eq (f := fun s => s.fileArg p) h1]
  · have hk := openObject_new hi hw ht p q md
    have hq := fq_openObject none p q md s
    have hg : wp (openObject none p q md) (fun _ s' => Good s s') s := openObject_pres none p q md s hi
    unfold wp at hk hg
    rcases ho : openObject none p q md s with ⟨res, s1⟩
    rw [ho] at hk hq hg
    dsimp only at hk hq hg
    rcases hk with ⟨e, rfl, h4⟩ | ⟨hm, hk⟩
    · rw [h4] at ho
      exact Or.inl ⟨e, s, openPath_failed bf raw del h2 ho, Unchanged.refl s⟩
    · rcases hk with ⟨e, rfl, h4⟩ | ⟨ld, nm, d, h4, ⟨_, h5, _⟩ | ⟨rfl, h5⟩⟩
      · exact Or.inl ⟨e, s1, openPath_failed bf raw del h2 ho, h4.unchanged hi⟩
      · exact absurd (hmay _ _ _ _ h4) h5
      · obtain ⟨ep, hobj⟩ := h5.obj
        have hN : NewEntry s s1 d ld nm s.next := h5.added.newEntry hi hg.inv ht (by rw [hobj]; rfl) h4.loc
        obtain ⟨fd, s', e1, e2, e3, e4, e5⟩ := openPath_after (FdInv.quiet (reachable_fdInv hs) hq) bf raw del h2 ho
          (by rw [hobj]; rfl)
        refine Or.inr ⟨s1.hnext, s1, s', q, ld, nm, d, s.next, e1, hm, h1, h4, hN, by rw [hobj], ?_, by rw [hobj]; rfl, e5,
          by rw [e4]; rfl, ?_, ?_, by rw [e2.hnext]; exact Nat.lt_succ_self _, by rw [hobj], by rw [h5.mounts]; exact charge_zero _ _, fd, e4, rfl, e2⟩
        · have hmd : (mkFileObj nm (if true = true then andNot (S_IFREG ||| PERM_DEF_FILE) s.umask else S_IFREG ||| PERM_DEF_FILE) none s).mode =
              andNot (S_IFREG ||| PERM_DEF_FILE) s.umask := rfl
          rw [hobj]
          exact hmd
        · rw [e4]
          show (s1.byteContents s.next).getD [] = _
          have : s.next ≠ devNullRef := by
            have := hi.g.two
            have h1 : devNullRef < s.next := devNull_lt hi
            exact (Nat.ne_of_lt h1).symm
          unfold FS.byteContents
          rw [if_neg this, hobj]
          rfl
        · rw [isOpen_iff, e2.hfd]; exact ⟨_, e2.slot.here, by simp⟩

/-! ## The hypotheses are met -/

/-- the modes of `open(p, 'rb')` -/
def rbMode : OpenModes := ⟨true, true, false, false, false, false⟩
/-- the modes of `open(p, 'wb')` -/
def wbMode : OpenModes := ⟨false, false, true, true, false, false⟩

example : parseMode "rb".toList = some rbMode ∧ parseMode "wb".toList = some wbMode := by decide

/-- Reading `/a/f` of the demo filesystem: the hypotheses of `open_existing`, `readonly_never_changes`. -/
example : Reachable demo ∧ ['/', 'a', '/', 'f'] ≠ demo.devName ∧ demo.exists_ ['/', 'a', '/', 'f'] = .ok true ∧
    demo.resolve ['/', 'a', '/', 'f'] true false = .ok 3 ∧ (demo.heap 3).isDirMode = false ∧
    (demo.heap 3).content = .file (some [104, 105]) ∧ (openPath ['/', 'a', '/', 'f'] rbMode none false false demo).1 = .ok 3 ∧
    (openPath ['/', 'a', '/', 'f'] wbMode none false false demo).1 = .ok 3 :=
  ⟨demo_reachable, by decide +kernel, by decide +kernel, by decide +kernel, by decide +kernel, by decide +kernel, by decide +kernel, by decide +kernel⟩

/-- Opening `/a/x`, which does not exist: the hypotheses of `open_missing` and `open_new`; the second case of `open_new` happens. -/
example : ['/', 'a', '/', 'x'] ≠ demo.devName ∧ demo.exists_ ['/', 'a', '/', 'x'] = .ok false ∧
    (∀ q ld nm d, Names demo q ld nm d → mayRemove demo d) ∧
    (openPath ['/', 'a', '/', 'x'] rbMode none false false demo).1 = .error (.os .ENOENT) ∧
    (openPath ['/', 'a', '/', 'x'] wbMode none false false demo).1 = .ok 3 :=
  ⟨by decide +kernel, by decide +kernel, fun _ _ _ d _ => demo_may d, by decide +kernel, by decide +kernel⟩

/-- **C33** (finding). The restriction to calls through the file object and to `os.read`/`os.write`/`os.close` is needed:
`os.ftruncate` of a descriptor opened for reading changes the file. -/
theorem ftruncate_readonly_counterexample :
    let s1 := (openPath ['/', 'a', '/', 'f'] rbMode none false false demo).2
    (openPath ['/', 'a', '/', 'f'] rbMode none false false demo).1 = .ok 3 ∧ s1.getOpen 3 = .ok 3 ∧
    (s1.heap 3).size = 2 ∧ (ftruncate 3 1 s1).1 = .ok () ∧ ((ftruncate 3 1 s1).2.heap 3).size = 1 := by
  decide +kernel

end Verif
