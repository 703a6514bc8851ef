import Verif.Text
import Verif.Props.Lines
import Verif.Props.WholeFile
/-!
# C71: text files
-/

namespace Verif
open Py Spec Cfg

namespace Spec
/-- what can be encoded can be decoded, with the same result -/
def Codec.Faithful (cd : Codec) : Prop := ∀ t b, cd.enc t = some b → cd.dec b = some t

/-- `t'` is `t` with each CR LF and each other CR replaced by LF -/
inductive Universal : Str → Str → Prop
  | nil : Universal [] []
  | crlf {t t'} : Universal t t' → Universal ('\r' :: '\n' :: t) ('\n' :: t')
  | cr {t t'} : t.head? ≠ some '\n' → Universal t t' → Universal ('\r' :: t) ('\n' :: t')
  | char {c t t'} : c ≠ '\r' → Universal t t' → Universal (c :: t) (c :: t')
end Spec

theorem universal_of : ∀ t : Str, Universal t (fromUniversal t)
  | [] => .nil
  | [c] => by
    unfold fromUniversal
    by_cases h : c = '\r'
    · rw [if_pos h, h]; exact .cr (by simp) .nil
    · rw [if_neg h]; exact .char h .nil
  | c :: d :: t => by
    unfold fromUniversal
    by_cases h : c = '\r'
    · rw [if_pos h, h]
      by_cases h2 : d = '\n'
      · rw [if_pos h2, h2]; exact .crlf (universal_of t)
      · rw [if_neg h2]; exact .cr (by simpa using h2) (universal_of (d :: t))
    · rw [if_neg h]; exact .char h (universal_of (d :: t))

theorem universal_unique {t a b : Str} (h : Universal t a) (h' : Universal t b) : a = b := by
  induction h generalizing b with
  | nil => cases h'; rfl
  | crlf _ ih =>
    cases h' with
    | crlf h2 => rw [ih h2]
    | cr h1 _ => simp at h1
    | char h1 _ => simp at h1
  | cr h1 _ ih =>
    cases h' with
    | crlf h2 => simp at h1
    | cr _ h2 => rw [ih h2]
    | char h1 _ => simp at h1
  | char h1 _ ih =>
    cases h' with
    | crlf h2 => simp at h1
    | cr _ h2 => simp at h1
    | char _ h2 => rw [ih h2]

/-- Universal newlines leave no CR. -/
theorem universal_no_cr {t a : Str} (h : Universal t a) : '\r' ∉ a := by
  induction h with
  | nil => simp
  | crlf _ ih => simp [ih]
  | cr _ _ ih => simp [ih]
  | char h _ ih => simp [ih, Ne.symm h]

/-- A text without CR stays as it is. -/
theorem universal_same : ∀ {t : Str}, '\r' ∉ t → Universal t t
  | [], _ => .nil
  | c :: t, h => .char (by intro e; apply h; simp [e]) (universal_same (by intro e; apply h; simp [e]))

/-! ## one write -/

/-- Without line buffering, writing a text is writing its bytes. -/
theorem textWrite_eq (cd : Codec) {h : Nat} {t : Str} {b : Bytes} (hb : cd.enc t = some b) {s : FS}
    (hr : (s.handles h).rawIo = false) : textWrite cd false h t s = (write h b >>= fun _ => M.pure t.length) s := by
  unfold textWrite write
  rw [M.bindAssoc]
  rw [M.bind_eq, M.bind_eq]
  dsimp only [M.get]
  by_cases hl : s.isLarge (s.handles h).obj = true
  · rw [if_pos hl, if_pos hl]; rfl
  rw [if_neg hl, if_neg hl]
  simp only [M.bindAssoc, M.pureBind]
  rw [M.bind_eq, M.bind_eq]
  rcases hc : checkOpen h s with ⟨_ | u, s1⟩
  · rfl
  have hs1 : s1 = s := by
    unfold checkOpen at hc; split at hc <;> (injection hc with _ hc; exact hc.symm)
  subst hs1
  dsimp only
  by_cases hu : (s1.handles h).update = false
  · rw [if_pos hu, if_pos hu, if_neg (by rw [hr]; simp), M.bind_eq]
    unfold hRaise
    rw [M.bind_eq]
    dsimp only [hget]
    split <;> rfl
  rw [if_neg hu, if_neg hu]
  unfold textWrapper writeWrapper
  rw [M.bindAssoc, M.bind_eq, M.bind_eq]
  dsimp only [hget]
  rw [hb]
  dsimp only
  simp only [Bool.false_and, Bool.or_false, Bool.false_eq_true, or_false, M.bindAssoc, M.iteBind, M.pureBind]

/-- A text that cannot be encoded: ValueError, and nothing has happened. -/
theorem textWrite_bad (cd : Codec) (lb : Bool) {h : Nat} {t : Str} (hb : cd.enc t = none) {s : FS} (hu : (s.handles h).update = true)
    (ho : s.isOpen h = true) (hl : s.isLarge (s.handles h).obj = false) : textWrite cd lb h t s = (.error .valueError, s) := by
  unfold textWrite
  rw [M.bind_eq]
  dsimp only [M.get]
  rw [if_neg (by rw [hl]; simp), M.bind_eq, checkOpen_ok ho]
  dsimp only
  rw [if_neg (by rw [hu]; simp)]
  unfold textWrapper
  rw [M.bind_eq]
  dsimp only [hget]
  rw [hb]
  rfl

/-! ## `Path.write_text` and `Path.read_text` -/

theorem withFile_bind {α β : Type} (h : Nat) (m : M α) (f : α → β) (s : FS) :
    withFile h (m >>= fun a => M.pure (f a)) s = (match (withFile h m s).1 with | .ok a => .ok (f a) | .error e => .error e, (withFile h m s).2) := by
  have e2 : ((m >>= fun a => M.pure (f a)) s).2 = (m s).2 := by
    rw [M.bind_eq]; rcases m s with ⟨_ | a, t⟩ <;> rfl
  unfold withFile
  rw [e2]
  rcases hClose h (m s).2 with ⟨_ | u, s2⟩
  · rfl
  · dsimp only
    rw [M.bind_eq]
    rcases m s with ⟨_ | a, t⟩ <;> rfl

/-- **C71** (writing). `Path(p).write_text(t)` on an existing file: if the text can be encoded it stores exactly its encoding and
returns the number of its characters, or fails as `write_bytes` does; if it cannot be encoded, it raises ValueError, and the file is empty, nothing
else has changed. -/
theorem writeText_existing {s : FS} (hs : Reachable s) {p : Str} {r : Ref} {C : Bytes} (hl : LeadsTo s p r C) (cd : Codec) (t : Str) :
    (∀ b, cd.enc t = some b →
      match writeText cd p t s with
      | (.ok n, s') => n = t.length ∧ Reachable s' ∧ Holds s s' r b ∧
          ∀ q r' C', LeadsTo s q r' C' → LeadsTo s' q r' (if r' = r then b else C')
      | (.error e, s') => (e = .os .EACCES ∧ OpenDenied s r wbMode ∧ s' = s) ∨
          (e = .os .ENOSPC ∧ fits (s.heap r).dev ((b.length : Int) - s.stSize (s.heap r)) s.mounts = false ∧ (s' = s ∨ Holds s s' r []))) ∧
    (cd.enc t = none →
      match writeText cd p t s with
      | (.ok _, _) => False
      | (.error e, s') => (e = .os .EACCES ∧ OpenDenied s r wbMode ∧ s' = s) ∨
          (e = .os .ENOSPC ∧ fits (s.heap r).dev (-(s.stSize (s.heap r) : Int)) s.mounts = false ∧ (s' = s ∨ Holds s s' r [])) ∨
          (e = .valueError ∧ Holds s s' r [])) := by
  have e0 : writeText cd p t s = (openPath p wbMode none false false >>= fun h => withFile h (textWrite cd false h t)) s := rfl
  have h1 := open_wb hs hl
  constructor
  · intro b hb
    have hwb := writeBytes_existing hs hl b
    have e1 : writeBytes p b s = (openPath p wbMode none false false >>= fun h => withFile h (write h b)) s := rfl
    rw [e0, M.bind_eq]
    rw [e1, M.bind_eq] at hwb
    rcases ho : openPath p wbMode none false false s with ⟨e | h, s1⟩
    · rw [ho] at hwb
      exact hwb
    · rw [ho] at h1 hwb
      obtain ⟨_, k2, _, _⟩ := h1
      dsimp only at hwb ⊢
      have e2 : withFile h (textWrite cd false h t) s1 = withFile h (write h b >>= fun _ => M.pure t.length) s1 := by
        unfold withFile
        rw [textWrite_eq cd hb k2.raw]
      rw [e2, withFile_bind]
      have h3 := store_fresh k2 b
      rcases hw : withFile h (write h b) s1 with ⟨e | n, s2⟩
      · rw [hw] at hwb
        exact hwb
      · rw [hw] at hwb
        exact ⟨rfl, hwb.2⟩
  · intro hb
    rw [e0, M.bind_eq]
    rcases ho : openPath p wbMode none false false s with ⟨e | h, s1⟩
    · rw [ho] at h1
      obtain ⟨k1, k2⟩ := h1
      dsimp only
      rcases k2 with ⟨k2, k3⟩ | ⟨k2, k3⟩
      · exact Or.inl ⟨k2, k3, k1⟩
      · exact Or.inr (Or.inl ⟨k2, k3, Or.inl k1⟩)
    · rw [ho] at h1
      obtain ⟨k1, k2, k3, k4⟩ := h1
      dsimp only
      have hlarge : s1.isLarge (s1.handles h).obj = false := by unfold FS.isLarge; rw [k2.obj, k2.data]
      have e2 := textWrite_bad cd false hb k2.update k2.isOpen hlarge
      have hcl := close_w (s := s1) (h := h) (r := r) (C := []) k2.isOpen k2.kind k2.append k2.raw k2.update k2.del k2.obj k2.notNull k2.data
      rw [k2.buf, stSize_zero k2.size] at hcl
      unfold withFile
      rw [e2]
      dsimp only
      unfold wp at hcl
      rcases hc : hClose h s1 with ⟨res, s2⟩
      rw [hc] at hcl
      dsimp only at hcl
      have ez : (((([] : Bytes).length : Nat) : Int) - (0 : Nat)) = 0 := by simp
      rw [ez] at hcl
      have hsh := sh_close (s := s1) (h := h) k2.del
      rw [hc] at hsh
      rcases hcl with ⟨m1, m2, m3⟩ | ⟨m1, m2, m3⟩
      · subst m1
        refine Or.inr (Or.inl ⟨rfl, ?_, Or.inr (Holds.trans k3 ⟨by rw [m3]; exact k2.data, by rw [m3]; exact k2.size, fun x _ => by rw [m3], hsh⟩)⟩)
        cases hf : fits (s.heap r).dev (-(s.stSize (s.heap r) : Int)) s.mounts with
        | false => rfl
        | true =>
          have := k4 0 (by rw [Int.zero_sub]; exact hf)
          rw [this] at m2; cases m2
      · subst m1
        exact Or.inr (Or.inr ⟨rfl, Holds.trans k3 m3⟩)

/-- **C71** (reading). `Path(p).read_text()` on an existing file returns the decoded contents with universal newlines, or raises
ValueError if they cannot be decoded; in both cases nothing changes but the access time. It fails otherwise only with EACCES, without any effect. -/
theorem readText_existing {s : FS} (hs : Reachable s) {p : Str} {r : Ref} {C : Bytes} (hl : LeadsTo s p r C) (cd : Codec) :
    match readText cd p s with
    | (.ok t, s') => (∃ u, cd.dec C = some u ∧ Universal u t) ∧ ¬ OpenDenied s r rbMode ∧ Reachable s' ∧ OnlyRead s s' r
    | (.error e, s') => (e = .valueError ∧ cd.dec C = none ∧ Reachable s' ∧ OnlyRead s s' r) ∨ (e = .os .EACCES ∧ OpenDenied s r rbMode ∧ s' = s) := by
  have e0 : readText cd p s = (openPath p rbMode none false false >>= fun h => withFile h (textRead cd h)) s := rfl
  have h1 := readBytes_existing hs hl
  have e1 : readBytes p s = (openPath p rbMode none false false >>= fun h => withFile h (read h none)) s := rfl
  rw [e1, M.bind_eq] at h1
  rw [e0, M.bind_eq]
  rcases ho : openPath p rbMode none false false s with ⟨e | h, s1⟩
  · rw [ho] at h1
    exact Or.inr h1
  · rw [ho] at h1
    dsimp only at h1 ⊢
    have e2 : (textRead cd h s1).2 = (read h none s1).2 := by
      unfold textRead
      rw [M.bind_eq]
      rcases read h none s1 with ⟨_ | b, s2⟩
      · rfl
      · dsimp only
        cases cd.dec b <;> rfl
    have e3 : (textRead cd h s1).1 = match (read h none s1).1 with
        | .error e => .error e
        | .ok b => match cd.dec b with | none => .error .valueError | some u => .ok (fromUniversal u) := by
      unfold textRead
      rw [M.bind_eq]
      rcases read h none s1 with ⟨_ | b, s2⟩
      · rfl
      · dsimp only
        cases cd.dec b <;> rfl
    unfold withFile at h1 ⊢
    rw [e2]
    rcases hc : hClose h (read h none s1).2 with ⟨e | u, s2⟩
    · rw [hc] at h1
      exact Or.inr h1
    · rw [hc] at h1
      dsimp only at h1 ⊢
      rw [e3]
      cases hrd : (read h none s1).1 with
      | error e => rw [hrd] at h1; exact Or.inr h1
      | ok b =>
        rw [hrd] at h1
        dsimp only at h1 ⊢
        obtain ⟨rfl, k1, k2, k3⟩ := h1
        cases hd : cd.dec b with
        | none => exact Or.inl ⟨rfl, rfl, k2, k3⟩
        | some u => exact ⟨⟨u, rfl, universal_of u⟩, k1, k2, k3⟩

/-- **C71**: a text without CR, written to an existing file, is read back through any name of the file. -/
theorem write_read_text {s s' : FS} (hs : Reachable s) {p : Str} {r : Ref} {C : Bytes} (hl : LeadsTo s p r C) {cd : Codec} (hcd : Codec.Faithful cd)
    {t : Str} (ht : '\r' ∉ t) {n : Nat}
    (hw : writeText cd p t s = (.ok n, s')) {q : Str} {C' : Bytes} (hq : LeadsTo s q r C') (hd : ¬ OpenDenied s r rbMode) :
    n = t.length ∧ ∃ s2, readText cd q s' = (.ok t, s2) := by
  obtain ⟨h1, h2⟩ := writeText_existing hs hl cd t
  cases hb : cd.enc t with
  | none => have := h2 hb; rw [hw] at this; exact this.elim
  | some b =>
    have h3 := h1 b hb
    rw [hw] at h3
    obtain ⟨k1, k2, k3, k4⟩ := h3
    refine ⟨k1, ?_⟩
    have h5 := k4 q r C' hq
    rw [if_pos rfl] at h5
    have h6 := readText_existing k2 h5 cd
    have hdec := hcd t b hb
    rcases hr : readText cd q s' with ⟨e | c, s2⟩
    · rw [hr] at h6
      exfalso
      rcases h6 with ⟨_, h7, _⟩ | ⟨_, ⟨h7, h8⟩, _⟩
      · rw [hdec] at h7; cases h7
      · apply hd
        have hroot : s'.isRoot = s.isRoot := by rw [k3.shape.env]; rfl
        unfold OpenDenied
        rw [← hroot, ← (k3.shape.objs r).mode]
        exact ⟨h7, h8⟩
    · rw [hr] at h6
      obtain ⟨⟨u, h7, h8⟩, _⟩ := h6
      rw [hdec] at h7
      injection h7 with h7
      subst h7
      rw [universal_unique h8 (universal_same ht)]
      exact ⟨s2, rfl⟩

/-! ## several writes, and line buffering -/

section
variable {s : FS} {h : Nat} {r : Ref} {c : Cursor}

theorem okp_textWrite (cd : Codec) (lb : Bool) (b : ByteFile false s h r c) (t : Str) (he : c.pos = c.data.length) :
    Okp (textWrite cd lb h t) (fun n s' => ∃ x, cd.enc t = some x ∧ n = t.length ∧ ByteFile false s' h r ⟨c.data ++ x, (c.data ++ x).length⟩ ∧
      (lb = true → '\n' ∈ t → (s'.heap r).content = .file (some (c.data ++ x)))) s := by
  have hput : ∀ x, put c.data c.pos x = c.data ++ x := by
    intro x
    rw [← bioWrite_put, he]
    unfold Bio.write
    split
    · rename_i h; rw [h, List.append_nil]
    · simp
  unfold textWrite
  apply okp_get
  dsimp only
  rw [if_neg (by rw [b.notLarge]; simp)]
  apply okp_eqBind (checkOpen_ok b.isOpen)
  by_cases hu : (s.handles h).update = false
  · rw [if_pos hu]; exact okp_hRaise
  rw [if_neg hu]
  rw [Bool.not_eq_false] at hu
  unfold textWrapper
  apply okp_hget
  cases hx : cd.enc t with
  | none => exact okp_throw _
  | some x =>
  dsimp only
  apply okp_seq _ (okp_rawWrite b hu x)
  rintro _ s1 ⟨b1, hu1, hh1⟩
  have ha : (s.handles h).append = false := b.append
  rw [ha]
  simp only [Bool.false_eq_true, if_false]
  have hlen : c.pos + x.length = (c.data ++ x).length := by rw [List.length_append, he]
  rw [hput, hlen] at b1
  have flushIt : ∀ {s2 c'}, ByteFile false s2 h r c' → (s2.handles h).update = true → ∀ o, Okp (tryFlush h o) (fun _ s' => ByteFile false s' h r c' ∧ (s'.handles h).update = true ∧
      (s'.heap r).content = .file (some c'.data)) s2 := by
    intro s2 c' b2 hu2 o
    unfold tryFlush
    apply okp_hget
    apply okp_catch
    · exact okp_mono (okp_flush b2.toByteRaw hu2) fun _ _ h => ⟨h.1, h.2.2.1, h.2.1⟩
    · intro e s'
      exact okp_bind ⟨fun _ s'' _ => okp_throw _⟩
  apply okp_ite
  · intro hov
    by_cases hall : (decide (x.length > (s.handles h).bufferSize) || (lb && decide ('\n' ∈ t))) = true
    · rw [hall]
      simp only [Bool.not_true, Bool.false_eq_true, if_false]
      apply okp_seq _ (flushIt b1 hu1 _)
      rintro _ s2 ⟨b2, hu2, hc2⟩
      exact okp_pure ⟨x, rfl, rfl, b2, fun _ _ => hc2⟩
    · rw [Bool.not_eq_true] at hall
      rw [hall]
      simp only [Bool.not_false, if_true]
      apply okp_hmodBind
      have b2 : ByteFile false (s1.setH h fun H => { H with buf := H.buf.take (s.handles h).pos, pos := (s.handles h).pos }) h r
          ⟨c.data, c.data.length⟩ := by
        refine ⟨b1.toByteRaw.setH ⟨rfl, rfl, rfl, rfl, rfl, rfl⟩ ?_ (b.pos.trans he) ?_, ?_⟩
        · dsimp only; rw [b1.buf, b.pos, he, List.take_left]
        · rw [hu1]; simp
        · rw [setH_same]; exact b1.epoch
      apply okp_seq _ (flushIt b2 (by rw [setH_same]; exact hu1) _)
      rintro _ s3 ⟨b3, hu3, _⟩
      apply okp_seq _ (okp_rawWrite b3 hu3 x)
      rintro _ s4 ⟨b4, _, _⟩
      dsimp only at b4
      have : put c.data c.data.length x = c.data ++ x := by rw [← he]; exact hput x
      rw [this, ← List.length_append] at b4
      refine okp_pure ⟨x, rfl, rfl, b4, fun h1 h2 => ?_⟩
      rw [Bool.or_eq_false_iff] at hall
      rw [h1, decide_eq_true h2] at hall
      exact absurd hall.2 (by simp)
  · intro hov
    refine okp_pure ⟨x, rfl, rfl, b1, fun h1 h2 => absurd (Or.inr ?_) hov⟩
    rw [h1, decide_eq_true h2]; rfl

theorem fq_textWrite (cd : Codec) (lb : Bool) (h : Nat) (t : Str) : Fr Quiet (textWrite cd lb h t) := by
  have h1 := fq_checkOpen h
  have h2 := fun o => fq_tryFlush h o
  have h3 := fun b => fq_rawWrite h b
  have h4 : Fr Quiet (hRaise h : M Nat) := fq_hRaise h
  unfold textWrite textWrapper
  fq <;> first | exact h2 _ | exact h3 _

/-- one `write` after the other -/
def textRun (cd : Codec) (lb : Bool) (h : Nat) : List Str → M (List Nat)
  | [] => M.pure []
  | t :: ts => textWrite cd lb h t >>= fun n => textRun cd lb h ts >>= fun ns => M.pure (n :: ns)

/-- the encodings of the texts, one after the other -/
def Spec.encAll (cd : Codec) : List Str → Option Bytes
  | [] => some []
  | t :: ts => match cd.enc t, encAll cd ts with
    | some b, some bs => some (b ++ bs)
    | _, _ => none

theorem okp_textRun (cd : Codec) (lb : Bool) : ∀ (ts : List Str) {s : FS} {A : Bytes}, ByteFile false s h r ⟨A, A.length⟩ →
    Okp (textRun cd lb h ts) (fun ns s' => ∃ x, encAll cd ts = some x ∧ ns = ts.map List.length ∧ ByteFile false s' h r ⟨A ++ x, (A ++ x).length⟩ ∧ Kept s s' h ∧
      (lb = true → (∃ t, ts.getLast? = some t ∧ '\n' ∈ t) → (s'.heap r).content = .file (some (A ++ x)))) s := by
  intro ts
  induction ts with
  | nil => intro s A b; exact okp_pure ⟨[], rfl, rfl, by rw [List.append_nil]; exact b, ⟨rfl, rfl⟩, fun _ ⟨t, h1, _⟩ => by simp at h1⟩
  | cons t ts ih =>
    intro s A b
    refine okp_seq _ (okp_quiet h (fq_textWrite cd lb h t) (okp_textWrite cd lb b t rfl)) ?_
    rintro n s1 ⟨⟨x, hx, rfl, b1, hl1⟩, k1⟩
    dsimp only at b1 hl1
    have hlast : ts = [] → ∀ u, (t :: ts).getLast? = some u → u = t := by rintro rfl u hu; simpa using hu.symm
    refine okp_seq (R := fun ns s' => (∃ y, encAll cd ts = some y ∧ ns = ts.map List.length ∧ ByteFile false s' h r ⟨A ++ x ++ y, (A ++ x ++ y).length⟩ ∧ Kept s1 s' h ∧
      (lb = true → (∃ t, ts.getLast? = some t ∧ '\n' ∈ t) → (s'.heap r).content = .file (some (A ++ x ++ y)))) ∧ (ts = [] → s' = s1)) (h := ?_) (hf := ?_)
    · constructor
      intro a s' e
      refine ⟨(ih b1).elim a s' e, ?_⟩
      rintro rfl
      injection e with _ e; exact e.symm
    rintro ns s2 ⟨⟨y, hy, rfl, b2, k2, hl2⟩, hnil⟩
    refine okp_pure ⟨x ++ y, ?_, rfl, by rw [← List.append_assoc]; exact b2, ⟨k2.bufSz.trans k1.bufSz, k2.del.trans k1.del⟩, ?_⟩
    · unfold encAll; rw [hx, hy]
    · rintro hlb ⟨u, hu, hnl⟩
      rw [← List.append_assoc]
      cases hts : ts with
      | nil =>
        have : u = t := hlast hts u hu
        subst this
        rw [hts] at hy
        injection hy with hy
        rw [hnil hts, ← hy, List.append_nil]
        exact hl1 hlb hnl
      | cons v ts' =>
        refine hl2 hlb ⟨u, ?_, hnl⟩
        rw [hts] at hu ⊢
        rw [List.getLast?_cons_cons] at hu; exact hu

end

/-- **C71** (text file objects). After opening a file for writing text (modes `'w'`, `'x'`: it is empty), a sequence of `write` calls that
all succeed returns the numbers of characters, and after closing the file holds the encodings one after the other; if it was
opened with line buffering, it holds everything written so far as soon as a `write` of a text with a newline returns. -/
theorem text_file {s s1 s2 : FS} (hr : Reachable s) {p : Str} {md : OpenModes} {h : Nat} {bf : Option Nat}
    (ho : openPath p md bf false false s = (.ok h, s1)) (ha : md.append = false)
    (hn : (s1.handles h).obj ≠ devNullRef) (hC : (s1.heap (s1.handles h).obj).content = .file (some []))
    (cd : Codec) (lb : Bool) (ts : List Str) {ns : List Nat} (hrun : textRun cd lb h ts s1 = (.ok ns, s2)) :
    ns = ts.map List.length ∧ ∃ x, encAll cd ts = some x ∧
      (lb = true → (∃ t, ts.getLast? = some t ∧ '\n' ∈ t) → (s2.heap (s1.handles h).obj).content = .file (some x)) ∧
      ∀ s3, hClose h s2 = (.ok (), s3) → (s3.heap (s1.handles h).obj).content = .file (some x) := by
  obtain ⟨b, hbs, hdel⟩ := byteFile_opened hr ho ha hn hC
  obtain ⟨x, h1, h2, h3, k, h4⟩ := (okp_textRun cd lb ts b).elim _ _ hrun
  exact ⟨h2, x, h1, h4, fun s3 hcl => (okp_close h3 (k.del.trans hdel)).elim _ _ hcl⟩

/-! ## examples -/

/-- ASCII -/
def ascii : Codec where
  enc t := if t.all (fun c => c.toNat < 128) then some (t.map fun c => UInt8.ofNat c.toNat) else none
  dec b := if b.all (fun x => x.toNat < 128) then some (b.map fun x => Char.ofNat x.toNat) else none

theorem ascii_faithful : Codec.Faithful ascii := by
  intro t b h
  unfold ascii at h ⊢
  dsimp only at h ⊢
  split at h
  · rename_i ha
    injection h with h
    subst h
    rw [List.all_eq_true] at ha
    have hv : ∀ c ∈ t, (UInt8.ofNat c.toNat).toNat = c.toNat := by
      intro c hc
      have := of_decide_eq_true (ha c hc)
      rw [UInt8.toNat_ofNat']
      omega
    rw [if_pos, List.map_map]
    · congr 1
      conv => rhs; rw [← List.map_id t]
      apply List.map_congr_left
      intro c hc
      show Char.ofNat (UInt8.ofNat c.toNat).toNat = c
      rw [hv c hc, Char.ofNat_toNat]
    · rw [List.all_eq_true]
      intro x hx
      obtain ⟨c, hc, rfl⟩ := List.mem_map.mp hx
      rw [hv c hc]; exact ha c hc
  · cases h

example : (writeText ascii ['/', 'g'] ['a', '\n', 'b'] demo).1 = .ok 3 ∧
    (readText ascii ['/', 'l'] (writeText ascii ['/', 'g'] ['a', '\n', 'b'] demo).2).1 = .ok ['a', '\n', 'b'] ∧
    (writeText ascii ['/', 'g'] ['ü'] demo).1 = .error .valueError := by
  refine ⟨?_, ?_, ?_⟩ <;> decide +kernel

/-- the hypotheses of `text_file`: `/g` opened with `'w'`, `write('a\n')`, `write('bc')`; with line buffering the first line is already in
the file -/
example :
    let s1 := (openPath ['/', 'g'] wbMode none false false demo).2
    (openPath ['/', 'g'] wbMode none false false demo).1 = .ok 3 ∧ wbMode.append = false ∧ (s1.handles 3).obj = 3 ∧
    (s1.heap 3).content = .file (some []) ∧ (textRun ascii true 3 [['a', '\n'], ['b', 'c']] s1).1 = .ok [2, 2] ∧
    ((textRun ascii true 3 [['a', '\n'], ['b', 'c']] s1).2.heap 3).content = .file (some [97, 10]) ∧
    ((hClose 3 (textRun ascii true 3 [['a', '\n'], ['b', 'c']] s1).2).2.heap 3).content = .file (some [97, 10, 98, 99]) := by
  refine ⟨?_, ?_, ?_, ?_, ?_, ?_, ?_⟩ <;> decide +kernel

end Verif
