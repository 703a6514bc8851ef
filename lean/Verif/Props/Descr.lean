import Verif.IoTree
import Mathlib.Data.Fintype.Option
import Verif.Props.Fd
import Verif.Props.Modes
import Verif.Props.Remove
import Verif.Props.Visible
/-!
# C51, C52: descriptors keep their file, and using them does not touch the tree
-/

namespace Verif
open Py Spec Cfg

/-! ## The three parts of `close` -/

/-- `close`: writing back (fake_filesystem.py 4722-4725) -/
def closeHead (H : Handle) (h : Nat) : M Unit :=
  if H.update ∧ H.rawIo = false then do
    flush h
    let s ← M.get
    if s.cfg.isWin ∧ (s.handles h).changed then M.modify fun s => s.setObj H.obj fun o => { o with mtime := s.clock }
    else M.pure ()
  else M.pure ()

/-- `close`: the table of open files (fake_filesystem.py 4726-4729) -/
def closeTable (H : Handle) (h : Nat) : M Unit :=
  if H.closefd then closeOpenFile H.fd
  else M.modify fun s => { s with openFiles := s.openFiles.modify H.fd fun e => e.map fun l => l.erase h }

/-- `close`: delete-on-close (fake_filesystem.py 4730-4731) -/
def closeDelete (H : Handle) : M Unit :=
  if H.deleteOnClose then do
    let s ← M.get
    removeObject (s.objPath H.obj)
  else M.pure ()

theorem rd_run {α : Type} (f : FS → Except Err α) (s : FS) : rd f s = (f s, s) := rfl
theorem M.pureBind {α β : Type} (a : α) (f : α → M β) : (M.pure a >>= f) = f a := rfl
theorem M.bindAssoc {α β γ : Type} (m : M α) (f : α → M β) (g : β → M γ) : (m >>= f >>= g) = (m >>= fun a => f a >>= g) := by
  funext s
  simp only [M.bind_eq]
  rcases m s with ⟨_ | a, s'⟩ <;> rfl
theorem M.iteBind {α β : Type} {c : Prop} [Decidable c] (a b : M α) (f : α → M β) : ((if c then a else b) >>= f) = if c then a >>= f else b >>= f := by
  split <;> rfl

theorem hClose_file {s : FS} {h : Nat} (hk : (s.handles h).kind = .file) (ho : s.isOpen h = true) :
    hClose h s = (closeHead (s.handles h) h >>= fun _ => closeTable (s.handles h) h >>= fun _ => closeDelete (s.handles h)) s := by
  unfold hClose
  rw [M.bind_eq]
  dsimp only [M.get]
  rw [hk, ho]
  unfold closeHead closeTable closeDelete
  simp only [M.iteBind, M.bindAssoc, M.pureBind]
  rfl

theorem sh_closeHead (H : Handle) (h : Nat) : Fr Shape (closeHead H h) := by
  have h1 := sh_flush h
  have h3 : ∀ r, Fr Shape (M.modify fun s => s.setObj r fun o => { o with mtime := s.clock }) :=
    fun r => sh_setObj r (fun s o => { o with mtime := s.clock }) fun _ => Skel.same rfl rfl rfl rfl rfl rfl rfl rfl rfl rfl
  unfold closeHead
  exact sh_ite (fun _ => sh_bind h1 fun _ => sh_bind sh_get fun s => sh_ite (fun _ => h3 _) fun _ => sh_pure _) fun _ => sh_pure _
theorem sh_closeTable (H : Handle) (h : Nat) : Fr Shape (closeTable H h) := by
  have h4 : ∀ fd, Fr Shape (M.modify fun s => { s with openFiles := s.openFiles.modify fd fun e => e.map fun l => l.erase h }) :=
    fun fd => sh_openFiles fun s => s.openFiles.modify fd fun e => e.map fun l => l.erase h
  unfold closeTable
  exact sh_ite (fun _ => sh_closeOpenFile _) fun _ => h4 _

/-- closing a file that is not to be deleted -/
theorem sh_close {s : FS} {h : Nat} (hd : (s.handles h).deleteOnClose = false) : Shape s (hClose h s).2 := by
  by_cases hk : (s.handles h).kind = .file
  · by_cases ho : s.isOpen h = true
    · rw [hClose_file hk ho]
      refine sh_bind (sh_closeHead _ _) (fun _ => sh_bind (sh_closeTable _ _) fun _ => ?_) s
      unfold closeDelete
      rw [hd]
      exact sh_pure _
    · unfold hClose
      rw [M.bind_eq]
      dsimp only [M.get]
      rw [hk]
      dsimp only
      rw [if_pos (by simpa using ho)]
      exact Shape.refl s
  · unfold hClose
    rw [M.bind_eq]
    dsimp only [M.get]
    cases hk' : (s.handles h).kind with
    | std => exact Shape.refl s
    | dir => exact sh_closeOpenFile _ s
    | file => exact absurd hk' hk

namespace Spec
/-- the calls that work on the contents of files: reading, writing, positioning, truncating, flushing, and closing a file that
is not to be deleted when closed -/
inductive IoCall (s : FS) : Op → Prop
  | truncate (p : Str) (n : Nat) : IoCall s (.truncate p n)
  | ftruncate (fd : Int) (n : Nat) : IoCall s (.ftruncate fd n)
  | osRead (fd : Int) (n : Nat) : IoCall s (.osRead fd n)
  | osWrite (fd : Int) (b : Bytes) : IoCall s (.osWrite fd b)
  | read (h : Nat) (n : Option Nat) : IoCall s (.hRead h n)
  | write (h : Nat) (b : Bytes) : IoCall s (.hWrite h b)
  | seek (h : Nat) (off : Int) (whence : Nat) : IoCall s (.hSeek h off whence)
  | tell (h : Nat) : IoCall s (.hTell h)
  | trunc (h : Nat) (n : Option Nat) : IoCall s (.hTruncate h n)
  | flush (h : Nat) : IoCall s (.hFlush h)
  | close (h : Nat) : (s.handles h).deleteOnClose = false → IoCall s (.hClose h)
  | osClose (fd : Int) : (∀ h, s.getOpen fd = .ok h → (s.handles h).deleteOnClose = false) → IoCall s (.osClose fd)
end Spec

/-- C52: reading, writing, positioning, truncating, flushing and closing change nothing but the contents, sizes and time stamps of
files, the used sizes and the table of open files: every directory keeps its entries, every object its name, mode, link count,
inode and device number, owner and attributes; no object appears. -/
theorem io_keeps_tree {s : FS} {o : Op} (h : IoCall s o) : Shape s (o.next s) := by
  cases h with
  | truncate p n => exact sh_truncate p n s
  | ftruncate fd n => exact sh_ftruncate fd n s
  | osRead fd n => exact sh_void (sh_osRead fd n) s
  | osWrite fd b => exact sh_void (sh_osWrite fd b) s
  | read h n => exact sh_onFile (sh_read h n) s
  | write h b => exact sh_onFile (sh_write h b) s
  | seek h off w => exact sh_onFile (sh_seek h off w) s
  | tell h => exact sh_onFile (sh_tell h) s
  | trunc h n => exact sh_onFile (sh_hTruncate h n) s
  | flush h => exact sh_onFile (sh_flush h) s
  | close h hd =>
    show Shape s (onFile h (hClose h) s).2
    unfold onFile
    rw [M.bind_eq]
    dsimp only [M.get]
    split
    · show Shape s ((hClose h >>= fun _ => M.pure ()) s).2
      rw [M.bind_eq]
      have := sh_close hd
      rcases hr : hClose h s with ⟨_ | _, t⟩ <;> (rw [hr] at this; exact this)
    · exact Shape.refl s
  | osClose fd hd =>
    show Shape s (osClose fd s).2
    unfold osClose
    cases hg : s.getOpen fd with
    | error e => rw [M.bind_eq, rd_run, hg]; exact Shape.refl s
    | ok h => rw [M.bind_eq, rd_run, hg]; exact sh_close (hd h hg)

/-- … so every path leads where it led before, unless the contents of a symlink were written. -/
theorem io_keeps_paths {s : FS} {o : Op} (h : IoCall s o) (hl : ∀ r, (s.heap r).isLnk = true → ((o.next s).heap r).content = (s.heap r).content)
    (p : Str) (f c : Bool) : (o.next s).resolve p f c = s.resolve p f c ∧ (o.next s).exists_ p = s.exists_ p := by
  have k := io_keeps_tree h
  have hent : ∀ x, ((o.next s).heap x).entries = (s.heap x).entries := by
    intro x
    cases hd : (s.heap x).isDir with
    | true => unfold Obj.entries; rw [(k.objs x).dir hd]
    | false => rw [mem_entries_nil hd, mem_entries_nil ((k.objs x).file hd)]
  have hcfg : (o.next s).cfg = s.cfg := by rw [k.env]
  have ag : Agree (fun _ => True) s (o.next s) := by
    refine ⟨hcfg, by rw [k.env], by rw [k.env], by rw [k.env], (k.objs devNullRef).name, fun x _ => (k.objs x).mode, fun x _ => ?_, fun x _ => hent x, fun x _ hx => ?_⟩
    · cases hd : (s.heap x).isDir with
      | true => unfold Obj.isDir at hd ⊢; rw [(k.objs x).dir hd]; exact hd
      | false => exact (k.objs x).file hd
    · unfold FS.linkTarget
      rw [hl x hx, hcfg]
  exact ⟨ag.resolve (closed_true s) p f c, ag.exists_ (closed_true s) p⟩

/-! ## C51: descriptors keep their file -/

/-- C51: `stat` reports exactly what is stored with the object the path leads to. -/
theorem stat_fields {s : FS} {p : Str} {f : Bool} {a : Stat} (h : s.stat p f = .ok a) :
    ∃ r, s.resolve p f false = .ok r ∧ a.mode = (s.heap r).mode ∧ a.ino = (s.heap r).ino ∧ a.dev = (s.heap r).dev ∧ a.nlink = (s.heap r).nlink ∧
      a.uid = (s.heap r).uid ∧ a.gid = (s.heap r).gid ∧ a.atime = (s.heap r).atime ∧ a.mtime = (s.heap r).mtime ∧ a.ctime = (s.heap r).ctime ∧
      (s.cfg.isWin = false → a.size = (s.heap r).size) := by
  obtain ⟨r, h1, h2⟩ := stat_ok h
  subst h2
  refine ⟨r, h1, rfl, rfl, rfl, rfl, rfl, rfl, rfl, rfl, rfl, fun h3 => ?_⟩
  show s.stSize (s.heap r) = _
  unfold FS.stSize
  rw [if_neg (by rw [h3]; simp)]

/-- C51: as long as a descriptor stays open it refers to the same file object: one call either closes it or leaves it. -/
theorem descriptor_step {s : FS} (hs : Reachable s) (o : Op) {fd h : Nat} (hg : s.getOpen fd = .ok h) (hu : InUse (o.next s) fd) :
    (o.next s).getOpen fd = .ok h ∧ ((o.next s).handles h).obj = (s.handles h).obj ∧ ((o.next s).handles h).kind = (s.handles h).kind := by
  have hi := reachable_fdInv hs
  obtain ⟨hi', st⟩ := fdInv_step o s hi
  have hl : h < s.hnext ∧ ∃ l, s.openFiles[fd]? = some (some (h :: l)) := by
    obtain ⟨i, l, e, hf⟩ := getOpen_slot hg
    have : fd = i := by have := hf (Int.natCast_nonneg _); exact_mod_cast this
    subst this
    exact ⟨(hi.mem _ _ e h (by simp)).1, l, e⟩
  obtain ⟨hlt, l, hl⟩ := hl
  have fl := flags_step o s
  refine ⟨?_, fl.obj h hlt, fl.kind h hlt⟩
  obtain ⟨l', hl'⟩ := hu
  have hh : ∃ l2, l' = h :: l2 := by
    rcases st fd l' hl' with ⟨l0, e1, _, e3⟩ | ⟨_, e2⟩ | ⟨_, _, _, l0, _, e2, e3⟩
    · rw [hl] at e1; injection e1 with e1; injection e1 with e1
      rw [← e1] at e3
      cases l' with
      | nil => simp at e3
      | cons a l2 => simp at e3; exact ⟨l2, by rw [e3]⟩
    · exact absurd ⟨_, hl⟩ e2
    · rw [hl] at e2; injection e2 with e2; injection e2 with e2
      subst e2
      exact ⟨_, e3⟩
  obtain ⟨l2, rfl⟩ := hh
  rcases getOpen_spec hi' fd with ⟨_, e⟩ | ⟨h', l3, e1, e2⟩
  · exact absurd ⟨_, hl'⟩ e
  · rw [hl'] at e2; injection e2 with e2; injection e2 with e2; injection e2 with e2 _
    rw [e1, e2]

/-- C51: whatever is done in between (removing or renaming the file, reading, writing, other files being opened and closed), as long
as the descriptor has not been closed, `fstat` is about the same file: it reports the same inode number and the same type, and it
agrees with `stat` of every path leading to this file. -/
theorem fstat_same_file {s : FS} (hs : Reachable s) {fd : Nat} {a : Stat} (ha : s.fstat fd = .ok a) {ops : List Op}
    (hu : ∀ l, l <+: ops → InUse (runs l s) fd) :
    ∃ b, (runs ops s).fstat fd = .ok b ∧ ifmt b.mode = ifmt a.mode ∧ (a.ino ≠ none → b.ino = a.ino) ∧
      ∀ q f c, (runs ops s).stat q f = .ok c → c.ino ≠ none → c.ino = b.ino → c = b := by
  have key : ∀ (ops : List Op) (s : FS), Reachable s → ∀ h, s.getOpen fd = .ok h → (∀ l, l <+: ops → InUse (runs l s) fd) →
      (runs ops s).getOpen fd = .ok h ∧ ((runs ops s).handles h).obj = (s.handles h).obj ∧ ((runs ops s).handles h).kind = (s.handles h).kind := by
    intro ops
    induction ops with
    | nil => intro s _ h hg _; exact ⟨hg, rfl, rfl⟩
    | cons o ops ih =>
      intro s hs h hg hu
      obtain ⟨h1, h2, h3⟩ := descriptor_step hs o hg (hu [o] ⟨ops, rfl⟩)
      obtain ⟨k1, k2, k3⟩ := ih (o.next s) (reachable_runs hs [o]) h h1 (fun l hl => hu (o :: l) (by obtain ⟨m, rfl⟩ := hl; exact ⟨m, rfl⟩))
      exact ⟨k1, k2.trans h2, k3.trans h3⟩
  unfold FS.fstat at ha
  cases hg : s.getOpen fd with
  | error e => rw [hg] at ha; cases ha
  | ok h =>
    rw [hg] at ha
    change (if (s.handles h).kind = .std then _ else _) = _ at ha
    split at ha
    · cases ha
    rename_i hk
    injection ha with ha
    obtain ⟨k1, k2, k3⟩ := key ops s hs h hg hu
    have hlt : (s.handles h).obj < s.next := by
      obtain ⟨i, l, e, _⟩ := getOpen_slot hg
      exact (reachable_inStep hs h ((reachable_fdInv hs).mem _ _ e h (by simp)).1).lt
    have st := runs_step ops (reachable_inv hs)
    have hf : (runs ops s).fstat fd = .ok ((runs ops s).statOf (s.handles h).obj) := by
      unfold FS.fstat
      rw [k1]
      show (if ((runs ops s).handles h).kind = .std then _ else _) = _
      rw [if_neg (by rw [k3]; exact hk), k2]
    refine ⟨_, hf, ?_, fun hn => ?_, fun q f c hc hn he => ?_⟩
    · rw [← ha]; exact st.pers.ftype _ hlt
    · rw [← ha] at hn ⊢; exact st.pers.ino _ hlt hn
    · obtain ⟨y, hy, rfl⟩ := stat_ok hc
      obtain ⟨i, hi⟩ := Option.ne_none_iff_exists'.mp hn
      have e : y = (s.handles h).obj := st.inv.g.inoInj y (resolve_lt st.inv hy) _ (Nat.lt_of_lt_of_le hlt st.pers.next) i hi (he.symm.trans hi)
      rw [e]

/-- C51: the descriptor of a file just opened is about the file the path led to: `fstat` reports what is stored with it. -/
theorem fstat_open {s s' : FS} (hs : Reachable s) {p : Str} {r : Ref} {old : Bytes} (hp : p ≠ s.devName) (hex : s.exists_ p = .ok true)
    (hres : s.resolve p true false = .ok r) (hc : (s.heap r).content = .file (some old)) (hd : (s.heap r).isDirMode = false)
    (hn : r ≠ devNullRef) {md : OpenModes} {bf : Option Nat} {raw del : Bool} {h : Nat} (ho : openPath p md bf raw del s = (.ok h, s')) :
    ∃ a, s'.fstat (s'.handles h).fd = .ok a ∧ a.mode = (s'.heap r).mode ∧ a.ino = (s'.heap r).ino ∧ a.dev = (s'.heap r).dev ∧
      a.nlink = (s'.heap r).nlink ∧ a.uid = (s'.heap r).uid ∧ a.gid = (s'.heap r).gid ∧ a.atime = (s'.heap r).atime ∧
      a.mtime = (s'.heap r).mtime ∧ a.ctime = (s'.heap r).ctime ∧ (s.cfg.isWin = false → a.size = (s'.heap r).size) := by
  have e1 := open_existing hs hp hex hres hc hd hn md bf raw del
  have e2 := open_lowest hs p md bf raw del
  rw [ho] at e1 e2
  obtain ⟨_, _, _, e3, _⟩ := e1
  obtain ⟨_, _, _, e4, _⟩ := e2
  have hk := (open_rights hs ho).2.1
  refine ⟨s'.statOf r, ?_, rfl, rfl, rfl, rfl, rfl, rfl, rfl, rfl, rfl, fun h3 => ?_⟩
  · unfold FS.fstat
    rw [e4]
    show (if (s'.handles h).kind = .std then _ else _) = _
    rw [hk, if_neg (by decide), e3]
  · have hcfg : s'.cfg = s.cfg := by
      have := (runs_step [.openPath p md bf raw del] (reachable_inv hs)).pers.cfg
      have e : runs [.openPath p md bf raw del] s = s' := by
        show ((openPath p md bf raw del).void s).2 = s'
        unfold M.void; rw [M.bind_eq, ho]; rfl
      rw [e] at this; exact this
    show s'.stSize (s'.heap r) = _
    unfold FS.stSize
    rw [if_neg (by rw [hcfg, h3]; simp)]

/-! ## closefd and delete-on-close -/

/-- An old handle found in a slot was there already. -/
theorem slot_back {s : FS} (hi : FdInv s) {h : Nat} (hl : h < s.hnext) : ∀ (ops : List Op) {i : Nat} {l : List Nat},
    (runs ops s).openFiles[i]? = some (some l) → h ∈ l → ∃ l0, s.openFiles[i]? = some (some l0) ∧ h ∈ l0 := by
  intro ops
  induction ops generalizing s with
  | nil => intro i l h1 h2; exact ⟨l, h1, h2⟩
  | cons o ops ih =>
    intro i l h1 h2
    obtain ⟨hi', st⟩ := fdInv_step o s hi
    obtain ⟨l1, e1, e2⟩ := ih hi' (Nat.lt_of_lt_of_le hl (flags_step o s).hnext) h1 h2
    rcases st i l1 e1 with ⟨l0, k1, k2, _⟩ | ⟨k1, _⟩ | ⟨_, _, _, l0, _, k1, k2⟩
    · exact ⟨l0, k1, k2 e2⟩
    · rw [k1] at e2; simp only [List.mem_singleton] at e2; subst e2; exact absurd hl (Nat.lt_irrefl _)
    · rw [k2] at e2
      rcases List.mem_append.mp e2 with e2 | e2
      · exact ⟨l0, k1, e2⟩
      · simp only [List.mem_singleton] at e2; subst e2; exact absurd hl (Nat.lt_irrefl _)

/-- what `open(fd, …)` records -/
theorem openFd_made {s : FS} {fd : Nat} {md : OpenModes} {bf : Option Nat} {cf : Bool} {h : Nat} {s1 : FS}
    (ho : openFd fd md bf cf s = (.ok h, s1)) : (s1.handles h).closefd = (cf || fd == 0) ∧ (s1.handles h).fd = fd := by
  have : wp (openFd fd md bf cf) (fun r s1 => ∀ h, r = .ok h → (s1.handles h).closefd = (cf || fd == 0) ∧ (s1.handles h).fd = fd) s := by
    unfold openFd
    refine wp_seq (fun _ _ => True) trivial (fun _ _ _ => by simp) ?_
    intro w s1 _
    refine wp_seq (fun _ _ => True) trivial (fun _ _ _ => by simp) ?_
    intro W s2 _
    split
    · intro h e; cases e
    apply wp_getBind
    dsimp only
    refine wp_seq (fun _ _ => True) trivial (fun _ _ _ => by simp) ?_
    intro r s3 _
    apply wp_getBind
    refine wp_bindOk (a := s3.hnext) rfl ?_
    refine wp_bindOk (a := ()) rfl ?_
    apply wp_pure
    intro h e
    injection e with e
    subst e
    simp [mkHandle]
  unfold wp at this
  rw [ho] at this
  exact this h rfl

/-- C51: closing a file object made by `open(fd, …, closefd=False)` keeps the descriptor open for the others; closing one made
with `closefd=True` closes the descriptor. -/
theorem close_closefd {s s1 : FS} (hs : Reachable s) {fd : Nat} {md : OpenModes} {bf : Option Nat} {cf : Bool} {h : Nat} (h3 : 3 ≤ fd)
    (ho : openFd fd md bf cf s = (.ok h, s1)) (ops : List Op) (hop : (runs ops s1).isOpen h = true) {s2 : FS}
    (hc : hClose h (runs ops s1) = (.ok (), s2)) :
    (cf = false → s2.getOpen fd = (runs ops s1).getOpen fd ∧ InUse s2 fd ∧ s2.isOpen h = false) ∧ (cf = true → ¬ InUse s2 fd) := by
  have hi := reachable_fdInv hs
  have hi1 : FdInv s1 := by
    have := openFd_table hi fd md bf cf
    unfold wp at this; rw [ho] at this; exact this.1
  obtain ⟨m1, m2⟩ := openFd_made ho
  obtain ⟨m3, m4, _⟩ := openFd_rights ho
  have fl := flags_runs ops s1
  have hi2 := fdInv_runs hi1 ops
  obtain ⟨l, e1, e2⟩ := isOpen_slot hop
  obtain ⟨l0, k1, k2⟩ := slot_back hi1 m3 ops e1 e2
  have hfd : ((runs ops s1).handles h).fd = fd := (hi1.mem _ _ k1 h k2).2.symm.trans m2
  have hcf : ((runs ops s1).handles h).closefd = cf := by
    rw [fl.closefd h m3, m1]
    have : (fd == 0) = false := by simp; omega
    rw [this, Bool.or_false]
  have hk : ((runs ops s1).handles h).kind = .file := (fl.kind h m3).trans m4
  have cl := fk_hClose h (runs ops s1) hi2 (by rw [hk]; intro e; cases e)
  unfold wp at cl
  rw [hc] at cl
  obtain ⟨hi3, cl⟩ := cl
  rw [hfd] at e1
  have fh : ∀ i l, s2.openFiles[i]? = some (some l) → h ∈ l → i = fd := by
    intro i l5 z1 z2
    have hl2 : h < (runs ops s1).hnext := Nat.lt_of_lt_of_le m3 fl.hnext
    rcases slotStep_closed (o := .hClose h) hi2 cl i l5 z1 with ⟨l0, y1, y2, _⟩ | ⟨y1, _⟩ | ⟨_, _, _, l0, _, y1, y2⟩
    · exact (hi2.mem _ _ y1 h (y2 z2)).2.symm.trans hfd
    · rw [y1] at z2; simp only [List.mem_singleton] at z2; rw [z2] at hl2; exact absurd hl2 (Nat.lt_irrefl _)
    · rw [y2] at z2
      rcases List.mem_append.mp z2 with z2 | z2
      · exact (hi2.mem _ _ y1 h z2).2.symm.trans hfd
      · simp only [List.mem_singleton] at z2; rw [z2] at hl2; exact absurd hl2 (Nat.lt_irrefl _)
  rcases cl with ⟨_, ⟨e, he⟩ | he | ⟨_, he⟩⟩ | ⟨he, sl⟩ | ⟨he, l1, sl1, sl⟩
  · cases he
  · rw [hk] at he; cases he
  · rw [hop] at he; cases he
  · have hcf' : cf = true := by
      rcases he with he | he
      · rw [hk] at he; cases he
      · rw [← hcf]; exact he
    rw [hfd] at sl
    refine ⟨fun h0 => by rw [h0] at hcf'; (cases hcf'), fun _ hu => ?_⟩
    obtain ⟨l', hl'⟩ := hu
    rw [sl.here] at hl'; cases hl'
  · rw [hcf] at he
    rw [hfd] at sl sl1
    refine ⟨fun _ => ?_, fun h0 => by rw [h0] at he; (cases he)⟩
    have hu : InUse s2 fd := ⟨_, sl.here⟩
    obtain ⟨a, l2, rfl, ha⟩ := hi2.head _ _ sl1
    have hne : a ≠ h := by rintro rfl; rw [hcf, he] at ha; cases ha
    refine ⟨?_, hu, ?_⟩
    · rcases getOpen_spec hi3 fd with ⟨_, x⟩ | ⟨g, l3, x1, x2⟩
      · exact absurd hu x
      · rcases getOpen_spec hi2 fd with ⟨_, y⟩ | ⟨g', l4, y1, y2⟩
        · exact absurd ⟨_, sl1⟩ y
        · rw [x1, y1]
          rw [sl.here, List.erase_cons_tail (by simpa using hne)] at x2
          rw [sl1] at y2
          simp only [Option.some.injEq, List.cons.injEq] at x2 y2
          rw [← x2.1, y2.1]
    · cases hb : s2.isOpen h with
      | false => rfl
      | true =>
        obtain ⟨l5, z1, z2⟩ := isOpen_slot hb
        rw [fh _ _ z1 z2, sl.here] at z1
        simp only [Option.some.injEq] at z1
        have nd := hi2.dist _ _ sl1
        rw [← z1] at z2
        exact absurd z2 (List.Nodup.not_mem_erase nd)

theorem Spec.Shape.entries {s s' : FS} (k : Shape s s') (x : Ref) : (s'.heap x).entries = (s.heap x).entries := by
  cases hd : (s.heap x).isDir with
  | true => unfold Obj.entries; rw [(k.objs x).dir hd]
  | false => rw [mem_entries_nil hd, mem_entries_nil ((k.objs x).file hd)]

theorem Spec.Shape.isDir {s s' : FS} (k : Shape s s') (x : Ref) : (s'.heap x).isDir = (s.heap x).isDir := by
  cases hd : (s.heap x).isDir with
  | true => unfold Obj.isDir at hd ⊢; rw [(k.objs x).dir hd]; exact hd
  | false => exact (k.objs x).file hd

theorem Spec.Shape.isLnk {s s' : FS} (k : Shape s s') (x : Ref) : (s'.heap x).isLnk = (s.heap x).isLnk := by
  unfold Obj.isLnk; rw [(k.objs x).mode]

theorem walk_entries {hp hp' : Ref → Obj} (h : ∀ x, (hp' x).entries = (hp x).entries) : ∀ (l : List Str) (r : Ref), walk hp' r l = walk hp r l := by
  intro l
  induction l with
  | nil => intro r; rfl
  | cons c l ih => intro r; simp only [walk, h, ih]

theorem noLink_entries {hp hp' : Ref → Obj} (h : ∀ x, (hp' x).entries = (hp x).entries) (hl : ∀ x, (hp' x).isLnk = (hp x).isLnk) :
    ∀ (l : List Str) (r : Ref), NoLink hp r l → NoLink hp' r l := by
  intro l
  induction l with
  | nil => intro r _; trivial
  | cons c l ih => intro r hn x hx; rw [h] at hx; rw [hl]; exact ⟨(hn x hx).1, ih x (hn x hx).2⟩

/-- The path of a file which is still found under the name and in the directory stored with it. -/
theorem objPath_file {s : FS} (h : Inv s) (ht : s.cfg.Tree) {ld : List Str} {nm : Str} {d r : Ref}
    (hpl : ∀ w ∈ ld ++ [nm], Proper s.cfg.sep w) (hw : walk s.heap rootRef ld = some d) (hd : (s.heap d).isDir = true)
    (hp : (s.heap r).parent = some d) (hn : (s.heap r).name = nm) (hdr : ∀ w ∈ (ld ++ [nm]).head?, ¬ DriveLike w)
    (hlen : ld.length + 1 < s.next) : s.objPath r = absPath s.cfg.sep (ld ++ [nm]) := by
  unfold FS.objPath
  obtain ⟨n, hnn⟩ : ∃ n, s.next = n + 1 := ⟨s.next - 1, by omega⟩
  rw [hnn]
  simp only [FS.pathNames, hp, hn]
  rw [pathNames_walk h ld n [nm] hw hd (by omega)]
  simp only [Cfg.root, List.cons_append, if_true]
  have hfin := absnorm_canon h ht.posix (absCanon_names hpl)
  clear hw hpl
  split
  · rename_i c _ e
    rw [e] at hdr
    exact absurd ⟨c, rfl⟩ (hdr _ (by simp))
  · exact hfin

/-- the path to a directory is shorter than the number of objects, one of which is a file -/
theorem depth_file {s : FS} (h : Inv s) {l : List Str} {d r : Ref} (hl : walk s.heap rootRef l = some d)
    (hd : (s.heap d).isDir = true) (hr : r < s.next) (hf : (s.heap r).isDir = false) : l.length + 1 < s.next := by
  have hpre : ∀ i : Fin (l.length + 1), ∃ x, walk s.heap rootRef (l.take i) = some x ∧ (s.heap x).isDir = true ∧ x < s.next := by
    intro i
    have : walk s.heap rootRef (l.take i ++ l.drop i) = some d := by rw [List.take_append_drop]; exact hl
    rw [walk_append, Option.bind_eq_some_iff] at this
    obtain ⟨x, hx, hx2⟩ := this
    refine ⟨x, hx, ?_, walk_lt h _ (root_lt h) hx⟩
    cases hdr : l.drop i with
    | nil => rw [hdr] at hx2; simp [walk] at hx2; exact hx2 ▸ hd
    | cons a m =>
      rw [hdr] at hx2
      simp only [walk, Option.bind_eq_some_iff] at hx2
      obtain ⟨z, hz, _⟩ := hx2
      exact isDir_of_entry (alookup_mem hz)
  choose f hf' using hpre
  have hinj : Function.Injective fun i : Option (Fin (l.length + 1)) => (match i with
      | none => ⟨r, hr⟩
      | some i => ⟨f i, (hf' i).2.2⟩ : Fin s.next) := by
    have hne : ∀ i, f i ≠ r := fun i e => by have := (hf' i).2.1; rw [e, hf] at this; cases this
    intro i j hij
    cases i with
    | none =>
      cases j with
      | none => rfl
      | some j => exact absurd (Fin.val_eq_of_eq hij).symm (hne j)
    | some i =>
      cases j with
      | none => exact absurd (Fin.val_eq_of_eq hij) (hne i)
      | some j =>
        have e : f i = f j := Fin.val_eq_of_eq hij
        have := walk_dir_unique h _ _ (hf' i).1 (e ▸ (hf' j).1) (hf' i).2.1
        have hlen := congrArg List.length this
        simp only [List.length_take] at hlen
        congr 1
        apply Fin.ext
        have := i.2; have := j.2
        omega
  have := Fintype.card_le_of_injective _ hinj
  simp only [Fintype.card_option, Fintype.card_fin] at this
  omega

/-- the state after the first part of closing is reached by `flush()` -/
theorem closeHead_state {s t : FS} {h : Nat} {r : Except Err Unit} (hw : s.cfg.isWin = false) (hl : h < s.hnext) (hk : (s.handles h).kind = .file)
    (hc : closeHead (s.handles h) h s = (r, t)) : t = s ∨ t = Op.next (.hFlush h) s := by
  unfold closeHead at hc
  by_cases hu : (s.handles h).update = true ∧ (s.handles h).rawIo = false
  · right
    rw [if_pos hu, M.bind_eq] at hc
    have e : Op.next (.hFlush h) s = (flush h s).2 := by
      show (onFile h (flush h) s).2 = _
      unfold onFile
      rw [M.bind_eq]
      dsimp only [M.get]
      rw [if_pos ⟨hl, hk⟩]
      show ((flush h >>= fun _ => M.pure ()) s).2 = _
      rw [M.bind_eq]
      rcases flush h s with ⟨_ | _, t⟩ <;> rfl
    rw [e]
    have hcf : (flush h s).2.cfg = s.cfg := by rw [(sh_flush h s).env]
    rcases hr : flush h s with ⟨_ | _, t'⟩
    · rw [hr] at hc; injection hc with _ hc; exact hc.symm
    · rw [hr] at hc hcf
      dsimp only at hc hcf
      rw [M.bind_eq] at hc
      dsimp only [M.get] at hc
      rw [if_neg (by rw [hcf, hw]; simp)] at hc
      injection hc with _ hc; exact hc.symm
  · left
    rw [if_neg hu] at hc
    injection hc with _ hc; exact hc.symm

/-- C51: closing a file opened with `delete_on_close` (as `tempfile.NamedTemporaryFile` does) removes it: its name is gone from its
directory - nothing is found under it any more - and every other name is where it was. -/
theorem close_deletes {s s2 : FS} (hs : Reachable s) (ht : s.cfg.Tree) (hw : Within s) (hpos : ∀ m ∈ s.mounts, ∀ t, m.total = some t → 0 ≤ t)
    {h : Nat} (hk : (s.handles h).kind = .file) (ho : s.isOpen h = true) (hdel : (s.handles h).deleteOnClose = true)
    {ld : List Str} {nm : Str} {d : Ref} (hsp : Spot s ld nm d) (hent : alookup nm (s.heap d).entries = some (s.handles h).obj)
    (hpar : (s.heap (s.handles h).obj).parent = some d) (hnm : (s.heap (s.handles h).obj).name = nm)
    (hfile : (s.heap (s.handles h).obj).isDir = false) (hdr : ∀ w ∈ (ld ++ [nm]).head?, ¬ DriveLike w)
    (hc : hClose h s = (.ok (), s2)) :
    NameGone s s2 (ld ++ [nm]) ∧ (∀ y, s2.lresolve (absPath s.cfg.sep (ld ++ [nm])) ≠ .ok y) ∧
      ∀ x, x ≠ d → x ≠ (s.handles h).obj → Skel (s.heap x) (s2.heap x) := by
  have hi := reachable_inv hs
  rw [hClose_file hk ho] at hc
  have hl : h < s.hnext := by
    obtain ⟨l, e1, e2⟩ := isOpen_slot ho
    exact ((reachable_fdInv hs).mem _ _ e1 h e2).1
  rw [M.bind_eq] at hc
  rcases hr : closeHead (s.handles h) h s with ⟨r1, t1⟩
  have k1 := sh_closeHead (s.handles h) h s
  rw [hr] at hc k1
  dsimp only at k1
  have hst := closeHead_state ht.posix.win hl hk hr
  have hi1 : Inv t1 := by
    rcases hst with e | e
    · rw [e]; exact hi
    · rw [e]; exact (next_step _ hi).1.inv
  have hw1 : Within t1 := by
    rcases hst with e | e
    · rw [e]; exact hw
    · intro m hm t htt
      have hq := (next_step (.hFlush h) hi).2 (by intro t p e; cases e)
      rw [← e] at hq
      have hmem : (m.path, m.idev, m.total) ∈ s.mounts.map (fun m => (m.path, m.idev, m.total)) := by
        rw [← k1.devs]; exact List.mem_map.mpr ⟨m, hm, rfl⟩
      obtain ⟨m0, hm0, e0⟩ := List.mem_map.mp hmem
      have e1 : m0.total = m.total := by injection e0 with _ e0; injection e0
      have hp0 := hpos m0 hm0 t (e1.trans htt)
      rcases hq m hm t htt with h1 | ⟨m', h1, _, h2, h3⟩
      · rw [max_eq_left hp0] at h1; exact h1
      · exact le_trans h3 (hw m' h1 t (h2.trans htt))
  cases r1 with
  | error e => cases hc
  | ok _ =>
  dsimp only at hc
  rw [M.bind_eq] at hc
  rcases hr2 : closeTable (s.handles h) h t1 with ⟨r2, t2⟩
  have k2 := sh_closeTable (s.handles h) h t1
  rw [hr2] at hc k2
  dsimp only at k2
  have hcl : Inv t2 ∧ Within t2 := by
    unfold closeTable at hr2
    split at hr2
    · have hp := closeOpenFile_pres (s.handles h).fd t1 hi1
      unfold closeOpenFile at hr2 hp
      unfold wp at hp
      rw [show t2 = (closeOpenFile (s.handles h).fd t1).2 from by unfold closeOpenFile; rw [hr2]]
      exact ⟨hp.inv, hw1⟩
    · have hp := pres_io (f := fun s' => { s' with openFiles := s'.openFiles.modify (s.handles h).fd fun e => e.map fun l => l.erase h })
        (fun _ => ⟨_, _, _, _, rfl⟩) t1 hi1
      unfold wp at hp
      rw [hr2] at hp
      refine ⟨hp.inv, ?_⟩
      injection hr2 with _ e
      rw [← e]; exact hw1
  obtain ⟨hi2, hw2⟩ := hcl
  have k := k1.trans k2
  cases r2 with
  | error e => cases hc
  | ok _ =>
  dsimp only at hc
  unfold closeDelete at hc
  rw [if_pos hdel, M.bind_eq] at hc
  dsimp only [M.get] at hc
  have hcfg : t2.cfg = s.cfg := by rw [k.env]
  have ht2 : t2.cfg.Tree := by rw [hcfg]; exact ht
  have hwk := walk_entries k.entries
  have hdd : (s.heap d).isDir = true := isDir_of_entry (alookup_mem hent)
  have hpr : ∀ w ∈ ld ++ [nm], Proper t2.cfg.sep w := by rw [hcfg]; exact plain_proper hsp.plain
  have hlen : ld.length + 1 < t2.next := by
    have hn : t2.next = s.next := by rw [k.env]
    rw [hn]
    exact depth_file hi hsp.here hdd (hi.g.entLt d (walk_lt hi _ (root_lt hi) hsp.here) _ (alookup_mem hent)) hfile
  have hpath : t2.objPath (s.handles h).obj = absPath t2.cfg.sep (ld ++ [nm]) :=
    objPath_file hi2 ht2 hpr (by rw [hwk]; exact hsp.here) (by rw [k.isDir]; exact hdd) (by rw [(k.objs _).parent]; exact hpar)
      (by rw [(k.objs _).name]; exact hnm) hdr hlen
  rw [hpath] at hc
  have uniq : ∀ ld' nm' d', Names t2 (absPath t2.cfg.sep (ld ++ [nm])) ld' nm' d' → nm' = nm ∧ d' = d := by
    intro ld' nm' d' hN
    obtain ⟨names, n1, n2, n3, n4⟩ := hN.split
    rw [absnorm_canon hi2 ht2.posix (absCanon_names hpr)] at n3
    have e := absPath_inj ht2.posix hpr (by intro w hw; rcases List.mem_append.mp hw with hw | hw; exacts [n1 w hw, by rw [List.mem_singleton.mp hw]; exact n2]) n3
    have e := List.append_inj' e rfl
    injection e.2 with e2
    rw [← e.1] at n4
    have n5 := (resolve_plain hi2 ht2 t2.rc (l := ld) (by rw [hcfg]; exact fun w hw => hsp.plain w (by simp [hw]))
      (noLink_entries k.entries k.isLnk _ _ hsp.noLink) (by
        have : t2.devName = s.devName := (k.objs devNullRef).name
        rw [hcfg, this]; exact hsp.dev)).mp n4
    have n6 := n5.1
    rw [hwk, hsp.here] at n6
    injection n6 with n6
    exact ⟨e2.symm, n6.symm⟩
  have hro := removeObject_one hi2 hw2 ht2 (p := absPath t2.cfg.sep (ld ++ [nm])) (by
    intro ld' nm' d' e hN he
    obtain ⟨rfl, rfl⟩ := uniq ld' nm' d' hN
    rw [k.entries, hent] at he
    injection he with he
    rw [← he, k.entries]
    exact mem_entries_nil hfile)
  have hpres := removeObject_pres (absPath t2.cfg.sep (ld ++ [nm])) t2 hi2
  unfold wp at hro hpres
  rw [hc] at hro hpres
  rcases hro with ⟨x, e, _⟩ | ⟨ld', nm', d', e, _, hN, hrem, _, _⟩
  · cases e
  obtain ⟨rfl, rfl⟩ := uniq ld' nm' d' hN
  have he : e = (s.handles h).obj := by
    have := hrem.was
    rw [k.entries, hent] at this
    injection this with this; exact this.symm
  subst he
  have ng := hrem.nameGone hi2 (ld := ld) (by rw [hwk]; exact hsp.here)
  refine ⟨⟨by rw [← hwk]; exact ng.was, ng.gone, fun l hl => by rw [← hwk]; exact ng.elsewhere l hl⟩, fun y => ?_, fun x hx1 hx2 => ?_⟩
  · have := hrem.gone hi2 hpres.inv ht2 hN y
    rw [absnorm_canon hi2 ht2.posix (absCanon_names hpr), hcfg] at this
    exact this
  · have := k.objs x
    rw [← hrem.others x hx1 hx2] at this
    exact this

/-! ## Non-vacuity: on the demo tree, `/a/t` is opened (handle 3, descriptor 3), also through `open(3, closefd=False)` (handle 4) -/

/-- the demo tree with a new file `/a/t` open for writing, to be deleted when closed -/
def demoTmp : FS := runs [.openPath ['/', 'a', '/', 't'] wbMode none false true] demo

theorem demoTmp_reach : Reachable demoTmp := reachable_runs ⟨_, _, _, _, _, _, _, _, rfl⟩ _

example : IoCall demo (.truncate ['/', 'a', '/', 'f'] 1) ∧ (demo.heap 3).content ≠ ((Op.next (.truncate ['/', 'a', '/', 'f'] 1) demo).heap 3).content :=
  ⟨.truncate _ _, by decide +kernel⟩

example : demoTmp.getOpen 3 = .ok 3 ∧ InUse (Op.next (.remove ['/', 'a', '/', 't']) demoTmp) 3 ∧
    ((demoTmp.fstat 3).toOption.map (·.ino)) = some (demoTmp.heap 6).ino := by
  refine ⟨by decide +kernel, ⟨[3], by decide +kernel⟩, by decide +kernel⟩

example : ∃ s1, openFd 3 rbMode none false demoTmp = (.ok 4, s1) ∧ s1.isOpen 4 = true ∧ (hClose 4 s1).1 = .ok () := by
  refine ⟨(openFd 3 rbMode none false demoTmp).2, ?_, by decide +kernel, by decide +kernel⟩
  exact Prod.ext (by decide +kernel) rfl

example : (demoTmp.handles 3).kind = .file ∧ demoTmp.isOpen 3 = true ∧ (demoTmp.handles 3).deleteOnClose = true ∧
    alookup ['t'] (demoTmp.heap 2).entries = some (demoTmp.handles 3).obj ∧ (demoTmp.heap 6).parent = some 2 ∧ (demoTmp.heap 6).name = ['t'] ∧
    (hClose 3 demoTmp).1 = .ok () := by decide +kernel

example : Spot demoTmp [['a']] ['t'] 2 where
  plain := by decide +kernel
  noLink := by
    intro x hx
    have : x = 2 := by
      have e : alookup ['a'] (demoTmp.heap rootRef).entries = some 2 := by decide +kernel
      rw [e] at hx; injection hx with hx; exact hx.symm
    subst this
    exact ⟨by decide +kernel, trivial⟩
  dev := by decide +kernel
  dev' := by decide +kernel
  here := by decide +kernel
  read := by decide +kernel

end Verif
