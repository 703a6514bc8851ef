import Verif.Props.Descr
import Verif.MountFrame
/-!
# C56: on a Windows filesystem read-only or open files keep their directory entry
-/

namespace Verif
open Py Spec Cfg

namespace Spec
/-- the file is open: it is the object behind some descriptor -/
def OpenOn (s : FS) (x : Ref) : Prop :=
  ∃ (fd h : Nat) (l : List Nat), s.openFiles[fd]? = some (some (h :: l)) ∧ (s.handles h).kind ≠ .std ∧ (s.handles h).obj = x

/-- what Windows lets be deleted: the owner's write bit is set, and the file is not open -/
structure Deletable (s : FS) (x : Ref) : Prop where
  writable : (s.heap x).mode &&& 0o200 ≠ 0
  notOpen : ¬ OpenOn s x
end Spec

theorem hasOpenFile_iff (s : FS) (x : Ref) : s.hasOpenFile x = true ↔ OpenOn s x := by
  unfold FS.hasOpenFile OpenOn
  rw [List.any_eq_true]
  constructor
  · rintro ⟨e, he, h⟩
    obtain ⟨fd, hfd⟩ := List.mem_iff_getElem?.mp he
    rcases e with _ | _ | ⟨a, l⟩
    · simp at h
    · simp at h
    · simp only [Bool.and_eq_true, bne_iff_ne, ne_eq, beq_iff_eq] at h
      exact ⟨fd, a, l, hfd, h.1, h.2⟩
  · rintro ⟨fd, h, l, h1, h2, h3⟩
    refine ⟨_, List.mem_iff_getElem?.mpr ⟨fd, h1⟩, ?_⟩
    simp only [Bool.and_eq_true, bne_iff_ne, ne_eq, beq_iff_eq]
    exact ⟨h2, h3⟩

theorem removeCheck_win {s : FS} {d e : Ref} (hw : s.cfg.isWin = true) (h : removeCheck s d e = .ok ()) : Deletable s e := by
  unfold removeCheck at h
  rw [if_pos hw] at h
  split at h
  · cases h
  rename_i h1
  split at h
  · cases h
  rename_i h2
  exact ⟨h1, fun k => h2 ((hasOpenFile_iff s e).mpr k)⟩

/-- What the calls that change the tree keep on a Windows filesystem. -/
structure WinRel (s s' : FS) : Prop where
  epoch : Epoch s s'
  cfg : s'.cfg = s.cfg
  files : s'.openFiles = s.openFiles
  hands : s'.handles = s.handles
  mode : ∀ r < s.next, (s'.heap r).mode = (s.heap r).mode
  keep : s.cfg.isWin = true → ∀ d < s.next, ∀ nm, ∀ x < s.next, alookup nm (s.heap d).entries = some x →
    alookup nm (s'.heap d).entries = some x ∨ Deletable s x

theorem Deletable.back {a b : FS} (h : WinRel a b) {x : Ref} (hx : x < a.next) (k : Deletable b x) : Deletable a x := by
  refine ⟨by rw [← h.mode x hx]; exact k.writable, ?_⟩
  rintro ⟨fd, n, l, h1, h2, h3⟩
  exact k.notOpen ⟨fd, n, l, by rw [h.files]; exact h1, by rw [h.hands]; exact h2, by rw [h.hands]; exact h3⟩

theorem WinRel.trans {a b c : FS} (h : WinRel a b) (k : WinRel b c) : WinRel a c := by
  refine ⟨h.epoch.trans k.epoch, k.cfg.trans h.cfg, k.files.trans h.files, k.hands.trans h.hands,
    fun r hr => (k.mode r (Nat.lt_of_lt_of_le hr h.epoch.next)).trans (h.mode r hr), fun hw d hd nm x hx e => ?_⟩
  rcases h.keep hw d hd nm x hx e with h1 | h1
  · rcases k.keep (by rw [h.cfg]; exact hw) d (Nat.lt_of_lt_of_le hd h.epoch.next) nm x (Nat.lt_of_lt_of_le hx h.epoch.next) h1 with h2 | h2
    · exact Or.inl h2
    · exact Or.inr (Deletable.back h hx h2)
  · exact Or.inr h1

theorem WinRel.of {s s' : FS} (h : Epoch s s') (h1 : s'.cfg = s.cfg) (h2 : s'.openFiles = s.openFiles) (h3 : s'.handles = s.handles)
    (h4 : ∀ r < s.next, (s'.heap r).mode = (s.heap r).mode) (h5 : ∀ r < s.next, (s.heap r).isDir = true → (s'.heap r).entries = (s.heap r).entries) : WinRel s s' := by
  refine ⟨h, h1, h2, h3, h4, fun _ d hd nm x _ e => Or.inl ?_⟩
  rw [h5 d hd (isDir_of_entry (alookup_mem e))]; exact e

theorem alookup_snocL {α : Type} {nm : Str} {l : List (Str × α)} {x : α} (h : alookup nm l = some x) (e : Str × α) :
    alookup nm (l ++ [e]) = some x := by
  induction l with
  | nil => simp [alookup] at h
  | cons a l ih =>
    obtain ⟨k, y⟩ := a
    simp only [List.cons_append, alookup] at h ⊢
    split
    · rename_i hk; rw [if_pos hk] at h; exact h
    · rename_i hk; rw [if_neg hk] at h; exact ih h

instance : OpRelD WinRel where
  N := fun _ => True
  D := fun _ => True
  A _ := True
  T := True
  refl s := .of (OpRel.refl s) rfl rfl rfl (fun _ _ => rfl) fun _ _ _ => rfl
  trans := WinRel.trans
  le h := h.epoch.next
  kind h := h.epoch.kind
  ino s i := .of (OpRel.ino s i) rfl rfl rfl (fun _ _ => rfl) fun _ _ _ => rfl
  used s i c := .of (OpRel.used s i c) rfl rfl rfl (fun _ _ => rfl) fun _ _ _ => rfl
  mount s p t _ := .of (OpRel.mount s p t trivial) rfl rfl rfl (fun _ _ => rfl) fun _ _ _ => rfl
  total s d t _ := .of (OpRel.total s d t trivial) rfl rfl rfl (fun _ _ => rfl) fun _ _ _ => rfl
  winA _ _ := trivial
  new s o _ := by
    have key : ∀ d < s.next, upd s.heap s.next o d = s.heap d := fun d hd => upd_ne _ _ (Nat.ne_of_lt hd)
    exact .of (OpRel.new s o trivial) rfl rfl rfl (fun r hr => congrArg Obj.mode (key r hr)) fun r hr _ => congrArg Obj.entries (key r hr)
  dat s r o h := by
    have key : ∀ d, d ≠ r → (s.setObj r fun _ => o).heap d = s.heap d := fun d hd => upd_ne _ _ hd
    have own : (s.setObj r fun _ => o).heap r = o := upd_same _ _ _
    refine .of (OpRelD.dat s r o h) rfl rfl rfl (fun x _ => ?_) fun x _ hd => ?_
    · by_cases e : x = r
      · subst e; rw [own]; exact h.mode
      · rw [key x e]
    · by_cases e : x = r
      · subst e; rw [own]; unfold Obj.entries; rw [h.dir hd]
      · rw [key x e]
  att s d c hd hn := by
    have hm := attach_misc s d c
    have hh : (s.attach d c).openFiles = s.openFiles ∧ (s.attach d c).handles = s.handles := by
      unfold FS.attach; dsimp only; constructor <;> (split <;> rfl)
    refine ⟨OpRel.att s d c hd hn, hm.2.1, hh.1, hh.2, fun r _ => by rw [attach_heap], fun _ x _ nm y _ e => Or.inl ?_⟩
    rw [attach_heap]
    by_cases h : x = d
    · subst h
      simp only [if_true]
      exact alookup_snocL e _
    · simp only [if_neg h]; exact e
  det s0 s d nm e h hd hc hk := by
    have hE : Epoch s0 (detach d nm e s).2 := OpRel.det s0 s d nm e h.epoch hd hc hk
    have hf : (detach d nm e s).2.cfg = s.cfg ∧ (detach d nm e s).2.openFiles = s.openFiles ∧ (detach d nm e s).2.handles = s.handles ∧
        ∀ r, ((detach d nm e s).2.heap r).mode = (s.heap r).mode := by
      rcases detach_spec s d nm e with k | ⟨_, k, _⟩ <;> rw [k]
      · exact ⟨rfl, rfl, rfl, fun r => by dsimp only; rw [detached_heap]⟩
      · exact ⟨rfl, rfl, rfl, fun r => by dsimp only; rw [decLinks_heap]⟩
    refine ⟨hE, hf.1.trans h.cfg, hf.2.1.trans h.files, hf.2.2.1.trans h.hands, fun r hr => (hf.2.2.2 r).trans (h.mode r hr), fun hw d' hd' nm' x hx k => ?_⟩
    rcases h.keep hw d' hd' nm' x hx k with h1 | h1
    swap
    · exact Or.inr h1
    by_cases e1 : d' = d
    swap
    · refine Or.inl ?_
      rw [detach_entries s d nm e e1]; exact h1
    subst e1
    by_cases e2 : nm' = nm
    · subst e2
      refine Or.inr ?_
      have : x = e := by rw [hk] at k; exact (Option.some.inj k).symm
      subst this
      exact removeCheck_win hw hc
    · refine Or.inl ?_
      rcases detach_spec s d' nm e with k' | ⟨_, k', _⟩ <;> rw [k']
      · show alookup nm' ((s.detached d' nm e).heap d').entries = _
        rw [detached_heap]
        simp only [if_true]
        show alookup nm' (aerase nm (s.heap d').entries) = _
        rw [alookup_aerase, if_neg e2]; exact h1
      · show alookup nm' ((s.decLinks d' e).heap d').entries = _
        rw [decLinks_heap]; exact h1
  dirMode s0 s d perm h hn hd hp := by
    have hE : Epoch s0 (s.setObj d fun o => { o with mode := S_IFDIR ||| perm }) := OpRel.dirMode s0 s d perm h.epoch hn hd trivial
    have key : ∀ x, x ≠ d → (s.setObj d fun o => { o with mode := S_IFDIR ||| perm }).heap x = s.heap x := fun x hx => upd_ne _ _ hx
    have hne : ∀ x < s0.next, x ≠ d := fun x hx e => absurd (Nat.lt_of_lt_of_le (e ▸ hx) hn) (Nat.lt_irrefl _)
    refine ⟨hE, h.cfg, h.files, h.hands, fun r hr => by rw [key r (hne r hr)]; exact h.mode r hr, fun hw x hx nm y hy k => ?_⟩
    rw [key x (hne x hx)]
    exact h.keep hw x hx nm y hy k
  dirN _ _ _ _ := trivial
  defD := trivial
  lnkN _ _ := trivial
  regN _ _ _ := trivial

/-- an entry is kept unless the file may be deleted -/
def KeptEnt (s s' : FS) : Prop := s.cfg.isWin = true → ∀ d < s.next, ∀ nm, ∀ x < s.next, alookup nm (s.heap d).entries = some x →
    alookup nm (s'.heap d).entries = some x ∨ Deletable s x
def SameEnt (s s' : FS) : Prop := ∀ d, (s'.heap d).entries = (s.heap d).entries

theorem KeptEnt.same {a b : FS} (h : SameEnt a b) : KeptEnt a b := fun _ d _ nm x _ e => Or.inl (by rw [h d]; exact e)
theorem shape_ent {a b : FS} (h : Shape a b) : SameEnt a b := by
  intro x
  cases hd : (a.heap x).isDir with
  | true => unfold Obj.entries; rw [(h.objs x).dir hd]
  | false => rw [mem_entries_nil hd, mem_entries_nil ((h.objs x).file hd)]

theorem ke_bind {α β : Type} {m : M α} {f : α → M β} (hm : Fr KeptEnt m) (hf : ∀ a, Fr SameEnt (f a)) : Fr KeptEnt (m >>= f) := by
  intro s
  show KeptEnt s (M.bind m f s).2
  unfold M.bind
  have h1 := hm s
  rcases hr : m s with ⟨r, s'⟩
  rw [hr] at h1
  cases r with
  | error e => exact h1
  | ok a =>
    intro hw d hd nm x hx e
    rcases h1 hw d hd nm x hx e with h2 | h2
    · refine Or.inl ?_
      show alookup nm ((f a s').2.heap d).entries = _
      rw [hf a s' d]; exact h2
    · exact Or.inr h2

theorem ke_rd {α β : Type} {g : FS → Except Err α} {f : α → M β} (hf : ∀ a, Fr KeptEnt (f a)) : Fr KeptEnt (rd g >>= f) := by
  intro s
  rw [M.bind_eq, rd_run]
  cases g s with
  | error e => exact KeptEnt.same fun _ => rfl
  | ok a => exact hf a s
theorem ke_get {β : Type} {f : FS → M β} (hf : ∀ a, Fr KeptEnt (f a)) : Fr KeptEnt (M.get >>= f) := fun s => hf s s
theorem ke_ite {α : Type} {c : Prop} [Decidable c] {a b : M α} (ha : Fr KeptEnt a) (hb : Fr KeptEnt b) : Fr KeptEnt (if c then a else b) := by
  split <;> assumption
theorem ke_win {α : Type} {m : M α} (h : Fr WinRel m) : Fr KeptEnt m := fun s => (h s).keep
theorem ke_shape {α : Type} {m : M α} (h : Fr Shape m) : Fr KeptEnt m := fun s => KeptEnt.same (shape_ent (h s))
theorem se_shape {α : Type} {m : M α} (h : Fr Shape m) : Fr SameEnt m := fun s => shape_ent (h s)
theorem ke_throwBind {α β : Type} {e : Err} {f : α → M β} : Fr KeptEnt ((M.throw e : M α) >>= f) := fun _ => KeptEnt.same fun _ => rfl
theorem ke_raiseBind {α β : Type} {e : Errno} {f : α → M β} : Fr KeptEnt ((M.raise e : M α) >>= f) := fun _ => KeptEnt.same fun _ => rfl
theorem ke_void {α : Type} {m : M α} (h : Fr KeptEnt m) : Fr KeptEnt m.void := ke_bind h fun _ => se_shape (sh_pure _)

theorem se_chmod (p : Str) (m : Nat) (f : Bool) : Fr SameEnt (chmod p m f) := by
  intro s
  unfold chmod
  rw [M.bind_eq, rd_run]
  cases hr : s.resolve p f with
  | error e => exact fun _ => rfl
  | ok r =>
    intro x
    by_cases e : x = r
    · subst e
      show ((upd s.heap x _ x).entries) = _
      rw [upd_same]; rfl
    · show ((upd s.heap r _ x).entries) = _
      rw [upd_ne _ _ e]

theorem ke_openPath (p : Str) (md : OpenModes) (b : Option Nat) (r d : Bool) : Fr KeptEnt (openPath p md b r d) := by
  unfold openPath
  refine ke_rd fun a => ?_
  refine ke_bind (ke_win (fo_openObject _ _ _ _)) fun x => ?_
  apply se_shape
  repeat' first
    | with_reducible exact sh_pure _
    | with_reducible exact sh_throw _
    | with_reducible exact sh_get
    | with_reducible exact sh_hmod _ _
    | with_reducible exact sh_newHandle _
    | with_reducible exact sh_addOpenFile _
    | with_reducible apply sh_bind
    | with_reducible apply sh_ite
    | with_reducible intro _
    | dsimp only

theorem ke_openFd (fd : Nat) (md : OpenModes) (b : Option Nat) (c : Bool) : Fr KeptEnt (openFd fd md b c) := by
  have key : ∀ W : Handle, Fr KeptEnt (do
      let s ← M.get
      let nm := (s.heap W.obj).name
      let r ← openObject (some W.obj) nm nm md
      let s ← M.get
      let h ← newHandle (mkHandle s r md b (c || fd == 0) false W.deleteOnClose fd)
      M.modify fun s => { s with openFiles := s.openFiles.modify fd fun e => e.map fun l => l ++ [h] }
      M.pure h) := by
    intro W
    refine ke_get fun s => ?_
    refine ke_bind (ke_win (fo_openObject _ _ _ _)) fun x => ?_
    apply se_shape
    refine sh_bind sh_get fun s => ?_
    refine sh_bind (sh_newHandle _) fun h => ?_
    exact sh_bind (sh_openFiles fun s => s.openFiles.modify fd fun e => e.map fun l => l ++ [h]) fun _ => sh_pure _
  unfold openFd
  refine ke_rd fun w => ?_
  intro s
  show KeptEnt s ((if (s.handles w).kind ≠ .file then _ else _ : M Nat) s).2
  refine ke_ite ?_ ?_ s
  · exact ke_throwBind
  · exact key _

theorem ke_osOpen (p : Str) (f : OFlags) (m : Nat) : Fr KeptEnt (osOpen p f m) := by
  unfold osOpen
  dsimp only
  have key : Fr KeptEnt (do
      let s ← M.get
      match ← rd (·.openDirArg p) with
      | some r => do
        if (!f.modes.mustExist && !s.cfg.isMac) || f.modes.canWrite then M.raise .EISDIR
        let h ← newHandle { mkHandle s r f.modes none true true false 0 with kind := .dir, buf := [], pos := 0 }
        let fd ← addOpenFile h
        hmod h fun H => { H with fd := fd }
        M.pure fd
      | none => do
        let h ← openPath p f.modes none true false
        let H ← hget h
        if H.obj ≠ devNullRef then chmod p m
        M.pure H.fd) := by
    refine ke_get fun s => ?_
    refine ke_rd fun x => ?_
    cases x with
    | some r =>
      dsimp only
      have tail : Fr Shape (do
          let h ← newHandle { mkHandle s r f.modes none true true false 0 with kind := .dir, buf := [], pos := 0 }
          let fd ← addOpenFile h
          hmod h fun H => { H with fd := fd }
          M.pure fd) := by
        refine sh_bind (sh_newHandle _) fun h => ?_
        refine sh_bind (sh_addOpenFile _) fun fd => ?_
        exact sh_bind (sh_hmod _ _) fun _ => sh_pure _
      exact ke_ite ke_raiseBind (ke_shape tail)
    | none =>
      dsimp only
      refine ke_bind (ke_openPath _ _ _ _ _) fun h => ?_
      intro s1
      show SameEnt s1 ((if (s1.handles h).obj ≠ devNullRef then _ else _ : M Nat) s1).2
      split
      · have := se_chmod p m true s1
        rw [M.bind_eq]
        rcases hr : chmod p m true s1 with ⟨_ | _, t⟩ <;> (rw [hr] at this; exact this)
      · exact fun _ => rfl
  apply ke_ite
  · exact ke_throwBind
  · exact key


namespace Spec
/-- the call closes a file that was opened to be deleted when closed -/
inductive DeletesOnClose (s : FS) : Op → Prop
  | close (h : Nat) : (s.handles h).deleteOnClose = true → DeletesOnClose s (.hClose h)
  | osClose (fd : Int) (h : Nat) : s.getOpen fd = .ok h → (s.handles h).deleteOnClose = true → DeletesOnClose s (.osClose fd)
end Spec

theorem keptEnt_step (o : Op) {s : FS} (hdel : ¬ DeletesOnClose s o) : KeptEnt s (o.next s) := by
  have io : IoCall s o → KeptEnt s (o.next s) := fun h => KeptEnt.same (shape_ent (io_keeps_tree h))
  cases o with
  | mkdir p m => exact ke_win (fo_mkdir p m fun _ => trivial) s
  | makedirs p m e => exact ke_win (fo_makedirs p m e fun _ => trivial) s
  | createDir p m => exact ke_win (fo_void (fo_createDir p m trivial)) s
  | createFile p m c z cm um => exact ke_win (fo_void (fo_createFile p m c z cm um fun _ _ _ => trivial)) s
  | createSymlink p t cm => exact ke_win (fo_void (fo_createSymlink p t cm)) s
  | createLink o n f cm => exact ke_win (fo_void (fo_createLink o n f cm)) s
  | remove p => exact ke_win (fo_remove p) s
  | removeObject p => exact ke_win (fo_removeObject p) s
  | rmdir p => exact ke_win (fo_rmdir p false) s
  | removedirs p => exact ke_win (fo_removedirs p) s
  | rename o n f => exact ke_win (fo_rename o n f) s
  | chmod p m f => exact KeptEnt.same (se_chmod p m f s)
  | utime p ns f => exact ke_win (fo_utime p ns f) s
  | chown p u g f => exact ke_win (fo_chown p u g f) s
  | truncate p n => exact io (.truncate p n)
  | mknod p m => exact ke_win (fo_mknod p m fun _ _ _ => trivial) s
  | setxattr p a v fl f => exact ke_win (fo_setxattr p a v fl f) s
  | removexattr p a f => exact ke_win (fo_removexattr p a f) s
  | addMountPoint p t => exact ke_win (fo_void (fo_addMountPoint p t fun _ => trivial)) s
  | setDiskUsage t p => exact ke_win (fo_setDiskUsage t p trivial) s
  | umask m => exact KeptEnt.same fun _ => rfl
  | chdir p =>
    have h : SameEnt s (chdir p s).2 := by
      show wp (chdir p) (fun _ s' => SameEnt s s') s
      unfold chdir
      apply wp_readBind
      · intro e _; exact fun _ => rfl
      intro q _
      apply wp_readBind
      · intro e _; exact fun _ => rfl
      intro _ _
      apply wp_readBind
      · intro e _; exact fun _ => rfl
      intro _ _
      exact fun _ => rfl
    exact KeptEnt.same h
  | openPath p md b r d => exact ke_void (ke_openPath p md b r d) s
  | openFd fd md b c => exact ke_void (ke_openFd fd md b c) s
  | osOpen p f m => exact ke_void (ke_osOpen p f m) s
  | osClose fd =>
    refine io (.osClose fd fun h hh => ?_)
    cases hb : (s.handles h).deleteOnClose with
    | false => rfl
    | true => exact absurd (.osClose fd h hh hb) hdel
  | osRead fd n => exact io (.osRead fd n)
  | osWrite fd b => exact io (.osWrite fd b)
  | ftruncate fd n => exact io (.ftruncate fd n)
  | hRead h n => exact io (.read h n)
  | hWrite h b => exact io (.write h b)
  | hSeek h o w => exact io (.seek h o w)
  | hTell h => exact io (.tell h)
  | hTruncate h n => exact io (.trunc h n)
  | hFlush h => exact io (.flush h)
  | hClose h =>
    refine io (.close h ?_)
    cases hb : (s.handles h).deleteOnClose with
    | false => rfl
    | true => exact absurd (.close h hb) hdel
  | setUser u g => exact KeptEnt.same fun _ => rfl
  | setClock t => exact KeptEnt.same fun _ => rfl

/-- C56: on a Windows filesystem, whatever the history, no call (but closing a delete-on-close file) takes the directory entry of
a read-only file, or of an open file, away: removing, renaming and replacing it, and deleting the tree around it, fail. -/
theorem win_keeps_entry {s : FS} (hs : Reachable s) (hw : s.cfg.isWin = true) (o : Op) (hdel : ¬ DeletesOnClose s o) {d x : Ref} {nm : Str}
    (hd : d < s.next) (he : (nm, x) ∈ (s.heap d).entries) (hx : (s.heap x).mode &&& 0o200 = 0 ∨ OpenOn s x) :
    (nm, x) ∈ ((o.next s).heap d).entries := by
  have hi := reachable_inv hs
  have hxl := hi.g.entLt d hd _ he
  rcases keptEnt_step o hdel hw d hd nm x hxl (alookup_of_mem (hi.g.keys d hd) he) with h | h
  · exact alookup_mem h
  · rcases hx with hx | hx
    · exact absurd hx h.writable
    · exact absurd hx h.notOpen

/-- C56: removing such an entry from its directory raises `EACCES` and changes nothing. -/
theorem win_remove_denied {s : FS} (hw : s.cfg.isWin = true) {d x : Ref} {nm : Str} (r : Bool) (hd : (s.heap d).isDir = true)
    (he : s.getEntry (s.heap d).entries (s.normEntry (s.heap d).entries nm) = .ok x) (hx : (s.heap x).mode &&& 0o200 = 0 ∨ OpenOn s x) :
    removeEntry d nm r s = (.error (.os .EACCES), s) := by
  have hc : removeCheck s d x = .error (.os .EACCES) := by
    unfold removeCheck
    rw [if_pos hw]
    rcases hx with hx | hx
    · exact if_pos hx
    · split
      · rfl
      · rw [if_pos ((hasOpenFile_iff s x).mpr hx)]
  unfold removeEntry removeEntryF
  rw [if_neg (by rw [hd]; simp)]
  dsimp only
  rw [he]
  dsimp only
  rw [hc]

/-- a Windows filesystem with the directory `C:\a` holding `f` (being written), `g` (read-only) and `h` -/
def winOps : List Op :=
  [.mkdir ['a'] 0o777,
   .createFile ['a', '\\', 'f'] (S_IFREG ||| 0o666) (some [104, 105]) none true false,
   .createFile ['a', '/', 'g'] (S_IFREG ||| 0o666) (some [104, 105]) none true false,
   .createFile ['A', '\\', 'h'] (S_IFREG ||| 0o666) none none true false,
   .chmod ['a', '\\', 'g'] 0o444 true,
   .openPath ['a', '\\', 'F'] ⟨true, true, true, false, false, false⟩ none false false]
def winFS : FS := runs winOps (initFS { demoCfg with sep := '\\', altsep := some '/', isWin := true, caseSens := false, lower := fun s => s.map Char.toLower } 50 0 0 0o022 7 none)

theorem winFS_win : winFS.cfg.isWin = true := by
  have : winFS.cfg = _ := runs_cfg
  rw [this]
theorem winFS_reachable : Reachable winFS := ⟨_, _, _, _, _, _, _, _, rfl⟩

/-- the open file survives the removal of the directory around it, the read-only one its own removal -/
example : (['f'], 3) ∈ (((Op.removeObject ['a']).next winFS).heap 2).entries :=
  win_keeps_entry winFS_reachable winFS_win _ (by rintro ⟨⟩) (by decide +kernel) (by decide +kernel)
    (Or.inr ((hasOpenFile_iff _ _).mp (by decide +kernel)))
example : (['g'], 4) ∈ (((Op.remove ['a', '\\', 'g']).next winFS).heap 2).entries :=
  win_keeps_entry winFS_reachable winFS_win _ (by rintro ⟨⟩) (by decide +kernel) (by decide +kernel) (Or.inl (by decide +kernel))
example : removeEntry 2 ['G'] true winFS = (.error (.os .EACCES), winFS) :=
  win_remove_denied winFS_win true (by decide +kernel) (x := 4) (by decide +kernel) (Or.inl (by decide +kernel))
/-- a writable file that is not open can be removed -/
example : (((Op.remove ['a', '\\', 'h']).next winFS).heap 2).entries = [(['f'], 3), (['g'], 4)] := by decide +kernel

end Verif
