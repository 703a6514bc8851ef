import Verif.Meta
import Verif.Props.Modes
import Verif.Props.Chown
import Verif.Props.Visible
/-!
# C50: owners and time stamps

Who owns an object, and when its time stamps change, through every history of calls.
-/

namespace Verif
open Py Spec Cfg

/-! ## Which calls set what -/

/-- the calls that set owners or time stamps explicitly, and the environment -/
def Op.sets : Op → Bool
  | .chown _ _ _ _ | .utime _ _ _ | .setUser _ _ | .setClock _ => true
  | _ => false

/-- the calls about the directory tree and the sizes of files: everything but opening, reading, writing, closing and the
attribute calls -/
def Op.treeCall : Op → Bool
  | .mkdir _ _ | .makedirs _ _ _ | .createDir _ _ | .createFile _ _ _ _ _ _ | .createSymlink _ _ _ | .createLink _ _ _ _
  | .remove _ | .removeObject _ | .rmdir _ | .removedirs _ | .rename _ _ _ | .truncate _ _ | .mknod _ _
  | .setxattr _ _ _ _ _ | .removexattr _ _ _ | .addMountPoint _ _ | .setDiskUsage _ _ | .umask _ | .chdir _
  | .ftruncate _ _ => true
  | _ => false

theorem fm_umask {T : Stamps} (m : Nat) : Fr (Meta T) (umask m) := fun s =>
  ⟨rfl, rfl, rfl, rfl, Nat.le_refl _, fun _ _ => MKeep.same rfl rfl rfl rfl rfl, fun _ h h' => absurd h' (Nat.not_lt.mpr h)⟩
theorem fm_chdir {T : Stamps} (p : Str) : Fr (Meta T) (chdir p) := by
  unfold chdir
  refine fm_bind (fm_rd _) fun q => fm_bind (fm_rd _) fun _ => fm_bind (fm_rd _) fun _ => ?_
  exact fun s => ⟨rfl, rfl, rfl, rfl, Nat.le_refl _, fun _ _ => MKeep.same rfl rfl rfl rfl rfl, fun _ h h' => absurd h' (Nat.not_lt.mpr h)⟩
theorem fm_ftruncateT {T : Stamps} (fd : Int) (n : Nat) : Fr (Meta T) (ftruncate fd n) := by
  unfold ftruncate
  refine fm_bind (fm_rd _) fun h => fm_bind (fm_hget _) fun H => fm_ite (fun _ => fm_bind (fm_throw _) fun _ => fm_setSize _ _) fun _ => fm_setSize _ _

theorem fm_tree {T : Stamps} (o : Op) (h : o.treeCall = true) : Fr (Meta T) o.run := by
  cases o with
  | mkdir p m => exact fm_mkdir p m
  | makedirs p m e => exact fm_makedirs p m e
  | createDir p m => exact fm_void (fm_createDir p m)
  | createFile p m c z cm um => exact fm_void (fm_createFile p m c z cm um)
  | createSymlink p t cm => exact fm_void (fm_createSymlink p t cm)
  | createLink o n f cm => exact fm_void (fm_createLink o n f cm)
  | remove p => exact fm_remove p
  | removeObject p => exact fm_removeObject p
  | rmdir p => exact fm_rmdir p false
  | removedirs p => exact fm_removedirs p
  | rename o n f => exact fm_rename o n f
  | truncate p n => exact fm_truncate p n
  | mknod p m => exact fm_mknod p m
  | setxattr p a v fl f => exact fm_setxattr p a v fl f
  | removexattr p a f => exact fm_removexattr p a f
  | addMountPoint p t => exact fm_void (fm_addMountPoint p t)
  | setDiskUsage t p => exact fm_setDiskUsage t p
  | umask m => exact fm_void (fm_umask m)
  | chdir p => exact fm_chdir p
  | ftruncate fd n => exact fm_ftruncateT fd n
  | _ => simp [Op.treeCall] at h

theorem fm_run (o : Op) (hs : o.sets = false) : Fr (Meta Stamps.all) o.run := by
  cases ht : o.treeCall with
  | true => exact fm_tree o ht
  | false =>
    cases o with
    | chmod p m f => exact fm_chmod rfl p m f
    | openPath p md b r d => exact fm_void (fm_openPath p md b r d)
    | openFd fd md b c => exact fm_void (fm_openFd fd md b c)
    | osOpen p f m => exact fm_void (fm_osOpen p f m)
    | osClose fd => exact fm_osClose fd
    | osRead fd n => exact fm_void (fm_osRead fd n)
    | osWrite fd b => exact fm_void (fm_osWrite fd b)
    | hRead h n => exact fm_onFile (fm_read h n)
    | hWrite h b => exact fm_onFile (fm_write h b)
    | hSeek h o w => exact fm_onFile (fm_seek h o w)
    | hTell h => exact fm_onFile (fm_tell h)
    | hTruncate h n => exact fm_onFile (fm_hTruncate h n)
    | hFlush h => exact fm_onFile (fm_flush h)
    | hClose h => exact fm_onFile (fm_hClose h)
    | chown p u g f => simp [Op.sets] at hs
    | utime p ns f => simp [Op.sets] at hs
    | setUser u g => simp [Op.sets] at hs
    | setClock t => simp [Op.sets] at hs
    | _ => simp [Op.treeCall] at ht

/-! ## Owners -/

/-- the object after `utime` -/
def utimed (ns : Option (Int × Int)) (now : Int) (o : Obj) : Obj :=
  match ns with
  | some (a, m) => { o with atime := a, mtime := m }
  | none => { o with atime := now, mtime := now }

/-- what `utime` does -/
theorem utime_heap (p : Str) (ns : Option (Int × Int)) (f : Bool) (s : FS) :
    (utime p ns f s).2 = s ∨ ∃ r, (utime p ns f s).2 = s.setObj r (utimed ns s.clock) := by
  refine (show wp (utime p ns f) (fun _ s' => s' = s ∨ ∃ r, s' = s.setObj r (utimed ns s.clock)) s from ?_)
  unfold utime
  apply wp_readBind
  · intro e _; exact Or.inl rfl
  · intro r _; apply wp_modify; exact Or.inr ⟨r, rfl⟩

theorem utimed_keeps (ns : Option (Int × Int)) (now : Int) (o : Obj) :
    (utimed ns now o).uid = o.uid ∧ (utimed ns now o).gid = o.gid ∧ (utimed ns now o).ctime = o.ctime := by
  unfold utimed
  split <;> exact ⟨rfl, rfl, rfl⟩

theorem utime_owner (p : Str) (ns : Option (Int × Int)) (f : Bool) (s : FS) (x : Ref) :
    ((utime p ns f s).2.heap x).uid = (s.heap x).uid ∧ ((utime p ns f s).2.heap x).gid = (s.heap x).gid ∧
    (utime p ns f s).2.next = s.next := by
  rcases utime_heap p ns f s with h | ⟨r, h⟩
  · rw [h]; exact ⟨rfl, rfl, rfl⟩
  · rw [h]
    refine ⟨?_, ?_, rfl⟩
    · show (upd s.heap r (utimed ns s.clock (s.heap r)) x).uid = _
      by_cases hx : x = r
      · subst hx; rw [upd_same]; exact (utimed_keeps _ _ _).1
      · rw [upd_ne _ _ hx]
    · show (upd s.heap r (utimed ns s.clock (s.heap r)) x).gid = _
      by_cases hx : x = r
      · subst hx; rw [upd_same]; exact (utimed_keeps _ _ _).2.1
      · rw [upd_ne _ _ hx]

/-- the call is not `chown` -/
def Spec.NoChown (o : Op) : Prop := ∀ p u g f, o ≠ .chown p u g f

/-- C50: a call other than `chown` changes the owner of no object, and the objects it makes belong to the calling user and
group and carry the current time in all three time stamps. -/
theorem owner_step {o : Op} (ho : NoChown o) (s : FS) :
    (∀ r < s.next, ((o.next s).heap r).uid = (s.heap r).uid ∧ ((o.next s).heap r).gid = (s.heap r).gid) ∧
    ∀ r, s.next ≤ r → r < (o.next s).next →
      ((o.next s).heap r).uid = s.uid ∧ ((o.next s).heap r).gid = s.gid ∧
      ((o.next s).heap r).atime = s.clock ∧ ((o.next s).heap r).mtime = s.clock ∧ ((o.next s).heap r).ctime = s.clock := by
  have quiet : ∀ t : FS, t.heap = s.heap → t.next = s.next →
      (∀ r < s.next, (t.heap r).uid = (s.heap r).uid ∧ (t.heap r).gid = (s.heap r).gid) ∧
      ∀ r, s.next ≤ r → r < t.next → (t.heap r).uid = s.uid ∧ (t.heap r).gid = s.gid ∧
        (t.heap r).atime = s.clock ∧ (t.heap r).mtime = s.clock ∧ (t.heap r).ctime = s.clock := by
    intro t h1 h2
    rw [h1, h2]
    exact ⟨fun _ _ => ⟨rfl, rfl⟩, fun r h h' => absurd h' (Nat.not_lt.mpr h)⟩
  cases hs : o.sets with
  | false =>
    have m : Meta Stamps.all s (o.next s) := fm_run o hs s
    exact ⟨fun r hr => ⟨(m.old r hr).uid, (m.old r hr).gid⟩,
      fun r h1 h2 => ⟨(m.new r h1 h2).uid, (m.new r h1 h2).gid, (m.new r h1 h2).atime, (m.new r h1 h2).mtime, (m.new r h1 h2).ctime⟩⟩
  | true =>
    cases o with
    | chown p u g f => exact absurd rfl (ho p u g f)
    | utime p ns f =>
      refine ⟨fun r _ => ⟨(utime_owner p ns f s r).1, (utime_owner p ns f s r).2.1⟩, fun r h1 h2 => ?_⟩
      rw [show (Op.next (.utime p ns f) s).next = s.next from (utime_owner p ns f s 0).2.2] at h2
      exact absurd h2 (Nat.not_lt.mpr h1)
    | setUser u g => exact quiet _ rfl rfl
    | setClock t => exact quiet _ rfl rfl
    | _ => simp [Op.sets] at hs

/-- C50: whatever happens in a history without `chown`, two `stat` results about the same file (same inode number), one taken
before and one after, report the same owner. -/
theorem owner_history {s : FS} (hs : Reachable s) {ops : List Op} (ho : ∀ o ∈ ops, NoChown o) {p q : Str} {f g : Bool} {a b : Stat} {i : Nat}
    (ha : s.stat p f = .ok a) (hb : (runs ops s).stat q g = .ok b) (hi : a.ino = some i) (hj : b.ino = some i) :
    b.uid = a.uid ∧ b.gid = a.gid := by
  obtain ⟨x, hx, rfl⟩ := stat_ok ha
  obtain ⟨y, hy, rfl⟩ := stat_ok hb
  have e := (inode_stable hs ops hx hi).2 q g false y hy hj
  subst e
  have key : ∀ (ops : List Op) (s : FS), (∀ o ∈ ops, NoChown o) → Inv s → ∀ r < s.next,
      ((runs ops s).heap r).uid = (s.heap r).uid ∧ ((runs ops s).heap r).gid = (s.heap r).gid := by
    intro ops
    induction ops with
    | nil => intro s _ _ r _; exact ⟨rfl, rfl⟩
    | cons o ops ih =>
      intro s ho h r hr
      have h1 := (owner_step (ho o (by simp)) s).1 r hr
      have st := (next_step o h).1
      have h2 := ih (o.next s) (fun o' h' => ho o' (by simp [h'])) st.inv r (Nat.lt_of_lt_of_le hr st.pers.next)
      exact ⟨h2.1.trans h1.1, h2.2.trans h1.2⟩
  exact key ops s ho (reachable_inv hs) y (resolve_lt (reachable_inv hs) hx)

/-! ## Time stamps -/

/-- no time stamp of the object is later than `t` -/
structure Spec.Before (o : Obj) (t : Int) : Prop where
  atime : o.atime ≤ t
  mtime : o.mtime ≤ t
  ctime : o.ctime ≤ t

/-- no time stamp of the object went back -/
structure Spec.NotEarlier (o o' : Obj) : Prop where
  atime : o.atime ≤ o'.atime
  mtime : o.mtime ≤ o'.mtime
  ctime : o.ctime ≤ o'.ctime

/-- a history in which the clock is never set back and `utime` is only used to set the current time -/
def Spec.Forward : List Op → FS → Prop
  | [], _ => True
  | o :: ops, s => (∀ t, o = .setClock t → s.clock ≤ t) ∧ (∀ p a m f, o ≠ .utime p (some (a, m)) f) ∧ Forward ops (o.next s)

theorem Spec.NotEarlier.refl (o : Obj) : NotEarlier o o := ⟨Int.le_refl _, Int.le_refl _, Int.le_refl _⟩
theorem Spec.NotEarlier.trans {a b c : Obj} (h : NotEarlier a b) (k : NotEarlier b c) : NotEarlier a c :=
  ⟨Int.le_trans h.atime k.atime, Int.le_trans h.mtime k.mtime, Int.le_trans h.ctime k.ctime⟩
theorem Spec.Before.mono {o : Obj} {t t' : Int} (h : Before o t) (k : t ≤ t') : Before o t' :=
  ⟨Int.le_trans h.atime k, Int.le_trans h.mtime k, Int.le_trans h.ctime k⟩

theorem mkeep_forward {T : Stamps} {now : Int} {o o' : Obj} (h : MKeep T now o o') (b : Before o now) : NotEarlier o o' ∧ Before o' now := by
  have key : ∀ {x y : Int} {p : Prop}, (y = x ∨ p ∧ y = now) → x ≤ now → x ≤ y ∧ y ≤ now := by
    rintro x y p (h | h) hx
    · rw [h]; exact ⟨Int.le_refl _, hx⟩
    · rw [h.2]; exact ⟨hx, Int.le_refl _⟩
  exact ⟨⟨(key h.atime b.atime).1, (key h.mtime b.mtime).1, (key h.ctime b.ctime).1⟩, ⟨(key h.atime b.atime).2, (key h.mtime b.mtime).2, (key h.ctime b.ctime).2⟩⟩

/-- one step of `times_forward` -/
theorem forward_step {o : Op} {s : FS} (h1 : ∀ t, o = .setClock t → s.clock ≤ t) (h2 : ∀ p a m f, o ≠ .utime p (some (a, m)) f)
    (hb : ∀ r < s.next, Before (s.heap r) s.clock) :
    (∀ r < s.next, NotEarlier (s.heap r) ((o.next s).heap r)) ∧ ∀ r < (o.next s).next, Before ((o.next s).heap r) (o.next s).clock := by
  cases hs : o.sets with
  | false =>
    have m : Meta Stamps.all s (o.next s) := fm_run o hs s
    refine ⟨fun r hr => (mkeep_forward (m.old r hr) (hb r hr)).1, fun r hr => ?_⟩
    rw [m.clock]
    by_cases hx : r < s.next
    · exact (mkeep_forward (m.old r hx) (hb r hx)).2
    · have k := m.new r (Nat.not_lt.mp hx) hr
      exact ⟨Int.le_of_eq k.atime, Int.le_of_eq k.mtime, Int.le_of_eq k.ctime⟩
  | true =>
    cases o with
    | chown p u g f =>
      have key : ∃ hp, (Op.next (.chown p u g f) s) = { s with heap := hp } ∧ ∀ x, (hp x).atime = (s.heap x).atime ∧ (hp x).mtime = (s.heap x).mtime ∧ (hp x).ctime = (s.heap x).ctime := by
        rcases chown_effect p u g f s with ⟨e, _, h⟩ | ⟨r, s', h, _, h3, _, h5, h6, _⟩
        · exact ⟨s.heap, by show (chown p u g f s).2 = _; rw [h], fun _ => ⟨rfl, rfl, rfl⟩⟩
        · refine ⟨s'.heap, by show (chown p u g f s).2 = _; rw [h]; exact h3, fun x => ?_⟩
          by_cases hx : x = r
          · subst hx; rw [h6]; exact ⟨rfl, rfl, rfl⟩
          · rw [h5 x hx]; exact ⟨rfl, rfl, rfl⟩
      obtain ⟨hp, e, k⟩ := key
      rw [e]
      exact ⟨fun r _ => ⟨Int.le_of_eq (k r).1.symm, Int.le_of_eq (k r).2.1.symm, Int.le_of_eq (k r).2.2.symm⟩,
        fun r hr => ⟨by show (hp r).atime ≤ s.clock; rw [(k r).1]; exact (hb r hr).atime, by show (hp r).mtime ≤ s.clock; rw [(k r).2.1]; exact (hb r hr).mtime,
          by show (hp r).ctime ≤ s.clock; rw [(k r).2.2]; exact (hb r hr).ctime⟩⟩
    | utime p ns f =>
      cases ns with
      | some am => exact absurd rfl (h2 p am.1 am.2 f)
      | none =>
        rcases utime_heap p none f s with h | ⟨r, h⟩
        · rw [show Op.next (.utime p none f) s = s from h]
          exact ⟨fun _ _ => NotEarlier.refl _, hb⟩
        · rw [show Op.next (.utime p none f) s = s.setObj r (utimed none s.clock) from h]
          have key : ∀ x, x < s.next → NotEarlier (s.heap x) (upd s.heap r (utimed none s.clock (s.heap r)) x) ∧
              Before (upd s.heap r (utimed none s.clock (s.heap r)) x) s.clock := by
            intro x hx
            by_cases hxr : x = r
            · subst hxr; rw [upd_same]
              exact ⟨⟨(hb x hx).atime, (hb x hx).mtime, Int.le_refl _⟩, ⟨Int.le_refl _, Int.le_refl _, (hb x hx).ctime⟩⟩
            · rw [upd_ne _ _ hxr]; exact ⟨NotEarlier.refl _, hb x hx⟩
          exact ⟨fun x hx => (key x hx).1, fun x hx => (key x hx).2⟩
    | setUser u g => exact ⟨fun _ _ => NotEarlier.refl _, hb⟩
    | setClock t => exact ⟨fun _ _ => NotEarlier.refl _, fun r hr => (hb r hr).mono (h1 t rfl)⟩
    | _ => simp [Op.sets] at hs

theorem runs_next_le : ∀ (ops : List Op) {s : FS}, Inv s → s.next ≤ (runs ops s).next := fun ops _ h => (runs_step ops h).pers.next

/-- C50: as long as the clock does not go back (and `utime` only sets the current time), no time stamp of any object ever goes
back or lies in the future, whatever calls are made. -/
theorem times_forward {s : FS} (hs : Reachable s) {ops : List Op} (hf : Forward ops s) (hb : ∀ r < s.next, Before (s.heap r) s.clock) :
    (∀ r < s.next, NotEarlier (s.heap r) ((runs ops s).heap r)) ∧ ∀ r < (runs ops s).next, Before ((runs ops s).heap r) (runs ops s).clock := by
  have h := reachable_inv hs
  clear hs
  induction ops generalizing s with
  | nil => exact ⟨fun _ _ => NotEarlier.refl _, hb⟩
  | cons o ops ih =>
    obtain ⟨h1, h2, h3⟩ := hf
    have st := (next_step o h).1
    have k := forward_step h1 h2 hb
    have k' := ih h3 k.2 st.inv
    exact ⟨fun r hr => (k.1 r hr).trans (k'.1 r (Nat.lt_of_lt_of_le hr st.pers.next)), k'.2⟩

/-- … in particular from a fresh filesystem on. -/
theorem times_past (k : Cfg) (limit uid gid um : Nat) (clock : Int) (total : Option Int) {ops : List Op}
    (hf : Forward ops (initFS k limit uid gid um clock total)) :
    ∀ r < (runs ops (initFS k limit uid gid um clock total)).next,
      Before ((runs ops (initFS k limit uid gid um clock total)).heap r) (runs ops (initFS k limit uid gid um clock total)).clock := by
  refine (times_forward ⟨k, limit, uid, gid, um, clock, total, [], rfl⟩ hf ?_).2
  intro r hr
  have hr : r < 2 := hr
  have : r = 0 ∨ r = 1 := by omega
  rcases this with rfl | rfl <;> exact ⟨Int.le_refl _, Int.le_refl _, Int.le_refl _⟩

/-- C50: creating, linking, renaming, removing and resizing leave every time stamp of every existing object alone. -/
theorem tree_call_times {o : Op} (ho : o.treeCall = true) (s : FS) :
    ∀ r < s.next, ((o.next s).heap r).atime = (s.heap r).atime ∧ ((o.next s).heap r).mtime = (s.heap r).mtime ∧
      ((o.next s).heap r).ctime = (s.heap r).ctime := by
  have m : Meta ⟨false, false, false⟩ s (o.next s) := fm_tree o ho s
  intro r hr
  have k := m.old r hr
  have e : ∀ {x y z : Int}, (y = x ∨ false = true ∧ y = z) → y = x := by
    rintro x y z (h | h)
    · exact h
    · exact absurd h.1 (by decide)
  exact ⟨e k.atime, e k.mtime, e k.ctime⟩

/-! ## Reading and writing -/

/-- a `flush` that succeeds was a flush of an open file object -/
theorem flush_open {s s' : FS} {h : Nat} (hf : flush h s = (.ok (), s')) : s.isOpen h = true := by
  by_contra hx
  unfold flush at hf
  rw [M.bind_eq] at hf
  unfold checkOpen at hf
  rw [if_neg hx] at hf
  injection hf with hf _; cases hf

/-- C50: a successful `flush` of a file object opened for writing keeps the time stamps of the file if its bytes do not change,
and sets modification and change time to the current time if they do; the access time and the other files are left alone.
(On Windows the times are set by `close`.) -/
theorem flush_stamps {s s' : FS} {h : Nat} (hw : s.cfg.isWin = false) (hf : flush h s = (.ok (), s')) (hu : (s.handles h).update = true)
    (hn : (s.handles h).obj ≠ devNullRef) (hb : bytesOf s (s.handles h).obj ≠ none) :
    (∀ x, x ≠ (s.handles h).obj → s'.heap x = s.heap x) ∧
    (s'.heap (s.handles h).obj).atime = (s.heap (s.handles h).obj).atime ∧
    (bytesOf s' (s.handles h).obj = bytesOf s (s.handles h).obj →
      (s'.heap (s.handles h).obj).mtime = (s.heap (s.handles h).obj).mtime ∧ (s'.heap (s.handles h).obj).ctime = (s.heap (s.handles h).obj).ctime) ∧
    (bytesOf s' (s.handles h).obj ≠ bytesOf s (s.handles h).obj →
      (s'.heap (s.handles h).obj).mtime = s.clock ∧ (s'.heap (s.handles h).obj).ctime = s.clock) := by
  have hoh := flush_open hf
  obtain ⟨C, hC⟩ := Option.ne_none_iff_exists'.mp hb
  have key : ∃ D, Flushed s s' h (s.handles h).obj D := by
    by_cases hap : (s.handles h).append = true
    · have := flush_append_spec hoh hu hap hn rfl (bytesOf_some.mp hC)
      unfold wp at this; rw [hf] at this
      rcases this with ⟨e, _⟩ | ⟨_, f, _⟩
      · cases e
      · exact ⟨_, f⟩
    · rw [Bool.not_eq_true] at hap
      have := flush_spec hoh hu hap hn rfl (bytesOf_some.mp hC)
      unfold wp at this; rw [hf] at this
      rcases this with ⟨e, _⟩ | ⟨_, f, _⟩
      · cases e
      · exact ⟨_, f⟩
  obtain ⟨D, f⟩ := key
  have hD := bytesOf_some.mpr f.content
  have hcC := bytesOf_some.mp hC
  refine ⟨f.others, by rw [f.obj], fun e => ?_, fun e => ?_⟩
  · have e2 : D = C := by rw [hD, hC] at e; injection e
    subst e2
    rw [f.times.1, f.times.2]
    unfold flushTime
    rw [if_pos (Or.inr hcC), if_pos (Or.inr hcC)]
    exact ⟨rfl, rfl⟩
  · have e2 : ¬ (s.cfg.isWin = true ∨ (s.heap (s.handles h).obj).content = .file (some D)) := by
      rintro (h1 | h1)
      · rw [hw] at h1; cases h1
      · exact e (hD.trans (bytesOf_some.mpr h1).symm)
    rw [f.times.1, f.times.2]
    unfold flushTime
    rw [if_neg e2, if_neg e2]
    exact ⟨rfl, rfl⟩

theorem syncIo_heap (h : Nat) (s : FS) : (syncIo h s).2.heap = s.heap := by
  unfold syncIo setStream
  rw [M.bind_eq]
  dsimp only [M.get]
  split
  · rfl
  · rw [M.bind_eq]
    cases s.byteContents (s.handles h).obj <;> rfl

/-- C50: reading sets the access time of the file to the current time; through a file object opened only for reading it
changes nothing else about any file. (On Windows access times are not kept.) -/
theorem read_stamps {s s' : FS} {h : Nat} {n : Option Nat} {b : Bytes} (hw : s.cfg.isWin = false) (hr : read h n s = (.ok b, s')) :
    (s'.heap (s.handles h).obj).atime = s.clock ∧
    ((s.handles h).update = false → s'.heap = upd s.heap (s.handles h).obj { s.heap (s.handles h).obj with atime := s.clock }) := by
  have key : Okp (read h n) (fun _ s' => (s'.heap (s.handles h).obj).atime = s.clock ∧
      ((s.handles h).update = false → s'.heap = upd s.heap (s.handles h).obj { s.heap (s.handles h).obj with atime := s.clock })) s := by
    unfold read
    apply okp_get
    dsimp only
    refine okp_ite (fun _ => okp_throw _) fun _ => ?_
    apply okp_checkOpen
    intro hop
    refine okp_ite (fun _ => ?_) fun _ => ?_
    · rw [if_neg (by rw [hw]; simp)]
      unfold hRaise
      apply okp_hget
      exact okp_ite (fun _ => okp_raise _) fun _ => okp_throw _
    have q1 := fq_syncIo h s
    have m1 := fm_syncIo h s
    have e1 := syncIo_heap h s
    rcases hs : syncIo h s with ⟨_ | u, s1⟩
    · constructor; intro a t e; rw [M.bind_eq, hs] at e; injection e with e _; cases e
    rw [hs] at q1 m1 e1
    apply okp_eqBind hs
    have hop1 : s1.isOpen h = true := by
      unfold FS.isOpen at hop ⊢
      rw [q1.openFiles, q1.fd]; exact hop
    have m2 := fm_flush h s1
    rcases hf : flush h s1 with ⟨_ | u, s2⟩
    · constructor; intro a t e; rw [M.bind_eq, hf] at e; injection e with e _; cases e
    rw [hf] at m2
    apply okp_eqBind hf
    have hc : s2.clock = s.clock := m2.clock.trans m1.clock
    rw [if_pos (by rw [hw]; rfl)]
    apply okp_modifyBind
    have goal : ∀ t : FS, t.heap = (s2.setObj (s.handles h).obj fun o => { o with atime := s2.clock }).heap →
        ((t.heap (s.handles h).obj).atime = s.clock ∧
          ((s.handles h).update = false → t.heap = upd s.heap (s.handles h).obj { s.heap (s.handles h).obj with atime := s.clock })) := by
      intro t ht
      refine ⟨?_, fun hu => ?_⟩
      · rw [ht]; show (upd s2.heap (s.handles h).obj _ (s.handles h).obj).atime = _; rw [upd_same]; exact hc
      · have hu1 : (s1.handles h).update = false := by rw [q1.update]; exact hu
        rw [flush_readonly hop1 hu1] at hf
        injection hf with _ hf; subst hf
        rw [ht]
        show upd s1.heap _ _ = _
        rw [e1, hc]
    apply okp_hget
    refine okp_ite (fun _ => ?_) fun _ => ?_
    · split
      · exact okp_throw _
      · apply okp_hmodBind
        exact okp_pure (goal _ rfl)
    · apply okp_hmodBind
      exact okp_pure (goal _ rfl)
  exact key.elim b s' hr

/-- the hypotheses of `owner_step`, `times_forward` and `tree_call_times` are met by calls that do something: here another user
creates a file in the example, and the root user renames it later -/
example : Reachable demo ∧ NoChown (.rename ['/', 'g'] ['/', 'k'] false) ∧ Op.treeCall (.rename ['/', 'g'] ['/', 'k'] false) = true ∧
    (Op.run (.rename ['/', 'g'] ['/', 'k'] false) demo).1 = .ok () := by
  refine ⟨demo_reachable, fun _ _ _ _ h => (by cases h), rfl, ?_⟩
  decide +kernel

/-- a history of the example in which files are made at different times by different users -/
def ownOps : List Op := [.setClock 9, .mkdir ['/', 'u'] 511, .setUser 5 6, .setClock 11, .utime ['/', 'u'] none true, .mkdir ['/', 'v'] 511]

example : Forward ownOps demo ∧ ∀ o ∈ ownOps, NoChown o := by
  refine ⟨?_, ?_⟩
  · refine ⟨?_, ?_, ?_, ?_, ?_, ?_, ?_, ?_, ?_, ?_, ?_, ?_, trivial⟩
    all_goals first
      | (intro t h; cases h; decide +kernel)
      | (intro p a m f h; cases h)
      | (intro t h; cases h)
  · intro o h
    simp only [ownOps, List.mem_cons, List.not_mem_nil, or_false] at h
    rcases h with rfl | rfl | rfl | rfl | rfl | rfl <;> (intro _ _ _ _ h; cases h)

/-- the hypotheses of `flush_stamps` (with changed and with unchanged bytes) and of `read_stamps` -/
example : let s := runs [.openPath ['/', 'a', '/', 'f'] rpMode none false false, .setClock 9, .hWrite 3 [7]] demo
    let t := runs [.openPath ['/', 'a', '/', 'f'] rpMode none false false, .setClock 9] demo
    s.cfg.isWin = false ∧ (flush 3 s).1 = .ok () ∧ (s.handles 3).update = true ∧ (s.handles 3).obj = 3 ∧ bytesOf s 3 = some [104, 105] ∧
      bytesOf (flush 3 s).2 3 = some [7, 105] ∧ ((flush 3 s).2.heap 3).mtime = 9 ∧
      (flush 3 t).1 = .ok () ∧ bytesOf (flush 3 t).2 3 = some [104, 105] ∧ ((flush 3 t).2.heap 3).mtime = 7 ∧ (read 3 none t).1 = .ok [104, 105] := by
  decide +kernel

end Verif
