import Verif.SpecFd
import Verif.Held
import Verif.Props.RefineRun
import Verif.Props.Refused
import Verif.Readers
import Verif.Props.Descr
/-!
# The fake filesystem with descriptors: what a state stands for, and calls that leave the other handles alone
-/

namespace Verif
open Py Spec Cfg

namespace Spec
/-- what a name leads to -/
def whatOf (r : Ref) (o : Obj) : Ref.What := if o.isDir then .dir else .file r

/-- what a handle of `os.open` stands for -/
def descOf (H : Handle) : Ref.Desc :=
  if H.kind = .file then (if H.append then .append H.obj else .file H.obj H.pos H.read H.update) else .dir

/-- the system of the reference file system a state stands for -/
def sysOf (s : FS) : Ref.Sys where
  names := fun l => (walk s.heap rootRef l).map fun r => whatOf r (s.heap r)
  data := fun i => match (s.heap i).content with | .file b => b.getD [] | .dir _ => []
  fds := fun fd => if fd < 3 then none else match s.openFiles[fd]? with | some (some (h :: _)) => some (descOf (s.handles h)) | _ => none
end Spec

theorem sysOf_tree (s : FS) : (sysOf s).tree = treeOf s := by
  funext l
  unfold Ref.Sys.tree sysOf treeOf whatOf nodeOf Obj.isDir
  dsimp only
  cases hw : walk s.heap rootRef l with
  | none => rfl
  | some x =>
    simp only [Option.map_some]
    cases hc : (s.heap x).content <;> simp [hc]

/-- a handle of `os.open` on a file: what it has read ahead is what is in the file, or the file has a later epoch -/
structure FileOk (s : FS) (g : Nat) : Prop where
  kind : (s.handles g).kind = .file
  ne : (s.handles g).obj ≠ devNullRef
  lt : (s.handles g).obj < s.next
  data : ∃ b, (s.heap (s.handles g).obj).content = .file (some b) ∧ (s.heap (s.handles g).obj).size = b.length
  raw : (s.handles g).rawIo = true
  del : (s.handles g).deleteOnClose = false
  le : (s.handles g).fileEpoch ≤ (s.heap (s.handles g).obj).epoch
  clean : (s.handles g).append = false → (s.handles g).fileEpoch = (s.heap (s.handles g).obj).epoch →
    (s.heap (s.handles g).obj).content = .file (some (s.handles g).buf)
  app : (s.handles g).append = true → (s.handles g).read = false ∧ (s.handles g).update = true ∧ (s.handles g).pos = (s.handles g).buf.length ∧
    (s.handles g).flushPos ≤ (s.handles g).buf.length

def HOk (s : FS) (g : Nat) : Prop := (s.handles g).kind = .dir ∨ FileOk s g

/-- The states reached with the calls of the reference file system with descriptors. -/
structure SysSt (k : Cfg) (u : Nat) (s : FS) : Prop extends RefSt k u s where
  slots : ∀ fd, 3 ≤ fd → ∀ l, s.openFiles[fd]? = some (some l) → ∃ g, l = [g] ∧ HOk s g

/-- nothing a descriptor shows has changed -/
structure SameView (H H' : Handle) : Prop where
  kind : H'.kind = H.kind
  obj : H'.obj = H.obj
  append : H'.append = H.append
  read : H'.read = H.read
  update : H'.update = H.update
  pos : H'.pos = H.pos

theorem SameView.refl (H : Handle) : SameView H H := ⟨rfl, rfl, rfl, rfl, rfl, rfl⟩
theorem SameView.trans {a b c : Handle} (h : SameView a b) (k : SameView b c) : SameView a c :=
  ⟨k.kind.trans h.kind, k.obj.trans h.obj, k.append.trans h.append, k.read.trans h.read, k.update.trans h.update, k.pos.trans h.pos⟩

theorem SameView.desc {H H' : Handle} (h : SameView H H') : descOf H' = descOf H := by
  unfold descOf
  rw [h.kind, h.obj, h.append, h.read, h.update, h.pos]

/-- every open handle except `h` is as good as before and shows the same -/
structure Steady (h : Nat) (s s' : FS) : Prop where
  hnext : s.hnext ≤ s'.hnext
  keep : ∀ g < s.hnext, g ≠ h → HOk s g → HOk s' g ∧ SameView (s.handles g) (s'.handles g)

theorem Steady.refl (h : Nat) (s : FS) : Steady h s s := ⟨Nat.le_refl _, fun _ _ _ k => ⟨k, .refl _⟩⟩

theorem Steady.trans {h : Nat} {a b c : FS} (x : Steady h a b) (y : Steady h b c) : Steady h a c := by
  refine ⟨Nat.le_trans x.hnext y.hnext, fun g hg hne k => ?_⟩
  obtain ⟨k1, v1⟩ := x.keep g hg hne k
  obtain ⟨k2, v2⟩ := y.keep g (Nat.lt_of_lt_of_le hg x.hnext) hne k1
  exact ⟨k2, v1.trans v2⟩

/-- a file stays a file, and other bytes mean a later epoch -/
def Newer (o o' : Obj) : Prop := ∀ b, o.content = .file (some b) → o.size = b.length →
  ∃ b', o'.content = .file (some b') ∧ o'.size = b'.length ∧ o.epoch ≤ o'.epoch ∧ (o'.epoch = o.epoch → b' = b)

theorem Newer.refl (o : Obj) : Newer o o := fun b h1 h2 => ⟨b, h1, h2, Nat.le_refl _, fun _ => rfl⟩

theorem Newer.of {o o' : Obj} (h : o'.content = o.content) (hz : o'.size = o.size) (he : o'.epoch = o.epoch) : Newer o o' :=
  fun b h1 h2 => ⟨b, h.trans h1, hz.trans h2, Nat.le_of_eq he.symm, fun _ => rfl⟩

theorem Steady.of {h : Nat} {s s' : FS} (hn : s.hnext ≤ s'.hnext) (hx : s.next ≤ s'.next) (ho : ∀ r < s.next, Newer (s.heap r) (s'.heap r))
    (hh : ∀ g < s.hnext, g ≠ h → s'.handles g = s.handles g ∨ ((s.handles g).append = false ∧ ∃ b, (s'.heap (s.handles g).obj).content = .file (some b) ∧
      s'.handles g = { s.handles g with buf := b, fileEpoch := (s'.heap (s.handles g).obj).epoch })) : Steady h s s' := by
  refine ⟨hn, fun g hg hne k => ?_⟩
  have hv : SameView (s.handles g) (s'.handles g) := by
    rcases hh g hg hne with e | ⟨_, b, _, e⟩ <;> rw [e]
    · exact .refl _
    · exact ⟨rfl, rfl, rfl, rfl, rfl, rfl⟩
  refine ⟨?_, hv⟩
  rcases k with k | k
  · exact Or.inl (hv.kind.trans k)
  · right
    obtain ⟨b, hb, hz⟩ := k.data
    obtain ⟨b', n1, n2, n3, n4⟩ := ho _ k.lt b hb hz
    rcases hh g hg hne with e | ⟨ha, c, hc, e⟩
    · refine ⟨?_, ?_, ?_, ?_, ?_, ?_, ?_, ?_, ?_⟩ <;> rw [e]
      · exact k.kind
      · exact k.ne
      · exact Nat.lt_of_lt_of_le k.lt hx
      · exact ⟨b', n1, n2⟩
      · exact k.raw
      · exact k.del
      · exact Nat.le_trans k.le n3
      · intro ha he
        have e1 : (s'.heap (s.handles g).obj).epoch = (s.heap (s.handles g).obj).epoch :=
          Nat.le_antisymm (he ▸ k.le) n3
        have := k.clean ha (he.trans e1)
        rw [n1, n4 e1, ← hb, this]
      · exact k.app
    · refine ⟨?_, ?_, ?_, ?_, ?_, ?_, ?_, ?_, ?_⟩ <;> rw [e]
      · exact k.kind
      · exact k.ne
      · exact Nat.lt_of_lt_of_le k.lt hx
      · exact ⟨b', n1, n2⟩
      · exact k.raw
      · exact k.del
      · exact fun _ _ => hc
      · intro h1; rw [ha] at h1; simp at h1

/-- … in particular if only the handle itself and tables have changed -/
theorem Steady.heap {h : Nat} {s s' : FS} (hn : s.hnext ≤ s'.hnext) (hx : s'.next = s.next) (ho : s'.heap = s.heap)
    (hh : ∀ g < s.hnext, g ≠ h → s'.handles g = s.handles g) : Steady h s s' :=
  Steady.of hn (Nat.le_of_eq hx.symm) (fun r _ => by rw [ho]; exact .refl _) fun g h1 h2 => Or.inl (hh g h1 h2)

theorem Steady.flushed {h : Nat} {s s' : FS} {r : Ref} {D : Bytes} (f : Flushed s s' h r D) : Steady h s s' := by
  have e := f.env
  refine Steady.of (by rw [e]) (by rw [e]) (fun x _ => ?_) fun g _ hg => ?_
  · by_cases hx : x = r
    · subst hx
      intro b _ _
      exact ⟨D, f.content, by rw [f.obj], Nat.le_of_lt f.newer, fun e => absurd f.newer (by rw [e]; exact Nat.lt_irrefl _)⟩
    · rw [f.others x hx]; exact .refl _
  · rw [f.hand g hg]
    split
    · rename_i hh
      obtain ⟨_, h1, h2, h3⟩ := hh
      unfold Handle.synced
      split
      · exact Or.inl rfl
      · refine Or.inr ⟨h3, D, by rw [h2]; exact f.content, ?_⟩
        have e1 : (if (s.handles g).append = true then D.length else (s.handles g).pos) = (s.handles g).pos := by rw [h3]; rfl
        rw [e1]
        subst h2
        rfl
    · exact Or.inl rfl

/-- what no call changes of a handle -/
structure Fixed (H H' : Handle) : Prop where
  kind : H'.kind = H.kind
  obj : H'.obj = H.obj
  append : H'.append = H.append
  read : H'.read = H.read
  update : H'.update = H.update
  closefd : H'.closefd = H.closefd
  del : H'.deleteOnClose = H.deleteOnClose
  fd : H'.fd = H.fd

theorem Fixed.refl (H : Handle) : Fixed H H := ⟨rfl, rfl, rfl, rfl, rfl, rfl, rfl, rfl⟩
theorem Fixed.trans {a b c : Handle} (h : Fixed a b) (k : Fixed b c) : Fixed a c :=
  ⟨k.kind.trans h.kind, k.obj.trans h.obj, k.append.trans h.append, k.read.trans h.read, k.update.trans h.update, k.closefd.trans h.closefd,
   k.del.trans h.del, k.fd.trans h.fd⟩

/-- the handle `h` of the file `r`, on a device of unlimited size -/
structure Pre (h : Nat) (r : Ref) (s : FS) : Prop where
  isOpen : s.isOpen h = true
  obj : (s.handles h).obj = r
  ne : r ≠ devNullRef
  data : ∃ C, (s.heap r).content = .file (some C) ∧ (s.heap r).size = C.length
  limitless : ∀ m ∈ s.mounts, m.total = none

theorem Spec.Shape.limitless {s s' : FS} (k : Shape s s') (h : ∀ m ∈ s.mounts, m.total = none) : ∀ m ∈ s'.mounts, m.total = none := by
  intro m hm
  have : (m.path, m.idev, m.total) ∈ s'.mounts.map (fun m => (m.path, m.idev, m.total)) := List.mem_map.mpr ⟨m, hm, rfl⟩
  rw [k.devs] at this
  obtain ⟨m0, h0, e⟩ := List.mem_map.mp this
  simp only [Prod.mk.injEq] at e
  rw [← e.2.2]
  exact h m0 h0

/-- where calls on the handle `h` of the file `r` have got from `s0` -/
structure Go (h : Nat) (r : Ref) (s0 s : FS) : Prop where
  pre : Pre h r s
  steady : Steady h s0 s
  fixed : Fixed (s0.handles h) (s.handles h)

/-- from `s0` via `s` the action succeeds -/
structure Tot {α : Type} (h : Nat) (r : Ref) (s0 : FS) (m : M α) (s : FS) : Prop where
  out : ∃ a s', m s = (.ok a, s') ∧ Go h r s0 s'

section
variable {h : Nat} {r : Ref} {s0 s : FS}

theorem tot_pure {α : Type} (a : α) (g : Go h r s0 s) : Tot h r s0 (M.pure a) s := ⟨a, s, rfl, g⟩
theorem tot_pure' {α : Type} (a : α) (g : Go h r s0 s) : Tot h r s0 (pure a : M α) s := ⟨a, s, rfl, g⟩

theorem tot_bind {α β : Type} {m : M α} {f : α → M β} (hm : Tot h r s0 m s) (hf : ∀ a s', Go h r s0 s' → Tot h r s0 (f a) s') :
    Tot h r s0 (m >>= f) s := by
  obtain ⟨a, s', e, g⟩ := hm.out
  refine ⟨?_⟩
  rw [M.bind_eq, e]
  exact (hf a s' g).out

theorem tot_hget {β : Type} {g : Nat} {f : Handle → M β} (hf : Tot h r s0 (f (s.handles g)) s) : Tot h r s0 (hget g >>= f) s := ⟨hf.out⟩
theorem tot_get {β : Type} {f : FS → M β} (hf : Tot h r s0 (f s) s) : Tot h r s0 (M.get >>= f) s := ⟨hf.out⟩

theorem tot_ite {α : Type} {c : Prop} [Decidable c] {a b : M α} (ha : c → Tot h r s0 a s) (hb : ¬ c → Tot h r s0 b s) :
    Tot h r s0 (if c then a else b) s := by split <;> [exact ha ‹_›; exact hb ‹_›]

theorem tot_catchOS {α : Type} {m : M α} {k : Err → M α} (hm : Tot h r s0 m s) : Tot h r s0 (catchOS m k) s := by
  obtain ⟨a, s', e, g⟩ := hm.out
  refine ⟨a, s', ?_, g⟩
  unfold catchOS M.tryCatch
  rw [e]

theorem Pre.setH {f : Handle → Handle} (p : Pre h r s) (hf : Fixed (s.handles h) (f (s.handles h))) : Pre h r (s.setH h f) := by
  refine ⟨?_, ?_, p.ne, p.data, p.limitless⟩
  · have := p.isOpen
    unfold FS.isOpen at this ⊢
    rw [setH_same, hf.fd]; exact this
  · rw [setH_same, hf.obj]; exact p.obj

theorem Go.setH {f : Handle → Handle} (g : Go h r s0 s) (hf : Fixed (s.handles h) (f (s.handles h))) : Go h r s0 (s.setH h f) := by
  refine ⟨g.pre.setH hf, g.steady.trans (Steady.heap (Nat.le_refl _) rfl rfl fun x _ hx => setH_ne _ _ hx), g.fixed.trans ?_⟩
  rw [setH_same]; exact hf

theorem tot_hmod (g : Go h r s0 s) (f : Handle → Handle) (hf : ∀ H, Fixed H (f H)) : Tot h r s0 (hmod h f) s := ⟨(), _, rfl, g.setH (hf _)⟩

theorem tot_checkOpen (g : Go h r s0 s) : Tot h r s0 (checkOpen h) s := by
  refine ⟨(), s, ?_, g⟩
  unfold checkOpen
  rw [if_pos g.pre.isOpen]

theorem tot_times (g : Go h r s0 s) {x : Ref} (f : FS → Obj → Obj)
    (hf : ∀ s o, (f s o).content = o.content ∧ (f s o).size = o.size ∧ (f s o).epoch = o.epoch) :
    Tot h r s0 (M.modify fun s => s.setObj x (f s)) s := by
  have key : ∀ y, ((s.setObj x (f s)).heap y).content = (s.heap y).content ∧ ((s.setObj x (f s)).heap y).size = (s.heap y).size ∧
      ((s.setObj x (f s)).heap y).epoch = (s.heap y).epoch := by
    intro y
    by_cases hy : y = x
    · subst hy
      rw [show (s.setObj y (f s)).heap y = f s (s.heap y) from upd_same _ _ _]
      exact hf _ _
    · rw [show (s.setObj x (f s)).heap y = s.heap y from upd_ne _ _ hy]
      exact ⟨rfl, rfl, rfl⟩
  refine ⟨(), s.setObj x (f s), rfl, ⟨g.pre.isOpen, g.pre.obj, g.pre.ne, ?_, g.pre.limitless⟩, g.steady.trans ?_, g.fixed⟩
  · obtain ⟨C, h1, h2⟩ := g.pre.data
    exact ⟨C, (key r).1.trans h1, (key r).2.1.trans h2⟩
  · exact Steady.of (Nat.le_refl _) (Nat.le_refl _) (fun y _ => .of (key y).1 (key y).2.1 (key y).2.2) fun _ _ _ => Or.inl rfl

theorem tot_syncIo (g : Go h r s0 s) : Tot h r s0 (syncIo h) s := by
  obtain ⟨C, hC, _⟩ := g.pre.data
  refine ⟨(), _, syncIo_eq g.pre.obj g.pre.ne hC, g.setH ?_⟩
  unfold Handle.synced
  split
  · exact .refl _
  · exact ⟨rfl, rfl, rfl, rfl, rfl, rfl, rfl, rfl⟩

theorem Go.flushed {s' : FS} {D : Bytes} (g : Go h r s0 s) (f : Flushed s s' h r D) (hf : Fixed (s.handles h) (s'.handles h))
    (hl : ∀ m ∈ s'.mounts, m.total = none) : Go h r s0 s' := by
  refine ⟨⟨?_, hf.obj.trans g.pre.obj, g.pre.ne, ⟨D, f.content, by rw [f.obj]⟩, hl⟩, g.steady.trans (.flushed f), g.fixed.trans hf⟩
  rw [f.isOpen hf.fd]; exact g.pre.isOpen

theorem tot_flush (g : Go h r s0 s) : Tot h r s0 (flush h) s := by
  obtain ⟨C, hC, _⟩ := g.pre.data
  have hl : ∀ m ∈ (flush h s).2.mounts, m.total = none := (sh_flush h s).limitless g.pre.limitless
  cases hu : (s.handles h).update with
  | false => exact ⟨(), s, flush_readonly g.pre.isOpen hu, g⟩
  | true =>
    cases ha : (s.handles h).append with
    | false =>
      rcases flush_room g.pre.isOpen hu ha g.pre.ne g.pre.obj hC with ⟨_, h2, _⟩ | ⟨h1, h2, _, h3⟩
      · rw [fits_limitless g.pre.limitless] at h2; exact absurd h2 (by simp)
      · refine ⟨(), (flush h s).2, Prod.ext h1 rfl, g.flushed h2 ?_ hl⟩
        rw [h3]; exact ⟨rfl, rfl, rfl, rfl, rfl, rfl, rfl, rfl⟩
    | true =>
      rcases flush_append_room g.pre.isOpen hu ha g.pre.ne g.pre.obj hC with ⟨_, h2, _⟩ | ⟨h1, h2, h3⟩
      · rw [fits_limitless g.pre.limitless] at h2; exact absurd h2 (by simp)
      · refine ⟨(), (flush h s).2, Prod.ext h1 rfl, g.flushed h2 ?_ hl⟩
        rw [h3]; exact ⟨rfl, rfl, rfl, rfl, rfl, rfl, rfl, rfl⟩

macro "tot" : tactic => `(tactic|
  repeat' first
    | with_reducible assumption
    | with_reducible refine tot_pure _ ?_
    | with_reducible refine tot_pure' _ ?_
    | with_reducible refine tot_checkOpen ?_
    | with_reducible refine tot_hmod ?_ _ (fun _ => ⟨rfl, rfl, rfl, rfl, rfl, rfl, rfl, rfl⟩)
    | with_reducible refine tot_times ?_ _ (fun _ _ => ⟨rfl, rfl, rfl⟩)
    | with_reducible refine tot_syncIo ?_
    | with_reducible refine tot_flush ?_
    | with_reducible refine tot_hget ?_
    | with_reducible refine tot_get ?_
    | with_reducible refine tot_bind ?_ ?_
    | with_reducible refine tot_ite ?_ ?_
    | with_reducible refine tot_catchOS ?_
    | with_reducible intro _
    | dsimp only)

theorem tot_rawWrite (g : Go h r s0 s) (b : Bytes) : Tot h r s0 (rawWrite h b) s := by unfold rawWrite; tot

theorem tot_tryFlush (g : Go h r s0 s) (o : Nat) : Tot h r s0 (tryFlush h o) s := by unfold tryFlush; tot

theorem tot_writeWrapper (g : Go h r s0 s) (b : Bytes) : Tot h r s0 (writeWrapper h b) s := by
  unfold writeWrapper
  refine tot_hget ?_
  dsimp only
  refine tot_bind (tot_rawWrite g b) fun _ s1 g1 => ?_
  refine tot_ite (fun _ => ?_) (fun _ => ?_)
  · have last : ∀ s3, Go h r s0 s3 → Tot h r s0 (if (!decide (b.length > (s.handles h).bufferSize)) = true then do
          rawWrite h b
          if (s.handles h).append = true then do
            hmod h fun H => { H with readSeek := H.pos, readWhence := 0 }
            M.pure b.length
          else M.pure b.length
        else if (s.handles h).append = true then do
            hmod h fun H => { H with readSeek := H.pos, readWhence := 0 }
            M.pure b.length
          else M.pure b.length) s3 := by
      intro s3 g3
      refine tot_ite (fun _ => tot_bind (tot_rawWrite g3 b) fun _ s4 g4 => ?_) (fun _ => ?_) <;> tot
    refine tot_ite (fun _ => ?_) (fun _ => ?_)
    · refine tot_bind (tot_hmod g1 _ fun _ => ⟨rfl, rfl, rfl, rfl, rfl, rfl, rfl, rfl⟩) fun _ s2 g2 => ?_
      exact tot_bind (tot_tryFlush g2 _) fun _ s3 g3 => last s3 g3
    · exact tot_bind (tot_tryFlush g1 _) fun _ s3 g3 => last s3 g3
  · tot

theorem isLarge_some {C : Bytes} (hc : (s.heap r).content = .file (some C)) : s.isLarge r = false := by
  unfold FS.isLarge
  rw [hc]

theorem tot_write (g : Go h r s0 s) (hu : (s.handles h).update = true) (b : Bytes) : Tot h r s0 (write h b) s := by
  obtain ⟨C, hC, _⟩ := g.pre.data
  unfold write
  refine tot_get ?_
  dsimp only
  rw [g.pre.obj, isLarge_some hC, if_neg (by simp), hu, if_neg (by simp)]
  exact tot_bind (tot_checkOpen g) fun _ s1 g1 => tot_writeWrapper g1 b

theorem tot_read (g : Go h r s0 s) (hr : (s.handles h).read = true) (ha : (s.handles h).append = false) (n : Option Nat) : Tot h r s0 (read h n) s := by
  obtain ⟨C, hC, _⟩ := g.pre.data
  have ha0 : (s0.handles h).append = false := g.fixed.append ▸ ha
  unfold read
  refine tot_get ?_
  dsimp only
  rw [g.pre.obj, isLarge_some hC, if_neg (by simp), hr, if_neg (by simp)]
  refine tot_bind (tot_checkOpen g) fun _ s1 g1 => tot_bind (tot_syncIo g1) fun _ s2 g2 => tot_bind (tot_flush g2) fun _ s3 g3 => ?_
  have last : ∀ s4, Go h r s0 s4 → Tot h r s0 (hget h >>= fun H =>
      if H.append = true then
      match Bio.seek H.buf H.pos H.readSeek H.readWhence with
      | none => M.throw .valueError
      | some p => do
        let r := Bio.read H.buf p n
        hmod h fun H => { H with readSeek := (p + r.length : Nat), readWhence := 0, pos := H.buf.length }
        M.pure r
    else do
      let r := Bio.read H.buf H.pos n
      hmod h fun H => { H with pos := H.pos + r.length }
      M.pure r) s4 := by
    intro s4 g4
    refine tot_hget ?_
    rw [g4.fixed.append, ha0, if_neg (by simp)]
    tot
  refine tot_ite (fun _ => ?_) (fun _ => last _ g3)
  exact tot_bind (tot_times g3 _ fun _ _ => ⟨rfl, rfl, rfl⟩) fun _ s4 g4 => last _ g4

end
end Verif
