import Verif.DeviceOps
/-!
# A filesystem with a single device: removing, renaming and the other operations on paths
-/

namespace Verif
open Py Spec Cfg

section
variable {b : Bool}

theorem one_mkdirTail {s : FS} (h : One b s) (p : Str) (mode : Nat)
    (hn : s.cfg.isMac = false → Proper s.cfg.sep (s.cfg.splitpath p).2) :
    wp (mkdirTail p mode) (fun _ s' => One b s' ∧ Ext s s') s := by
  unfold mkdirTail
  apply wp_getBind
  dsimp only
  apply wp_seq _ (one_newDir h _ _)
  · intro e s1 h1; exact absurd h1.2.2.1 (by simp)
  · intro r s1 ⟨h1, hg1, hr, hf, hs1⟩
    injection hr with hr; subst hr
    have hob : s1.heap s.next = mkDirObj (s.cfg.splitpath p).2 (andNot mode s.umask) s := by rw [hs1]; exact upd_same _ _ _
    apply wp_endW hg1.ext
    apply wp_mono (one_addObject h1 _ (hf.preOf hg1.inv ?_) (fun _ => Or.inl (by rw [hob]; rfl))) fun _ _ hp => ⟨hp.1, hp.2.1⟩
    intro p' m
    rw [hob]; rw [hg1.ext.cfg] at m ⊢; exact hn m

theorem ko_mkdir (p : Str) (mode : Nat) : KeepsOne b (mkdir p mode) := by
  intro s h
  unfold mkdir
  apply wp_getBind
  apply wp_ite
  · intro _; exact ⟨h, Ext.refl s⟩
  intro _
  dsimp only
  apply ko_rdB h
  intro _ _
  apply ko_rdB h
  intro b0 hb
  apply wp_ite
  · intro _
    apply ko_rdB h
    intro b2 hb2
    apply wp_ite
    · intro hm
      apply ko_seq h (Ext.refl s) (ko_removeObject _)
      intro _ s1 h1 _ e1
      apply wp_endW e1
      apply one_mkdirTail h1
      intro m
      rw [e1.cfg] at m
      unfold FS.mkdirBroken at hb2
      rw [m, Bool.and_false, if_neg (by simp)] at hb2
      injection hb2 with hb2
      exact absurd (hb2.trans hm) (by simp)
    · intro _; exact ⟨h, Ext.refl s⟩
  · intro hbf
    exact one_mkdirTail h _ _ fun _ => splitName_ok h.inv hb hbf h.tree.posix

theorem ko_makedirsTail (p : Str) (mode : Nat) (ok : Bool) : KeepsOne b (makedirsTail p mode ok) := by
  unfold makedirsTail
  apply ko_bind ko_get
  intro s'
  apply ko_catchOS
  · exact ko_bind (ko_createDir _ _) fun _ => ko_pure _
  · intro e
    apply ko_ite
    · intro _; exact ko_throw _
    · intro _
      apply ko_bind (ko_rd _)
      intro bad
      apply ko_ite
      · intro _; exact ko_throw _
      · intro _; exact ko_pure' _

theorem ko_makedirs (p : Str) (mode : Nat) (ok : Bool) : KeepsOne b (makedirs p mode ok) := by
  unfold makedirs
  apply ko_ite
  · intro _; exact ko_raise _
  intro _
  apply ko_bind ko_get
  intro s
  dsimp only
  have tail := ko_makedirsTail (b := b) (s.absnorm p) mode ok
  apply ko_ite
  · intro _
    apply ko_bind (ko_rd _)
    intro b
    apply ko_ite
    · intro _
      apply ko_bind (ko_rd _)
      intro b2
      apply ko_ite
      · intro _; exact ko_bind (ko_removeObject _) fun _ => tail
      · intro _; exact tail
    · intro _; exact tail
  · intro _; exact tail

theorem ko_remove (p : Str) : KeepsOne b (remove p) := by
  unfold remove
  apply ko_bind (ko_rd _)
  intro _
  exact ko_bind ko_get fun _ => ko_removeObject _

theorem ko_rmdir (p : Str) (a : Bool) : KeepsOne b (rmdir p a) := by
  unfold rmdir
  apply ko_bind (ko_rd _)
  intro go
  apply ko_bind ko_get
  intro s
  apply ko_ite
  · intro _; exact ko_removeObject _
  · intro _; exact ko_pure _

theorem ko_removedirsLoop : ∀ n h t, KeepsOne b (removedirsLoop n h t) := by
  intro n
  induction n with
  | zero => intro h t; exact ko_pure _
  | succ n ih =>
    intro h t
    unfold removedirsLoop
    apply ko_ite
    · intro _; exact ko_pure _
    intro _
    apply ko_bind (ko_rd _)
    intro d
    apply ko_bind ko_get
    intro s
    apply ko_ite
    · intro _; exact ko_pure _
    · intro _; exact ko_bind (ko_rmdir _ _) fun _ => ih _ _

theorem ko_removedirs (p : Str) : KeepsOne b (removedirs p) := by
  unfold removedirs
  apply ko_bind ko_get
  intro s
  apply ko_bind (ko_rd _)
  intro d
  apply ko_bind ko_get
  intro s'
  apply ko_ite
  · intro _; exact ko_raise _
  · intro _; exact ko_bind (ko_rmdir _ _) fun _ => ko_removedirsLoop _ _ _

/-! ## Renaming -/

theorem refs_le {hp hp' : Ref → Obj} {nx r : Nat} (h : ∀ x < nx, List.Sublist (hp' x).entries (hp x).entries) : refs hp' nx r ≤ refs hp nx r := by
  unfold refs
  apply Finset.sum_le_sum
  intro x hx
  exact ((h x (Finset.mem_range.mp hx)).map Prod.snd).count_le r

theorem shrink_nlink {s s' : FS} (hi : Inv s) (hi' : Inv s') (ht : s.cfg.Tree) (hs : Shrink s s') {x : Ref} (hx : x < s.next) (hf : (s.heap x).isDir = false) :
    (s'.heap x).nlink ≤ (s.heap x).nlink := by
  rw [nlink_file hi ht hx hf, nlink_file hi' (by rw [hs.cfg]; exact ht) (by rw [hs.next]; exact hx) (by rw [hs.kind]; exact hf)]
  rw [hs.next]
  exact_mod_cast refs_le (hp := s.heap) (hp' := s'.heap) (nx := s.next) (r := x) fun y _ => hs.entries y

theorem shrink_size {s s' : FS} (hs : Shrink s s') (x : Ref) : (s'.heap x).size = (s.heap x).size := by
  obtain ⟨n, c, e⟩ := hs.obj x; rw [e]

theorem shrink_weight {s s' : FS} (hi : Inv s) (hi' : Inv s') (ht : s.cfg.Tree) (hs : Shrink s s') {x : Ref} (hx : x < s.next) :
    weight (s'.heap x) ≤ weight (s.heap x) := by
  cases hk : (s.heap x).isDir with
  | true => rw [weight_dir hk, weight_dir (by rw [hs.kind]; exact hk)]
  | false =>
    have hk' : (s'.heap x).isDir = false := by rw [hs.kind]; exact hk
    by_cases hl : 1 ≤ (s'.heap x).nlink
    · have := shrink_nlink hi hi' ht hs hx hk
      rw [weight_live hk (by omega), weight_live hk' hl, shrink_size hs]
    · rw [weight_dead (by omega)]; exact weight_nonneg _

theorem one_renameCommit {s : FS} (h : One b s) {od nd : Ref} {oldNm newNm : Str} (hod : od < s.next) (hnd : nd < s.next)
    (hdev : (s.heap nd).isDir = true → (s.heap nd).dev = some 1)
    (hanc : ∀ r, s.getEntry (s.heap od).entries oldNm = .ok r → (s.heap od).isDir = true → s.cfg.Tree → ¬ Anc s.heap r nd)
    (hnm : s.cfg.isMac = false → Proper s.cfg.sep newNm) :
    wp (renameCommit od nd oldNm newNm) (fun _ s' => One b s' ∧ Ext s s') s := by
  unfold renameCommit
  apply wp_getBind
  apply wp_ite
  · intro _; exact ⟨h, Ext.refl s⟩
  intro hdir
  have hdir : (s.heap od).isDir = true := by simpa using hdir
  apply ko_rdB h
  intro r hr
  have hmem := getEntry_mem hr
  have hrlt := h.inv.g.entLt od hod _ hmem
  have hrroot := h.inv.g.entRoot od hod _ hmem
  have h1 : wp (removeEntry od oldNm false) (fun res s' => (One b s' ∧ Good s s' ∧ Shrink s s') ∧ (res = .ok () →
      s'.heap = (s.detached od (s.normEntry (s.heap od).entries oldNm) r).heap)) s := by
    refine ⟨ko_removeEntry _ _ h hod, fun hres => ?_⟩
    obtain ⟨e, he, heq⟩ := removeEntry_flat (s := s) (d := od) oldNm hres
    rw [hr] at he; injection he with he; subst he
    exact heq
  apply wp_seq _ h1
  · intro e s1 hs1; exact ⟨hs1.1.1, hs1.1.2.1.ext⟩
  intro _ s1 hs1
  obtain ⟨⟨hp1, hg1, hsh⟩, hheap⟩ := hs1
  have hheap := hheap rfl
  have hnext : s1.next = s.next := hsh.next
  have hno : (s1.heap r).isDir = true → ∀ x < s1.next, ∀ e ∈ (s1.heap x).entries, e.2 ≠ r := by
    intro hd x hx e he her
    rw [hnext] at hx
    rw [hsh.kind] at hd
    have he0 := (hsh.entries x).subset he
    subst her
    obtain ⟨hx1, hx2⟩ := h.inv.g.dirEnt x hx e he0 hd
    obtain ⟨ho1, ho2⟩ := h.inv.g.dirEnt od hod _ hmem hd
    rw [ho1] at hx1; injection hx1 with hx1
    subst hx1
    rw [hheap, detached_heap] at he
    simp [Obj.entries] at he
    have := (mem_aerase.mp he).2
    rw [ho2] at hx2
    exact this hx2.symm
  have hg2 := good_setName hg1.inv r newNm hrroot hno
  apply wp_modifyBind
  apply wp_getBind
  dsimp only
  -- the state with the new name
  generalize hs2 : (s1.setObj r fun o => { o with name := newNm }) = s2 at hg2 ⊢
  have hg02 : Good s s2 := Good.trans hg1.ext hg2
  have f : ∀ {β : Type} (g : Obj → β) (_ : ∀ o m, g { o with name := m } = g o) (x : Ref), g (s2.heap x) = g (s1.heap x) := by
    intro β g hg x
    rw [← hs2]; show g (upd s1.heap r _ x) = _
    rw [upd_apply]; split
    · rename_i e; rw [hg, e]
    · rfl
  have hname2 : (s2.heap r).name = newNm := by
    rw [← hs2]; show (upd s1.heap r _ r).name = _; rw [upd_same]
  have hent2 := f Obj.entries (fun _ _ => rfl)
  have hpar2 : ∀ x, (s2.heap x).parent = (s.heap x).parent := by
    intro x; rw [← hsh.parent x]; exact f Obj.parent (fun _ _ => rfl) x
  have hkind2 := f Obj.isDir (fun _ _ => rfl)
  have hnext2 : s2.next = s.next := by rw [← hs2]; exact hnext
  have hcfg2 : s2.cfg = s.cfg := hg02.ext.cfg
  have h2 : One b s2 := by
    refine hp1.same hg2 (by rw [← hs2]; rfl) (by rw [← hs2]; rfl) (f Obj.dev (fun _ _ => rfl) _) ?_ (fun x _ => f weight (fun _ _ => rfl) x) (f Obj.size (fun _ _ => rfl) _)
    intro d hd e he
    rw [hent2] at he; rw [f Obj.dev (fun _ _ => rfl)]; exact hp1.ent d hd e he
  have pre : ∀ s3, Inv s3 → Shrink s2 s3 → AddPre s3 nd r := by
    intro s3 h3 hs3
    refine ⟨by rw [hs3.next, hnext2]; exact hnd, by rw [hs3.next, hnext2]; exact hrlt, hrroot, ?_, ?_, ?_⟩
    · intro hd
      rw [hs3.kind, hkind2] at hd
      apply noRef_of_shrink hs3
      intro x hx e he
      rw [hent2] at he
      exact hno hd x (by rw [hnext]; rw [hnext2] at hx; exact hx) e he
    · intro hd cs ha
      rw [hs3.cfg, hcfg2] at cs
      exact hanc r hr hdir cs (ha.congr fun x => by rw [← hpar2, ← hs3.parent])
    · intro p m
      rw [hs3.cfg, hcfg2] at p m ⊢
      rw [hs3.name, hname2]; exact hnm m
  have fin : ∀ s3, One b s3 → Shrink s2 s3 → wp (addEntry nd r) (fun _ s' => One b s' ∧ Ext s3 s') s3 := by
    intro s3 h3 hs3
    have hdv : (s3.heap nd).dev = (s.heap nd).dev := by
      obtain ⟨n, c, e⟩ := hs3.obj nd
      obtain ⟨n', c', e'⟩ := hsh.obj nd
      rw [e]; show (s2.heap nd).dev = _; rw [f Obj.dev (fun _ _ => rfl), e']
    have hkd : ∀ x, (s3.heap x).isDir = (s.heap x).isDir := by intro x; rw [hs3.kind, hkind2, hsh.kind]
    apply one_addEntry h3 (pre s3 h3.inv hs3) (by rw [hdv, hkd]; exact hdev)
    intro eb m hm t ht
    obtain ⟨m0, k1, k2, k3, k4⟩ := h.mount
    -- the limit is that of the beginning
    have htot : m0.total = some t := by
      have e1 := hsh.mtotal
      have e2 := hs3.mtotal
      rw [show s2.mounts = s1.mounts by rw [← hs2]; rfl, e1, k1] at e2
      obtain ⟨m3, j1, _, _, _⟩ := h3.mount
      rw [j1] at hm e2; simp at hm; subst hm
      simp at e2
      rw [← e2]; exact ht
    have hle : (s3.attach nd r).stored ≤ s.stored := by
      by_cases hnd' : (s3.heap nd).isDir = true ∧ alookup (s3.heap r).name (s3.heap nd).entries = none
      · apply stored_mono ((attach_misc s3 nd r).1.trans (hs3.next.trans hnext2))
        intro x hx
        have hx1 : x < s1.next := by rw [hnext]; exact hx
        have hx2 : x < s2.next := by rw [hnext2]; exact hx
        have w3 : weight (s3.heap x) ≤ weight (s.heap x) := by
          refine le_trans (shrink_weight h2.inv h3.inv h2.tree hs3 hx2) ?_
          rw [f weight (fun _ _ => rfl)]
          exact shrink_weight h.inv hp1.inv h.tree hsh hx
        have hgA := attach_good h3.inv (pre s3 h3.inv hs3) hnd'.1 hnd'.2
        have hx3 : x < s3.next := by rw [hs3.next]; exact hx2
        have hkA : ((s3.attach nd r).heap x).isDir = (s.heap x).isDir := (hgA.ext.kind x hx3).trans (hkd x)
        cases hk : (s.heap x).isDir with
        | true => rw [weight_dir (hkA.trans hk), weight_dir hk]
        | false =>
          by_cases hxr : x = r
          · subst hxr
            have hlive : 1 ≤ (s.heap x).nlink := live_entry h.inv h.tree hod hmem hk
            rw [weight_live hk hlive]
            have hsz : ((s3.attach nd x).heap x).size = (s.heap x).size := by
              rw [attach_heap]; show (s3.heap x).size = _
              rw [shrink_size hs3, f Obj.size (fun _ _ => rfl), shrink_size hsh]
            unfold weight; rw [hsz]; split <;> omega
          · have hxd : x ≠ nd := by rintro rfl; rw [hkd, hk] at hnd'; simp at hnd'
            have : weight ((s3.attach nd r).heap x) = weight (s3.heap x) := by
              rw [attach_heap]; exact weight_eq (if_neg hxd) (by simp [hxr, hxd]) rfl
            rw [this]; exact w3
      · -- not attached: nothing to show about this state, but the sum is still bounded
        apply stored_mono ((attach_misc s3 nd r).1.trans (hs3.next.trans hnext2))
        intro x hx
        have hx2 : x < s2.next := by rw [hnext2]; exact hx
        have w3 : weight (s3.heap x) ≤ weight (s.heap x) := by
          refine le_trans (shrink_weight h2.inv h3.inv h2.tree hs3 hx2) ?_
          rw [f weight (fun _ _ => rfl)]
          exact shrink_weight h.inv hp1.inv h.tree hsh hx
        by_cases hxd : x = nd
        · subst hxd
          rw [weight_dir (by rw [attach_heap]; simp [Obj.isDir])]
          exact weight_nonneg _
        · by_cases hxr : x = r
          · subst hxr
            have hc : ((s3.attach nd x).heap x).content = (s3.heap x).content := by rw [attach_heap]; exact if_neg hxd
            have hkA : ((s3.attach nd x).heap x).isDir = (s.heap x).isDir := by
              unfold Obj.isDir; rw [hc]; exact hkd x
            cases hk : (s.heap x).isDir with
            | true => rw [weight_dir (hkA.trans hk), weight_dir hk]
            | false =>
              have hlive : 1 ≤ (s.heap x).nlink := live_entry h.inv h.tree hod hmem hk
              rw [weight_live hk hlive]
              have hsz : ((s3.attach nd x).heap x).size = (s.heap x).size := by
                rw [attach_heap]; show (s3.heap x).size = _
                rw [shrink_size hs3, f Obj.size (fun _ _ => rfl), shrink_size hsh]
              unfold weight; rw [hsz]; split <;> omega
          · have : weight ((s3.attach nd r).heap x) = weight (s3.heap x) := by
              rw [attach_heap]; exact weight_eq (if_neg hxd) (by simp [hxr, hxd]) rfl
            rw [this]; exact w3
    have := (k3 eb t htot).2
    rw [k4 eb] at this
    omega
  apply wp_ite
  · intro _
    apply wp_seq _ (ko_removeEntry _ _ h2 (by rw [hnext2]; exact hnd))
    · intro e s3 h3; exact ⟨h3.1, hg02.ext.trans h3.2.1.ext⟩
    · intro _ s3 h3
      exact wp_mono (fin s3 h3.1 h3.2.2) fun _ _ h4 => ⟨h4.1, (hg02.ext.trans h3.2.1.ext).trans h4.2⟩
  · intro _
    exact wp_mono (fin s2 h2 (Shrink.refl _)) fun _ _ h4 => ⟨h4.1, hg02.ext.trans h4.2⟩

theorem one_renameTail {s : FS} (h : One b s) {old new : Str} {oldO : Ref}
    (hO : ∀ od r, s.resolve (s.cfg.splitpath old).1 = .ok od → (s.heap od).isDir = true →
      s.getEntry (s.heap od).entries (s.cfg.splitpath old).2 = .ok r → r = oldO ∨ oldO = rootRef)
    (hnm : s.cfg.isMac = false → Proper s.cfg.sep (s.cfg.splitpath new).2) :
    wp (renameTail old new oldO) (fun _ s' => One b s' ∧ Ext s s') s := by
  unfold renameTail
  have h0 : One b s ∧ Ext s s := ⟨h, Ext.refl s⟩
  apply wp_getBind
  apply wp_ite
  · intro _; exact h0
  intro _
  apply ko_rdB h
  intro _ _
  apply wp_ite
  · intro _; exact h0
  intro _
  apply ko_rdB h
  intro od hod
  apply ko_rdB h
  intro nd hnd
  apply wp_ite
  · intro _; exact h0
  intro _
  apply wp_ite
  · intro _; exact h0
  intro _
  apply wp_ite
  · intro _; exact h0
  intro hndir
  apply wp_ite
  · intro _; exact h0
  intro hpar
  have hlt := resolve_lt h.inv hnd
  apply one_renameCommit h (resolve_lt h.inv hod) hlt (h.closed.resolve hnd).2 _ hnm
  intro r hr hdir cs ha
  have hndir : (s.heap nd).isDir = true := by simpa using hndir
  rcases hO od r hod hdir hr with rfl | rfl
  · exact hpar (hasParent_of_anc h.inv cs hlt ha)
  · exact hpar (hasParent_of_anc h.inv cs hlt (((Closed.anc h.inv).resolve hnd).2 hndir))

theorem ko_renameToExisting (force : Bool) (new old : Str) (oldO : Ref) (endsSep : Bool) : KeepsOne b (renameToExisting force new old oldO endsSep) := by
  unfold renameToExisting
  apply ko_bind (ko_rd _)
  intro newO
  apply ko_bind ko_get
  intro s
  apply ko_ite
  · intro _
    apply ko_ite
    · intro _; exact ko_raise _
    · intro _; exact ko_pure _
  intro _
  apply ko_ite
  · intro _; exact ko_rd _
  intro _
  apply ko_ite
  · intro _; exact ko_bind (ko_rd _) fun _ => ko_pure _
  intro _
  apply ko_ite
  · intro _; exact ko_raise _
  intro _
  apply ko_ite
  · intro _; exact ko_raise _
  intro _
  exact ko_bind (ko_removeObject _) fun _ => ko_pure _

theorem ko_rename (old new : Str) (force : Bool) : KeepsOne b (rename old new force) := by
  intro s h
  have h0 : One b s ∧ Ext s s := ⟨h, Ext.refl s⟩
  unfold rename
  apply wp_getBind
  dsimp only
  apply ko_rdB h
  intro _ _
  apply wp_ite
  · intro _; exact h0
  intro _
  have tail : wp (do
      let oldO ← rd (·.lresolve (s.absnorm old))
      if !s.cfg.isWin then rd (·.posixDirLinkErrors (s.absnorm new) (s.absnorm old) (s.cfg.endsWithSep old))
      if ← rd (·.existsL (s.absnorm new)) then
        match ← renameToExisting force (s.absnorm new) (s.absnorm old) oldO (s.cfg.endsWithSep old) with
        | none => M.pure ()
        | some new => renameTail (s.absnorm old) new oldO
      else renameTail (s.absnorm old) (s.absnorm new) oldO) (fun _ s' => One b s' ∧ Ext s s') s := by
    apply ko_rdB h
    intro oldO hl
    have tail2 : wp (do
        if ← rd (·.existsL (s.absnorm new)) then
          match ← renameToExisting force (s.absnorm new) (s.absnorm old) oldO (s.cfg.endsWithSep old) with
          | none => M.pure ()
          | some new => renameTail (s.absnorm old) new oldO
        else renameTail (s.absnorm old) (s.absnorm new) oldO) (fun _ s' => One b s' ∧ Ext s s') s := by
      apply ko_rdB h
      intro b0 hb
      apply wp_ite
      · intro _
        have k1 := renameToExisting_good h.inv (force := force) (endsSep := s.cfg.endsWithSep old) ⟨new, rfl⟩ ⟨old, rfl⟩ hl
        have k2 := ko_renameToExisting (b := b) force (s.absnorm new) (s.absnorm old) oldO (s.cfg.endsWithSep old) s h
        apply wp_seq (fun r s' => (Good s s' ∧ Shrink s s' ∧ ∀ new', r = .ok (some new') → s.cfg.Posix → s.cfg.isMac = false →
          Proper s.cfg.sep (s.cfg.splitpath new').2) ∧ (One b s' ∧ Ext s s')) ⟨k1, k2⟩
        · intro e s1 h1; exact h1.2
        · intro r s1 h1
          obtain ⟨⟨hg, hsh, hnm⟩, h1, e1⟩ := h1
          cases r with
          | none => exact ⟨h1, e1⟩
          | some new' =>
            apply wp_endW e1
            apply one_renameTail h1
            · intro od r hod hdir hr
              exact old_entry h.inv hg.inv hsh h.tree hl od r hod hdir hr
            · intro m
              rw [hsh.cfg] at m ⊢
              exact hnm new' rfl h.tree.posix m
      · intro hbf
        apply one_renameTail h
        · intro od r hod hdir hr
          exact old_entry h.inv h.inv (Shrink.refl s) h.tree hl od r hod hdir hr
        · intro _
          exact splitName_ok h.inv hb hbf h.tree.posix
    apply wp_ite
    · intro _
      apply ko_rdB h
      intro _ _; exact tail2
    · intro _; exact tail2
  apply wp_ite
  · intro _
    apply ko_rdB h
    intro _ _; exact tail
  · intro _; exact tail

/-! ## Attributes and the rest -/

theorem ko_mknod (p : Str) (mode : Nat) : KeepsOne b (mknod p mode) := by
  intro s h
  have h0 : One b s ∧ Ext s s := ⟨h, Ext.refl s⟩
  unfold mknod
  apply wp_getBind
  apply wp_ite
  · intro _; exact h0
  intro _
  apply wp_ite
  · intro _; exact h0
  intro _
  dsimp only
  apply wp_ite
  · intro _
    apply ko_rdB h
    intro b _
    apply wp_ite
    · intro _; exact h0
    · intro _; exact h0
  intro h1
  apply wp_ite
  · intro _; exact h0
  intro h2
  apply ko_rdB h
  intro b0 _
  apply wp_ite
  · intro _; exact h0
  intro _
  apply wp_seq _ (one_newFile h _ _ _)
  · intro e s1 h1; exact absurd h1.2.2.1 (by simp)
  · intro r s1 ⟨hh1, hg1, hr, hf, hs1⟩
    injection hr with hr; subst hr
    have hob : s1.heap s.next = mkFileObj (s.cfg.splitpath p).2 (andNot mode s.umask) none s := by rw [hs1]; exact upd_same _ _ _
    apply wp_endW hg1.ext
    apply wp_mono (one_addObject hh1 _ (hf.preOf hg1.inv ?_) (fun _ => Or.inr (Or.inl (by rw [hob]; rfl)))) fun _ _ hp => ⟨hp.1, hp.2.1⟩
    intro p' m
    rw [hob, hg1.ext.cfg]
    exact ⟨h1, fun e => h2 (Or.inl e), fun e => h2 (Or.inr e), split_tail_no_sep h.tree.posix p⟩

theorem ko_chmod (p : Str) (mode : Nat) (f : Bool) : KeepsOne b (chmod p mode f) := by
  unfold chmod
  apply ko_bind (ko_rd _)
  intro r
  apply ko_setObj r (f := fun s o => _)
  intro s o
  refine ⟨⟨rfl, rfl, rfl, rfl, rfl, fun _ => rfl, ?_⟩, rfl, rfl⟩
  show ifmt (if s.cfg.isWin = true then _ else _) = _
  split
  · exact chmodWin_ftype _ _
  · exact chmod_ftype _ _

theorem ko_utime (p : Str) (ns : Option (Int × Int)) (f : Bool) : KeepsOne b (utime p ns f) := by
  unfold utime
  apply ko_bind (ko_rd _)
  intro r
  apply ko_setObj r (f := fun s o => _)
  intro s o
  split <;> exact ⟨⟨rfl, rfl, rfl, rfl, rfl, fun _ => rfl, rfl⟩, rfl, rfl⟩

theorem ko_chown (p : Str) (u g : Int) (f : Bool) : KeepsOne b (chown p u g f) := by
  unfold chown
  apply ko_bind (ko_rd _)
  intro r
  apply ko_setObj r (f := fun s o => _)
  intro s o
  exact ⟨⟨rfl, rfl, rfl, rfl, rfl, fun _ => rfl, rfl⟩, rfl, rfl⟩

theorem ko_removexattr (p a : Str) (f : Bool) : KeepsOne b (removexattr p a f) := by
  unfold removexattr
  apply ko_bind ko_get
  intro s
  apply ko_ite
  · intro _; exact ko_throw _
  intro _
  apply ko_bind (ko_rd _)
  intro r
  apply ko_setObj r (f := fun s o => _)
  intro s o
  exact ⟨⟨rfl, rfl, rfl, rfl, rfl, fun _ => rfl, rfl⟩, rfl, rfl⟩

theorem ko_setxattr (p a : Str) (v : Bytes) (fl : Nat) (f : Bool) : KeepsOne b (setxattr p a v fl f) := by
  unfold setxattr
  apply ko_bind ko_get
  intro s
  apply ko_ite
  · intro _; exact ko_throw _
  intro _
  apply ko_bind (ko_rd _)
  intro r
  apply ko_ite
  · intro _; exact ko_raise _
  intro _
  apply ko_ite
  · intro _; exact ko_raise _
  intro _
  apply ko_setObj r (f := fun s o => _)
  intro s o
  exact ⟨⟨rfl, rfl, rfl, rfl, rfl, fun _ => rfl, rfl⟩, rfl, rfl⟩

/-- `os.truncate` of anything but the null device -/
theorem one_truncate {s : FS} (h : One b s) (p : Str) (n : Nat) (hz : b = true → s.resolve p ≠ .ok devNullRef) :
    wp (truncate p n) (fun _ s' => One b s' ∧ Ext s s') s := by
  unfold truncate
  apply ko_rdB h
  intro r hr
  have hne : b = true → r ≠ devNullRef := fun e e' => hz e (e' ▸ hr)
  refine wp_mono (one_setSize h n (fun e hk => ⟨resolve_lt h.inv hr, ?_⟩) fun e => Or.inl (hne e)) fun _ _ hp => ⟨hp.1, hp.2.1⟩
  rcases (h.named.resolve hr).2 with hx | hx | hx
  · exact absurd hx (hne e)
  · rw [hk] at hx; simp at hx
  · exact hx

/-- `set_disk_usage` to a size that is enough -/
theorem one_setDiskUsage {s : FS} (h : One b s) (t : Int) (p : Str) (ht : b = true → s.stored ≤ t) :
    One b (setDiskUsage t p s).2 := by
  have hst : 0 ≤ s.stored := Finset.sum_nonneg fun x _ => weight_nonneg _
  show wp (setDiskUsage t p) (fun _ s' => One b s') s
  unfold setDiskUsage
  have hpure : wp (mountForPath p) (fun _ s' => s' = s) s := by
    unfold wp mountForPath
    cases s.limit with
    | zero => rfl
    | succ n =>
      unfold mountForPathF
      rw [M.bind_eq]
      dsimp only [M.get]
      rw [if_neg (by simp [h.tree.posix.win])]
      cases s.findMount (s.absnorm (s.originalPath p)) <;> rfl
  apply wp_seq _ hpure
  · rintro e s1 rfl; exact h
  rintro dev s1 rfl
  apply wp_getBind
  split
  · exact h
  · apply wp_ite
    · intro _; exact h
    intro _
    apply wp_modify
    obtain ⟨m0, k1, k2, k3, k4⟩ := h.mount
    have hinv : Inv { s1 with mounts := s1.mounts.map fun m => if m.idev = dev then { m with total := some t } else m } := by
      have hm := h.inv.m
      refine ⟨h.inv.g, ⟨?_, ?_, ?_⟩, ⟨h.inv.n.rootMode, h.inv.n.devFile, h.inv.n.devMode, h.inv.n.cwd, h.inv.n.names, ?_, h.inv.n.rootName⟩, h.inv.t⟩
      · intro m hm'
        obtain ⟨m1, hm1, rfl⟩ := List.mem_map.mp hm'
        have := hm.devLe m1 hm1
        show (if m1.idev = dev then { m1 with total := some t } else m1).idev ≤ _
        split <;> exact this
      · show ((s1.mounts.map _).map Mount.idev).Nodup
        rw [List.map_map]
        have : (Mount.idev ∘ fun m : Mount => if m.idev = dev then { m with total := some t } else m) = Mount.idev := by
          funext m; simp only [Function.comp]; split <;> rfl
        rw [this]; exact hm.devNodup
      · show ((s1.mounts.map _).map Mount.path).Nodup
        rw [List.map_map]
        have : (Mount.path ∘ fun m : Mount => if m.idev = dev then { m with total := some t } else m) = Mount.path := by
          funext m; simp only [Function.comp]; split <;> rfl
        rw [this]; exact hm.pathNodup
      · obtain ⟨m, hm1, e⟩ := h.inv.n.rootMount
        refine ⟨_, List.mem_map.mpr ⟨m, hm1, rfl⟩, ?_⟩
        split <;> exact e
    refine ⟨hinv, h.tree, h.root, h.ent, ⟨_, by show s1.mounts.map _ = _; rw [k1]; rfl, ?_, ?_, ?_⟩, h.null⟩
    · dsimp only; split <;> exact k2
    · intro e t' ht'
      dsimp only at ht' ⊢
      split at ht'
      · injection ht' with ht'; subst ht'
        rename_i hd
        rw [if_pos hd]
        have h5 := ht e
        exact ⟨le_trans hst h5, by rw [k4 e]; exact h5⟩
      · rename_i hd
        rw [if_neg hd]
        exact k3 e t' ht'
    · intro e
      show (if _ then _ else _ : Mount).used = _
      split <;> exact k4 e

end

end Verif
