import Verif.EffLink
import Verif.EffData
import Verif.PresRename
/-!
# Renaming: exact effects
-/

namespace Verif
open Py Spec Cfg

/-! ## Disk usage -/

theorem changeUsed_comm (i j : Nat) (a b : Int) : ∀ ms, changeUsed i a (changeUsed j b ms) = changeUsed j b (changeUsed i a ms) := by
  intro ms
  induction ms with
  | nil => rfl
  | cons m ms ih =>
    by_cases h1 : m.idev = i <;> by_cases h2 : m.idev = j
    · simp only [changeUsed, if_pos h1, if_pos h2]
      congr 2; omega
    · simp only [changeUsed, if_pos h1, if_neg h2]
    · simp only [changeUsed, if_neg h1, if_pos h2]
    · simp only [changeUsed, if_neg h1, if_neg h2, ih]

theorem charge_comm (d e : Option Nat) (a b : Int) (ms : List Mount) : charge d a (charge e b ms) = charge e b (charge d a ms) := by
  cases d <;> cases e <;> simp only [charge]
  exact changeUsed_comm _ _ _ _ _

theorem changeUsed_add (i : Nat) (a b : Int) : ∀ ms, changeUsed i a (changeUsed i b ms) = changeUsed i (b + a) ms := by
  intro ms
  induction ms with
  | nil => rfl
  | cons m ms ih =>
    by_cases h1 : m.idev = i <;> simp [changeUsed, h1, ih]
    omega

theorem charge_undo (d : Option Nat) (a : Int) (ms : List Mount) : charge d a (charge d (-a) ms) = ms := by
  cases d with
  | none => rfl
  | some i => simp only [charge]; rw [changeUsed_add, Int.add_left_neg, changeUsed_zero]

theorem within_charge {ms : List Mount} (h : ∀ m ∈ ms, ∀ t, m.total = some t → m.used ≤ t) (d : Option Nat) {b : Int} (hb : b ≤ 0) :
    ∀ m ∈ charge d b ms, ∀ t, m.total = some t → m.used ≤ t := by
  cases d with
  | none => exact h
  | some i =>
    simp only [charge]
    induction ms with
    | nil => intro m hm; simp [changeUsed] at hm
    | cons m ms ih =>
      intro x hx t hxt
      unfold changeUsed at hx
      split at hx
      · rcases List.mem_cons.mp hx with rfl | hx
        · have := h m (by simp) t hxt
          show m.used + b ≤ t
          omega
        · exact h x (by simp [hx]) t hxt
      · rcases List.mem_cons.mp hx with rfl | hx
        · exact h x (by simp) t hxt
        · exact ih (fun y hy => h y (by simp [hy])) x hx t hxt

theorem fits_after {ms : List Mount} (h : ∀ m ∈ ms, ∀ t, m.total = some t → m.used ≤ t) (d : Option Nat) (c : Int) :
    fits d c (charge d (-c) ms) = true := by
  unfold fits charge
  cases d with
  | none => rfl
  | some i =>
    simp only [find_changeUsed]
    cases hf : ms.find? (fun m => m.idev == i) with
    | none => rfl
    | some m =>
      simp only [Option.map_some]
      cases ht : m.total with
      | none => rfl
      | some t =>
        have := h m (List.mem_of_find?_eq_some hf) t ht
        simp only [decide_eq_true_eq]
        omega

/-! ## Moving an entry -/

/-- The object `r` was moved from the name `on` in the directory `od` to the name `nn` in the directory `nd`, in place of
what was there. -/
structure Renamed (s s' : FS) (od : Ref) (on : Str) (nd : Ref) (nn : Str) (r : Ref) : Prop where
  env : Env s s'
  next : s'.next = s.next
  lastIno : s'.lastIno = s.lastIno
  was : alookup on (s.heap od).entries = some r
  ne : (nd, nn) ≠ (od, on)
  look : ∀ x n, alookup n (s'.heap x).entries =
    if x = nd ∧ n = nn then some r else if x = od ∧ n = on then none else alookup n (s.heap x).entries
  obj : s'.heap r = { s.heap r with name := nn, parent := some nd, dev := (s.heap nd).dev }
  dirs : ∀ x, x = od ∨ x = nd → s'.heap x = { s.heap x with content := (s'.heap x).content, nlink := (s'.heap x).nlink } ∧
    (s'.heap x).isDir = true
  target : ∀ t, alookup nn (s.heap nd).entries = some t → s'.heap t = { s.heap t with nlink := (s.heap t).nlink - 1 }
  others : ∀ x, x ≠ od → x ≠ nd → x ≠ r → alookup nn (s.heap nd).entries ≠ some x → s'.heap x = s.heap x
  mounts : s'.mounts = match alookup nn (s.heap nd).entries with | none => s.mounts | some t => released s t

/-- The state before the object is put into its new directory. -/
structure Mid (s s3 : FS) (od : Ref) (on : Str) (nd : Ref) (nn : Str) (r : Ref) : Prop where
  env : Env s s3
  next : s3.next = s.next
  lastIno : s3.lastIno = s.lastIno
  look : ∀ x n, alookup n (s3.heap x).entries =
    if x = nd ∧ n = nn then none else if x = od ∧ n = on then none else alookup n (s.heap x).entries
  obj : s3.heap r = { s.heap r with name := nn, nlink := (s.heap r).nlink - 1 }
  dirs : ∀ x, x = od ∨ x = nd → s3.heap x = { s.heap x with content := (s3.heap x).content, nlink := (s3.heap x).nlink } ∧
    (s3.heap x).isDir = true
  target : ∀ t, alookup nn (s.heap nd).entries = some t → s3.heap t = { s.heap t with nlink := (s.heap t).nlink - 1 }
  others : ∀ x, x ≠ od → x ≠ nd → x ≠ r → alookup nn (s.heap nd).entries ≠ some x → s3.heap x = s.heap x
  mounts : s3.mounts = match alookup nn (s.heap nd).entries with
    | none => released s r
    | some t => if (s.heap t).nlink = 1 ∧ (s.heap t).isDir = false then charge (s.heap t).dev (-((s.heap t).size : Int)) (released s r) else released s r

theorem Mid.added {s s3 : FS} (hi : Inv s) (hw : Within s) (ht : s.cfg.Tree) {od nd r : Ref} {on nn : Str} (hod : od < s.next)
    (hdir : (s.heap nd).isDir = true) (hmay : mayRemove s nd) (hr : alookup on (s.heap od).entries = some r)
    (hdev : (s.heap r).isDir = false → (s.heap r).dev = (s.heap nd).dev) (hne : (nd, nn) ≠ (od, on))
    (hrnd : r ≠ nd) (hrod : r ≠ od) (htgt : ∀ t, alookup nn (s.heap nd).entries = some t → t ≠ nd ∧ t ≠ od ∧ t ≠ r)
    (h : Mid s s3 od on nd nn r) : ∃ s', addEntry nd r s3 = (.ok (), s') ∧ Renamed s s' od on nd nn r := by
  have hmem := alookup_mem hr
  have hrlt := hi.g.entLt od hod _ hmem
  have hino := hi.g.entIno od hod _ hmem
  have hpos : 0 < refs s.heap s.next r := refs_pos hod hmem rfl
  have hnl0 := (hi.t ht).nlink r hrlt
  have hH := attach_heap s3 nd r
  have hM := attach_misc s3 nd r
  have e1 : (s3.heap r).ino = (s.heap r).ino := by rw [h.obj]
  have e2 : (s3.heap r).nlink = (s.heap r).nlink - 1 := by rw [h.obj]
  have e3 : (s3.heap r).name = nn := by rw [h.obj]
  have e4 : (s3.heap nd).mode = (s.heap nd).mode := by rw [(h.dirs nd (Or.inr rfl)).1]
  have e5 : (s3.heap nd).dev = (s.heap nd).dev := by rw [(h.dirs nd (Or.inr rfl)).1]
  have e6 : s3.isRoot = s.isRoot := by unfold FS.isRoot; rw [h.env]
  have hfree : alookup nn (s3.heap nd).entries = none := by rw [h.look, if_pos ⟨rfl, rfl⟩]
  unfold addEntry
  rw [if_neg (by rw [(h.dirs nd (Or.inr rfl)).2]; simp)]
  rw [if_neg (by
    rw [e6, e4]
    rintro ⟨a, b, _⟩
    rcases hmay with hm | hm
    · rw [hm] at a; simp at a
    · have : (s.heap nd).mode &&& PERM_WRITE = ((s.heap nd).mode &&& (PERM_WRITE ||| PERM_EXE)) &&& PERM_WRITE := by
        rw [Nat.and_assoc]; rfl
      rw [this, hm] at b
      exact absurd b (by decide))]
  rw [if_neg (by rw [e3, hfree]; simp)]
  dsimp only
  have hren : ∀ ms, ms = (match alookup nn (s.heap nd).entries with | none => s.mounts | some t => released s t) →
      Renamed s { s3.attach nd r with mounts := ms } od on nd nn r := by
    intro ms hms
    refine ⟨?_, ?_, ?_, hr, hne, ?_, ?_, ?_, ?_, ?_, hms⟩
    · have := attach_env s3 nd r
      unfold Env at this ⊢
      have e := h.env
      unfold Env at e
      rw [this, e]
    · show (s3.attach nd r).next = _; rw [hM.1, h.next]
    · show (s3.attach nd r).lastIno = _; rw [hM.2.2.2.2.2.2.2.2.2.2, e1, if_neg hino, h.lastIno]
    · intro x n
      show alookup n ((s3.attach nd r).heap x).entries = _
      have hE : ((s3.attach nd r).heap x).entries = if x = nd then (s3.heap nd).entries ++ [(nn, r)] else (s3.heap x).entries := by
        rw [hH x]
        by_cases hx : x = nd
        · subst hx; simp only [if_true, Obj.entries, e3]
        · simp only [if_neg hx]; rfl
      rw [hE]
      by_cases hx : x = nd
      · subst hx
        simp only [if_true, true_and]
        rw [alookup_snoc, h.look]
        simp only [true_and]
        by_cases hn : n = nn
        · subst hn; simp
        · simp only [hn, if_false]
          have : ¬ nn = n := fun e => hn e.symm
          simp only [this, if_false]
          split <;> rename_i hh
          · rw [hh]
          · rw [hh]
      · simp only [if_neg hx, eq_false hx, false_and, if_false, h.look]
    · show (s3.attach nd r).heap r = _
      rw [hH r]
      simp only [if_neg hrnd, if_true, true_and, e1, if_neg hino, e5]
      rw [h.obj]
      simp
    · intro x hx
      constructor
      · show (s3.attach nd r).heap x = { s.heap x with content := ((s3.attach nd r).heap x).content, nlink := ((s3.attach nd r).heap x).nlink }
        have hxr : x ≠ r := by rintro rfl; rcases hx with rfl | rfl; exact hrod rfl; exact hrnd rfl
        rw [hH x]
        simp only [if_neg hxr, eq_false hxr, false_and, if_false]
        rw [(h.dirs x hx).1]
      · show ((s3.attach nd r).heap x).isDir = true
        rw [hH x]
        by_cases hxn : x = nd
        · simp only [if_pos hxn]; rfl
        · simp only [if_neg hxn]; exact (h.dirs x hx).2
    · intro t htt
      obtain ⟨t1, t2, t3⟩ := htgt t htt
      show (s3.attach nd r).heap t = _
      rw [hH t]
      simp only [if_neg t1, if_neg t3, eq_false t3, false_and, if_false]
      rw [h.target t htt]
      simp
    · intro x h1 h2 h3 h4
      show (s3.attach nd r).heap x = _
      rw [hH x]
      simp only [if_neg h2, if_neg h3, eq_false h3, false_and, if_false]
      rw [h.others x h1 h2 h3 h4]
      simp
  have hnl : ((s3.attach nd r).heap r).nlink = (s.heap r).nlink := by
    rw [hH r]; simp only [if_neg hrnd, if_true, e2]; omega
  by_cases hone : (s.heap r).nlink = 1
  · rw [if_pos (by rw [hnl]; exact hone)]
    have hfile : (s.heap r).isDir = false := by
      by_contra hd
      have hd : (s.heap r).isDir = true := by simpa using hd
      rw [if_pos hd] at hnl0
      omega
    have hsz : (s3.attach nd r).sizeOf ((s3.attach nd r).next + 1) r = (s.heap r).size := by
      have hc : ((s3.attach nd r).heap r).content = (s.heap r).content := by
        rw [hH r]; simp only [if_neg hrnd]; rw [h.obj]
      have hs : ((s3.attach nd r).heap r).size = (s.heap r).size := by
        rw [hH r]; show (s3.heap r).size = _; rw [h.obj]
      have hcfg : (s3.attach nd r).cfg = s.cfg := by rw [hM.2.1]; have := h.env; unfold Env at this; rw [this]
      unfold FS.sizeOf
      rw [hc]
      rcases content_cases (s.heap r) with ⟨_, b, hb⟩ | ⟨hb, _⟩
      · rw [hb]; simp only [FS.stSize, hcfg, ht.posix.win, Bool.false_eq_true, and_false, if_false, hs]
      · rw [hfile] at hb; simp at hb
    have hdv : ((s3.attach nd r).heap nd).dev = (s.heap r).dev := by
      rw [hH nd]; simp only [if_neg (Ne.symm hrnd)]; rw [e5, hdev hfile]
    rw [hsz, hdv, changeDiskUsage_eq]
    have hmt : (s3.attach nd r).mounts = charge (s.heap r).dev (-((s.heap r).size : Int))
        (match alookup nn (s.heap nd).entries with | none => s.mounts | some t => released s t) := by
      have hrel : released s r = charge (s.heap r).dev (-((s.heap r).size : Int)) s.mounts := by
        unfold released; rw [if_pos ⟨hone, hfile⟩]
      rw [hM.2.2.1, h.mounts]
      cases htt : alookup nn (s.heap nd).entries with
      | none => exact hrel
      | some t =>
        dsimp only
        unfold released at hrel ⊢
        split
        · rw [hrel, charge_comm]
        · exact hrel
    have hwm : ∀ m ∈ (match alookup nn (s.heap nd).entries with | none => s.mounts | some t => released s t),
        ∀ t, m.total = some t → m.used ≤ t := by
      split
      · exact hw
      · unfold released
        split
        · exact within_charge hw _ (by omega)
        · exact hw
    rw [hmt, fits_after hwm, if_pos rfl]
    refine ⟨_, rfl, ?_⟩
    exact hren _ (charge_undo _ _ _)
  · rw [if_neg (by rw [hnl]; exact hone)]
    refine ⟨s3.attach nd r, rfl, ?_⟩
    have : ({ s3.attach nd r with mounts := (s3.attach nd r).mounts } : FS) = s3.attach nd r := rfl
    rw [← this]
    apply hren
    rw [hM.2.2.1, h.mounts]
    have hrel : released s r = s.mounts := by unfold released; rw [if_neg (fun h => hone h.1)]
    cases htt : alookup nn (s.heap nd).entries with
    | none => exact hrel
    | some t => dsimp only; rw [hrel]; rfl

theorem renameCommit_spec {s : FS} (hi : Inv s) (hw : Within s) (ht : s.cfg.Tree) {od nd : Ref} {on nn : Str} (hod : od < s.next)
    (hnd : nd < s.next) (hdir : (s.heap nd).isDir = true)
    (hanc : ∀ r, alookup on (s.heap od).entries = some r → ¬ Anc s.heap r nd) (hmay : mayRemove s nd)
    (hdev : ∀ r, alookup on (s.heap od).entries = some r → (s.heap r).isDir = false → (s.heap r).dev = (s.heap nd).dev)
    (htgt : ∀ r t, alookup on (s.heap od).entries = some r → alookup nn (s.heap nd).entries = some t → t ≠ r ∧ (s.heap t).entries = []) :
    wp (renameCommit od nd on nn) (fun res s' => (∃ x, res = .error x ∧ s' = s ∧ (mayRemove s od → ∀ r, alookup on (s.heap od).entries ≠ some r)) ∨
      ∃ r, res = .ok () ∧ Renamed s s' od on nd nn r ∧ mayRemove s od) s := by
  unfold renameCommit
  apply wp_getBind
  apply wp_ite
  · intro h
    refine Or.inl ⟨_, rfl, rfl, fun _ r hr => ?_⟩
    have := isDir_of_entry (alookup_mem hr)
    rw [this] at h; simp at h
  intro hodir
  apply wp_readBind
  · intro e he
    refine Or.inl ⟨_, rfl, rfl, fun _ r hr => ?_⟩
    rw [getEntry_tree ht.cs, hr] at he
    simp at he
  intro r hr
  have hr : alookup on (s.heap od).entries = some r := by
    rw [getEntry_tree ht.cs] at hr
    cases ha : alookup on (s.heap od).entries with
    | none => rw [ha] at hr; simp at hr
    | some y => rw [ha] at hr; simp at hr; rw [hr]
  have hmem := alookup_mem hr
  have hrlt := hi.g.entLt od hod _ hmem
  have hrroot := hi.g.entRoot od hod _ hmem
  have hrnd : r ≠ nd := fun e => hanc r hr (e ▸ .refl)
  have hrod : od ≠ r := entry_ne hi ht hod hr
  have hnl0 : (s.heap r).nlink = _ := (hi.t ht).nlink r hrlt
  have hpos : 0 < refs s.heap s.next r := refs_pos hod hmem rfl
  have hpost := removeEntry_post hi hod on false
  rcases removeEntry_one hi hw ht hod (nm := on) false (fun h => by simp at h) with ⟨x, hx, hx'⟩ | ⟨s1, e, hx, h1, h2, h3⟩
  · refine wp_bindErr hx ?_
    refine Or.inl ⟨x, rfl, rfl, fun hm => ?_⟩
    rcases hx' with ⟨_, h⟩ | ⟨_, h⟩ | ⟨_, _, h⟩
    · rw [isDir_of_entry hmem] at h; simp at h
    · rw [h] at hr; simp at hr
    · exact absurd hm h
  have he : r = e := by have := h1.was; rw [hr] at this; injection this
  subst he
  unfold wp at hpost
  rw [hx] at hpost
  have hi1 : Inv s1 := hpost.good.inv
  refine wp_bindOk hx ?_
  apply wp_modifyBind
  have hs2i : Inv (s1.named r nn) := by
    refine (good_setName hi1 r nn hrroot ?_).inv
    intro hd x hxl e' he' her
    rw [h1.next] at hxl
    have hd0 : (s.heap r).isDir = true := by rw [h1.child] at hd; exact hd
    have he0 : e' ∈ (s.heap x).entries ∧ (x = od → e'.1 ≠ on) := by
      by_cases e1 : x = od
      · subst e1
        rw [h1.parent] at he'
        have := mem_aerase.mp (show e' ∈ aerase on (s.heap x).entries from he')
        exact ⟨this.1, fun _ => this.2⟩
      · by_cases e2 : x = r
        · subst e2; rw [h1.child] at he'; exact ⟨he', fun h => absurd h e1⟩
        · rw [h1.others x e1 e2] at he'; exact ⟨he', fun h => absurd h e1⟩
    subst her
    obtain ⟨hx1, hx2⟩ := hi.g.dirEnt x hxl e' he0.1 hd0
    obtain ⟨ho1, ho2⟩ := hi.g.dirEnt od hod _ hmem hd0
    rw [ho1] at hx1; injection hx1 with hx1
    rw [ho2] at hx2
    exact he0.2 hx1.symm hx2.symm
  have htr : ∀ t, alookup nn (s.heap nd).entries = some t → t ≠ nd ∧ t ≠ od ∧ t ≠ r := by
    intro t htt
    obtain ⟨t1, t2⟩ := htgt r t hr htt
    refine ⟨(entry_ne hi ht hnd htt).symm, ?_, t1⟩
    rintro rfl
    rw [t2] at hr; simp [alookup] at hr
  have hne : (nd, nn) ≠ (od, on) := by
    intro e
    injection e with a b
    subst a; subst b
    exact (htr r hr).2.2 rfl
  have hl1 : ∀ x n, alookup n (s1.heap x).entries = if x = od ∧ n = on then none else alookup n (s.heap x).entries := by
    intro x n
    by_cases e1 : x = od
    · subst e1
      rw [h1.parent]
      show alookup n (aerase on (s.heap x).entries) = _
      rw [alookup_aerase]
      simp
    · simp only [e1, false_and, if_false]
      by_cases e2 : x = r
      · subst e2; rw [h1.child]; rfl
      · rw [h1.others x e1 e2]
  have hl2 : ∀ x n, alookup n ((s1.named r nn).heap x).entries = if x = od ∧ n = on then none else alookup n (s.heap x).entries := by
    intro x n; rw [← hl1, named_heap]; rfl
  have hmt2 : (s1.named r nn).mounts = released s r := h3
  have mid2 : alookup nn (s.heap nd).entries = none → Mid s (s1.named r nn) od on nd nn r := by
    intro hno
    refine ⟨?_, ?_, ?_, ?_, ?_, ?_, ?_, ?_, ?_⟩
    · exact Env.trans h1.env rfl
    · exact h1.next
    · exact h1.lastIno
    · intro x n
      rw [hl2]
      by_cases e : x = nd ∧ n = nn
      · obtain ⟨rfl, rfl⟩ := e
        simp [hno]
      · rw [if_neg e]
    · rw [named_heap, h1.child]; simp
    · have hod' : (s1.named r nn).heap od = { s.heap od with content := ((s1.named r nn).heap od).content, nlink := ((s1.named r nn).heap od).nlink } ∧
          ((s1.named r nn).heap od).isDir = true := by
        rw [named_heap, h1.parent]
        simp only [if_neg hrod]
        exact ⟨trivial, rfl⟩
      rintro x (rfl | rfl)
      · exact hod'
      · by_cases e : x = od
        · rw [e]; exact hod'
        · rw [named_heap, h1.others x e hrnd.symm]
          simp only [if_neg hrnd.symm]
          exact ⟨trivial, hdir⟩
    · intro t htt; rw [hno] at htt; simp at htt
    · intro x x1 x2 x3 x4
      rw [named_heap, if_neg x3, h1.others x x1 x3]
    · rw [hno]; exact hmt2
  refine wp_bindOk (a := s1.named r nn) (s' := s1.named r nn) rfl ?_
  have hcs2 : (s1.named r nn).cfg = s.cfg := by
    show s1.cfg = s.cfg; have := h1.env; unfold Env at this; rw [this]
  have ht2 : (s1.named r nn).cfg.Tree := by rw [hcs2]; exact ht
  have hl3 : alookup nn ((s1.named r nn).heap nd).entries = alookup nn (s.heap nd).entries := by
    rw [hl2, if_neg]
    rintro ⟨rfl, rfl⟩; exact hne rfl
  dsimp only
  rw [normEntry_caseSens ht2, hl3]
  cases htt : alookup nn (s.heap nd).entries with
  | none =>
    rw [if_neg (by simp)]
    obtain ⟨s', e1, e2⟩ := (mid2 htt).added hi hw ht hod hdir hmay hr (hdev r hr) hne hrnd hrod.symm htr
    unfold wp
    rw [e1]
    exact Or.inr ⟨r, rfl, e2, h2⟩
  | some t =>
    rw [if_pos (by simp)]
    obtain ⟨t1, t2, t3⟩ := htr t htt
    have hw2 : Within (s1.named r nn) := by
      unfold Within
      rw [hmt2]
      unfold released
      split
      · exact within_charge hw _ (by omega)
      · exact hw
    have hst : (s1.named r nn).heap t = s.heap t := by
      rw [named_heap, if_neg t3, h1.others t t2 t3]
    have hnd2 : nd < (s1.named r nn).next := by show nd < s1.next; rw [h1.next]; exact hnd
    have hmode2 : ((s1.named r nn).heap nd).mode = (s.heap nd).mode := by
      rw [named_heap]
      show (s1.heap nd).mode = _
      by_cases e : nd = od
      · rw [e, h1.parent]
      · rw [h1.others nd e hrnd.symm]
    have hroot2 : (s1.named r nn).isRoot = s.isRoot := by
      show s1.isRoot = _; unfold FS.isRoot; rw [h1.env]
    rcases removeEntry_one hs2i hw2 ht2 hnd2 (nm := nn) true (fun _ e he => by
      rw [hl3, htt] at he; injection he with he; subst he
      rw [hst]; exact (htgt r t hr htt).2) with ⟨x, _, hx'⟩ | ⟨s3, e, hx3, k1, k2, k3⟩
    · exfalso
      rcases hx' with ⟨_, h⟩ | ⟨_, h⟩ | ⟨_, _, h⟩
      · have := isDir_of_entry (alookup_mem (hl3.trans htt)); rw [this] at h; simp at h
      · rw [hl3, htt] at h; simp at h
      · apply h
        rw [hmode2, hroot2]
        exact hmay
    have he : t = e := by have := k1.was; rw [hl3, htt] at this; injection this
    subst he
    refine wp_bindOk hx3 ?_
    have mid3 : Mid s s3 od on nd nn r := by
      have hod2 : ((s1.named r nn).heap od) = { s.heap od with content := ((s1.named r nn).heap od).content, nlink := ((s1.named r nn).heap od).nlink } ∧
          ((s1.named r nn).heap od).isDir = true := by
        rw [named_heap, h1.parent]
        simp only [if_neg hrod]
        exact ⟨trivial, rfl⟩
      have hnd2' : ((s1.named r nn).heap nd) = { s.heap nd with content := ((s1.named r nn).heap nd).content, nlink := ((s1.named r nn).heap nd).nlink } := by
        by_cases e : nd = od
        · rw [e]; exact hod2.1
        · rw [named_heap, h1.others nd e hrnd.symm]
          simp only [if_neg hrnd.symm]
      have hnd3 : s3.heap nd = { s.heap nd with content := (s3.heap nd).content, nlink := (s3.heap nd).nlink } ∧ (s3.heap nd).isDir = true := by
        rw [k1.parent]
        refine ⟨?_, rfl⟩
        rw [hnd2']
      refine ⟨?_, ?_, ?_, ?_, ?_, ?_, ?_, ?_, ?_⟩
      · exact Env.trans (Env.trans h1.env (show Env s1 (s1.named r nn) from rfl)) k1.env
      · rw [k1.next]; exact h1.next
      · rw [k1.lastIno]; exact h1.lastIno
      · intro x n
        by_cases e1 : x = nd
        · subst e1
          rw [k1.parent]
          show alookup n (aerase nn ((s1.named r nn).heap x).entries) = _
          rw [alookup_aerase, hl2]
          simp only [true_and]
        · simp only [e1, false_and, if_false]
          rw [← hl2]
          by_cases e2 : x = t
          · subst e2; rw [k1.child]; rfl
          · rw [k1.others x e1 e2]
      · rw [k1.others r hrnd (Ne.symm t3), named_heap, h1.child]; simp
      · rintro x (rfl | rfl)
        · by_cases e : x = nd
          · rw [e]; exact hnd3
          · rw [k1.others x e (Ne.symm t2)]; exact hod2
        · exact hnd3
      · intro t' ht'
        rw [htt] at ht'; injection ht' with ht'; subst ht'
        rw [k1.child, hst]
      · intro x x1 x2 x3 x4
        rw [k1.others x x2 (fun e => x4 (by rw [htt, e])), named_heap, if_neg x3, h1.others x x1 x3]
      · rw [k3, htt, hst, hmt2]
    obtain ⟨s', e1, e2⟩ := mid3.added hi hw ht hod hdir hmay hr (hdev r hr) hne hrnd hrod.symm htr
    unfold wp
    rw [e1]
    exact Or.inr ⟨r, rfl, e2, h2⟩

end Verif
