import Verif.EffRename
import Verif.Props.Tree
import Verif.Props.Case
/-!
# C81: changing the spelling of a name on a case-insensitive filesystem
-/

namespace Verif
open Py Spec Cfg

/-- the ancestors of a directory of the tree are the directories on its path -/
theorem anc_walk {s : FS} (hi : Inv s) {a d : Ref} (ha : Anc s.heap a d) : ∀ l, walk s.heap rootRef l = some d → (s.heap d).isDir = true →
    ∃ l1 l2, l = l1 ++ l2 ∧ walk s.heap rootRef l1 = some a ∧ (s.heap a).isDir = true := by
  induction ha with
  | refl => intro l hl hd; exact ⟨l, [], by simp, hl, hd⟩
  | @up r p h0 _ ih =>
    intro l hl hd
    rcases List.eq_nil_or_concat l with rfl | ⟨m, c, rfl⟩
    · simp only [walk, Option.some.injEq] at hl
      subst hl
      rw [hi.g.rootPar] at h0; cases h0
    · rw [List.concat_eq_append] at hl ⊢
      obtain ⟨y, hy, he⟩ := walk_snoc hl
      have hm := alookup_mem he
      have := (hi.g.dirEnt y (walk_lt hi m (root_lt hi) hy) _ hm hd).1
      rw [h0] at this
      injection this with this
      subst this
      obtain ⟨l1, l2, e, h1, h2⟩ := ih m hy (isDir_of_entry hm)
      exact ⟨l1, l2 ++ [c], by rw [e, List.append_assoc], h1, h2⟩

/-- what is in a directory of the tree is not above it -/
theorem entry_not_above {s : FS} (hi : Inv s) {l : List Str} {d r : Ref} {nm : Str} (hl : walk s.heap rootRef l = some d)
    (he : alookup nm (s.heap d).entries = some r) : s.hasParent d r = false := by
  rw [Bool.eq_false_iff]
  intro h
  obtain ⟨l1, l2, e, h1, h2⟩ := anc_walk hi (anc_of_hasParentF _ _ _ h) l hl (isDir_of_entry (alookup_mem he))
  have hw : walk s.heap rootRef (l ++ [nm]) = some r := by
    rw [walk_append, hl]
    simp [walk, he]
  have := congrArg List.length (walk_dir_unique hi _ _ hw h1 h2)
  rw [e] at this
  simp at this

theorem fits_release {ms : List Mount} (h : ∀ m ∈ ms, ∀ t, m.total = some t → m.used ≤ t) (d : Option Nat) (c : Nat) : fits d (-(c : Int)) ms = true := by
  unfold fits
  cases d with
  | none => rfl
  | some i =>
    dsimp only
    cases hf : ms.find? (fun m => m.idev == i) with
    | none => rfl
    | some m =>
      dsimp only
      cases ht : m.total with
      | none => rfl
      | some t =>
        have := h m (List.mem_of_find?_eq_some hf) t ht
        simp only [decide_eq_true_eq]
        omega

theorem find_only {s : FS} {es : List (Str × Ref)} {st nm : Str} {r : Ref} (hm : alookup st es = some r) (hl : s.cfg.lower nm = s.cfg.lower st)
    (only : ∀ e ∈ es, s.cfg.lower e.1 = s.cfg.lower st → e.1 = st) (hcs : s.cfg.caseSens = false) : s.normEntry es nm = st := by
  unfold FS.normEntry
  rw [hcs, if_neg (by simp)]
  cases hf : es.find? (fun e => s.cfg.lower e.1 == s.cfg.lower nm) with
  | none =>
    have := List.find?_eq_none.mp hf _ (alookup_some hm)
    simp [hl] at this
  | some e =>
    have h1 := List.mem_of_find?_eq_some hf
    have h2 := List.find?_some hf
    simp only [beq_iff_eq] at h2
    exact only e h1 (h2.trans hl)

namespace Spec
/-- the user may take `r` out of the directory `d` and put it back -/
def MayMove (s : FS) (d r : Ref) : Prop :=
  if s.cfg.isWin then (s.heap r).mode &&& PERM_WRITE ≠ 0 ∧ s.hasOpenFile r = false
  else s.isRoot = true ∨ (s.heap d).mode &&& (PERM_WRITE ||| PERM_EXE) = PERM_WRITE ||| PERM_EXE

/-- the object `r` of the directory `d` is now called `nn` there, instead of `st`, and that is all -/
structure Respelled (s s' : FS) (d r : Ref) (st nn : Str) : Prop where
  entries : (s'.heap d).entries = aerase st (s.heap d).entries ++ [(nn, r)]
  obj : s'.heap r = { s.heap r with name := nn, parent := some d, dev := (s.heap d).dev }
  dir : s'.heap d = { s.heap d with content := (s'.heap d).content }
  rest : ∀ x, x ≠ d → x ≠ r → s'.heap x = s.heap x
  env : s' = { s with heap := s'.heap }
end Spec

/-- the moves of `rename` within one directory on a case-insensitive filesystem, to another spelling -/
theorem respell_commit {s : FS} (hi : Inv s) (hcs : s.cfg.caseSens = false) (hw : Within s) {l : List Str} {d r : Ref} {st on nn : Str}
    (hl : walk s.heap rootRef l = some d) (hst : alookup st (s.heap d).entries = some r)
    (only : ∀ e ∈ (s.heap d).entries, s.cfg.lower e.1 = s.cfg.lower st → e.1 = st)
    (hon : s.cfg.lower on = s.cfg.lower st) (hnn : s.cfg.lower nn = s.cfg.lower st)
    (hmay : MayMove s d r) (hnl : if (s.heap r).isDir = true then 2 ≤ (s.heap r).nlink else 1 ≤ (s.heap r).nlink)
    (hdev : (s.heap r).dev = (s.heap d).dev) :
    ∃ s', renameCommit d d on nn s = (.ok (), s') ∧ Respelled s s' d r st nn := by
  have hd : (s.heap d).isDir = true := isDir_of_entry (alookup_mem hst)
  have hdlt := walk_lt hi l (root_lt hi) hl
  have hmem := alookup_mem hst
  have hino := hi.g.entIno d hdlt _ hmem
  have hrd : r ≠ d := by
    rintro rfl
    have := entry_not_above hi hl hst
    unfold FS.hasParent at this
    rw [Bool.eq_false_iff] at this
    apply this
    have h2 := hi.g.two
    obtain ⟨n, hn⟩ : ∃ n, s.next = n + 1 := ⟨s.next - 1, by omega⟩
    rw [hn]; simp [FS.hasParentF]
  have hnorm := find_only (nm := on) hst hon only hcs
  have hnorm2 := find_only (nm := st) hst rfl only hcs
  have hcheck : removeCheck s d r = .ok () := by
    unfold MayMove at hmay
    unfold removeCheck
    by_cases hwin : s.cfg.isWin = true
    · rw [if_pos hwin] at hmay ⊢
      rw [if_neg hmay.1, if_neg (by rw [hmay.2]; simp)]
    · rw [if_neg hwin] at hmay ⊢
      rw [if_neg]
      rintro ⟨h1, h2⟩
      rcases hmay with h | h
      · rw [h] at h1; cases h1
      · exact h2 h
  -- taking it out
  have rel : ∃ ms, removeEntry d on false s = (.ok (), ({ s with mounts := ms } : FS).detached d st r) ∧
      ms = (if (s.heap r).nlink = 1 then charge (s.heap r).dev (-(s.sizeOf (s.next + 1) r : Int)) s.mounts else s.mounts) := by
    refine ⟨if (s.heap r).nlink = 1 then charge (s.heap r).dev (-(s.sizeOf (s.next + 1) r : Int)) s.mounts else s.mounts, ?_, rfl⟩
    have hdet : ∀ ms, detach d st r { s with mounts := ms } = (.ok (), ({ s with mounts := ms } : FS).detached d st r) := by
      intro ms
      rcases detach_spec { s with mounts := ms } d st r with h1 | ⟨x, _, ⟨_, h2⟩ | ⟨_, h2⟩⟩
      · exact h1
      · rw [decLinks_heap] at h2
        simp only [if_neg hrd, if_true] at h2
        split at hnl <;> omega
      · rw [decLinks_heap] at h2
        have h2' : alookup st (s.heap d).entries = none := h2
        rw [hst] at h2'; cases h2'
    generalize hms : (if (s.heap r).nlink = 1 then charge (s.heap r).dev (-(s.sizeOf (s.next + 1) r : Int)) s.mounts else s.mounts) = ms
    unfold removeEntry
    rw [removeEntryF]
    dsimp only
    rw [if_neg (by rw [hd]; simp), hnorm]
    have hge : s.getEntry (s.heap d).entries st = .ok r := by
      unfold FS.getEntry; rw [hnorm2, hst]
    rw [hge]
    dsimp only
    rw [hcheck]
    dsimp only
    rw [if_neg (by simp)]
    by_cases h1 : (s.heap r).nlink = 1
    · rw [if_pos h1] at hms
      rw [if_pos h1, ← hms]
      show (changeDiskUsage _ _ >>= fun _ => detach d st r) s = _
      rw [M.bind_eq, changeDiskUsage_eq, if_pos (fits_release hw _ _)]
      exact hdet _
    · rw [if_neg h1] at hms
      rw [if_neg h1, ← hms]
      exact hdet _
  obtain ⟨ms, hrem, hms⟩ := rel
  set s1 := ({ s with mounts := ms } : FS).detached d st r with hs1
  have hh1 : ∀ x, s1.heap x = { s.heap x with
      content := if x = d then .dir (aerase st (s.heap d).entries) else (s.heap x).content
      nlink := (s.heap x).nlink - (if x = d then 1 else 0) - (if x = r then 1 else 0) } := fun x => detached_heap _ d st r x
  set s2 := s1.setObj r fun o => { o with name := nn } with hs2
  have hh2r : s2.heap r = { s.heap r with name := nn, nlink := (s.heap r).nlink - 1 } := by
    rw [hs2]; show upd s1.heap r _ r = _; rw [upd_same, hh1 r]; simp [hrd]
  have hh2 : ∀ x, x ≠ r → s2.heap x = s1.heap x := fun x hx => by rw [hs2]; show upd s1.heap r _ x = _; rw [upd_ne _ _ hx]
  have he2 : (s2.heap d).entries = aerase st (s.heap d).entries := by
    rw [hh2 d (Ne.symm hrd), hh1 d]; simp [Obj.entries]
  have hnone : ∀ e ∈ aerase st (s.heap d).entries, s.cfg.lower e.1 ≠ s.cfg.lower nn := by
    intro e he h
    obtain ⟨h1, h2⟩ := mem_aerase.mp he
    exact h2 (only e h1 (h.trans hnn))
  have hnorm3 : s2.normEntry (s2.heap d).entries nn = nn := by
    unfold FS.normEntry
    rw [show s2.cfg = s.cfg from rfl, hcs, if_neg (by simp), he2]
    cases hf : (aerase st (s.heap d).entries).find? (fun e => s.cfg.lower e.1 == s.cfg.lower nn) with
    | none => rfl
    | some e =>
      have h2 := List.find?_some hf
      simp only [beq_iff_eq] at h2
      exact absurd h2 (hnone e (List.mem_of_find?_eq_some hf))
  have hfree : alookup nn (s2.heap d).entries = none := by
    rw [he2]
    cases ha : alookup nn (aerase st (s.heap d).entries) with
    | none => rfl
    | some x => exact absurd rfl (hnone _ (alookup_some ha))
  -- putting it back
  have hadd : ∃ s', addEntry d r s2 = (.ok (), s') ∧ s' = { s2.attach d r with mounts := s.mounts } := by
    unfold addEntry
    rw [if_neg (by rw [hh2 d (Ne.symm hrd), hh1 d]; simp [Obj.isDir])]
    rw [if_neg (by
      rw [hh2 d (Ne.symm hrd), hh1 d]
      rintro ⟨a, b, c⟩
      have c' : s.cfg.isWin = false := c
      unfold MayMove at hmay
      rw [if_neg (by rw [c']; simp)] at hmay
      rcases hmay with hm | hm
      · have a' : s.isRoot = false := a
        rw [hm] at a'; cases a'
      · have b' : (s.heap d).mode &&& PERM_WRITE = 0 := b
        have : (s.heap d).mode &&& PERM_WRITE = ((s.heap d).mode &&& (PERM_WRITE ||| PERM_EXE)) &&& PERM_WRITE := by
          rw [Nat.and_assoc]; rfl
        rw [this, hm] at b'
        exact absurd b' (by decide))]
    rw [hh2r]
    dsimp only
    rw [if_neg (by rw [hfree]; simp)]
    have hat := attach_heap s2 d r r
    have hnl2 : ((s2.attach d r).heap r).nlink = (s.heap r).nlink := by
      rw [hat, hh2r]; simp [hrd]
    by_cases h1 : (s.heap r).nlink = 1
    · rw [if_pos (by rw [hnl2]; exact h1)]
      have hfile : (s.heap r).isDir = false := by
        by_contra hdd
        rw [if_pos (by simpa using hdd)] at hnl
        omega
      have hsz : (s2.attach d r).sizeOf ((s2.attach d r).next + 1) r = s.sizeOf (s.next + 1) r := by
        rcases content_cases (s.heap r) with ⟨_, b, hb⟩ | ⟨hb, _⟩
        · have hc : ((s2.attach d r).heap r).content = .file b := by
            rw [hat, hh2r]; simp [hrd, hb]
          rw [FS.sizeOf, hc, FS.sizeOf, hb]
          dsimp only
          unfold FS.stSize
          rw [show ((s2.attach d r).heap r).mode = (s.heap r).mode by rw [hat, hh2r],
            show ((s2.attach d r).heap r).size = (s.heap r).size by rw [hat, hh2r], (attach_misc s2 d r).2.1]
          rfl
        · rw [hfile] at hb; simp at hb
      have hdv : ((s2.attach d r).heap d).dev = (s.heap r).dev := by
        rw [attach_heap s2 d r d, hh2 d (Ne.symm hrd), hh1 d]
        simp [Ne.symm hrd, hdev]
      have hmt : (s2.attach d r).mounts = charge (s.heap r).dev (-(s.sizeOf (s.next + 1) r : Int)) s.mounts := by
        rw [(attach_misc s2 d r).2.2.1]
        show ms = _
        rw [hms, if_pos h1]
      rw [hsz, hdv, changeDiskUsage_eq, hmt, fits_after hw, if_pos rfl]
      exact ⟨_, rfl, by rw [charge_undo]⟩
    · rw [if_neg (by rw [hnl2]; exact h1)]
      refine ⟨_, rfl, ?_⟩
      have hmt : (s2.attach d r).mounts = s.mounts := by
        rw [(attach_misc s2 d r).2.2.1]
        show ms = _
        rw [hms, if_neg h1]
      rw [← hmt]
  obtain ⟨s', hrun, hs'⟩ := hadd
  refine ⟨s', ?_, ?_⟩
  · unfold renameCommit
    rw [M.bind_eq]
    dsimp only [M.get]
    rw [if_neg (by rw [hd]; simp)]
    try dsimp only
    have hge : s.getEntry (s.heap d).entries on = .ok r := by
      unfold FS.getEntry; rw [hnorm, hst]
    rw [M.bind_eq, rd_eq (f := fun s => s.getEntry (s.heap d).entries on) hge]
    try dsimp only
    rw [M.bind_eq, hrem]
    try dsimp only
    rw [M.bind_eq]
    show (M.get >>= _) s2 = _
    rw [M.bind_eq]
    dsimp only [M.get]
    rw [hnorm3, if_neg (by rw [hfree]; simp)]
    exact hrun
  · subst hs'
    have hH := attach_heap s2 d r
    have hce : (s2.attach d r).heap d = { s2.heap d with content := .dir ((s2.heap d).entries ++ [(nn, r)]), nlink := (s2.heap d).nlink + 1 } := by
      rw [hH d]
      simp [Ne.symm hrd, hh2r]
    refine ⟨?_, ?_, ?_, ?_, ?_⟩
    · show ((s2.attach d r).heap d).entries = _
      rw [hce]
      show (s2.heap d).entries ++ _ = _
      rw [he2]
    · show (s2.attach d r).heap r = _
      rw [hH r, hh2r, hh2 d (Ne.symm hrd), hh1 d]
      simp [hrd, hino]
    · show (s2.attach d r).heap d = _
      rw [hce, hh2 d (Ne.symm hrd), hh1 d]
      simp [Ne.symm hrd]
    · intro x hxd hxr
      show (s2.attach d r).heap x = _
      rw [hH x, hh2 x hxr, hh1 x]
      simp [hxd, hxr]
    · have hla : (s2.attach d r).lastIno = s.lastIno := by
        rw [(attach_misc s2 d r).2.2.2.2.2.2.2.2.2.2, hh2r, if_neg hino]; rfl
      have he := attach_env s2 d r
      unfold Env at he
      have hnx := (attach_misc s2 d r).1
      have e1 : ({ s2.attach d r with mounts := s.mounts } : FS) =
          { s2 with heap := (s2.attach d r).heap, next := (s2.attach d r).next, lastIno := (s2.attach d r).lastIno, mounts := s.mounts } := by
        generalize s2.attach d r = A at he
        rw [he]
      rw [e1, hnx, hla]
      rfl

/-- C81: on a case-insensitive filesystem (macOS, Windows), renaming something to another spelling of its own name succeeds, whatever the spelling it is
called by, if the user may move it: the directory then lists it under the new spelling, and nothing else changes. -/
theorem rename_spelling {s : FS} (hs : Reachable s) (hcs : s.cfg.caseSens = false) (hw : Within s) {old new po pn on nn st : Str} {l : List Str} {d r : Ref} (force : Bool)
    (hl : walk s.heap rootRef l = some d) (hst : alookup st (s.heap d).entries = some r) (hdm : (s.heap d).isDirMode = true)
    (only : ∀ e ∈ (s.heap d).entries, s.cfg.lower e.1 = s.cfg.lower st → e.1 = st)
    (ho : s.cfg.splitpath (s.absnorm old) = (po, on)) (hn : s.cfg.splitpath (s.absnorm new) = (pn, nn))
    (hon : s.cfg.lower on = s.cfg.lower st) (hnn : s.cfg.lower nn = s.cfg.lower st)
    (hlow : s.cfg.lower (s.absnorm old) = s.cfg.lower (s.absnorm new)) (hne : s.absnorm old ≠ s.absnorm new) (hne0 : s.absnorm new ≠ [])
    (hsep : s.cfg.endsWithSep old = false)
    (hxo : s.existsL (s.absnorm old) = .ok true) (hro : s.lresolve (s.absnorm old) = .ok r)
    (hxn : s.existsL (s.absnorm new) = .ok true) (hrn : s.getObject (s.absnorm new) = .ok r)
    (hpo : s.resolve po = .ok d) (hpn : s.resolve pn = .ok d) (hpx : s.exists_ pn = .ok true)
    {a b : Bool} (hdo : s.isDir (s.absnorm old) false = .ok a) (hdn : s.isDir (s.absnorm new) false = .ok a)
    (hlo : s.isLink (s.absnorm old) = .ok b) (hln : s.isLink (s.absnorm new) = .ok b) (hab : a = true → b = false)
    (hmay : MayMove s d r) (hnl : if (s.heap r).isDir = true then 2 ≤ (s.heap r).nlink else 1 ≤ (s.heap r).nlink)
    (hdev : (s.heap r).dev = (s.heap d).dev) :
    ∃ s', rename old new force s = (.ok (), s') ∧ Respelled s s' d r st nn := by
  have hi := reachable_inv hs
  obtain ⟨s', hrun, hres⟩ := respell_commit hi hcs hw hl hst only hon hnn hmay hnl hdev
  refine ⟨s', ?_, hres⟩
  have hd : (s.heap d).isDir = true := isDir_of_entry (alookup_mem hst)
  have htail : renameTail (s.absnorm old) (s.absnorm new) r s = (.ok (), s') := by
    unfold renameTail
    rw [M.bind_eq]
    dsimp only [M.get]
    rw [if_neg hne0, ho, hn]
    dsimp only
    rw [M.bind_eq, rd_eq (f := fun x => x.exists_ _) hpx]
    try dsimp only
    rw [if_neg (by simp)]
    try dsimp only
    rw [M.bind_eq, rd_eq (f := fun x => x.resolve _) hpo]
    try dsimp only
    rw [M.bind_eq, rd_eq (f := fun x => x.resolve _) hpn]
    try dsimp only
    rw [if_neg (by simp)]
    try dsimp only
    rw [if_neg (by rw [hdm]; simp)]
    try dsimp only
    rw [if_neg (by rw [hd]; simp)]
    try dsimp only
    rw [entry_not_above hi hl hst, if_neg (by simp)]
    exact hrun
  have hto : renameToExisting force (s.absnorm new) (s.absnorm old) r false s = (.ok (some (s.absnorm new)), s) := by
    unfold renameToExisting
    rw [M.bind_eq, rd_eq (f := fun x => x.getObject _) hrn]
    try dsimp only
    rw [M.bind_eq]
    dsimp only [M.get]
    rw [if_neg hne, if_pos rfl]
    have : s.renameSame (s.absnorm new) (s.absnorm old) = .ok (some (s.absnorm new)) := by
      unfold FS.renameSame
      dsimp only
      rw [if_pos hlow]
    exact rd_eq (f := fun x => x.renameSame _ _) this
  have hpos : s.posixDirLinkErrors (s.absnorm new) (s.absnorm old) false = .ok () := by
    unfold FS.posixDirLinkErrors
    simp only [hdo, hdn, hlo, hln, bind, Except.bind]
    cases a <;> cases b <;> simp at hab ⊢
  unfold rename
  rw [M.bind_eq]
  dsimp only [M.get]
  rw [M.bind_eq, rd_eq (f := fun x => x.existsL _) hxo]
  try dsimp only
  rw [if_neg (by simp), hsep]
  try dsimp only
  rw [if_neg (by simp)]
  try dsimp only
  rw [M.bind_eq, rd_eq (f := fun x => x.lresolve _) hro]
  try dsimp only
  have rest : (rd (·.existsL (s.absnorm new)) >>= fun x => if x = true then
        (renameToExisting force (s.absnorm new) (s.absnorm old) r false >>= fun y => match y with
          | none => M.pure ()
          | some new => renameTail (s.absnorm old) new r)
        else renameTail (s.absnorm old) (s.absnorm new) r) s = (.ok (), s') := by
    rw [M.bind_eq, rd_eq (f := fun x => x.existsL _) hxn]
    try dsimp only
    rw [if_pos rfl, M.bind_eq, hto]
    exact htail
  cases hwin : s.cfg.isWin with
  | true =>
    rw [if_neg (by simp)]
    exact rest
  | false =>
    rw [if_pos (by simp)]
    try dsimp only
    rw [M.bind_eq, rd_eq (f := fun x => x.posixDirLinkErrors _ _ _) hpos]
    exact rest

/-- after that the directory shows the new spelling, and every spelling finds the same object -/
theorem respelled_lookup {s s' : FS} {d r : Ref} {st nn : Str} (h : Respelled s s' d r st nn)
    (hcs : s.cfg.caseSens = false) (only : ∀ e ∈ (s.heap d).entries, s.cfg.lower e.1 = s.cfg.lower st → e.1 = st) (hnn : s.cfg.lower nn = s.cfg.lower st)
    {c : Str} (hc : s.cfg.lower c = s.cfg.lower st) : s'.getEntry (s'.heap d).entries c = .ok r ∧ (nn, r) ∈ (s'.heap d).entries ∧
      (nn ≠ st → st ∉ (s'.heap d).entries.map Prod.fst) := by
  have hk : s'.cfg = s.cfg := by rw [h.env]
  have hnone : ∀ e ∈ aerase st (s.heap d).entries, s.cfg.lower e.1 ≠ s.cfg.lower st := by
    intro e he h
    obtain ⟨h1, h2⟩ := mem_aerase.mp he
    exact h2 (only e h1 h)
  have hlook : alookup nn (s'.heap d).entries = some r := by
    rw [h.entries, alookup_snoc]
    cases ha : alookup nn (aerase st (s.heap d).entries) with
    | none => simp
    | some x => exact absurd hnn (hnone _ (alookup_some ha))
  refine ⟨?_, alookup_some hlook, fun hne => ?_⟩
  · have : s'.normEntry (s'.heap d).entries c = nn := by
      refine find_only hlook (by rw [hk, hc, hnn]) ?_ (by rw [hk]; exact hcs)
      intro e he hle
      rw [h.entries, List.mem_append, List.mem_singleton] at he
      rcases he with he | rfl
      · rw [hk] at hle
        exact absurd (hle.trans hnn) (hnone e he)
      · rfl
    unfold FS.getEntry
    rw [this, hlook]
  · rw [h.entries]
    simp only [List.map_append, List.mem_append, List.mem_map, List.map_cons, List.map_nil, List.mem_singleton]
    rintro (⟨e, he, h1⟩ | h1)
    · exact (mem_aerase.mp he).2 h1
    · exact hne h1.symm

/-! ## Cases -/

/-- on macOS: the directory /A with the file /A/f -/
def spellFS : FS := runs [.mkdir "/A".toList 0o777, .createFile "/A/f".toList (S_IFREG ||| 0o666) (some [1, 2]) none true false] (initFS macCfg 50 0 0 0o022 7 (some 100))
theorem spellFS_reachable : Reachable spellFS := ⟨_, _, _, _, _, _, _, _, rfl⟩

example : ∃ s', rename "/A/f".toList "/a/F".toList false spellFS = (.ok (), s') ∧ Respelled spellFS s' 2 3 "f".toList "F".toList :=
  rename_spelling spellFS_reachable (by decide +kernel) (by unfold Within; decide +kernel) (po := "/A".toList) (pn := "/a".toList) (on := "f".toList) (l := ["A".toList]) (a := false) (b := false) false
    (by decide +kernel) (by decide +kernel) (by decide +kernel) (by decide +kernel) (by decide +kernel) (by decide +kernel) (by decide +kernel) (by decide +kernel)
    (by decide +kernel) (by decide +kernel) (by decide +kernel) (by decide +kernel) (by decide +kernel) (by decide +kernel) (by decide +kernel) (by decide +kernel)
    (by decide +kernel) (by decide +kernel) (by decide +kernel) (by decide +kernel) (by decide +kernel) (by decide +kernel) (by decide +kernel) (by decide)
    (by unfold MayMove; decide +kernel) (by decide +kernel) (by decide +kernel)
end Verif
