import Verif.PresRename
/-!
# States no path lookup can tell apart
-/

namespace Verif
open Py Spec Cfg

/-- The two states look the same to every path lookup: same configuration, current directory, user and null device;
the objects of `P` have the same mode, kind, entries and link target. -/
structure Agree (P : Ref → Prop) (s s' : FS) : Prop where
  cfg : s'.cfg = s.cfg
  limit : s'.limit = s.limit
  cwd : s'.cwd = s.cwd
  uid : s'.uid = s.uid
  devName : s'.devName = s.devName
  mode : ∀ x, P x → (s'.heap x).mode = (s.heap x).mode
  kind : ∀ x, P x → (s'.heap x).isDir = (s.heap x).isDir
  entries : ∀ x, P x → (s'.heap x).entries = (s.heap x).entries
  target : ∀ x, P x → (s.heap x).isLnk = true → s'.linkTarget (s'.heap x) = s.linkTarget (s.heap x)

/-- Fields used for lookups by case on the kind of an object. -/
theorem content_cases (o : Obj) : (o.isDir = false ∧ ∃ b, o.content = .file b) ∨ (o.isDir = true ∧ o.content = .dir o.entries) := by
  unfold Obj.isDir Obj.entries
  cases h : o.content with
  | file b => exact Or.inl ⟨rfl, b, rfl⟩
  | dir es => exact Or.inr ⟨rfl, rfl⟩

section
variable {P : Ref → Prop} {s s' : FS} (a : Agree P s s') (hc : Closed s P)
include a

theorem Agree.isLnk {x : Ref} (hx : P x) : (s'.heap x).isLnk = (s.heap x).isLnk := by
  unfold Obj.isLnk; rw [a.mode x hx]

theorem Agree.isDirMode {x : Ref} (hx : P x) : (s'.heap x).isDirMode = (s.heap x).isDirMode := by
  unfold Obj.isDirMode; rw [a.mode x hx]

theorem Agree.isRegMode {x : Ref} (hx : P x) : (s'.heap x).isRegMode = (s.heap x).isRegMode := by
  unfold Obj.isRegMode; rw [a.mode x hx]

theorem Agree.isRoot : s'.isRoot = s.isRoot := by unfold FS.isRoot; rw [a.uid]

theorem Agree.dirContent {r : Ref} (hr : P r) (c : Str) : s'.dirContent r c = s.dirContent r c := by
  unfold FS.dirContent
  rw [a.cfg]
  rcases content_cases (s.heap r) with ⟨h1, b, h2⟩ | ⟨h1, h2⟩
  · rcases content_cases (s'.heap r) with ⟨h3, b', h4⟩ | ⟨h3, h4⟩
    · rw [h2, h4]
    · rw [a.kind r hr, h1] at h3; simp at h3
  · rcases content_cases (s'.heap r) with ⟨h3, b', h4⟩ | ⟨h3, h4⟩
    · rw [a.kind r hr, h1] at h3; simp at h3
    · rw [h2, h4, a.entries r hr]

include hc

theorem Agree.origComps : ∀ (l : List Str) (r : Ref), P r → s'.origComps r l = s.origComps r l := by
  intro l
  induction l with
  | nil => intro r _; rfl
  | cons c l ih =>
    intro r hr
    simp only [FS.origComps, a.dirContent hr]
    cases h : s.dirContent r c with
    | none => rfl
    | some e => simp only [ih _ (hc.dirContent hr (nm := e.1) (x := e.2) (by rw [h]))]

theorem Agree.originalPath (p : Str) : s'.originalPath p = s.originalPath p := by
  unfold FS.originalPath; rw [a.cfg, a.origComps hc _ _ hc.root]

omit hc in
theorem Agree.absnorm (p : Str) : s'.absnorm p = s.absnorm p := by unfold FS.absnorm; rw [a.cfg, a.cwd]

theorem Agree.scan : ∀ (l : List Str) (r : Ref) (acc : List Str), P r → s'.scan r acc l = s.scan r acc l := by
  intro l
  induction l with
  | nil => intro r acc _; rfl
  | cons c l ih =>
    intro r acc hr
    simp only [FS.scan, a.dirContent hr]
    cases h : s.dirContent r c with
    | none => rfl
    | some e =>
      have hp := hc.dirContent hr (nm := e.1) (x := e.2) (by rw [h])
      simp only [a.isLnk hp, ih _ _ hp]

omit a in
theorem Closed.scan_link : ∀ (l : List Str) (r : Ref) (acc res rest : List Str) (t : Ref), P r →
    s.scan r acc l = .link res t rest → P t ∧ (s.heap t).isLnk = true := by
  intro l
  induction l with
  | nil => intro r acc res rest t _ h; simp [FS.scan] at h
  | cons c l ih =>
    intro r acc res rest t hr h
    simp only [FS.scan] at h
    split at h
    · simp at h
    · rename_i nm x hx
      have hp := hc.dirContent hr hx
      split at h
      · rename_i hl
        injection h with _ h2 _; subst h2; exact ⟨hp, hl⟩
      · exact ih _ _ _ _ _ hp h

theorem Agree.followLink {t : Ref} (ht : P t) (hl : (s.heap t).isLnk = true) (res : List Str) :
    s'.followLink res t = s.followLink res t := by
  unfold FS.followLink
  rw [a.target t ht hl, a.cfg]

theorem Agree.resolveComps : ∀ (n : Nat) (l : List Str), s'.resolveComps n l = s.resolveComps n l := by
  intro n
  induction n with
  | zero =>
    intro l
    rw [FS.resolveComps, FS.resolveComps, a.scan hc l _ _ hc.root]
  | succ n ih =>
    intro l
    rw [FS.resolveComps, FS.resolveComps, a.scan hc l _ _ hc.root]
    cases h : s.scan rootRef [] l with
    | done r => rfl
    | link res t rest =>
      obtain ⟨h1, h2⟩ := hc.scan_link _ _ _ _ _ _ hc.root h
      simp only [a.followLink hc h1 h2, a.cfg, ih]

section
variable {k k' : FS.Rec} (hex : ∀ p, k'.ex p = k.ex p) (hres : ∀ p, k'.res p = k.res p)
include hex

theorem Agree.validLoop : ∀ (n : Nat) (p : Str), s'.validLoop k' n p = s.validLoop k n p := by
  intro n
  induction n with
  | zero => intro p; rfl
  | succ n ih =>
    intro p
    simp only [FS.validLoop, a.cfg, a.absnorm, hex, ih]

theorem Agree.resolvePathG (p : Str) : s'.resolvePathG k' p = s.resolvePathG k p := by
  unfold FS.resolvePathG FS.validRelG
  simp only [a.validLoop hc hex, a.cfg, a.absnorm, a.originalPath hc, a.devName, a.resolveComps hc]

include hres

theorem Agree.objLoop (hk : ∀ p r, k.res p = .ok r → P r) (check : Bool) : ∀ (l : List Str) (r : Ref), P r →
    s'.objLoop k' check r l = s.objLoop k check r l := by
  intro l
  induction l with
  | nil => intro r _; rfl
  | cons c l ih =>
    intro r hr
    have hd : s'.deref k' r = s.deref k r := by
      unfold FS.deref
      rw [a.isLnk hr]
      split
      · rename_i hl; rw [a.target r hr hl, hres]
      · rfl
    have hdp : ∀ x, s.deref k r = .ok x → P x := by
      intro x hx
      unfold FS.deref at hx
      split at hx
      · exact hk _ _ hx
      · injection hx with hx; exact hx ▸ hr
    simp only [FS.objLoop, hd]
    cases hx : s.deref k r with
    | error e => rfl
    | ok x =>
      have hpx := hdp x hx
      simp only [bind, Except.bind, a.isDirMode hpx, a.cfg]
      split
      · rfl
      · rcases content_cases (s.heap x) with ⟨h1, b, h2⟩ | ⟨h1, h2⟩
        · rcases content_cases (s'.heap x) with ⟨h3, b', h4⟩ | ⟨h3, h4⟩
          · rw [h2, h4]
          · rw [a.kind x hpx, h1] at h3; simp at h3
        · rcases content_cases (s'.heap x) with ⟨h3, b', h4⟩ | ⟨h3, h4⟩
          · rw [a.kind x hpx, h1] at h3; simp at h3
          · rw [h2, h4, a.entries x hpx]
            have hge : s'.getEntry (s.heap x).entries c = s.getEntry (s.heap x).entries c := by
              unfold FS.getEntry FS.normEntry; rw [a.cfg]
            simp only [hge]
            cases hg : s.getEntry (s.heap x).entries c with
            | error e => rfl
            | ok y =>
              have hpy := hc.ent x hpx _ (getEntry_mem hg)
              simp only [a.mode y hpy, a.isRoot, ih y hpy]

theorem Agree.getObjNormG (hk : ∀ p r, k.res p = .ok r → P r) (p : Str) (check : Bool) :
    s'.getObjNormG k' p check = s.getObjNormG k p check := by
  unfold FS.getObjNormG
  rw [a.cfg, a.devName, a.originalPath hc, a.objLoop hc hex hres hk _ _ _ hc.root]

theorem Agree.resolveG (hk : ∀ p r, k.res p = .ok r → P r) (p : Str) (check : Bool) :
    s'.resolveG k' p check = s.resolveG k p check := by
  unfold FS.resolveG
  rw [a.resolvePathG hc hex]
  simp only [a.getObjNormG hc hex hres hk]

theorem Agree.lresolveG (hk : ∀ p r, k.res p = .ok r → P r) (p : Str) : s'.lresolveG k' p = s.lresolveG k p := by
  have hlp : s'.lparent p = s.lparent p := by
    unfold FS.lparent; simp only [a.cfg, a.cwd, a.originalPath hc]
  unfold FS.lresolveG
  rw [a.cfg, hlp, a.resolveG hc hex hres hk]
  cases hr : s.resolveG k (s.lparent p).1 true with
  | error e => simp [bind, Except.bind]
  | ok x =>
    have hpx := hc.resolveG hk hr
    have : s'.lentry x (s.lparent p).2 = s.lentry x (s.lparent p).2 := by
      unfold FS.lentry
      rw [a.cfg, a.mode x hpx]
      rcases content_cases (s.heap x) with ⟨h1, b, h2⟩ | ⟨h1, h2⟩
      · rcases content_cases (s'.heap x) with ⟨h3, b', h4⟩ | ⟨h3, h4⟩
        · rw [h2, h4]
        · rw [a.kind x hpx, h1] at h3; simp at h3
      · rcases content_cases (s'.heap x) with ⟨h3, b', h4⟩ | ⟨h3, h4⟩
        · rw [a.kind x hpx, h1] at h3; simp at h3
        · rw [h2, h4, a.entries x hpx]
          have hge : s'.getEntry (s.heap x).entries (s.lparent p).2 = s.getEntry (s.heap x).entries (s.lparent p).2 := by
            unfold FS.getEntry FS.normEntry; rw [a.cfg]
          simp only [hge]
    simp only [bind, Except.bind, this]

theorem Agree.resolveFG (hk : ∀ p r, k.res p = .ok r → P r) (p : Str) (f check : Bool) :
    s'.resolveFG k' p f check = s.resolveFG k p f check := by
  unfold FS.resolveFG; rw [a.resolveG hc hex hres hk, a.lresolveG hc hex hres hk]

theorem Agree.raiseForSepG (hk : ∀ p r, k.res p = .ok r → P r) (p : Str) {r : Ref} (hr : P r) (f m : Bool) :
    s'.raiseForSepG k' p r f m = s.raiseForSepG k p r f m := by
  unfold FS.raiseForSepG
  rw [a.cfg, a.isLnk hr, a.resolveG hc hex hres hk]
  cases hx : s.resolveG k p true with
  | error e => simp only [a.isRegMode hr, a.isLnk hr, a.isDirMode hr]
  | ok x =>
    have hpx := hc.resolveG hk hx
    have hl : P (if (!f || s.cfg.isWin || s.cfg.isMac) = true then x else r) := by split <;> assumption
    simp only [a.isRegMode hr, a.isLnk hr, a.isDirMode hr, a.isRegMode hl, a.isLnk hl, a.isDirMode hl]

theorem Agree.isOfTypeG (hk : ∀ p r, k.res p = .ok r → P r) (p : Str) (flag : Nat) (f : Bool) :
    s'.isOfTypeG k' p flag f = s.isOfTypeG k p flag f := by
  unfold FS.isOfTypeG
  rw [a.resolveFG hc hex hres hk]
  cases hx : s.resolveFG k p f true with
  | error e => simp [bind, Except.bind]
  | ok x =>
    have hpx : P x := by
      unfold FS.resolveFG at hx
      split at hx
      · exact hc.resolveG hk hx
      · exact hc.lresolveG hk hx
    simp only [bind, Except.bind, a.raiseForSepG hc hex hres hk p hpx, pure, Except.pure]
    cases s.raiseForSepG k p x true (!f) with
    | error e => rfl
    | ok _ => simp only [a.mode x hpx]

omit hex hres in
theorem Agree.existsLoop : ∀ (l : List Str) (r : Ref), P r → s'.existsLoop r l = s.existsLoop r l := by
  intro l
  induction l with
  | nil => intro r _; rfl
  | cons c l ih =>
    intro r hr
    simp only [FS.existsLoop, a.dirContent hr]
    cases h : s.dirContent r c with
    | none => rfl
    | some e => simp only [ih _ (hc.dirContent hr (nm := e.1) (x := e.2) (by rw [h]))]

theorem Agree.existsG (hk : ∀ p r, k.res p = .ok r → P r) (p : Str) : s'.existsG k' p = s.existsG k p := by
  unfold FS.existsG FS.isFileSepG FS.isFileG
  simp only [a.cfg, a.devName, a.isOfTypeG hc hex hres hk, a.resolvePathG hc hex, a.existsLoop hc _ _ hc.root]

end

theorem Agree.recN : ∀ n p, (s'.recN n).ex p = (s.recN n).ex p ∧ (s'.recN n).res p = (s.recN n).res p := by
  intro n
  induction n with
  | zero => intro p; exact ⟨rfl, rfl⟩
  | succ n ih =>
    intro p
    exact ⟨a.existsG hc (fun p => (ih p).1) (fun p => (ih p).2) (hc.recN n) p,
      a.resolveG hc (fun p => (ih p).1) (fun p => (ih p).2) (hc.recN n) p true⟩

theorem Agree.rcEx (p : Str) : s'.rc.ex p = s.rc.ex p := by unfold FS.rc; rw [a.limit]; exact (a.recN hc _ p).1
theorem Agree.rcRes (p : Str) : s'.rc.res p = s.rc.res p := by unfold FS.rc; rw [a.limit]; exact (a.recN hc _ p).2

theorem Agree.resolvePath (p : Str) : s'.resolvePath p = s.resolvePath p := a.resolvePathG hc (a.rcEx hc) p
theorem Agree.resolve (p : Str) (f c : Bool) : s'.resolve p f c = s.resolve p f c :=
  a.resolveFG hc (a.rcEx hc) (a.rcRes hc) (hc.recN _) p f c
theorem Agree.lresolve (p : Str) : s'.lresolve p = s.lresolve p :=
  a.lresolveG hc (a.rcEx hc) (a.rcRes hc) (hc.recN _) p
theorem Agree.exists_ (p : Str) : s'.exists_ p = s.exists_ p :=
  a.existsG hc (a.rcEx hc) (a.rcRes hc) (hc.recN _) p
theorem Agree.isLink (p : Str) : s'.isLink p = s.isLink p :=
  a.isOfTypeG hc (a.rcEx hc) (a.rcRes hc) (hc.recN _) p _ _
theorem Agree.isFile (p : Str) : s'.isFile p = s.isFile p :=
  a.isOfTypeG hc (a.rcEx hc) (a.rcRes hc) (hc.recN _) p _ _
theorem Agree.isDir (p : Str) (f : Bool) : s'.isDir p f = s.isDir p f :=
  a.isOfTypeG hc (a.rcEx hc) (a.rcRes hc) (hc.recN _) p _ _
theorem Agree.existsL (p : Str) : s'.existsL p = s.existsL p := by
  have h1 := a.isLink hc p
  have h2 := a.exists_ hc p
  unfold FS.isLink at h1
  unfold FS.exists_ at h2
  unfold FS.existsL FS.existsLG
  rw [h1, h2]
theorem Agree.getObject (p : Str) (c : Bool) : s'.getObject p c = s.getObject p c := by
  unfold FS.getObject
  rw [a.absnorm, a.originalPath hc]
  exact a.getObjNormG hc (a.rcEx hc) (a.rcRes hc) (hc.recN _) _ c

end
end Verif
