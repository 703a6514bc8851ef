import Verif.OsPath
import Verif.Props.Create
import Verif.Props.MountTable
import Verif.DemoFacts
import Verif.Joined
import Verif.Props.Descr
/-!
# C54: the questions of `os.path` agree with `stat`;  C55: paths relative to a directory descriptor
-/

namespace Verif
open Py Spec Cfg

theorem objLoop_check {s : FS} (hi : Inv s) (hrd : Readable s) {k : FS.Rec} (hk : ∀ p r, k.res p = .ok r → r < s.next) :
    ∀ (cs : List Str) (r : Ref), r < s.next → s.objLoop k true r cs = s.objLoop k false r cs := by
  intro cs
  induction cs with
  | nil => intro r _; rfl
  | cons c cs ih =>
    intro r hr
    unfold FS.objLoop
    cases hd : s.deref k r with
    | error e => rfl
    | ok r1 =>
      have hr1 : r1 < s.next := by
        unfold FS.deref at hd
        split at hd
        · exact hk _ _ hd
        · injection hd with hd; rw [← hd]; exact hr
      show (if (!(s.heap r1).isDirMode) = true then _ else _) = (if (!(s.heap r1).isDirMode) = true then _ else _)
      split
      · rfl
      · cases hc : (s.heap r1).content with
        | file _ => rfl
        | dir es =>
          dsimp only
          cases hg : s.getEntry es c with
          | error e => rfl
          | ok r2 =>
            dsimp only
            have hr2 : r2 < s.next := hi.g.entLt r1 hr1 _ (by rw [mem_entries hc]; exact getEntry_mem hg)
            rw [if_neg (by
              rcases hrd with h | h
              · simp [h]
              · simp [h r2 hr2]), if_neg (by simp)]
            exact ih r2 hr2

/-- Whoever may read everything is not stopped by the permission check. -/
theorem resolve_unchecked {s : FS} (hi : Inv s) (hrd : Readable s) (p : Str) (f : Bool) : s.resolve p f true = s.resolve p f false := by
  unfold FS.resolve FS.resolveFG
  cases f with
  | false => rfl
  | true =>
    simp only [if_true]
    unfold FS.resolveG
    cases s.resolvePathG s.rc p with
    | error e => rfl
    | ok q =>
      show s.getObjNormG s.rc q true = s.getObjNormG s.rc q false
      unfold FS.getObjNormG
      split
      · rfl
      split
      · rfl
      · exact objLoop_check hi hrd ((Closed.lt hi).recN _) _ _ (root_lt hi)

/-- `stat` without the check of the parent directory -/
def statBase (s : FS) (p : Str) (f : Bool) : Except Err Stat := do
  let r ← s.resolve p f false
  s.raiseForSep p r f false
  pure (s.statOf r)

theorem stat_base {s : FS} {p : Str} {f : Bool} {a : Stat} (h : s.stat p f = .ok a) : statBase s p f = .ok a := by
  unfold FS.stat at h
  unfold statBase
  obtain ⟨r, h1, h⟩ := except_bind_ok h
  rw [h1]
  show (s.raiseForSep p r f false >>= fun _ => pure (s.statOf r)) = _
  revert h
  show (if (!s.isRoot) = true then _ else _) = _ → _
  split
  · split
    · exact id
    · intro h
      obtain ⟨_, _, h⟩ := except_bind_ok h
      exact h
  · exact id

theorem stat_root {s : FS} (hr : s.isRoot = true) (p : Str) (f : Bool) : s.stat p f = statBase s p f := by
  unfold FS.stat statBase
  simp only [hr, Bool.not_true, Bool.false_eq_true, if_false]

/-- the answer of `isfile`, `isdir` and so on for an outcome of `stat` -/
def Spec.ofType (flag : Nat) : Except Err Stat → Except Err Bool
  | .ok a => .ok (ifmt a.mode == flag)
  | .error e => if e.isOS then .ok false else .error e

theorem isOfType_base {s : FS} (hi : Inv s) (hrd : Readable s) (p : Str) (flag : Nat) :
    s.isOfTypeG s.rc p flag true = ofType flag (statBase s p true) := by
  unfold FS.isOfTypeG statBase
  have := resolve_unchecked hi hrd p true
  unfold FS.resolve at this
  rw [this]
  show _ = ofType flag (s.resolveFG s.rc p true false >>= _)
  cases s.resolveFG s.rc p true false with
  | error e => rfl
  | ok r =>
    show (match (s.raiseForSepG s.rc p r true false >>= fun _ => pure r : Except Err Ref) with | .ok r => _ | .error e => _) =
      ofType flag (s.raiseForSepG s.rc p r true false >>= fun _ => pure (s.statOf r))
    cases s.raiseForSepG s.rc p r true false with
    | error e => rfl
    | ok _ => rfl

theorem noSep_raise {s : FS} {p : Str} (h : s.cfg.endsWithSep p = false) (r : Ref) (f m : Bool) : s.raiseForSep p r f m = .ok () := by
  unfold FS.raiseForSep FS.raiseForSepG
  rw [if_neg (by rw [h]; simp)]

/-- C54: whenever `stat` succeeds, `isfile`, `isdir`, `getsize` (for paths not ending with a separator), `getmtime`, `getatime` and `getctime` report what it
reports - for root, and for everyone if everything may be read. -/
theorem queries_stat {s : FS} (hs : Reachable s) (hrd : Readable s) {p : Str} {a : Stat} (h : s.stat p = .ok a) :
    s.isFile p = .ok (ifmt a.mode == S_IFREG) ∧ s.isDir p = .ok (ifmt a.mode == S_IFDIR) ∧
    (s.cfg.endsWithSep p = false → s.getsize p = .ok a.size) ∧ s.getmtime p = .ok a.mtime ∧ s.getatime p = .ok a.atime ∧ s.getctime p = .ok a.ctime := by
  have hi := reachable_inv hs
  have hb := stat_base h
  obtain ⟨r, h1, rfl⟩ := stat_ok h
  have h2 : s.resolve p = .ok r := (resolve_unchecked hi hrd p true).trans h1
  have ht : s.timesOf p = .ok r := by unfold FS.timesOf; rw [h2]
  refine ⟨?_, ?_, fun hsep => ?_, ?_, ?_, ?_⟩
  · unfold FS.isFile FS.isFileG; rw [isOfType_base hi hrd, hb]; rfl
  · unfold FS.isDir FS.isDirG; rw [isOfType_base hi hrd, hb]; rfl
  · unfold FS.getsize; rw [h2, hsep]; rfl
  · unfold FS.getmtime; rw [ht]; rfl
  · unfold FS.getatime; rw [ht]; rfl
  · unfold FS.getctime; rw [ht]; rfl

/-- C54: for root, whenever `stat` fails with an OSError, `isfile` and `isdir` are false, and (for paths not ending with a separator) `getsize` raises the same
error and `getmtime`, `getatime`, `getctime` raise ENOENT. -/
theorem queries_fail {s : FS} (hs : Reachable s) (hr : s.isRoot = true) {p : Str} {e : Errno} (h : s.stat p = .error (.os e)) :
    s.isFile p = .ok false ∧ s.isDir p = .ok false ∧ (s.cfg.endsWithSep p = false →
      s.getsize p = .error (.os e) ∧ s.getmtime p = .error (.os .ENOENT) ∧ s.getatime p = .error (.os .ENOENT) ∧ s.getctime p = .error (.os .ENOENT)) := by
  have hi := reachable_inv hs
  have hrd : Readable s := Or.inl hr
  rw [stat_root hr] at h
  refine ⟨?_, ?_, fun hsep => ?_⟩
  · unfold FS.isFile FS.isFileG; rw [isOfType_base hi hrd, h]; rfl
  · unfold FS.isDir FS.isDirG; rw [isOfType_base hi hrd, h]; rfl
  · have h2 : s.resolve p = .error (.os e) := by
      rw [resolve_unchecked hi hrd p true]
      unfold statBase at h
      cases hx : s.resolve p true false with
      | error e' =>
        rw [hx] at h
        have h' : (Except.error e' : Except Err Stat) = .error (.os e) := h
        injection h' with h'
        rw [h']
      | ok r =>
        rw [hx] at h
        change (s.raiseForSep p r true false >>= _) = _ at h
        rw [noSep_raise hsep] at h
        cases h
    have ht : s.timesOf p = .error (.os .ENOENT) := by unfold FS.timesOf; rw [h2]; rfl
    refine ⟨?_, ?_, ?_, ?_⟩
    · unfold FS.getsize; rw [h2]; rfl
    · unfold FS.getmtime; rw [ht]; rfl
    · unfold FS.getatime; rw [ht]; rfl
    · unfold FS.getctime; rw [ht]; rfl

/-- C54: for root, `islink(p)` is true exactly if `lstat(p)` reports a symlink (paths not ending with a separator). -/
theorem islink_lstat {s : FS} (hr : s.isRoot = true) {p : Str} (hsep : s.cfg.endsWithSep p = false) :
    s.isLink p = ofType S_IFLNK (s.stat p false) := by
  rw [stat_root hr]
  unfold FS.isLink FS.isLinkG FS.isOfTypeG statBase
  show _ = ofType S_IFLNK (s.resolveFG s.rc p false false >>= _)
  have e : s.resolveFG s.rc p false true = s.resolveFG s.rc p false false := rfl
  rw [e]
  cases s.resolveFG s.rc p false false with
  | error e => rfl
  | ok r =>
    have h1 := noSep_raise hsep r true (!false)
    have h2 := noSep_raise hsep r false false
    unfold FS.raiseForSep at h1
    show (match (s.raiseForSepG s.rc p r true (!false) >>= fun _ => pure r : Except Err Ref) with | .ok r => _ | .error e => _) =
      ofType S_IFLNK (s.raiseForSep p r false false >>= fun _ => pure (s.statOf r))
    rw [h1, h2]
    rfl

/-- C54: `readlink(p)` succeeds exactly if `islink(p)` is true; if `p` leads to something else, it raises `EINVAL`; and if the
lookup of `p` fails, it raises the error of `lstat` (paths not ending with a separator, every state and configuration). -/
theorem readlink_islink {s : FS} {p : Str} (hsep : s.cfg.endsWithSep p = false) :
    ((∃ t, s.readlink p = .ok t) ↔ s.isLink p = .ok true) ∧
    (∀ r, s.resolve p false = .ok r → (s.heap r).mode &&& S_IFMT ≠ S_IFLNK → s.readlink p = .error (.os .EINVAL)) ∧
    (∀ r, s.resolve p false = .ok r → (s.heap r).mode &&& S_IFMT = S_IFLNK → s.readlink p = .ok (s.linkTarget (s.heap r))) ∧
    (∀ e, s.resolve p false = .error e → s.readlink p = .error e) := by
  have hl : s.resolve p false = s.lresolve p := rfl
  have hi : s.isLink p = match s.lresolve p with
      | .ok r => .ok (ifmt (s.heap r).mode == S_IFLNK)
      | .error e => if e.isOS then .ok false else .error e := by
    unfold FS.isLink FS.isLinkG FS.isOfTypeG
    have e : s.resolveFG s.rc p false true = s.lresolve p := rfl
    rw [e]
    cases s.lresolve p with
    | error e => rfl
    | ok r =>
      have h1 := noSep_raise hsep r true (!false)
      unfold FS.raiseForSep at h1
      show (match (s.raiseForSepG s.rc p r true (!false) >>= fun _ => pure r : Except Err Ref) with | .ok r => _ | .error e => _) = _
      rw [h1]
      rfl
  rw [hl, hi]
  have hs : ¬ (s.cfg.endsWithSep p = true) := by rw [hsep]; simp
  unfold FS.readlink
  cases hx : s.lresolve p with
  | error e =>
    refine ⟨⟨fun ⟨t, ht⟩ => (nomatch ht), fun h => ?_⟩, fun r h => (nomatch h), fun r h => (nomatch h), fun e' h => ?_⟩
    · dsimp only at h
      by_cases ho : e.isOS = true
      · rw [if_pos ho] at h; simp at h
      · rw [if_neg ho] at h; cases h
    · injection h with h; rw [h]; rfl
  | ok r =>
    by_cases hm : ifmt (s.heap r).mode = S_IFLNK
    · have e : (Except.ok r >>= fun r => if ifmt (s.heap r).mode ≠ S_IFLNK then Except.error (Err.os .EINVAL)
          else if s.cfg.endsWithSep p = true then (do
            let ex ← if s.cfg.isWin = true then Except.ok false else s.exists_ p
            if ex = true then Except.error (Err.os .EINVAL)
            else if (!(← s.exists_ (s.objPath r))) = true then
              if s.cfg.isWin = true then Except.error (Err.os .EINVAL)
              else if (← s.isCircular r) = true then
                if s.cfg.isMac = true then Except.ok (s.objPath r) else Except.error (Err.os .ELOOP)
              else Except.error (Err.os .ENOENT)
            else Except.ok (s.linkTarget (s.heap r)))
          else Except.ok (s.linkTarget (s.heap r))) = Except.ok (s.linkTarget (s.heap r)) := by
        show (if ifmt (s.heap r).mode ≠ S_IFLNK then _ else _) = _
        rw [if_neg (by simpa using hm), if_neg hs]
      refine ⟨⟨fun _ => by dsimp only; rw [hm]; rfl, fun _ => ⟨_, e⟩⟩, fun r' h hn => ?_, fun r' h _ => ?_, fun e' h => (nomatch h)⟩
      · injection h with h; subst h; exact absurd hm hn
      · injection h with h; subst h; exact e
    · have e : ∀ (f : Except Err Str), (Except.ok r >>= fun r => if ifmt (s.heap r).mode ≠ S_IFLNK then Except.error (Err.os .EINVAL) else f) =
          Except.error (Err.os .EINVAL) := by
        intro f
        show (if ifmt (s.heap r).mode ≠ S_IFLNK then _ else _) = _
        rw [if_pos hm]
      refine ⟨⟨fun ⟨t, ht⟩ => ?_, fun h => ?_⟩, fun r' h hn => ?_, fun r' h hn => ?_, fun e' h => (nomatch h)⟩
      · exfalso
        change (if ifmt (s.heap r).mode ≠ S_IFLNK then _ else _) = _ at ht
        rw [if_pos hm] at ht; cases ht
      · simp [hm] at h
      · show (if ifmt (s.heap r).mode ≠ S_IFLNK then _ else _) = _
        rw [if_pos hm]
      · injection h with h; subst h; exact absurd hn hm

/-- all three cases in the example: the link `/l`, the file `/a/f` and the missing `/x` -/
example : demo.readlink ['/', 'l'] = .ok ['a', '/', 'f'] ∧ demo.readlink ['/', 'a', '/', 'f'] = .error (.os .EINVAL) ∧
    demo.readlink ['/', 'x'] = .error (.os .ENOENT) := by
  refine ⟨?_, ?_, ?_⟩ <;> decide +kernel

/-- C54: on a case-sensitive POSIX filesystem, for root, `exists(p)` is true exactly if `stat(p)` succeeds (paths not ending with a separator and not leading to
the null device). -/
theorem exists_stat {s : FS} (hs : Reachable s) (ht : s.cfg.Tree) (hg : Genuine s) (hr : s.isRoot = true) {p : Str}
    (hsep : s.cfg.endsWithSep p = false) (hd : s.resolvePath p ≠ .ok s.devName) (hp : p ≠ s.devName) :
    s.exists_ p = .ok true ↔ ∃ a, s.stat p = .ok a := by
  have hi := reachable_inv hs
  have hc : isAbs s.cfg.sep s.cwd := (hi.n.cwd ht.posix)
  have hst : (∃ a, s.stat p = .ok a) ↔ ∃ r, s.resolve p true false = .ok r := by
    constructor
    · rintro ⟨a, h⟩; obtain ⟨r, h1, _⟩ := stat_ok h; exact ⟨r, h1⟩
    · rintro ⟨r, h⟩
      refine ⟨s.statOf r, ?_⟩
      rw [stat_root hr]; unfold statBase; rw [h]
      show (s.raiseForSep p r true false >>= _) = _
      rw [noSep_raise hsep]; rfl
  rw [hst]
  have h1 := existsG_true hi ht s.rc hsep
  have h2 := fun x => resolveG_ok hi ht s.rc (p := p) (check := false) (x := x)
  have hdd : ∀ cs, p ≠ [] → s.validRelG s.rc p = .ok true → s.absnorm p ≠ s.cfg.root → s.absnorm p ≠ s.devName →
      s.resolveComps FS.maxLinks (s.cfg.pathComponents (s.absnorm p)) = .ok cs → absPath s.cfg.sep cs ≠ s.devName := by
    intro cs a1 a2 a3 a4 a5 e
    apply hd
    have hcan : Canon s.cfg.sep (s.absnorm p) := Or.inl (absnormpath_canonical ht.posix hc p)
    obtain ⟨h7, h8⟩ := resolveComps_ok ht.cs ht.posix _ _ _ (canon_components ht.posix hcan) a5
    unfold FS.resolvePath
    exact (resolvePathG_ok ht hc s.rc).mpr ⟨a1, a2, Or.inr (Or.inr ⟨a3, a4, cs, a5, h7, h8, e.symm⟩)⟩
  constructor
  · intro h
    obtain ⟨k1, k2⟩ := h1.mp h
    rcases k2 with k2 | ⟨k2, k3⟩
    · exact absurd k2 hp
    · rcases k3 with k3 | ⟨k3, k4, _⟩ | ⟨k3, k4, cs, k5, k6⟩
      · exact ⟨rootRef, (h2 _).mpr ⟨k1, k2, Or.inl ⟨k3, rfl⟩⟩⟩
      · exact ⟨devNullRef, (h2 _).mpr ⟨k1, k2, Or.inr (Or.inl ⟨k3, k4, rfl⟩)⟩⟩
      · obtain ⟨x, hx⟩ := Option.isSome_iff_exists.mp k6
        refine ⟨x, (h2 _).mpr ⟨k1, k2, Or.inr (Or.inr ⟨k3, k4, cs, k5, ?_⟩)⟩⟩
        exact Or.inr ⟨Or.inr (hdd cs k1 k2 k3 k4 k5), hx, through_genuine hi hg (root_lt hi) hx, fun y _ => Or.inl hr⟩
  · rintro ⟨r, h⟩
    obtain ⟨k1, k2, k3⟩ := (h2 _).mp h
    refine h1.mpr ⟨k1, Or.inr ⟨k2, ?_⟩⟩
    rcases k3 with ⟨k3, _⟩ | ⟨k3, k4, _⟩ | ⟨k3, k4, cs, k5, k6⟩
    · exact Or.inl k3
    · exfalso
      apply hd
      unfold FS.resolvePath
      exact (resolvePathG_ok ht hc s.rc).mpr ⟨k1, k2, Or.inr (Or.inl ⟨k3, k4, rfl⟩)⟩
    · refine Or.inr (Or.inr ⟨k3, k4, cs, k5, ?_⟩)
      rcases k6 with ⟨_, k6, _⟩ | ⟨_, k6, _⟩
      · exact absurd k6 (hdd cs k1 k2 k3 k4 k5)
      · rw [k6]; rfl

/-! ## Mount points -/

theorem rstrip_abs {k : Cfg} (hp : k.Posix) {names : List Str} (hn : ∀ w ∈ names, Proper k.sep w) :
    rstripC k.sep (absPath k.sep names) = if names = [] then [] else absPath k.sep names := by
  rcases absCanon_cases (c := k.sep) (p := absPath k.sep names) ⟨names, hn, rfl⟩ with e | ⟨l, w, hl, hw, e⟩
  · have : names = [] := (absPath_eq_root fun w hw => proper_compOk (hn w hw)).mp (e.trans (absPath_nil k))
    subst this
    rw [absPath_nil]; simp [rstripC, Cfg.root]
  · have hne : names ≠ [] := by
      rintro rfl
      rw [absPath_nil] at e
      have := (absPath_eq_root (k := k) (l := l ++ [w]) (fun v hv => proper_compOk (by
        rcases List.mem_append.mp hv with h | h
        · exact hl v h
        · rw [List.mem_singleton.mp h]; exact hw))).mp e.symm
      simp at this
    rw [if_neg hne, e]
    unfold rstripC absPath
    obtain ⟨x, xs, rfl⟩ := List.exists_cons_of_ne_nil hw.1
    have : ∃ a, k.sep :: join k.sep (l ++ [x :: xs]) = a ++ x :: xs := by
      by_cases hne : l = []
      · exact ⟨[k.sep], by simp [hne, join]⟩
      · exact ⟨k.sep :: (join k.sep l ++ [k.sep]), by rw [join_append _ hne (by simp)]; simp [join]⟩
    obtain ⟨a, ha⟩ := this
    rw [ha]
    rcases List.eq_nil_or_concat (x :: xs) with h | ⟨ys, y, h⟩
    · cases h
    · have hy : y ≠ k.sep := by rintro rfl; exact hw.2.2.2 (by rw [h]; simp)
      rw [h]
      simp [List.dropWhile, hy]

/-- C54: on a POSIX filesystem `ismount(p)` is true exactly if the absolute normalized path of `p` is that of a mount point (and `p` is not empty). -/
theorem ismount_iff {s : FS} (hs : Reachable s) (hp : s.cfg.Posix) (p : Str) :
    s.ismount p = true ↔ p ≠ [] ∧ ∃ m ∈ s.mounts, m.path = s.absnorm p := by
  have hcan := mounts_canon hs hp
  obtain ⟨l, hl, el⟩ := absnormpath_canonical hp ((reachable_inv hs).n.cwd hp) p
  have el : s.absnorm p = absPath s.cfg.sep l := el
  unfold FS.ismount
  by_cases h : p = []
  · rw [if_pos h]; simp [h]
  rw [if_neg h]
  simp only [hp.win, Bool.false_eq_true, if_false]
  have key : ∀ m ∈ s.mounts, (rstripC s.cfg.sep (s.absnorm p) = rstripC s.cfg.sep m.path ↔ m.path = s.absnorm p) := by
    intro m hm
    obtain ⟨l', hl', e'⟩ := hcan m hm
    have hroot : ∀ {l : List Str}, (∀ w ∈ l, Proper s.cfg.sep w) → l ≠ [] → absPath s.cfg.sep l ≠ [s.cfg.sep] := fun hl h e =>
      h ((absPath_eq_root fun w hw => proper_compOk (hl w hw)).mp e)
    have hnil : absPath s.cfg.sep [] = [s.cfg.sep] := absPath_nil s.cfg
    have hne : ∀ l, ([] : Str) ≠ absPath s.cfg.sep l := fun l e => by cases e
    rw [e', el, rstrip_abs hp hl, rstrip_abs hp hl']
    by_cases a : l = [] <;> by_cases b : l' = []
    · simp only [a, b]
    · rw [if_pos a, if_neg b, a, hnil]
      exact ⟨fun h => absurd h (hne _), fun h => absurd h (hroot hl' b)⟩
    · rw [if_neg a, if_pos b, b, hnil]
      exact ⟨fun h => absurd h.symm (hne _), fun h => absurd h.symm (hroot hl a)⟩
    · rw [if_neg a, if_neg b]; exact eq_comm
  rw [List.any_eq_true]
  constructor
  · rintro ⟨m, hm, e⟩; exact ⟨h, m, hm, (key m hm).mp (by simpa using e)⟩
  · rintro ⟨_, m, hm, e⟩; exact ⟨m, hm, by simpa using (key m hm).mpr e⟩

/-! ## C55: `dir_fd` -/

/-- C55: without a descriptor, and for an absolute path, `dir_fd` makes no difference. -/
theorem dirFd_ignored (s : FS) (p : Str) : s.pathWithDirFd p none = .ok p ∧ ∀ fd, s.cfg.isabs p = true → s.pathWithDirFd p (some fd) = .ok p := by
  refine ⟨rfl, fun fd h => ?_⟩
  unfold FS.pathWithDirFd
  simp only [h, if_true]

/-- C55: a descriptor that is not open is refused with EBADF. -/
theorem dirFd_closed {s : FS} {p : Str} {fd : Int} (h : s.cfg.isabs p = false) (ho : s.getOpen fd = .error (.os .EBADF)) :
    s.pathWithDirFd p (some fd) = .error (.os .EBADF) := by
  unfold FS.pathWithDirFd
  simp only [h, Bool.false_eq_true, if_false, ho]
  rfl

/-- C55: a relative path given with the descriptor of an open directory names the location one reaches from where that directory is now. -/
theorem dirFd_meaning {s : FS} (hs : Reachable s) (ht : s.cfg.Tree) (hmac : s.cfg.isMac = false) {p : Str} (hp : s.cfg.isabs p = false)
    {fd : Int} {h : Nat} (ho : s.getOpen fd = .ok h) (hk : (s.handles h).kind ≠ .std) {l : List Str}
    (hw : walk s.heap rootRef l = some (s.handles h).obj) (hd : (s.heap (s.handles h).obj).isDir = true) (hdr : ∀ w ∈ l.head?, ¬ DriveLike w) :
    ∃ q, s.pathWithDirFd p (some fd) = .ok q ∧ s.absnorm q = absPath s.cfg.sep (loc s.cfg.sep l.reverse p).reverse := by
  have ho' := objPath_names hs ht hmac hw hd hdr
  refine ⟨s.cfg.joinpaths [absPath s.cfg.sep l, p], ?_, ?_⟩
  · unfold FS.pathWithDirFd
    simp only [hp, Bool.false_eq_true, if_false, ho]
    show (if (s.handles h).kind = .std then _ else _) = _
    rw [if_neg hk, ho']
  · have hc := (reachable_inv hs).n.cwd ht.posix
    obtain ⟨names, hn, e⟩ := absnormpath_canonical ht.posix hc (s.cfg.joinpaths [absPath s.cfg.sep l, p])
    have e : s.absnorm (s.cfg.joinpaths [absPath s.cfg.sep l, p]) = absPath s.cfg.sep names := e
    have hm := absnormpath_meaning ht.posix hc [] (s.cfg.joinpaths [absPath s.cfg.sep l, p])
    have hlp : ∀ w ∈ l, Proper s.cfg.sep w := walk_proper (reachable_inv hs) ht.posix hmac (root_lt (reachable_inv hs)) hw
    rw [show s.cfg.absnormpath s.cwd (s.cfg.joinpaths [absPath s.cfg.sep l, p]) = absPath s.cfg.sep names from e, loc_absPath hn,
      if_neg (by
        intro h0
        rw [join_two ht.posix] at h0
        split at h0
        · rename_i ha; obtain ⟨q, rfl⟩ := ha; cases h0
        · split at h0 <;> simp [absPath] at h0),
      join_meaning ht.posix, List.foldl_cons, List.foldl_cons, List.foldl_nil, loc_absPath hlp] at hm
    rw [e, ← hm, List.reverse_reverse]

/-- C55: what a call with `dir_fd` does is what the call does for the absolute path of the location. -/
theorem dirFd_calls {s : FS} {p q : Str} {fd : Int} (h : s.pathWithDirFd p (some fd) = .ok q) :
    (∀ f, s.statAt p (some fd) f = s.stat q f) ∧ (∀ m, mkdirAt p m (some fd) s = mkdir q m s) ∧ removeAt p (some fd) s = remove q s := by
  refine ⟨fun f => ?_, fun m => ?_, ?_⟩
  · unfold FS.statAt; rw [h]; rfl
  · unfold mkdirAt
    rw [M.bind_eq, rd_run, h]
  · unfold removeAt
    rw [M.bind_eq, rd_run, h]

/-- C55: `rename` with two descriptors is `rename` of the two absolute paths. -/
theorem dirFd_rename {s : FS} {old new o n : Str} {sfd dfd : Option Int} (h1 : s.pathWithDirFd old sfd = .ok o) (h2 : s.pathWithDirFd new dfd = .ok n)
    (force : Bool) : renameAt old new sfd dfd force s = rename o n force s := by
  unfold renameAt
  rw [M.bind_eq, rd_run, h1]
  dsimp only
  rw [M.bind_eq, rd_run, h2]

/-! ## Cases meeting the hypotheses, and cases where the code behaves differently -/

/-- the demo tree with `/a` open as descriptor 3 -/
def demoDir : FS := runs [.osOpen ['/', 'a'] ⟨false, false, false, false, false, false⟩ 0] demo

/-- … then renamed to `/b` -/
def demoDirMoved : FS := runs [.rename ['/', 'a'] ['/', 'b'] false] demoDir

example : demoDir.getOpen 3 = .ok 3 ∧ (demoDir.handles 3).kind = .dir ∧ walk demoDir.heap rootRef [['a']] = some (demoDir.handles 3).obj ∧
    demoDir.pathWithDirFd ['f'] (some 3) = .ok ['/', 'a', '/', 'f'] ∧ demoDirMoved.pathWithDirFd ['f'] (some 3) = .ok ['/', 'b', '/', 'f'] := by
  decide +kernel

example : demo.exists_ ['/', 'l'] = .ok true ∧ (demo.stat ['/', 'l']).toOption.map (·.size) = some 2 ∧ demo.getsize ['/', 'l'] = .ok 2 ∧
    demo.ismount ['/'] = true ∧ demo.ismount ['/', 'a'] = false ∧ mountFS.ismount ['/', 'n', '/', 'm', '/'] = true := by
  decide +kernel

/-- C55: the descriptor given to `os.symlink` is used for the target: the link is made in the current directory instead of in the directory of the descriptor. -/
theorem symlink_dirFd_counterexample : ∃ (s : FS) (fd : Int), Reachable s ∧ s.pathWithDirFd ['x'] (some fd) = .ok ['/', 'a', '/', 'x'] ∧
    (symlinkAt ['f'] ['x'] (some fd) s).1.toOption ≠ none ∧ (symlinkAt ['f'] ['x'] (some fd) s).2.existsL ['/', 'a', '/', 'x'] = .ok false ∧
    (symlinkAt ['f'] ['x'] (some fd) s).2.readlink ['/', 'x'] = .ok ['/', 'a', '/', 'f'] :=
  ⟨demoDir, 3, reachable_runs demo_reachable _, by decide +kernel, by decide +kernel, by decide +kernel, by decide +kernel⟩

/-- a file with a second name in a directory that is removed afterwards -/
def staleFS : FS := runs [.mkdir ['/', 'b'] 0o777, .createLink ['/', 'a', '/', 'f'] ['/', 'b', '/', 'g'] true false, .setUser 1 1,
  .remove ['/', 'b', '/', 'g'], .rmdir ['/', 'b']] (runs [.chmod ['/'] 0o777 true, .chmod ['/', 'a'] 0o777 true, .mkdir ['/', 'b'] 0o777, .chmod ['/', 'b'] 0o777 true] demo)

/-- C54: for other users than root, `stat` may fail for a path that exists and everything of which may be read: it asks the directory where the file was
linked last. -/
theorem stat_parent_counterexample : ∃ s, Reachable s ∧ s.isRoot = false ∧ s.exists_ ['/', 'a', '/', 'f'] = .ok true ∧
    s.isFile ['/', 'a', '/', 'f'] = .ok true ∧ s.stat ['/', 'a', '/', 'f'] = .error (.os .ENOENT) :=
  ⟨staleFS, reachable_runs (reachable_runs demo_reachable _) _, by decide +kernel, by decide +kernel, by decide +kernel, by decide +kernel⟩

end Verif
