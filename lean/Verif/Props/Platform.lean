import Verif.Props.Trail
import Verif.Props.FdBytes
import Verif.Props.Pathlib
import Verif.Props.Rename
import Verif.Props.Case
/-!
# C75: calls whose result depends on the emulated operating system

`os.fsync`, `os.fdatasync`, `os.sendfile`; `os.readlink` and `os.symlink` of a link given with a trailing separator; drive letters.
-/

namespace Verif
open Py Spec Cfg

/-- C75: `os.fsync` never changes anything.  It fails with EINVAL for the standard streams, as the lookup of the descriptor fails if it is not
open, on Windows with EBADF for everything but files opened for writing, and succeeds otherwise. -/
theorem fsync_all (s : FS) (fd : Int) :
    (fsync fd s).2 = s ∧
    (0 ≤ fd ∧ fd < 3 → (fsync fd s).1 = .error (.os .EINVAL)) ∧
    (¬ (0 ≤ fd ∧ fd < 3) → (∀ e, s.getOpen fd = .error e → (fsync fd s).1 = .error e) ∧
      ∀ h, s.getOpen fd = .ok h →
        (s.cfg.isWin = false → (fsync fd s).1 = .ok ()) ∧
        (s.cfg.isWin = true → (s.handles h).kind = .file → (s.handles h).update = true → (fsync fd s).1 = .ok ()) ∧
        (s.cfg.isWin = true → ¬ ((s.handles h).kind = .file ∧ (s.handles h).update = true) → (fsync fd s).1 = .error (.os .EBADF))) := by
  have key : fsync fd s = if 0 ≤ fd ∧ fd < 3 then (.error (.os .EINVAL), s) else
      match s.getOpen fd with
      | .ok h => if s.cfg.isWin ∧ ((s.handles h).kind ≠ .file ∨ (s.handles h).update = false) then (.error (.os .EBADF), s) else (.ok (), s)
      | .error e => (.error e, s) := by
    unfold fsync notStd
    rw [M.bind_eq]
    by_cases h : 0 ≤ fd ∧ fd < 3
    · rw [if_pos h, if_pos h]; rfl
    · rw [if_neg h, if_neg h]
      dsimp only [M.pure]
      rw [M.bind_eq]
      unfold rd M.ofRead
      dsimp only
      cases s.getOpen fd with
      | error e => rfl
      | ok g =>
        dsimp only
        rw [M.bind_eq]
        dsimp only [M.get]
        split <;> rfl
  rw [key]
  refine ⟨?_, fun h => by rw [if_pos h], fun h => ?_⟩
  · split
    · rfl
    · cases s.getOpen fd with
      | error e => rfl
      | ok g => dsimp only; split <;> rfl
  · rw [if_neg h]
    cases s.getOpen fd with
    | error e => exact ⟨fun e' g => by injection g with g; rw [g], fun h g => (nomatch g)⟩
    | ok g =>
      refine ⟨fun e g => (nomatch g), fun h hh => ?_⟩
      injection hh with hh; subst hh
      dsimp only
      refine ⟨fun hw => by rw [if_neg (by simp [hw])], fun hw hk hu => by rw [if_neg (by simp [hk, hu])], fun hw hk => ?_⟩
      rw [if_pos]
      refine ⟨hw, ?_⟩
      by_cases h1 : (s.handles g).kind = .file
      · refine Or.inr ?_
        cases hu : (s.handles g).update with
        | false => rfl
        | true => exact absurd ⟨h1, hu⟩ hk
      · exact Or.inl h1

/-- C75: `os.fdatasync` does not exist on Windows and macOS, `os.sendfile` not on Windows: the call raises AttributeError and changes nothing. -/
theorem not_available (s : FS) :
    (s.cfg.isWin = true ∨ s.cfg.isMac = true → ∀ fd, fdatasync fd s = (.error .attributeError, s)) ∧
    (s.cfg.isWin = true → ∀ o i off n, sendfile o i off n s = (.error .attributeError, s)) := by
  refine ⟨fun h fd => ?_, fun h o i off n => ?_⟩
  · unfold fdatasync
    rw [M.bind_eq]
    dsimp only [M.get]
    rw [if_pos h]; rfl
  · unfold sendfile
    rw [M.bind_eq]
    dsimp only [M.get]
    rw [if_pos h]; rfl

/-- C75: on macOS `os.sendfile` to anything but a socket raises an OSError and changes nothing. -/
theorem sendfile_mac {s : FS} (hm : s.cfg.isMac = true) (hw : s.cfg.isWin = false) {o i : Int} {h g : Nat} (hi : 3 ≤ i) (ho : 3 ≤ o)
    (hh : s.getOpen i = .ok h) (hg : s.getOpen o = .ok g) (hk : (s.handles g).kind ≠ .std)
    (hs : (s.heap (s.handles g).obj).mode &&& 0o777000 ≠ S_IFSOCK) (off : Option Int) (n : Nat) :
    sendfile o i off n s = (.error .unsupported, s) := by
  have e1 : ∀ fd : Int, 3 ≤ fd → notStd fd s = (.ok (), s) := fun fd hf => by
    unfold notStd; rw [if_neg (by omega)]; rfl
  have e2 : macSocket g s = (.error .unsupported, s) := by
    unfold macSocket
    rw [M.bind_eq]
    dsimp only [M.get]
    rw [if_pos hm, if_neg hk, if_pos hs]; rfl
  unfold sendfile
  rw [M.bind_eq]
  dsimp only [M.get]
  rw [if_neg (by simp [hw]), M.bind_eq, e1 i hi]
  dsimp only
  rw [M.bind_eq, e1 o ho]
  dsimp only
  rw [M.bind_eq, rd_eq (f := (·.getOpen i)) hh]
  dsimp only
  rw [M.bind_eq, rd_eq (f := (·.getOpen o)) hg]
  dsimp only
  rw [M.bind_eq, e2]

/-- C75: the drive letters are the 52 ASCII letters. -/
theorem isDriveLetter_iff (c : Char) : isDriveLetter c = true ↔ c ∈ "abcdefghijklmnopqrstuvwxyzABCDEFGHIJKLMNOPQRSTUVWXYZ".toList := by
  constructor
  · intro h
    have hb : (97 ≤ c.toNat ∧ c.toNat ≤ 122) ∨ (65 ≤ c.toNat ∧ c.toNat ≤ 90) := by
      unfold isDriveLetter at h
      simpa using h
    have hc : c = Char.ofNat c.toNat := (Char.ofNat_toNat c).symm
    generalize c.toNat = n at hc hb
    subst hc
    rcases hb with ⟨h1, h2⟩ | ⟨h1, h2⟩
    · interval_cases n <;> decide
    · interval_cases n <;> decide
  · intro h
    have : ∀ c ∈ "abcdefghijklmnopqrstuvwxyzABCDEFGHIJKLMNOPQRSTUVWXYZ".toList, isDriveLetter c = true := by decide
    exact this c h

section
variable {s : FS} (hs : Reachable s) (ht : s.cfg.Tree) (hg : Genuine s) (hrd : Readable s) {names : List Str} {nm : Str} {d e : Ref}
  (h : Spot s names nm d) (he : alookup nm (s.heap d).entries = some e)
include hs ht hg hrd h he

theorem lresolve_trail : s.lresolve (absPath s.cfg.sep (names ++ [nm]) ++ [s.cfg.sep]) = .ok e := by
  have hi := reachable_inv hs
  have hb := spot_bare hs ht hg hrd h he
  have h1 : s.lresolveG s.rc (absPath s.cfg.sep (names ++ [nm])) = .ok e := spot_lresolve hi ht hg hrd h he
  have hcan := absCanon_names (plain_proper h.plain)
  have hroot : absPath s.cfg.sep (names ++ [nm]) ≠ s.cfg.root :=
    absPath_snoc_ne_root (fun w hw => (h.plain w (by simp [hw])).1) (h.plain nm (by simp)).1
  have hroot' : absPath s.cfg.sep (names ++ [nm]) ++ [s.cfg.sep] ≠ s.cfg.root := by
    intro g
    have := congrArg List.length g
    simp only [List.length_append, Cfg.root, List.length_cons, List.length_nil] at this
    exact hb.ne (List.eq_nil_of_length_eq_zero (by omega))
  have e1 : s.lparent (absPath s.cfg.sep (names ++ [nm]) ++ [s.cfg.sep]) = s.lparent (absPath s.cfg.sep (names ++ [nm])) := by
    unfold FS.lparent
    rw [stripTrailing_trail ht.posix hb, stripTrailing_canon ht.posix hcan]
  unfold FS.lresolve
  unfold FS.lresolveG at h1 ⊢
  rw [if_neg hb.ne, if_neg hroot] at h1
  rw [if_neg (by simp), if_neg hroot', e1]
  exact h1

/-- A path that does not resolve does not exist, with or without a trailing separator. -/
theorem broken_exists {er : Errno} (hr : s.resolve (absPath s.cfg.sep (names ++ [nm])) = .error (.os er))
    (hdv : absPath s.cfg.sep (names ++ [nm]) ++ [s.cfg.sep] ≠ s.devName) :
    s.exists_ (absPath s.cfg.sep (names ++ [nm])) = .ok false ∧ s.exists_ (absPath s.cfg.sep (names ++ [nm]) ++ [s.cfg.sep]) = .ok false := by
  have hi := reachable_inv hs
  have hb := spot_bare hs ht hg hrd h he
  have h1 : s.exists_ (absPath s.cfg.sep (names ++ [nm])) = .ok false := by
    rcases spot_exists hi ht hg hrd h with hx | ⟨_, x, hx⟩
    · exact hx
    · rw [hx true] at hr; cases hr
  refine ⟨h1, ?_⟩
  have hf : s.isFileG s.rc (absPath s.cfg.sep (names ++ [nm])) = .ok false := by
    unfold FS.isFileG FS.isOfTypeG
    rw [show s.resolveFG s.rc (absPath s.cfg.sep (names ++ [nm])) true true = .error (.os er) from hr]
    rfl
  have g1 : s.isFileSepG s.rc (absPath s.cfg.sep (names ++ [nm]) ++ [s.cfg.sep]) = .ok false := by
    unfold FS.isFileSepG; rw [if_pos (endsWithSep_trail ht.posix hb.ne), stripTrailing_trail ht.posix hb, hf]
  have g2 : s.isFileSepG s.rc (absPath s.cfg.sep (names ++ [nm])) = .ok false := by
    unfold FS.isFileSepG; rw [if_neg (by simp [endsWithSep_bare ht.posix hb])]
  unfold FS.exists_ FS.existsG at h1 ⊢
  rw [if_neg hb.ne, if_neg h.dev', g2] at h1
  rw [if_neg (by simp), if_neg hdv, g1, resolvePath_trail hi ht _ hb.ne]
  exact h1

/-- C75: `os.readlink` of a symlink given with a trailing separator, on a case-sensitive POSIX filesystem.  If the link leads to a directory the call fails with
EINVAL.  If it leads nowhere, the call fails with ELOOP (or, on macOS, returns the path of the link) if looking up the target fails with
ELOOP, and with ENOENT otherwise.  (The target is looked up from the current directory and not from the directory of the link:
see `readlink_relative_loop`.) -/
theorem readlink_trailing (hk : (s.heap e).isLnk = true)
    (hdv : absPath s.cfg.sep (names ++ [nm]) ++ [s.cfg.sep] ≠ s.devName) :
    (∀ x, s.resolve (absPath s.cfg.sep (names ++ [nm])) = .ok x → (s.heap x).isDirMode = true →
      s.readlink (absPath s.cfg.sep (names ++ [nm]) ++ [s.cfg.sep]) = .error (.os .EINVAL)) ∧
    (∀ er, s.resolve (absPath s.cfg.sep (names ++ [nm])) = .error (.os er) → s.objPath e = absPath s.cfg.sep (names ++ [nm]) →
      (s.resolvePath (s.linkTarget (s.heap e)) = .error (.os .ELOOP) →
        s.readlink (absPath s.cfg.sep (names ++ [nm]) ++ [s.cfg.sep]) =
          if s.cfg.isMac then .ok (absPath s.cfg.sep (names ++ [nm])) else .error (.os .ELOOP)) ∧
      ((∃ q, s.resolvePath (s.linkTarget (s.heap e)) = .ok q) ∨
          (∃ er', er' ≠ .ELOOP ∧ s.resolvePath (s.linkTarget (s.heap e)) = .error (.os er')) →
        s.readlink (absPath s.cfg.sep (names ++ [nm]) ++ [s.cfg.sep]) = .error (.os .ENOENT))) := by
  have hi := reachable_inv hs
  have hb := spot_bare hs ht hg hrd h he
  have hl := lresolve_trail hs ht hg hrd h he
  have hk2 : ¬ (ifmt (s.heap e).mode ≠ S_IFLNK) := by simpa [Obj.isLnk] using hk
  have hse := endsWithSep_trail ht.posix (p := absPath s.cfg.sep (names ++ [nm])) hb.ne
  refine ⟨fun x hx hxd => ?_, fun er hx ho => ?_⟩
  · have hex := exists_trailing hs ht hb h.dev' hdv hx
    have hxr : (s.heap x).isRegMode = false := by
      unfold Obj.isDirMode at hxd; unfold Obj.isRegMode
      rw [beq_iff_eq] at hxd; rw [hxd]; decide
    rw [hxr] at hex
    have hx1 : s.exists_ (absPath s.cfg.sep (names ++ [nm])) = .ok true := by
      rcases spot_exists hi ht hg hrd h with hn | ⟨hx', _⟩
      · exfalso
        have : s.resolve (absPath s.cfg.sep (names ++ [nm])) = .ok x := hx
        have hne : x ≠ devNullRef := by
          intro g; subst g
          have := hi.n.devMode
          unfold Obj.isDirMode at hxd
          rw [this] at hxd; revert hxd; decide
        have := exists_of_resolve hi ht (endsWithSep_bare ht.posix hb)
          (by rw [absnorm_canon hi ht.posix (absCanon_names (plain_proper h.plain))]; exact h.dev') hne this
        rw [hn] at this; simp at this
      · exact hx'
    rw [hx1] at hex
    simp only [Bool.false_eq_true, if_false] at hex
    unfold FS.readlink
    simp only [hl, bind, Except.bind, hk2, if_false, hse, if_true, ht.posix.win, Bool.false_eq_true, hex]
  · obtain ⟨h1, h2⟩ := broken_exists hs ht hg hrd h he hx hdv
    have key : s.readlink (absPath s.cfg.sep (names ++ [nm]) ++ [s.cfg.sep]) =
        (s.isCircular e >>= fun b => if b = true then (if s.cfg.isMac then .ok (absPath s.cfg.sep (names ++ [nm])) else .error (.os .ELOOP))
          else .error (.os .ENOENT)) := by
      unfold FS.readlink
      simp only [hl, bind, Except.bind, hk2, if_false, hse, if_true, ht.posix.win, Bool.false_eq_true, h1, h2, ho, Bool.not_false]
    rw [key]
    unfold FS.isCircular
    refine ⟨fun hc => by rw [hc]; rfl, fun hc => ?_⟩
    rcases hc with ⟨q, hc⟩ | ⟨er', hne, hc⟩
    · rw [hc]; rfl
    · rw [hc]
      have : (Err.os er' == Err.os .ELOOP) = false := by
        cases er' <;> first | rfl | exact absurd rfl hne
      simp only [Err.isOS, this, bind, Except.bind, if_true, Bool.false_eq_true, if_false]

/-- C75: on Linux `os.symlink` never creates a link at the path of an existing symlink given with a trailing separator: the call fails and
changes nothing, with EEXIST if the link leads somewhere other than a regular file or both the link and the new target are broken,
and with ENOENT if the new target exists. -/
theorem symlink_trailing (hm : s.cfg.isMac = false) (hsl : s.cfg.sep = '/') {t : Str} {c b1 b2 : Bool}
    (h1 : s.exists_ (absPath s.cfg.sep (names ++ [nm]) ++ [s.cfg.sep]) = .ok b1) (h2 : s.exists_ t = .ok b2) :
    createSymlink (absPath s.cfg.sep (names ++ [nm]) ++ [s.cfg.sep]) t c s =
      (.error (.os (if b1 = false ∧ b2 = true then .ENOENT else .EEXIST)), s) := by
  have hi := reachable_inv hs
  have hb := spot_bare hs ht hg hrd h he
  have hse := endsWithSep_trail ht.posix (p := absPath s.cfg.sep (names ++ [nm])) hb.ne
  have hL := spot_existsL hi ht hg hrd h
  rw [he] at hL
  have hn := makeStringPath_slash hsl
  unfold createSymlink
  rw [M.bind_eq]
  dsimp only [M.get]
  rw [hn, hn, ht.posix.normcase, if_pos hse, M.bind_eq, rd_eq (f := fun x => x.exists_ _) h1]
  cases b1 with
  | true => rfl
  | false =>
    dsimp only
    rw [if_neg (by simp), M.bind_eq, rd_eq (f := fun x => x.exists_ _) h2]
    cases b2 with
    | true => simp only [if_true, ht.posix.win]; rfl
    | false =>
      simp only [Bool.false_eq_true, if_false, ht.posix.win, hm, and_false]
      rw [M.bind_eq, stripTrailing_trail ht.posix hb, rd_eq (f := fun x => x.existsL _) hL]
      rfl

end

/-! ## Examples -/

/-- `/a` is a directory, `/k` leads to it, `/b` leads nowhere, `/o` to itself; `/a/o` leads to `o`, i.e. to itself -/
def linkFS : FS := runs (demoOps ++ [.createSymlink ['/', 'k'] ['a'] false, .createSymlink ['/', 'b'] ['x'] false,
  .createSymlink ['/', 'o'] ['/', 'o'] false, .createSymlink ['/', 'a', '/', 'w'] ['w'] false]) (initFS demoCfg 50 0 0 0o022 7 (some 1000))

theorem linkFS_reachable : Reachable linkFS := ⟨_, _, _, _, _, _, _, _, rfl⟩

theorem linkFS_spot (nm : Str) (h : Plain '/' nm) (hd : absPath linkFS.cfg.sep ([] ++ [nm]) ≠ linkFS.devName) : Spot linkFS [] nm 0 where
  plain w hw := by
    have e : linkFS.cfg.sep = '/' := by decide +kernel
    rw [e]
    rw [List.nil_append, List.mem_singleton] at hw
    rw [hw]; exact h
  noLink := trivial
  dev := by decide +kernel
  dev' := hd
  here := rfl
  read := by decide +kernel

/-- The hypotheses are met by `/k/`, `/b/` and `/o/`. -/
example : linkFS.cfg.Tree ∧ Genuine linkFS ∧ Readable linkFS ∧ linkFS.cfg.isMac = false ∧ linkFS.cfg.sep = '/' ∧
    linkFS.objPath 7 = ['/', 'b'] ∧ linkFS.resolve ['/', 'b'] = .error (.os .ENOENT) ∧ linkFS.resolve ['/', 'k'] = .ok 2 ∧
    linkFS.readlink ['/', 'k', '/'] = .error (.os .EINVAL) ∧ linkFS.readlink ['/', 'b', '/'] = .error (.os .ENOENT) ∧
    linkFS.readlink ['/', 'o', '/'] = .error (.os .ELOOP) ∧ (createSymlink ['/', 'k', '/'] ['y'] false linkFS).1 = .error (.os .EEXIST) ∧
    (createSymlink ['/', 'b', '/'] ['a'] false linkFS).1 = .error (.os .ENOENT) ∧
    (createSymlink ['/', 'b', '/'] ['y'] false linkFS).1 = .error (.os .EEXIST) :=
  ⟨by unfold linkFS; rw [runs_cfg]; exact demoCfg_tree, by unfold Genuine; decide +kernel, Or.inl (by decide +kernel), by decide +kernel,
    by decide +kernel, by decide +kernel, by decide +kernel, by decide +kernel, by decide +kernel, by decide +kernel, by decide +kernel,
    by decide +kernel, by decide +kernel, by decide +kernel⟩

example : Spot linkFS [] ['b'] 0 ∧ alookup ['b'] (linkFS.heap 0).entries = some 7 ∧ (linkFS.heap 7).isLnk = true :=
  ⟨linkFS_spot _ (by decide) (by decide +kernel), by decide +kernel, by decide +kernel⟩

/-- A deviation: a link that leads to itself by a relative target is recognised only if it lies in the current directory. -/
theorem readlink_relative_loop : ∃ s, Reachable s ∧ s.cfg.Tree ∧ s.resolve ['/', 'a', '/', 'w'] = .error (.os .ELOOP) ∧
    s.readlink ['/', 'a', '/', 'w', '/'] = .error (.os .ENOENT) :=
  ⟨linkFS, linkFS_reachable, by unfold linkFS; rw [runs_cfg]; exact demoCfg_tree, by decide +kernel, by decide +kernel⟩

/-- A deviation: `readlink` of a link to a regular file, given with a trailing separator, succeeds (POSIX: ENOTDIR). -/
theorem readlink_file_sep : ∃ s, Reachable s ∧ s.cfg.Tree ∧ s.cfg.isMac = false ∧ s.isFile ['/', 'l'] = .ok true ∧
    s.readlink ['/', 'l', '/'] = .ok ['a', '/', 'f'] :=
  ⟨demo, demo_reachable, demo_tree, demo_mac, by decide +kernel, by decide +kernel⟩

/-- macOS, `/s` opened for reading, `/d` for writing -/
def macSendFS : FS := runs [.createFile ['/', 's'] (S_IFREG ||| 0o666) (some [1, 2]) none false false,
  .osOpen ['/', 's'] ⟨false, false, false, false, false, false⟩ 0o666,
  .osOpen ['/', 'd'] ⟨true, false, true, false, false, false⟩ 0o666] macFS

/-- the hypotheses of `not_available` and `sendfile_mac` -/
example : Reachable macSendFS ∧ macSendFS.cfg.isMac = true ∧ macSendFS.cfg.isWin = false ∧ macSendFS.getOpen 3 = .ok 3 ∧ macSendFS.getOpen 4 = .ok 4 ∧
    (macSendFS.handles 4).kind ≠ .std ∧ (macSendFS.heap (macSendFS.handles 4).obj).mode &&& 0o777000 ≠ S_IFSOCK ∧
    (sendfile 4 3 none 2 macSendFS).1 = .error .unsupported ∧ (fdatasync 4 macSendFS).1 = .error .attributeError ∧ (fsync 4 macSendFS).1 = .ok () :=
  ⟨reachable_runs macFS_reachable _, by decide +kernel, by decide +kernel, by decide +kernel, by decide +kernel, by decide +kernel, by decide +kernel,
    by decide +kernel, by decide +kernel, by decide +kernel⟩

end Verif
