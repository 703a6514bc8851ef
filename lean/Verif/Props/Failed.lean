import Verif.Props.Rename
import Verif.Props.Remove
import Verif.Props.Hardlink
import Verif.Props.Data
import Verif.Props.Umask
import Verif.Props.Atomic
/-!
# C22: a failing call changes nothing

One theorem for the calls of the API that take paths. The earlier theorems about single calls give the cases; what is added
here is the remaining calls, the common notion of "nothing changed" and the cases in which it fails.
-/

namespace Verif
open Py Spec Cfg

namespace Spec
/-- Nothing visible changed: every path resolves (or fails to resolve) as before, every object has the same type, contents,
size, mode, owner, times, link count, attributes, inode and device, and every device the same used space. Objects which are
in no directory (`≥ s.next`) may have been allocated. The only attribute left out is the name stored in the object itself,
which no path lookup uses. -/
structure NoTrace (s s' : FS) : Prop where
  resolve : ∀ q f c, s'.resolve q f c = s.resolve q f c
  obj : ∀ x < s.next, s'.heap x = { s.heap x with name := (s'.heap x).name }
  mounts : s'.mounts = s.mounts
  rest : s' = { s with heap := s'.heap, next := s'.next, lastIno := s'.lastIno }

/-- The calls for which failing is claimed to leave no trace, and what they need beyond the general hypotheses. -/
inductive Failable (s : FS) : Op → Prop
  | mkdir (p mode) : Failable s (.mkdir p mode)
  | mknod (p mode) : Failable s (.mknod p mode)
  | createFile (p mode contents size um) (may : ∀ ld nm d, Names s (s.cfg.makeStringPath p) ld nm d → mayRemove s d) :
      Failable s (.createFile p mode contents size false um)
  | symlink (p target) (may : ∀ q ld nm d, Names s q ld nm d → mayRemove s d) : Failable s (.createSymlink p target false)
  | link (old new follow) (dev : s.resolve old follow ≠ .ok devNullRef) : Failable s (.createLink old new follow false)
  | remove (p) (ord : Ordinary s p) : Failable s (.remove p)
  | rmdir (p) (ord : Ordinary s p) : Failable s (.rmdir p)
  | rename (old new force) (ordO : Ordinary s old) (ordN : Ordinary s new) (links : NoLinksTo s new) (devs : DevInDir s)
      (mayO : ∀ ld nm d, Names s old ld nm d → mayRemove s d) (mayN : ∀ ld nm d, Names s new ld nm d → mayRemove s d)
      (oneDev : ∀ lo on od ln nn nd, Names s old lo on od → Names s new ln nn nd → (s.heap od).dev = (s.heap nd).dev)
      (differ : ∀ ln nn nd t, Names s new ln nn nd → alookup nn (s.heap nd).entries = some t → s.lresolve (s.absnorm old) ≠ .ok t) :
      Failable s (.rename old new force)
  | truncate (p n) : Failable s (.truncate p n)
  | chmod (p mode follow) : Failable s (.chmod p mode follow)
  | chown (p uid gid follow) : Failable s (.chown p uid gid follow)
  | utime (p ns follow) : Failable s (.utime p ns follow)
  | setxattr (p attr value flags follow) : Failable s (.setxattr p attr value flags follow)
  | removexattr (p attr follow) : Failable s (.removexattr p attr follow)
  | chdir (p) : Failable s (.chdir p)
  | setDiskUsage (total p) : Failable s (.setDiskUsage total p)
end Spec

theorem Spec.NoTrace.refl (s : FS) : NoTrace s s := ⟨fun _ _ _ => rfl, fun _ _ => rfl, rfl, rfl⟩

theorem Spec.Unchanged.noTrace {s s' : FS} (h : Unchanged s s') : NoTrace s s' := by
  refine ⟨h.resolve, fun x hx => by rw [h.obj x hx], h.mounts, ?_⟩
  have := h.rest
  rw [h.mounts] at this
  exact this

/-- an error leaves the state as it was -/
structure Pure (m : M Unit) (s : FS) : Prop where
  run : wp m (fun r s' => ∀ e, r = .error e → s' = s) s

theorem Pure.noTrace {m : M Unit} {s s' : FS} {e : Err} (h : Pure m s) (hr : m s = (.error e, s')) : NoTrace s s' := by
  have := h.run
  unfold wp at this
  rw [hr] at this
  have h1 : s' = s := this e rfl
  rw [h1]
  exact Spec.NoTrace.refl s

theorem pure_rdModify {s : FS} (f : FS → Except Err Ref) (g : Ref → FS → FS) : Pure (do let r ← rd f; M.modify (g r)) s := by
  refine ⟨wp_readBind (fun e _ _ _ => rfl) fun r _ => ?_⟩
  intro e h
  cases h

theorem mknod_fail {s : FS} (hi : Inv s) (hw : Within s) (ht : s.cfg.Tree) (p : Str) (mode : Nat) :
    wp (mknod p mode) (fun r s' => ∀ e, r = .error e → Same s s') s := by
  rcases hsp : s.cfg.splitpath p with ⟨head, tail⟩
  unfold mknod
  apply wp_getBind
  rw [hsp]
  dsimp only
  apply wp_ite
  · intro _ e _; exact Same.refl s
  intro _
  apply wp_ite
  · intro _ e _; exact Same.refl s
  intro _
  apply wp_ite
  · intro _
    refine wp_readBind (fun _ _ _ _ => Same.refl s) fun b _ => ?_
    apply wp_ite
    · intro _ e _; exact Same.refl s
    · intro _ e _; exact Same.refl s
  intro _
  apply wp_ite
  · intro _ e _; exact Same.refl s
  intro _
  refine wp_readBind (fun _ _ _ _ => Same.refl s) fun b _ => ?_
  apply wp_ite
  · intro _ e _; exact Same.refl s
  intro _
  refine wp_bindOk (a := s.next) (s' := { s with heap := upd s.heap s.next (mkFileObj tail (andNot mode s.umask) none s), next := s.next + 1 }) rfl ?_
  have hsame := new_same s (mkFileObj tail (andNot mode s.umask) none s)
  unfold addObject
  have fin : ∀ d, d < s.next → wp (addEntry d s.next) (fun r s' => ∀ e, r = .error e → Same s s')
      { s with heap := upd s.heap s.next (mkFileObj tail (andNot mode s.umask) none s), next := s.next + 1 } := by
    intro d hlt
    rcases addEntry_new hi hw ht (o := mkFileObj tail (andNot mode s.umask) none s) hlt rfl rfl rfl rfl rfl with ⟨e, he, hr⟩ | ⟨s', he, _⟩
    · unfold wp; rw [he]; intro _ _; exact hsame
    · unfold wp; rw [he]; intro e h; cases h
  split
  · refine wp_bindOk (a := rootRef) rfl ?_
    exact fin rootRef (root_lt hi)
  · have hres : ∀ q f c, ({ s with heap := upd s.heap s.next (mkFileObj tail (andNot mode s.umask) none s), next := s.next + 1 } : FS).resolve q f c = s.resolve q f c :=
      (hsame.agree hi).resolve (Closed.lt hi)
    refine wp_readBind (fun _ _ _ _ => hsame) fun d hd => ?_
    rw [hres] at hd
    apply wp_getBind
    apply wp_ite
    · intro _ _ _; exact hsame
    intro _
    exact wp_bindOk (a := d) rfl (fin d (resolve_lt hi hd))

/-- **C22.** A call that takes paths and raises leaves no trace: on a case-sensitive Linux-like filesystem with no device over
its limit, every path resolves as before, and contents, modes, link counts and used space are unchanged. -/
theorem failed_call {s : FS} (hs : Reachable s) (ht : s.cfg.Tree) (hm : s.cfg.isMac = false) (hw : Within s) (hg : Genuine s)
    (hnd : NoDev s) {o : Op} (ho : Failable s o) {e : Err} {s' : FS} (h : o.run s = (.error e, s')) : NoTrace s s' := by
  have hi := reachable_inv hs
  have hvoid : ∀ {α : Type} {m : M α}, m.void s = (.error e, s') → m s = (.error e, s') := by
    intro α m hv
    unfold M.void at hv
    rw [M.bind_eq] at hv
    rcases hq : m s with ⟨r, t⟩
    rw [hq] at hv
    cases r with
    | error x => simpa using hv
    | ok a => cases hv
  cases ho with
  | mkdir p mode =>
    have h : Verif.mkdir p mode s = _ := h
    rcases mkdir_effect hs ht hm hw p mode with ⟨e', s1, h1, h2⟩ | ⟨s1, _, _, _, _, h1, _⟩
    · rw [h1] at h; cases h; exact h2.noTrace
    · rw [h1] at h; cases h
  | mknod p mode =>
    have k := mknod_fail hi hw ht p mode
    unfold wp at k
    have h : Verif.mknod p mode s = _ := h
    rw [h] at k
    exact ((k e rfl).unchanged hi).noTrace
  | createFile p mode contents size um may =>
    have h := hvoid h
    have hk := createFileI_spec hi hw ht (p := p) mode contents size um (Or.inl rfl)
    unfold wp at hk
    have h : createFileI p mode contents size false um s = _ := h
    rw [h] at hk
    rcases hk with ⟨e, h1, h2⟩ | ⟨ld, nm, d, h2, ⟨h1, h3, _⟩ | ⟨h1, h3⟩⟩
    · exact (h2.unchanged hi).noTrace
    · exact absurd (may ld nm d h2) h3
    · cases h1
  | symlink p target may =>
    have h := hvoid h
    rcases symlink_effect hs ht hm hw p target may with ⟨e', s1, h1, h2⟩ | ⟨s1, _, _, _, _, _, h1, _⟩
    · rw [h1] at h; cases h; exact h2.noTrace
    · rw [h1] at h; cases h
  | link old new follow dev =>
    have h := hvoid h
    have h : Verif.link old new follow s = _ := h
    rcases link_effect hs ht old new follow dev with ⟨e', s1, h1, h2, h3⟩ | ⟨s1, _, _, _, _, h1, _⟩
    · rw [h1] at h; cases h
      rcases h2 with h2 | ⟨r, nm, _, h2⟩
      · rw [h2]; exact Spec.NoTrace.refl s
      · refine ⟨h3, ?_, by rw [h2]; rfl, by rw [h2]; rfl⟩
        intro x _
        rw [h2, named_heap]
    · rw [h1] at h; cases h
  | remove p ord =>
    have h : Verif.remove p s = _ := h
    rcases remove_effect hs ht hm hw hg hnd ord with ⟨e', h1⟩ | ⟨s1, _, _, _, _, h1, _⟩
    · rw [h1] at h; cases h; exact Spec.NoTrace.refl s
    · rw [h1] at h; cases h
  | rmdir p ord =>
    have h : Verif.rmdir p false s = _ := h
    have k := rmdir_spec hi hw ht hg hnd hm ord
    unfold wp at k
    rw [h] at k
    rcases k with ⟨_, _, h1⟩ | ⟨_, _, _, _, h1, _⟩
    · have h1 : s' = s := h1
      rw [h1]; exact Spec.NoTrace.refl s
    · cases h1
  | rename old new force ordO ordN links devs mayO mayN oneDev differ =>
    have h : Verif.rename old new force s = _ := h
    rcases rename_effect hs ht hm hw hg hnd devs (force := force) ordO ordN links mayO mayN oneDev differ with ⟨e', h1⟩ | ⟨s1, _, _, _, _, _, _, _, h1, _⟩
    · rw [h1] at h; cases h; exact Spec.NoTrace.refl s
    · rw [h1] at h; cases h
  | truncate p n =>
    have h : Verif.truncate p n s = _ := h
    rw [truncate_atomic h]; exact Spec.NoTrace.refl s
  | chmod p mode follow => exact (pure_rdModify (fun s => s.resolve p follow) _).noTrace h
  | chown p uid gid follow => exact (pure_rdModify (fun s => s.resolve p follow) _).noTrace h
  | utime p ns follow => exact (pure_rdModify (fun s => s.resolve p follow) _).noTrace h
  | setxattr p attr value flags follow =>
    refine Pure.noTrace (m := Verif.setxattr p attr value flags follow) ⟨?_⟩ h
    unfold Verif.setxattr
    apply wp_getBind
    apply wp_ite
    · intro _ _ _; rfl
    intro _
    refine wp_readBind (fun _ _ _ _ => rfl) fun r _ => ?_
    dsimp only
    apply wp_ite
    · intro _ _ _; rfl
    intro _
    apply wp_ite
    · intro _ _ _; rfl
    intro _ e h
    cases h
  | removexattr p attr follow =>
    refine Pure.noTrace (m := Verif.removexattr p attr follow) ⟨?_⟩ h
    unfold Verif.removexattr
    apply wp_getBind
    apply wp_ite
    · intro _ _ _; rfl
    intro _
    refine wp_readBind (fun _ _ _ _ => rfl) fun r _ => ?_
    intro e h
    cases h
  | chdir p =>
    refine Pure.noTrace (m := Verif.chdir p) ⟨?_⟩ h
    unfold Verif.chdir
    refine wp_readBind (fun _ _ _ _ => rfl) fun r _ => ?_
    refine wp_readBind (fun _ _ _ _ => rfl) fun r _ => ?_
    refine wp_readBind (fun _ _ _ _ => rfl) fun r _ => ?_
    intro e h
    cases h
  | setDiskUsage total p =>
    refine Pure.noTrace (m := Verif.setDiskUsage total p) ⟨?_⟩ h
    unfold Verif.setDiskUsage
    have hmp : (mountForPath p s).2 = s := by
      unfold mountForPath
      cases hl : s.limit with
      | zero => rfl
      | succ n =>
        unfold mountForPathF
        rw [M.bind_eq]
        dsimp only [M.get]
        cases s.findMount (s.absnorm (s.originalPath p)) with
        | some d => rfl
        | none => simp only [ht.posix.win, Bool.false_and, Bool.false_eq_true, if_false]; rfl
    rcases hq : mountForPath p s with ⟨r, t⟩
    rw [hq] at hmp
    have hmp : t = s := hmp
    subst hmp
    cases r with
    | error x => exact wp_bindErr hq (fun _ _ => rfl)
    | ok d =>
      refine wp_bindOk hq ?_
      apply wp_getBind
      split
      · intro _ _; rfl
      · apply wp_ite
        · intro _ _ _; rfl
        · intro _ e h; cases h

/-! ## Examples -/

/-- failing calls meeting the hypotheses of `failed_call`: the name exists, the parent is a file, the directory is not empty, no
space, a directory below itself -/
example : NoTrace demo ((Op.mkdir ['/', 'a'] 0o777).run demo).2 ∧ NoTrace demo ((Op.mknod ['/', 'g'] 0o100600).run demo).2 ∧
    NoTrace demo ((Op.createFile ['/', 'a', '/', 'x'] (S_IFREG ||| 0o666) (some (List.replicate 2000 0)) none false false).run demo).2 ∧
    NoTrace demo ((Op.createLink ['/', 'a'] ['/', 'a', '/', 'z'] true false).run demo).2 ∧
    NoTrace demo ((Op.remove ['/', 'a']).run demo).2 ∧ NoTrace demo ((Op.rmdir ['/', 'a']).run demo).2 ∧
    NoTrace demo ((Op.truncate ['/', 'g'] 2000).run demo).2 ∧ NoTrace demo ((Op.chdir ['/', 'g']).run demo).2 := by
  have key : ∀ (o : Op) (e : Err), Failable demo o → (o.run demo).1 = .error e → NoTrace demo (o.run demo).2 :=
    fun o e ho he => failed_call demo_reachable demo_tree demo_mac demo_within demo_genuine demo_noDev ho (e := e) (Prod.ext he rfl)
  have oa := demo_ordinary (p := ['/', 'a']) (l := [['a']]) (by decide) (by decide +kernel) (by decide +kernel)
  exact ⟨key _ (.os .EEXIST) (.mkdir _ _) (by decide +kernel), key _ (.os .EEXIST) (.mknod _ _) (by decide +kernel),
    key _ (.os .ENOSPC) (.createFile _ _ _ _ _ fun _ _ _ _ => demo_may _) (by decide +kernel),
    key _ (.os .EPERM) (.link _ _ _ (by decide +kernel)) (by decide +kernel),
    key _ (.os .EISDIR) (.remove _ oa) (by decide +kernel), key _ (.os .ENOTEMPTY) (.rmdir _ oa) (by decide +kernel),
    key _ (.os .ENOSPC) (.truncate _ _) (by decide +kernel), key _ (.os .ENOTDIR) (.chdir _) (by decide +kernel)⟩

/-! ## What goes wrong without the hypotheses

`rename_exdev_counterexample` and `rename_lost_counterexample` show it for `rename`. -/

/-- On a device whose limit was set below its used space (`set_disk_usage` allows it) creating an empty file raises ENOSPC after
the file was entered into its directory: it exists. -/
theorem createFile_overfull_counterexample :
    let s := runs [.addMountPoint ['/', 'n'] none, .createFile ['/', 'n', '/', 'f'] (S_IFREG ||| 0o666) (some [1, 2]) none true false,
      .setDiskUsage 1 ['/', 'n']] demo
    let r := createFile ['/', 'n', '/', 'x'] (S_IFREG ||| 0o666) (some []) none false false s
    Reachable s ∧ r.1 = .error (.os .ENOSPC) ∧
      s.exists_ ['/', 'n', '/', 'x'] = .ok false ∧ r.2.exists_ ['/', 'n', '/', 'x'] = .ok true := by
  refine ⟨reachable_runs demo_reachable _, ?_⟩
  decide +kernel

/-- `create_file` for which there is no space removes the new entry again; a user who may write to the directory but not search
it is refused this, and the file stays (EACCES is raised instead of ENOSPC). -/
theorem createFile_cleanup_counterexample :
    let s := runs [.mkdir ['/', 'w'] 0o666, .chmod ['/', 'w'] 0o666 true, .setUser 1000 1000] demo
    let r := createFile ['/', 'w', '/', 'x'] (S_IFREG ||| 0o666) (some (List.replicate 2000 0)) none false false s
    Reachable s ∧ r.1 = .error (.os .EACCES) ∧ s.exists_ ['/', 'w', '/', 'x'] = .ok false ∧ r.2.exists_ ['/', 'w', '/', 'x'] = .ok true := by
  refine ⟨reachable_runs demo_reachable _, ?_⟩
  decide +kernel

/-- `link` stores the new name in the object before the entry is added: after a failing call the object has another name
attribute. (This is why `NoTrace` leaves it out.) -/
theorem link_name_counterexample :
    let s := runs [.mkdir ['/', 'w'] 0o555, .chmod ['/'] 0o777 true, .setUser 1000 1000] demo
    Reachable s ∧ (link ['/', 'g'] ['/', 'w', '/', 'x'] true s).1 = .error (.os .EACCES) ∧
      (s.heap 3).name = ['g'] ∧ ((link ['/', 'g'] ['/', 'w', '/', 'x'] true s).2.heap 3).name = ['x'] := by
  refine ⟨reachable_runs demo_reachable _, ?_⟩
  decide +kernel

end Verif
