import Verif.Props.RefineText
import Verif.Props.RefineTree
import Verif.SpecFdText
import Verif.Props.Data
import Verif.Sendfile
/-!
# C87: programs with descriptors, a current directory and written paths
-/

namespace Verif
open Py Spec Cfg

namespace Spec
/-- what is said, done on the fake filesystem -/
def fdSayOn : Ref.FdSaid → FS → Ref.Res × FS
  | .said c => sayOn c
  | .open p f mode => doCall (fun fd => .num fd) (osOpen p (flagsOf f) mode)
  | .read fd n => doCall (fun b => .bytes b) (osRead fd n)
  | .write fd b => doCall (fun n => .num n) (osWrite fd b)
  | .close fd => doCall (fun _ => .done) (osClose fd)
  | .size fd => askCall (fun st => .num st.size) (fun s => s.fstat fd)
  | .truncate p n => doCall (fun _ => .done) (truncate p n)
  | .ftruncate fd n => doCall (fun _ => .done) (ftruncate fd n)
  | .fsync fd => doCall (fun _ => .done) (fsync fd)
  | .fdatasync fd => doCall (fun _ => .done) (fdatasync fd)
  | .access p wr => askCall (fun b => .bool b) (fun s => s.access p (if wr then 2 else 0))

/-- An empty file is not given a positive size (it would have a size without contents, see C34 and C83). -/
def NotEmpty (b : Bytes) (n : Nat) : Prop := b ≠ [] ∨ n = 0

/-- what may be said: `Sayable`, and as in `FdAllowed` for descriptors; a path that is opened with O_CREAT ends with a name; `os.ftruncate` is left out
for descriptors of directories -/
def FdSayable (k : Cfg) (y : Ref.Sys) (w : Ref.Path) : Ref.FdSaid → Prop
  | .said c => Sayable k y.tree w c
  | .open p f mode => (TextOk y.tree w p ∧ (f.creat = true → EndsNamed p)) ∧ Usable (Ref.meaning w p) ∧ OpenAllowed f mode
  | .read fd _ | .write fd _ | .close fd | .size fd | .fsync fd | .fdatasync fd => 3 ≤ fd
  | .access p _ => TextOk y.tree w p ∧ Usable (Ref.meaning w p)
  | .truncate p n => TextOk y.tree w p ∧ Usable (Ref.meaning w p) ∧
    match y.names (Ref.meaning w p) with | some (.file i) => NotEmpty (y.data i) n | _ => True
  | .ftruncate fd n => 3 ≤ fd ∧ match y.fds fd with
    | none => True
    | some .dir => False
    | some (.append i) => NotEmpty (y.data i) n
    | some (.file i _ _ _) => NotEmpty (y.data i) n

/-- what a program gets, one answer after the other -/
def fdTold : List Ref.FdSaid → FS → List Ref.Res
  | [], _ => []
  | c :: cs, s => (fdSayOn c s).1 :: fdTold cs (fdSayOn c s).2

/-- everything is said where it may be said -/
def AllFdSayable (k : Cfg) : List Ref.FdSaid → FS → Prop
  | [], _ => True
  | c :: cs, s => FdSayable k (sysOf s) (Ref.meaning [] s.cwd) c ∧ AllFdSayable k cs (fdSayOn c s).2
end Spec

/-- A way to write a location stays one when nothing but things of it goes on. -/
theorem Word.keep {s s' : FS} {p : Str} {l : List Str} (hi : Inv s) (ht : s.cfg.Tree) (h : Word s p l) (hc : s'.cfg = s.cfg) (hw : s'.cwd = s.cwd)
    (hl : s'.limit = s.limit) (hd : s'.devName = s.devName)
    (hx : ∀ q, (∀ w ∈ q, Plain s.cfg.sep w) → s.exists_ (absPath s.cfg.sep q) = .ok true → s'.exists_ (absPath s.cfg.sep q) = .ok true) :
    Word s' p l :=
  ⟨h.ne, by
    intro q r e
    rw [hc] at e
    obtain ⟨h1, h2⟩ := h.up q r e
    refine ⟨by rw [hl]; exact h1, fun hne => ?_⟩
    obtain ⟨names, h3, h4, h5⟩ := h2 hne
    exact ⟨names, by rw [hc]; exact h3, by rw [hc, hw]; exact h4, by rw [hc]; exact hx names h3 h5⟩,
    hc ▸ h.plain, by
      have := h.norm
      unfold FS.absnorm at this ⊢
      rw [hc, hw]; exact this, hc ▸ h.sep, by rw [hc, hd]; exact h.dev, by rw [hd]; exact h.dev'⟩

/-- `os.open` without O_CREAT follows what the path means, however it is written. -/
theorem Word.osOpen {s : FS} {p : Str} {l : List Str} (hs : Reachable s) (ht : s.cfg.Tree) (h : Word s p l)
    (hwin : s.cfg.isWin = false) (hw : Within s) (hg : Genuine s) (f : OFlags) (hf : f.creat = false) (mode : Nat) :
    osOpen p f mode s = osOpen (absPath s.cfg.sep l) f mode s := by
  have hi := reachable_inv hs
  have ed : s.openDirArg p = s.openDirArg (absPath s.cfg.sep l) := by
    unfold FS.openDirArg
    rw [h.exists_ hi ht, h.resolve hi ht]
  by_cases hx : f.excl = true ∧ f.creat = false
  · unfold Verif.osOpen
    have : (f.modes.mustNotExist && f.modes.mustExist) = true := by
      unfold OFlags.modes; dsimp only; simpa using hx
    dsimp only
    rw [if_pos this, if_pos this]
    rfl
  have hx' : f.excl = false := by
    cases e : f.excl
    · rfl
    · exact absurd ⟨e, hf⟩ hx
  have eo : ∀ md : OpenModes, md.mustExist = true → md.mustNotExist = false →
      Verif.openPath p md none true false s = Verif.openPath (absPath s.cfg.sep l) md none true false s := by
    intro md h1 h2
    unfold Verif.openPath
    refine rd_both (h.fileArg hi ht) fun a _ => ?_
    refine bind_left ?_
    unfold Verif.openObject
    rw [if_neg (by rw [h2]; simp), if_neg (by rw [h2]; simp)]
    refine bind_left ?_
    cases a.1 with
    | some x => rfl
    | none =>
      unfold Verif.initFileObject
      dsimp only
      rw [if_pos h1, if_pos h1]
      rfl
  cases hd : s.openDirArg (absPath s.cfg.sep l) with
  | error e =>
    have e1 : ∀ p, s.openDirArg p = .error e → Verif.osOpen p f mode s = (.error e, s) := by
      intro p hp
      unfold Verif.osOpen
      dsimp only
      rw [if_neg (by unfold OFlags.modes; dsimp only; simpa using hx)]
      rw [M.bind_eq]
      dsimp only [M.get]
      rw [M.bind_eq, rd_eq (f := fun x => x.openDirArg p) hp]
    rw [e1 _ hd, e1 _ (ed.trans hd)]
  | ok v =>
  cases v with
  | some z =>
    unfold Verif.osOpen
    dsimp only
    rw [if_neg (by unfold OFlags.modes; dsimp only; simpa using hx), if_neg (by unfold OFlags.modes; dsimp only; simpa using hx)]
    rw [M.bind_eq, M.bind_eq]
    dsimp only [M.get]
    rw [M.bind_eq, rd_eq (f := fun x => x.openDirArg _) (ed.trans hd), M.bind_eq, rd_eq (f := fun x => x.openDirArg _) hd]
  | none =>
    rw [osOpen_file hx hd, osOpen_file hx (ed.trans hd)]
    rw [M.bind_eq, M.bind_eq, eo _ (by unfold OFlags.modes; simp [hf]) (by unfold OFlags.modes; simp [hx'])]
    rcases hop : Verif.openPath (absPath s.cfg.sep l) f.modes none true false s with ⟨res, s'⟩
    cases res with
    | error e => rfl
    | ok i =>
      dsimp only
      have e : hget i s' = (.ok (s'.handles i), s') := rfl
      rw [M.bind_eq, M.bind_eq, e]
      dsimp only
      by_cases hne : (s'.handles i).obj ≠ devNullRef
      · rw [if_pos hne, if_pos hne]
        have hgood := openPath_pres (absPath s.cfg.sep l) f.modes none true false s hi
        unfold wp at hgood
        rw [hop] at hgood
        have hW : Word s' p l := by
          have hk := opened_keeps (P := fun t => t.devName = s.devName ∧ ∀ q, (∀ w ∈ q, Plain s.cfg.sep w) →
            s.exists_ (absPath s.cfg.sep q) = .ok true → t.exists_ (absPath s.cfg.sep q) = .ok true) hs ht ⟨rfl, fun _ _ e => e⟩ ?_ ?_ hwin hw hg hd h.dev hop hne
          · exact h.keep hi ht hgood.ext.cfg hgood.ext.cwd hgood.ext.limit hk.1 hk.2
          · intro a b ag ha
            exact ⟨ag.devName.trans ha.1, fun q hq e => by rw [ag.exists_ (closed_true a)]; exact ha.2 q hq e⟩
          · intro s0 d nm hi0 a he hl
            refine ⟨?_, fun q hq e => a.exists_stays hi hi0 ht he hl hq e⟩
            unfold FS.devName
            rw [a.others devNullRef (devNull_lt hi) (fun e => isDir_ne_devNull hi a.dir e.symm) (Nat.ne_of_lt (devNull_lt hi))]
        refine bind_left ?_
        have : Verif.chmod p mode true s' = Verif.chmod (absPath s'.cfg.sep l) mode true s' :=
          rd_left (hW.resolve hgood.inv (by rw [hgood.ext.cfg]; exact ht) true)
        rw [hgood.ext.cfg] at this
        exact this
      · rw [if_neg hne, if_neg hne]

/-- `os.chdir` changes nothing but the current directory. -/
theorem chdir_only (p : Str) (s : FS) : (Verif.chdir p s).2 = { s with cwd := (Verif.chdir p s).2.cwd } := by
  unfold Verif.chdir
  rw [M.bind_eq]
  rcases e : rd (fun x => x.resolvePath p) s with ⟨r, s1⟩
  have hs1 : s1 = s := by injection e with _ e; exact e.symm
  subst hs1
  cases r with
  | error _ => rfl
  | ok q =>
    dsimp only
    rw [M.bind_eq]
    rcases e : rd (fun x => x.confirmdir q) s1 with ⟨r, s2⟩
    have hs2 : s2 = s1 := by injection e with _ e; exact e.symm
    subst hs2
    cases r with
    | error _ => rfl
    | ok d =>
      dsimp only
      rw [M.bind_eq]
      rcases e : rd (fun x => x.resolve q) s2 with ⟨r, s3⟩
      have hs3 : s3 = s2 := by injection e with _ e; exact e.symm
      subst hs3
      cases r with
      | error _ => rfl
      | ok z => rfl

theorem notStd_same (fd : Int) (s : FS) : (notStd fd s).2 = s := by
  unfold notStd
  split <;> rfl

theorem fsync_same (fd : Int) (s : FS) : (fsync fd s).2 = s := by
  unfold fsync
  rw [M.bind_eq]
  have h1 := notStd_same fd s
  rcases hns : notStd fd s with ⟨r, s1⟩
  rw [hns] at h1
  replace h1 : s1 = s := h1
  subst h1
  cases r with
  | error _ => rfl
  | ok _ =>
    dsimp only
    rw [M.bind_eq]
    cases hg : s1.getOpen fd with
    | error e => rw [rd_eq (f := fun x => x.getOpen fd) hg]
    | ok g =>
      rw [rd_eq (f := fun x => x.getOpen fd) hg]
      dsimp only
      rw [M.bind_eq]
      dsimp only [M.get]
      split <;> rfl

theorem fdatasync_same (fd : Int) (s : FS) : (fdatasync fd s).2 = s := by
  unfold fdatasync
  rw [M.bind_eq]
  dsimp only [M.get]
  split
  · rfl
  rw [M.bind_eq]
  have h1 := notStd_same fd s
  rcases hns : notStd fd s with ⟨r, s1⟩
  rw [hns] at h1
  replace h1 : s1 = s := h1
  subst h1
  cases r with
  | error _ => rfl
  | ok _ =>
    dsimp only
    rw [M.bind_eq]
    cases hg : s1.getOpen fd with
    | error e => rw [rd_eq (f := fun x => x.getOpen fd) hg]
    | ok g => rw [rd_eq (f := fun x => x.getOpen fd) hg]; rfl

theorem fdSayOn_limit {s : FS} (hi : Inv s) (c : Ref.FdSaid) : (fdSayOn c s).2.limit = s.limit := by
  have key : ∀ {α : Type} (f : α → Ref.Res) (m : M α), Pres m → (doCall f m s).2.limit = s.limit := fun f m hm => (hm s hi).ext.limit
  cases c with
  | said c => exact sayOn_limit hi c
  | «open» p f mode => exact key _ _ (osOpen_pres _ _ _)
  | read fd n => exact key _ _ (osRead_pres _ _)
  | write fd b => exact key _ _ (osWrite_pres _ _)
  | close fd => exact key _ _ (osClose_pres _)
  | size fd => rfl
  | truncate p n => exact key _ _ (truncate_pres _ _)
  | ftruncate fd n => exact key _ _ (ftruncate_pres _ _)
  | fsync fd => exact congrArg FS.limit (fsync_same fd s)
  | fdatasync fd => exact congrArg FS.limit (fdatasync_same fd s)
  | access p wr => rfl

section
variable {k : Cfg} {u : Nat} {s : FS} {w : List Str}

/-- a call that leaves everything as it is and fails, in the reference file system with descriptors -/
theorem refuses_of {s' : FS} {e : Errno} {r : Ref.Res} (h1 : Ref.Fails (treeOf s) e r (treeOf s')) (h2 : (sysOf s').fds = (sysOf s).fds)
    (h3 : (sysOf s).Keeps (sysOf s') fun _ => False) : Ref.Refuses (sysOf s) e r (sysOf s') :=
  ⟨h1.1, names_same h1.2, h2, h3⟩

theorem SysSt.chdir (hk : Linux k) (hs : SysSt k u s) (hw : Usable w) (hc : s.cwd = absPath '/' w) (hlim : s.limit ≠ 0) {p : Str}
    (hp : TextOk (treeOf s) w p) (hu : Usable (Ref.meaning w p)) :
    SysSt k u (Verif.chdir p s).2 ∧ ∃ w', Usable w' ∧ (Verif.chdir p s).2.cwd = absPath '/' w' ∧
      Ref.FdTells (sysOf s) w (.said (.chdir p)) (resOf (fun _ => .done) (Verif.chdir p s).1) (sysOf (Verif.chdir p s).2) w' := by
  obtain ⟨h1, w', h2, h3, h4⟩ := hs.toRefSt.chdir hk hw hc hlim hp hu
  have ho := chdir_only p s
  obtain ⟨k1, k2, k3⟩ := hs.held h1 (by rw [ho]; exact Held.heap rfl rfl) (by rw [ho]; exact ⟨rfl, rfl, rfl⟩)
  refine ⟨k1, w', h2, h3, ?_⟩
  unfold Ref.Tells at h4
  dsimp only at h4
  unfold Ref.FdTells
  dsimp only
  rw [names_tree, sysOf_tree]
  rcases ht : treeOf s (Ref.meaning w p) with _ | _ | ⟨i, b⟩ <;> rw [ht] at h4 <;> dsimp only at h4 ⊢
  · obtain ⟨⟨e, ha, hf⟩, hw'⟩ := h4
    exact ⟨⟨e, ha, refuses_of hf k2 (k3 _)⟩, hw'⟩
  · exact ⟨h4.1, names_same h4.2.1, k2, k3 _, h4.2.2⟩
  · exact ⟨refuses_of h4.1 k2 (k3 _), h4.2⟩

/-- a file gets another size -/
theorem SysSt.resize (hk : Linux k) (hs : SysSt k u s) {s' : FS} (hb : RefBase k u s') {r : Ref} {C : Bytes} {n : Nat} (hlt : r < s.next)
    (hn : r ≠ devNullRef) (hC : (s.heap r).content = .file (some C)) (hz : (s.heap r).size = C.length)
    (hC' : (s'.heap r).content = .file (some (resized C n))) (hz' : (s'.heap r).size = n) (he : (s'.heap r).epoch = (s.heap r).epoch + 1)
    (ho : ∀ x, x ≠ r → s'.heap x = s.heap x) (hsh : Shape s s') (env : s' = { s with heap := s'.heap, mounts := s'.mounts }) :
    SysSt k u s' ∧ Ref.Resizes (sysOf s) r n .done (sysOf s') := by
  have hlen : (resized C n).length = n := by
    unfold resized
    simp only [List.length_append, List.length_take, List.length_replicate]
    omega
  have hr := hs.toRefSt.holds hk hb hn hC ⟨hC', by rw [hz', hlen], ho, hsh⟩
  have st : Steady s.hnext s s' := by
    refine Steady.of (by rw [env]) (by rw [env]) (fun y _ => ?_) fun g _ _ => Or.inl (by rw [env])
    by_cases e : y = r
    · subst e
      exact fun b _ _ => ⟨_, hC', by rw [hz', hlen], by rw [he]; exact Nat.le_succ _, fun e => absurd e (by rw [he]; exact Nat.succ_ne_self _)⟩
    · rw [ho y e]; exact Newer.refl _
  obtain ⟨h1, h2⟩ := hs.sameFds hr.1 st (by rw [env]) fun fd h3 hsl => by
    exfalso
    rcases fds_cases hs fd with ⟨_, hn⟩ | ⟨g, _, hg, _, hlt, _⟩
    · exact hn h3 ⟨_, hsl⟩
    · rw [hsl] at hg
      simp only [Option.some.injEq, List.cons.injEq, and_true] at hg
      rw [hg] at hlt
      exact Nat.lt_irrefl _ hlt
  refine ⟨h1, rfl, names_store hr.2, h2, keeps_of ho (Or.inl rfl), ?_⟩
  rw [data_of hC', data_of hC]
  rfl

/-- what `setSize` does to a file -/
theorem SysSt.setSize (hk : Linux k) (hs : SysSt k u s) {r : Ref} {C : Bytes} {n : Nat} (hb : RefBase k u (Verif.setSize r n s).2) (hlt : r < s.next)
    (hn : r ≠ devNullRef) (hC : (s.heap r).content = .file (some C)) (hz : (s.heap r).size = C.length) (hm : NotEmpty C n) :
    (Verif.setSize r n s).1 = .ok () ∧ SysSt k u (Verif.setSize r n s).2 ∧ Ref.Resizes (sysOf s) r n .done (sysOf (Verif.setSize r n s).2) := by
  have hst : s.stSize (s.heap r) = C.length := by
    unfold FS.stSize
    rw [if_neg (by rw [hs.isWin hk]; simp)]
    exact hz
  have hf : (s.heap r).isDir = false := by unfold Obj.isDir; rw [hC]
  have sh := sh_setSize r n s
  rw [setSize_eq hC, hst, if_pos (fits_limitless hs.limitless _ _), sized_resized hm] at hb sh ⊢
  have hd := withSize_data (s := s) (r := r) hf n (some (resized C n))
  exact ⟨rfl, hs.resize hk hb hlt hn hC hz (by simp [FS.withSize]) (by simp [FS.withSize]) (by simp [FS.withSize]) hd.others sh hd.env⟩

theorem SysSt.truncate (hk : Linux k) (hs : SysSt k u s) (hw : Usable w) (hc : s.cwd = absPath '/' w) (hlim : s.limit ≠ 0) {p : Str} {n : Nat}
    (hp : TextOk (treeOf s) w p) (hu : Usable (Ref.meaning w p))
    (hm : match (sysOf s).names (Ref.meaning w p) with | some (.file i) => NotEmpty ((sysOf s).data i) n | _ => True) :
    SysSt k u (Verif.truncate p n s).2 ∧
      Ref.FdTells (sysOf s) w (.truncate p n) (resOf (fun _ => .done) (Verif.truncate p n s).1) (sysOf (Verif.truncate p n s).2) w := by
  have hr := (hs.toRefSt.word hk hw hc hlim hp hu).resolve hs.inv (hs.toRefSt.tree hk) true
  have hb : RefBase k u (Verif.truncate p n s).2 := hs.toRefBase.next hk (.truncate p n) rfl trivial (by simp)
  have same : ∀ e, Verif.truncate p n s = (.error e, s) → SysSt k u (Verif.truncate p n s).2 ∧
      (sysOf (Verif.truncate p n s).2).names = (sysOf s).names ∧ (sysOf (Verif.truncate p n s).2).fds = (sysOf s).fds ∧
      (sysOf s).Keeps (sysOf (Verif.truncate p n s).2) fun _ => False := by
    intro e he
    rw [he]
    exact ⟨hs, rfl, rfl, fun _ _ _ => rfl⟩
  unfold Ref.FdTells
  dsimp only
  rw [names_tree] at hm ⊢
  generalize Ref.meaning w p = l at hu hr hm ⊢
  rcases hs.toRefSt.cases hk l with ⟨h1, h2⟩ | ⟨x, h1, h2, _, h3⟩ | ⟨x, b, h1, h2, h4, h5, hz, hn, h3⟩
  · obtain ⟨e, he, ha⟩ := hs.toRefSt.absent hk hu h1 true
    have run : Verif.truncate p n s = (.error (.os e), s) := by
      unfold Verif.truncate
      rw [M.bind_eq, rd_eq (f := fun x => x.resolve p) (hr.trans he)]
    obtain ⟨k1, k2⟩ := same _ run
    refine ⟨k1, rfl, ?_⟩
    rw [h2, sysOf_tree]
    refine ⟨e, ha, ?_, k2⟩
    rw [run]; rfl
  · have run : Verif.truncate p n s = (.error .attributeError, s) := by
      unfold Verif.truncate
      rw [M.bind_eq, rd_eq (f := fun x => x.resolve p) (hr.trans (hs.toRefSt.res hk hu h1 true))]
      dsimp only
      unfold Verif.setSize
      unfold Obj.isDir at h2
      split
      · rfl
      · rename_i e; rw [e] at h2; simp at h2
    obtain ⟨k1, k2⟩ := same _ run
    refine ⟨k1, rfl, ?_⟩
    rw [h3]
    refine ⟨?_, k2⟩
    rw [run]; rfl
  · rw [h3] at hm ⊢
    dsimp only at hm ⊢
    rw [data_of h4] at hm
    have run : Verif.truncate p n s = Verif.setSize x n s := by
      unfold Verif.truncate
      rw [M.bind_eq, rd_eq (f := fun x => x.resolve p) (hr.trans (hs.toRefSt.res hk hu h1 true))]
    rw [run] at hb ⊢
    obtain ⟨k1, k2, k3⟩ := hs.setSize hk hb (walk_lt hs.inv _ (root_lt hs.inv) h1) hn h4 hz hm
    rw [k1]
    exact ⟨k2, rfl, k3⟩

theorem SysSt.ftruncate (hk : Linux k) (hs : SysSt k u s) {fd n : Nat} (h3 : 3 ≤ fd)
    (hm : match (sysOf s).fds fd with
      | none => True
      | some .dir => False
      | some (.append i) => NotEmpty ((sysOf s).data i) n
      | some (.file i _ _ _) => NotEmpty ((sysOf s).data i) n) :
    SysSt k u (Verif.ftruncate fd n s).2 ∧
      Ref.FdTells (sysOf s) w (.ftruncate fd n) (resOf (fun _ => .done) (Verif.ftruncate fd n s).1) (sysOf (Verif.ftruncate fd n s).2) w := by
  have hb : RefBase k u (Verif.ftruncate fd n s).2 := hs.toRefBase.next hk (.ftruncate fd n) rfl trivial (by simp)
  unfold Ref.FdTells
  dsimp only
  rcases fds_cases hs fd with ⟨e, hu⟩ | ⟨g, _, hsl, hg, hlt, hfd, ho, e, hok⟩
  · rw [e]
    have he : s.getOpen fd = .error (.os .EBADF) := by
      rcases getOpen_spec (reachable_fdInv hs.reach) fd with ⟨h, _⟩ | ⟨g, l, _, hsl⟩
      · exact h
      · exact absurd ⟨_, hsl⟩ (hu h3)
    have run : Verif.ftruncate fd n s = (.error (.os .EBADF), s) := by
      unfold Verif.ftruncate
      rw [M.bind_eq, rd_eq (f := fun x => x.getOpen fd) he]
    rw [run]
    exact ⟨hs, rfl, rfl, rfl, rfl, fun _ _ _ => rfl⟩
  · rw [e] at hm ⊢
    rcases hok with hd | hf
    · have ed : descOf (s.handles g) = .dir := by unfold descOf; rw [hd]; rfl
      rw [ed] at hm
      exact hm.elim
    · obtain ⟨C, hC, hz⟩ := hf.data
      have run : Verif.ftruncate fd n s = Verif.setSize (s.handles g).obj n s := by
        unfold Verif.ftruncate
        rw [M.bind_eq, rd_eq (f := fun x => x.getOpen fd) hg]
        dsimp only
        rw [M.bind_eq]
        dsimp only [hget]
        rw [if_neg (by rw [hf.kind]; simp)]
      have hm : NotEmpty C n := by
        rw [← data_of hC]
        cases ha : (s.handles g).append with
        | true => have ed : descOf (s.handles g) = .append (s.handles g).obj := by unfold descOf; rw [hf.kind, ha]; rfl
                  rw [ed] at hm; exact hm
        | false => have ed : descOf (s.handles g) = .file (s.handles g).obj (s.handles g).pos (s.handles g).read (s.handles g).update := by
                     unfold descOf; rw [hf.kind, ha]; rfl
                   rw [ed] at hm; exact hm
      rw [run] at hb ⊢
      obtain ⟨k1, k2, k3⟩ := hs.setSize hk hb hf.lt hf.ne hC hz hm
      rw [k1]
      refine ⟨k2, rfl, ?_⟩
      cases ha : (s.handles g).append with
      | true => have ed : descOf (s.handles g) = .append (s.handles g).obj := by unfold descOf; rw [hf.kind, ha]; rfl
                rw [ed]; exact k3
      | false => have ed : descOf (s.handles g) = .file (s.handles g).obj (s.handles g).pos (s.handles g).read (s.handles g).update := by
                   unfold descOf; rw [hf.kind, ha]; rfl
                 rw [ed]; exact k3

/-- what a synchronising call answers -/
theorem SysSt.syncs (hs : SysSt k u s) {fd : Nat} (h3 : 3 ≤ fd) {m : M Unit} (hm : (m s).2 = s)
    (h1 : ∀ e, s.getOpen fd = .error e → (m s).1 = .error e) (h2 : ∀ g, s.getOpen fd = .ok g → (m s).1 = .ok ()) :
    SysSt k u (doCall (fun _ => .done) m s).2 ∧
      Ref.Syncs (sysOf s) fd (doCall (fun _ => .done) m s).1 (sysOf (doCall (fun _ => .done) m s).2) := by
  unfold doCall
  dsimp only
  rw [hm]
  refine ⟨hs, ?_⟩
  unfold Ref.Syncs
  rcases fds_cases hs fd with ⟨e, hu⟩ | ⟨g, _, hsl, hg, hlt, hfd, ho, e, hok⟩
  · rw [e]
    have he : s.getOpen fd = .error (.os .EBADF) := by
      rcases getOpen_spec (reachable_fdInv hs.reach) fd with ⟨h, _⟩ | ⟨g, l, _, hsl⟩
      · exact h
      · exact absurd ⟨_, hsl⟩ (hu h3)
    rw [h1 _ he]
    exact ⟨rfl, rfl, rfl, fun _ _ _ => rfl⟩
  · rw [e, h2 _ hg]
    exact ⟨rfl, rfl, rfl, fun _ _ _ => rfl⟩

theorem SysSt.access (hk : Linux k) (hs : SysSt k u s) (hw : Usable w) (hc : s.cwd = absPath '/' w) (hlim : s.limit ≠ 0) {p : Str} (wr : Bool)
    (hp : TextOk (treeOf s) w p) (hu : Usable (Ref.meaning w p)) :
    Ref.FdTells (sysOf s) w (.access p wr) (resOf (fun b => .bool b) (s.access p (if wr then 2 else 0))) (sysOf s) w := by
  have hr := (hs.toRefSt.word hk hw hc hlim hp hu)
  have hst := hr.stat hs.inv (hs.toRefSt.tree hk)
  have hsep := hr.sepR hs.inv (hs.toRefSt.tree hk)
  have hroot := hs.toRefSt.isRoot hk
  unfold Ref.FdTells
  dsimp only
  rw [names_tree, sysOf_tree]
  refine ⟨rfl, rfl, rfl, fun _ _ _ => rfl, ?_⟩
  clear hr
  unfold FS.access
  rw [hst]
  generalize Ref.meaning w p = l at hu hsep ⊢
  have there : ∀ x, walk s.heap rootRef l = some x → ∃ st, s.stat (absPath s.cfg.sep l) = .ok st := by
    intro x h1
    refine ⟨s.statOf x, ?_⟩
    unfold FS.stat
    rw [hs.toRefSt.res hk hu h1 false]
    simp only [bind, Except.bind, hroot, Bool.not_true, Bool.false_eq_true, if_false, noSep_raise hsep]
    rfl
  have yes : ∀ st : Stat, ((if s.isRoot then andNot (if wr then 2 else 0) 2 else if wr then 2 else 0) &&& ((st.mode >>> 6) &&& 7) ==
      (if s.isRoot then andNot (if wr then 2 else 0) 2 else if wr then 2 else 0)) = true := by
    intro st
    rw [if_pos hroot]
    have : andNot (if wr then 2 else 0) 2 = 0 := by cases wr <;> decide +kernel
    rw [this]; simp
  rcases hs.toRefSt.cases hk l with ⟨h1, h2⟩ | ⟨x, h1, _, _, h3⟩ | ⟨x, b, h1, _, _, _, _, _, h3⟩
  · obtain ⟨e, he, ha⟩ := hs.toRefSt.absent hk hu h1 false
    have e1 : s.stat (absPath s.cfg.sep l) = .error (.os e) := by
      unfold FS.stat
      rw [he]
      rfl
    rw [h2, e1]
    refine ⟨e, ha, ?_⟩
    cases e <;> rfl
  · obtain ⟨st, e1⟩ := there x h1
    rw [h3, e1]
    dsimp only
    rw [yes]
    rfl
  · obtain ⟨st, e1⟩ := there x h1
    rw [h3, e1]
    dsimp only
    rw [yes]
    rfl

/-- **C87** (one call). In a state that stands for a system with descriptors and a current directory of the reference file system, whatever
may be said is answered as the reference file system answers it, and the state afterwards stands for the system and the directory it then
has. -/
theorem fdTalks_step (hk : Linux k) (hu : u < 0o10000) (hr : u &&& PERM_READ = 0) (h : SysSt k u s)
    (hw : Usable w) (hc : s.cwd = absPath '/' w) (hlim : s.limit ≠ 0) {c : Ref.FdSaid} (hs : FdSayable k (sysOf s) w c) :
    SysSt k u (fdSayOn c s).2 ∧ ∃ w', Usable w' ∧ (fdSayOn c s).2.cwd = absPath '/' w' ∧
      Ref.FdTells (sysOf s) w c (fdSayOn c s).1 (sysOf (fdSayOn c s).2) w' := by
  have hi := h.inv
  have ht := h.toRefSt.tree hk
  unfold FdSayable at hs
  rw [sysOf_tree] at hs
  have key : ∀ {α : Type} (f : α → Ref.Res) (m : M α), Pres m → (doCall f m s).2.cwd = absPath '/' w := fun f m hm => (hm s hi).ext.cwd.trans hc
  cases c with
  | said c =>
    cases c with
    | getcwd => exact ⟨h, w, hw, hc, by rw [← hc]; rfl, rfl, rfl, fun _ _ _ => rfl, rfl⟩
    | chdir p => exact h.chdir hk hw hc hlim hs.1 hs.2
    | call c =>
      by_cases hl : Ref.Lost (treeOf s) w c
      · obtain ⟨h1, p, rfl, h2⟩ := id hl
        obtain ⟨e, r1, r2, r3, r4, r5⟩ := h.toRefSt.lost hk hw hc hlim hs.2.1.1 hs.2.1.2 hs.1.1 h2 ((h.treeAt hk w).mp h1)
        obtain ⟨k1, k2, k3⟩ := h.held r3 (fo_mkdir p 0o777 (fun _ => trivial) s) (fr_mkdir (R := SameTab) p 0o777 s)
        refine ⟨k1, w, hw, r5.trans hc, rfl, Or.inr ⟨by rw [sysOf_tree]; exact hl, e, by rw [sysOf_tree]; exact r2, refuses_of ⟨?_, r4⟩ k2 (k3 _)⟩⟩
        show resOf _ (Verif.mkdir p 0o777 s).1 = _
        rw [r1]; rfl
      · have e := h.toRefSt.sayCall hk hw hc hlim hs hl
        have hst := fdRefines_step hk hu hr h (c := .tree (c.map (Ref.meaning w))) hs.1
        show SysSt k u (sayCall c s).2 ∧ ∃ w', Usable w' ∧ (sayCall c s).2.cwd = absPath '/' w' ∧
          Ref.FdTells (sysOf s) w (.said (.call c)) (sayCall c s).1 (sysOf (sayCall c s).2) w'
        rw [e]
        exact ⟨hst.st, w, hw, (callOn_cwd h.inv _).trans hc, rfl, Or.inl ⟨by rw [sysOf_tree]; exact hl, hst.step⟩⟩
  | «open» p f mode =>
    have ho : osOpen p (flagsOf f) mode s = osOpen (absPath '/' (Ref.meaning w p)) (flagsOf f) mode s := by
      by_cases hcr : f.creat = true
      · obtain ⟨l, n, e, hW⟩ := h.toRefSt.written hk hw hc hlim hs.1.1 (hs.1.2 hcr) hs.2.1
        rw [e, ← h.sep hk]
        exact hW.osOpen h.reach ht (h.isWin hk) (h.within hk) (h.genuine hk) (flagsOf f) mode
      · have := (h.toRefSt.word hk hw hc hlim hs.1.1 hs.2.1).osOpen h.reach ht (h.isWin hk) (h.within hk) (h.genuine hk) (flagsOf f)
          (by cases e : f.creat; · exact e
              · exact absurd e hcr) mode
        rw [h.sep hk] at this
        exact this
    have hst := fdRefines_step hk hu hr h (c := .open (Ref.meaning w p) f mode) hs.2
    have e2 : fdSayOn (.open p f mode) s = fdCallOn (.open (Ref.meaning w p) f mode) s := by
      show doCall _ (osOpen p (flagsOf f) mode) s = doCall _ (osOpen (absPath '/' (Ref.meaning w p)) (flagsOf f) mode) s
      unfold doCall
      rw [ho]
    rw [e2]
    exact ⟨hst.st, w, hw, key _ _ (osOpen_pres _ _ _), rfl, hst.step⟩
  | read fd n =>
    have hst := fdRefines_step hk hu hr h (c := .read fd n) hs
    exact ⟨hst.st, w, hw, key _ _ (osRead_pres _ _), rfl, hst.step⟩
  | write fd b =>
    have hst := fdRefines_step hk hu hr h (c := .write fd b) hs
    exact ⟨hst.st, w, hw, key _ _ (osWrite_pres _ _), rfl, hst.step⟩
  | close fd =>
    have hst := fdRefines_step hk hu hr h (c := .close fd) hs
    exact ⟨hst.st, w, hw, key _ _ (osClose_pres _), rfl, hst.step⟩
  | size fd =>
    have hst := fdRefines_step hk hu hr h (c := .size fd) hs
    exact ⟨hst.st, w, hw, hc, rfl, hst.step⟩
  | truncate p n =>
    obtain ⟨h1, h2⟩ := h.truncate hk hw hc hlim hs.1 hs.2.1 hs.2.2
    exact ⟨h1, w, hw, key _ _ (truncate_pres _ _), h2⟩
  | ftruncate fd n =>
    obtain ⟨h1, h2⟩ := h.ftruncate (w := w) hk hs.1 hs.2
    exact ⟨h1, w, hw, key _ _ (ftruncate_pres _ _), h2⟩
  | fsync fd =>
    have h3 : 3 ≤ fd := hs
    have hn : notStd (fd : Int) s = (.ok (), s) := by unfold notStd; rw [if_neg (by omega)]; rfl
    obtain ⟨h1, h2⟩ := h.syncs h3 (fsync_same (fd : Int) s)
      (fun e he => by unfold fsync; rw [M.bind_eq, hn]; dsimp only; rw [M.bind_eq, rd_eq (f := fun x => x.getOpen fd) he])
      (fun g hg => by
        unfold fsync; rw [M.bind_eq, hn]; dsimp only; rw [M.bind_eq, rd_eq (f := fun x => x.getOpen fd) hg]
        dsimp only
        rw [M.bind_eq]
        dsimp only [M.get]
        rw [if_neg (by rw [h.isWin hk]; simp)]
        rfl)
    exact ⟨h1, w, hw, (congrArg FS.cwd (fsync_same (fd : Int) s)).trans hc, rfl, h2⟩
  | fdatasync fd =>
    have h3 : 3 ≤ fd := hs
    have hn : notStd (fd : Int) s = (.ok (), s) := by unfold notStd; rw [if_neg (by omega)]; rfl
    have hmac : ¬ (s.cfg.isWin = true ∨ s.cfg.isMac = true) := by
      rw [h.isWin hk, h.toRefBase.cfg, hk.mac]; simp
    obtain ⟨h1, h2⟩ := h.syncs h3 (fdatasync_same (fd : Int) s)
      (fun e he => by
        unfold fdatasync; rw [M.bind_eq]; dsimp only [M.get]; rw [if_neg hmac]
        rw [M.bind_eq, hn]; dsimp only; rw [M.bind_eq, rd_eq (f := fun x => x.getOpen fd) he])
      (fun g hg => by
        unfold fdatasync; rw [M.bind_eq]; dsimp only [M.get]; rw [if_neg hmac]
        rw [M.bind_eq, hn]; dsimp only; rw [M.bind_eq, rd_eq (f := fun x => x.getOpen fd) hg]
        rfl)
    exact ⟨h1, w, hw, (congrArg FS.cwd (fdatasync_same (fd : Int) s)).trans hc, rfl, h2⟩
  | access p wr => exact ⟨h, w, hw, hc, h.access hk hw hc hlim wr hs.1 hs.2⟩
end

theorem fdTalks_from {k : Cfg} (hk : Linux k) {u : Nat} (hu : u < 0o10000) (hr : u &&& PERM_READ = 0) (cs : List Ref.FdSaid) :
    ∀ {s : FS} {w : List Str}, SysSt k u s → Usable w → s.cwd = absPath '/' w → s.limit ≠ 0 → AllFdSayable k cs s →
      ∃ y' w', Ref.FdTalk (sysOf s) w cs (fdTold cs s) y' w' := by
  induction cs with
  | nil => intro s w _ _ _ _ _; exact ⟨_, _, .nil _ _⟩
  | cons c cs ih =>
    intro s w h hw hc hlim ha
    obtain ⟨h1, w1, h2, h3, h4⟩ := fdTalks_step hk hu hr h hw hc hlim (by
      have e : Ref.meaning [] s.cwd = w := by
        unfold Ref.meaning
        rw [hc, List.reverse_nil, loc_absPath (plain_proper hw.plain), List.reverse_reverse]
      have := ha.1
      rwa [e] at this)
    obtain ⟨y', w', h5⟩ := ih h1 h2 h3 (by rw [fdSayOn_limit h.inv]; exact hlim) ha.2
    exact ⟨y', w', .cons h4 h5⟩

/-- **C87**. A new fake Linux filesystem of unlimited size, used by root with a umask that leaves the owner's read permission, answers a
program that opens, reads, writes and closes descriptors, changes its current directory and writes its paths as it likes as the reference
file system does. -/
theorem fdTalks {k : Cfg} (hk : Linux k) {limit : Nat} (hlim : limit ≠ 0) (gid : Nat) (clock : Int) {u : Nat} (hu : u < 0o10000) (hr : u &&& PERM_READ = 0)
    (cs : List Ref.FdSaid) (hc : AllFdSayable k cs (initFS k limit 0 gid u clock none)) :
    ∃ y y' w, y.IsNew ∧ Ref.FdTalk y [] cs (fdTold cs (initFS k limit 0 gid u clock none)) y' w := by
  obtain ⟨h1, h2⟩ := init_sysSt hk limit gid u clock
  obtain ⟨y', w', h3⟩ := fdTalks_from hk hu hr cs h1 (w := []) ⟨by simp, by simp⟩ (by
    show [k.sep] = _
    rw [hk.sep]; rfl) hlim hc
  exact ⟨_, y', w', h2, h3⟩

/-! ## A history -/

instance (b : Bytes) (n : Nat) : Decidable (NotEmpty b n) := by unfold NotEmpty; infer_instance

instance (k : Cfg) (y : Ref.Sys) (w : Ref.Path) (c : Ref.FdSaid) : Decidable (FdSayable k y w c) := by
  cases c <;> simp only [FdSayable] <;> (try split) <;> infer_instance

instance allFdSayableDec (k : Cfg) : ∀ (cs : List Ref.FdSaid) (s : FS), Decidable (AllFdSayable k cs s)
  | [], _ => isTrue trivial
  | c :: cs, s => by
    have := allFdSayableDec k cs (fdSayOn c s).2
    unfold AllFdSayable; infer_instance

/-- files are opened by relative paths; the descriptors survive `os.chdir`, and the removal of the file and of the current directory -/
def fdTalk : List Ref.FdSaid :=
  [.said (.call (.makedirs "p/q".toList false)), .said (.chdir "p".toList), .open "q/../f".toList ⟨true, true, true, true, false, false⟩ 0o644,
   .write 3 [1, 2, 3], .said (.chdir "q".toList), .open "../f".toList ⟨true, false, false, false, false, false⟩ 0o644, .read 4 2,
   .open "f".toList ⟨true, false, false, false, false, false⟩ 0o644, .open ".//f".toList ⟨true, true, true, true, false, false⟩ 0o644,
   .write 5 [9], .said (.call (.rename "../f".toList "g".toList)), .write 3 [4], .said (.call (.readBytes "./g".toList)),
   .said (.call (.removeAll "/p".toList)), .read 4 10, .said (.call (.exists ".".toList)), .said .getcwd,
   .open "f".toList ⟨false, true, true, false, false, false⟩ 0o644, .said (.call (.mkdir "d".toList)),
   .said (.chdir "/".toList), .open "f".toList ⟨false, true, true, false, false, true⟩ 0o644, .write 6 [7, 7], .size 6, .size 3,
   .said (.call (.getsize "./f".toList)), .close 5, .said (.chdir "f".toList), .read 5 1,
   .open "//f".toList ⟨true, false, false, false, false, false⟩ 0o644, .read 5 9,
   .truncate "./f".toList 4, .read 5 9, .ftruncate 6 1, .write 6 [5], .truncate ".//f".toList 3, .said (.call (.readBytes "f".toList)), .ftruncate 3 2,
   .write 3 [6], .size 4, .truncate "/".toList 1, .truncate "f/g".toList 1, .ftruncate 9 1, .ftruncate 6 0, .read 5 1, .write 6 [8],
   .open ".".toList ⟨true, false, false, false, false, false⟩ 0o644, .close 7, .said (.call (.mkdir "d".toList)), .open "d/..".toList ⟨true, false, false, false, false, false⟩ 0o644,
   .open "d/.".toList ⟨true, true, false, false, false, false⟩ 0o644, .read 7 1,
   .fsync 7, .fdatasync 6, .fsync 9, .access "d/../f".toList true, .access "f/x".toList false, .access "nope".toList true]

example : AllFdSayable demoCfg fdTalk (initFS demoCfg 50 0 0 0o022 7 none) := by decide +kernel

example : fdTold fdTalk (initFS demoCfg 50 0 0 0o022 7 none) =
    [.done, .done, .num 3, .num 3, .done, .num 4, .bytes [1, 2], .err .ENOENT, .num 5, .num 1, .done, .num 1, .bytes [1, 2, 3, 4], .done,
      .bytes [3, 4], .bool false, .text "/p/q".toList, .err .ENOENT, .err .ENOENT, .done, .num 6, .num 2, .num 2, .num 4, .num 2, .done,
      .err .ENOTDIR, .err .EBADF, .num 5, .bytes [7, 7],
      .done, .bytes [0, 0], .done, .num 1, .done, .bytes [7, 5, 0], .done, .num 1, .num 5, .crash, .err .ENOTDIR, .err .EBADF, .done, .bytes [], .num 1,
      .num 7, .done, .done, .num 7, .err .EISDIR, .crash, .done, .done, .err .EBADF, .bool true, .err .ENOTDIR, .bool false] := by decide +kernel

end Verif
