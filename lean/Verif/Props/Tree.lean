import Verif.Demo
import Mathlib.Data.Fintype.Card
/-!
# C08, C09, C10, C12, C43, C46: the object graph after any history

`Spec.walk hp r names` (LookupTree) is the object reached from `r` by directory entries.
-/

namespace Verif
open Py Spec Cfg

/-! ## C08 -/

/-- Objects found by path have an inode number, except the null device. -/
theorem Closed.hasIno {s : FS} (h : Inv s) :
    Closed s fun r => r < s.next ∧ ((s.heap r).ino ≠ none ∨ r = devNullRef) :=
  ⟨⟨root_lt h, Or.inl h.g.rootIno⟩, ⟨devNull_lt h, Or.inr rfl⟩,
    fun d hd e he => ⟨h.g.entLt d hd.1 e he, Or.inl (h.g.entIno d hd.1 e he)⟩⟩

/-- C08: two paths whose objects have the same inode number lead to the same object, in every reachable
state of every configuration. -/
theorem inode_identifies_object {s : FS} (hs : Reachable s) {p q : Str} {f g c d : Bool} {x y : Ref}
    (hx : s.resolve p f c = .ok x) (hy : s.resolve q g d = .ok y)
    (hi : (s.heap x).ino = (s.heap y).ino) : x = y := by
  have h := reachable_inv hs
  obtain ⟨hx1, hx2⟩ := (Closed.hasIno h).resolve hx
  obtain ⟨hy1, hy2⟩ := (Closed.hasIno h).resolve hy
  by_cases hn : (s.heap x).ino = none
  · rcases hx2 with hx2 | rfl
    · exact absurd hn hx2
    · rcases hy2 with hy2 | rfl
      · exact absurd (hi ▸ hn) hy2
      · rfl
  · obtain ⟨i, hi'⟩ := Option.ne_none_iff_exists'.mp hn
    exact h.g.inoInj x hx1 y hy1 i hi' (hi ▸ hi')

/-- `stat` reports the attributes of an object the path resolves to. -/
theorem stat_ok {s : FS} {p : Str} {f : Bool} {st : Stat} (h : s.stat p f = .ok st) :
    ∃ r, s.resolve p f false = .ok r ∧ st = s.statOf r := by
  unfold FS.stat at h
  obtain ⟨r, hr, h⟩ := except_bind_ok h
  refine ⟨r, hr, ?_⟩
  have fin : ∀ {x : Except Err PUnit}, (x >>= fun _ => s.raiseForSep p r f false >>= fun _ => pure (s.statOf r)) = .ok st →
      st = s.statOf r := by
    intro x hx
    obtain ⟨_, _, hx⟩ := except_bind_ok hx
    obtain ⟨_, _, hx⟩ := except_bind_ok hx
    injection hx with hx; exact hx.symm
  split at h
  · split at h
    · exact fin (x := pure ()) h
    · obtain ⟨_, _, h⟩ := except_bind_ok h
      exact fin (x := pure ()) h
  · exact fin (x := pure ()) h

/-- C08, through `stat`: stat results with the same inode number are equal, so `st_ino` never confuses
two files. -/
theorem inode_identifies_stat {s : FS} (hs : Reachable s) {p q : Str} {f g : Bool} {a b : Stat}
    (ha : s.stat p f = .ok a) (hb : s.stat q g = .ok b) (hi : a.ino = b.ino) : a = b := by
  obtain ⟨x, hx, rfl⟩ := stat_ok ha
  obtain ⟨y, hy, rfl⟩ := stat_ok hb
  rw [inode_identifies_object hs hx hy hi]

/-- `os.path.samefile` (fake_filesystem.py 3400-3414). -/
def FS.samefile (s : FS) (p q : Str) : Except Err Bool := do
  let a ← s.stat p
  let b ← s.stat q
  .ok (decide (a.ino = b.ino) && decide (a.dev = b.dev))

/-- C08: `samefile` is true exactly for paths leading to the same object. -/
theorem samefile_iff {s : FS} (hs : Reachable s) {p q : Str} {r : Bool} (h : s.samefile p q = .ok r) :
    ∃ x y, s.resolve p true false = .ok x ∧ s.resolve q true false = .ok y ∧ (r = true ↔ x = y) := by
  unfold FS.samefile at h
  obtain ⟨a, ha, h⟩ := except_bind_ok h
  obtain ⟨b, hb, h⟩ := except_bind_ok h
  injection h with h
  obtain ⟨x, hx, rfl⟩ := stat_ok ha
  obtain ⟨y, hy, rfl⟩ := stat_ok hb
  refine ⟨x, y, hx, hy, ?_⟩
  rw [← h]
  simp only [Bool.and_eq_true, decide_eq_true_eq]
  constructor
  · intro h; exact inode_identifies_object hs hx hy h.1
  · rintro rfl; exact ⟨rfl, rfl⟩

/-- C08: inode numbers are never changed nor reused: an object keeps its number through every history, and an
object having in the later state a number that was in use before is the object that had it. -/
theorem inode_stable {s : FS} (hs : Reachable s) (ops : List Op) {p : Str} {f c : Bool} {x : Ref} {i : Nat}
    (hx : s.resolve p f c = .ok x) (hi : (s.heap x).ino = some i) :
    ((runs ops s).heap x).ino = some i ∧
    ∀ q g d y, (runs ops s).resolve q g d = .ok y → ((runs ops s).heap y).ino = some i → y = x := by
  have h := reachable_inv hs
  have hst := runs_step ops h
  have hlt := resolve_lt h hx
  have h1 : ((runs ops s).heap x).ino = some i := by
    rw [hst.pers.ino x hlt (by rw [hi]; simp), hi]
  refine ⟨h1, fun q g d y hy hj => ?_⟩
  exact hst.inv.g.inoInj y (resolve_lt hst.inv hy) x (Nat.lt_of_lt_of_le hlt hst.pers.next) i hj h1

example : ∃ x, demo.resolve ['/', 'l'] = .ok x ∧ demo.resolve ['/', 'g'] = .ok x ∧
    demo.samefile ['/', 'l'] ['/', 'g'] = .ok true ∧ demo.samefile ['/', 'l'] ['/', 'a'] = .ok false :=
  ⟨3, by decide +kernel⟩

/-! ## C09 -/

theorem alookup_mem {s : Ref → Obj} {r x : Ref} {c : Str} (h : alookup c (s r).entries = some x) :
    (c, x) ∈ (s r).entries := alookup_some h

theorem walk_snoc {hp : Ref → Obj} {r x : Ref} {l : List Str} {c : Str} (h : walk hp r (l ++ [c]) = some x) :
    ∃ y, walk hp r l = some y ∧ alookup c (hp y).entries = some x := by
  rw [walk_append, Option.bind_eq_some_iff] at h
  obtain ⟨y, hy, h⟩ := h
  refine ⟨y, hy, ?_⟩
  simp only [walk, Option.bind_eq_some_iff] at h
  obtain ⟨z, hz, h⟩ := h
  injection h with h; exact h ▸ hz

theorem isDir_of_entry {o : Obj} {e : Str × Ref} (h : e ∈ o.entries) : o.isDir = true := by
  unfold Obj.entries at h; unfold Obj.isDir
  split at h
  · rfl
  · simp at h

theorem walk_dir_unique {s : FS} (h : Inv s) : ∀ (l l' : List Str) {d : Ref},
    walk s.heap rootRef l = some d → walk s.heap rootRef l' = some d → (s.heap d).isDir = true → l = l' := by
  intro l
  induction l using List.reverseRecOn with
  | nil =>
    intro l' d h1 h2 _
    simp [walk] at h1; subst h1
    rcases List.eq_nil_or_concat l' with rfl | ⟨l0, c, rfl⟩
    · rfl
    · rw [List.concat_eq_append] at h2
      obtain ⟨y, hy, he⟩ := walk_snoc h2
      exact absurd rfl (h.g.entRoot y (walk_lt h _ (root_lt h) hy) _ (alookup_mem he))
  | append_singleton l c ih =>
    intro l' d h1 h2 hd
    obtain ⟨y, hy, he⟩ := walk_snoc h1
    have hylt := walk_lt h _ (root_lt h) hy
    obtain ⟨hpar, hnm⟩ := h.g.dirEnt y hylt _ (alookup_mem he) hd
    rcases List.eq_nil_or_concat l' with rfl | ⟨l0, c', rfl⟩
    · simp [walk] at h2; subst h2
      exact absurd rfl (h.g.entRoot y hylt _ (alookup_mem he))
    · rw [List.concat_eq_append] at h2 ⊢
      obtain ⟨y', hy', he'⟩ := walk_snoc h2
      obtain ⟨hpar', hnm'⟩ := h.g.dirEnt y' (walk_lt h _ (root_lt h) hy') _ (alookup_mem he') hd
      simp only at hpar hpar' hnm hnm'
      rw [hpar] at hpar'; injection hpar' with e; subst e
      rw [ih l0 hy hy' (isDir_of_entry (alookup_mem he)), ← hnm, ← hnm']

/-- C09: a directory has exactly one absolute path (without following links). -/
theorem directory_one_path {s : FS} (hs : Reachable s) {l l' : List Str} {d : Ref}
    (h1 : walk s.heap rootRef l = some d) (h2 : walk s.heap rootRef l' = some d) (hd : (s.heap d).isDir = true) :
    l = l' := walk_dir_unique (reachable_inv hs) l l' h1 h2 hd

/-- C09: each directory other than the root is the child of exactly one directory under exactly one name
(among all directories, even removed ones), and the root is nobody's child. -/
theorem directory_one_parent {s : FS} (hs : Reachable s) {d d' : Ref} {c c' : Str} {x : Ref}
    (hd : d < s.next) (hd' : d' < s.next) (h1 : alookup c (s.heap d).entries = some x)
    (h2 : alookup c' (s.heap d').entries = some x) (hx : (s.heap x).isDir = true) :
    d = d' ∧ c = c' ∧ x ≠ rootRef := by
  have h := reachable_inv hs
  obtain ⟨a1, a2⟩ := h.g.dirEnt d hd _ (alookup_mem h1) hx
  obtain ⟨b1, b2⟩ := h.g.dirEnt d' hd' _ (alookup_mem h2) hx
  simp only at a1 a2 b1 b2
  rw [a1] at b1; injection b1 with e
  exact ⟨e, a2.symm.trans b2, h.g.entRoot d hd _ (alookup_mem h1)⟩

/-- C09: no directory in the tree is below itself. -/
theorem directory_not_below_itself {s : FS} (hs : Reachable s) {l m : List Str} {d : Ref}
    (h1 : walk s.heap rootRef l = some d) (hd : (s.heap d).isDir = true) (h2 : walk s.heap d m = some d) : m = [] := by
  have h3 : walk s.heap rootRef (l ++ m) = some d := by rw [walk_append, h1]; exact h2
  have := walk_dir_unique (reachable_inv hs) _ _ h3 h1 hd
  simpa using this

theorem walk_anc {s : FS} (h : Inv s) : ∀ (l : List Str) {r x : Ref}, r < s.next → walk s.heap r l = some x →
    (s.heap x).isDir = true → Anc s.heap r x := by
  intro l
  induction l using List.reverseRecOn with
  | nil => intro r x _ hx _; simp [walk] at hx; subst hx; exact .refl
  | append_singleton l c ih =>
    intro r x hr hx hd
    obtain ⟨y, hy, he⟩ := walk_snoc hx
    have hm := alookup_mem he
    exact .up (h.g.dirEnt y (walk_lt h l hr hy) _ hm hd).1 (ih hr hy (isDir_of_entry hm))

/-- C09, also for directories that were removed from the tree (case-sensitive POSIX filesystems): no
directory object ever contains itself, at any depth. -/
theorem no_cycles_at_all {s : FS} (hs : Reachable s) (ht : s.cfg.Tree) {m : List Str} {d : Ref} (hlt : d < s.next)
    (h2 : walk s.heap d m = some d) : m = [] := by
  have h := reachable_inv hs
  rcases List.eq_nil_or_concat m with rfl | ⟨m, c, rfl⟩
  · rfl
  · rw [List.concat_eq_append] at h2
    obtain ⟨y, hy, he⟩ := walk_snoc h2
    have hm := alookup_mem he
    have hylt := walk_lt h _ hlt hy
    have hd : (s.heap d).isDir = true := by
      cases m with
      | nil => simp [walk] at hy; subst hy; exact isDir_of_entry hm
      | cons a m =>
        simp only [walk, Option.bind_eq_some_iff] at hy
        obtain ⟨z, hz, _⟩ := hy
        exact isDir_of_entry (alookup_mem hz)
    exact absurd (walk_anc h m hlt hy (isDir_of_entry hm))
      (Rooted.noCycle ((h.t ht).rooted d hlt) (h.g.dirEnt y hylt _ hm hd).1)

/-- a path to a directory is shorter than the number of objects -/
theorem depth_lt {s : FS} (h : Inv s) {l : List Str} {d : Ref} (hl : walk s.heap rootRef l = some d)
    (hd : (s.heap d).isDir = true) : l.length < s.next := by
  have hpre : ∀ i : Fin (l.length + 1), ∃ x, walk s.heap rootRef (l.take i) = some x ∧ (s.heap x).isDir = true ∧ x < s.next := by
    intro i
    have : walk s.heap rootRef (l.take i ++ l.drop i) = some d := by rw [List.take_append_drop]; exact hl
    rw [walk_append, Option.bind_eq_some_iff] at this
    obtain ⟨x, hx, hx2⟩ := this
    refine ⟨x, hx, ?_, walk_lt h _ (root_lt h) hx⟩
    cases hdr : l.drop i with
    | nil => rw [hdr] at hx2; simp [walk] at hx2; exact hx2 ▸ hd
    | cons a m =>
      rw [hdr] at hx2
      simp only [walk, Option.bind_eq_some_iff] at hx2
      obtain ⟨z, hz, _⟩ := hx2
      exact isDir_of_entry (alookup_mem hz)
  choose f hf using hpre
  have hinj : Function.Injective fun i => (⟨f i, (hf i).2.2⟩ : Fin s.next) := by
    intro i j hij
    have e : f i = f j := by simpa using hij
    have := walk_dir_unique h _ _ (hf i).1 (e ▸ (hf j).1) (hf i).2.1
    have hlen := congrArg List.length this
    simp only [List.length_take] at hlen
    apply Fin.ext
    have := i.2; have := j.2
    omega
  have := Fintype.card_le_of_injective _ hinj
  simp only [Fintype.card_fin] at this
  omega

example : walk demo.heap rootRef [['a'], ['d']] = some 5 ∧ (demo.heap 5).isDir = true := by decide +kernel

/-! ## C10 -/

/-- C10: on a case-sensitive POSIX filesystem `st_nlink` is the number of directory entries referring to the
object (`refs`, Inv.lean), plus for a directory one and the number of its own entries. -/
theorem nlink_counts_names {s : FS} (hs : Reachable s) (ht : s.cfg.Tree) {p : Str} {f : Bool} {st : Stat}
    (h : s.stat p f = .ok st) : ∃ r, s.resolve p f false = .ok r ∧
    st.nlink = if (s.heap r).isDir then 1 + (s.heap r).entries.length + refs s.heap s.next r else refs s.heap s.next r := by
  obtain ⟨r, hr, rfl⟩ := stat_ok h
  refine ⟨r, hr, ?_⟩
  have := ((reachable_inv hs).t ht).nlink r (resolve_lt (reachable_inv hs) hr)
  show (s.heap r).nlink = _
  rw [this]
  split <;> push_cast <;> omega

/-- C10: for a directory in the tree other than the root, the number is two plus the number of its entries; for
the root one plus that number. -/
theorem nlink_directory {s : FS} (hs : Reachable s) (ht : s.cfg.Tree) {l : List Str} {d : Ref}
    (hl : walk s.heap rootRef l = some d) (hd : (s.heap d).isDir = true) :
    (s.heap d).nlink = (if l = [] then 1 else 2) + (s.heap d).entries.length := by
  have h := reachable_inv hs
  have hlt := walk_lt h l (root_lt h) hl
  rw [(h.t ht).nlink d hlt, if_pos hd]
  rcases List.eq_nil_or_concat l with rfl | ⟨l, c, rfl⟩
  · simp [walk] at hl; subst hl
    rw [refs_zero (fun x hx e he => h.g.entRoot x hx e he)]
    simp
  · rw [List.concat_eq_append] at hl ⊢
    obtain ⟨y, hy, he⟩ := walk_snoc hl
    have hylt := walk_lt h _ (root_lt h) hy
    have hone : refs s.heap s.next d = 1 := by
      unfold refs
      rw [Finset.sum_eq_single y]
      · have hk := h.g.keys y hylt
        have : ∀ (es : List (Str × Ref)), (es.map Prod.fst).Nodup → (∀ e ∈ es, e.2 = d → e.1 = c) → (c, d) ∈ es →
            (es.map Prod.snd).count d = 1 := by
          intro es
          induction es with
          | nil => intro _ _ hm; simp at hm
          | cons e es ih =>
            intro hk hu hm
            rw [List.map_cons, List.nodup_cons] at hk
            rw [List.map_cons, List.count_cons]
            by_cases e2 : e.2 = d
            · have e1 := hu e (by simp) e2
              have : (es.map Prod.snd).count d = 0 := by
                apply List.count_eq_zero.mpr
                intro hm'
                obtain ⟨e', he', hd'⟩ := List.mem_map.mp hm'
                have := hu e' (by simp [he']) hd'
                exact hk.1 (List.mem_map.mpr ⟨e', he', this.trans e1.symm⟩)
              simp [this, e2]
            · rcases List.mem_cons.mp hm with hm | hm
              · exact absurd (by rw [← hm]) e2
              · rw [ih hk.2 (fun e he => hu e (by simp [he])) hm]; simp [e2]
        apply this _ hk _ (alookup_mem he)
        intro e he' hed
        obtain ⟨_, h2⟩ := h.g.dirEnt y hylt e he' (hed ▸ hd)
        obtain ⟨_, h4⟩ := h.g.dirEnt y hylt _ (alookup_mem he) hd
        rw [← h2, hed]; exact h4
      · intro x hx hne
        apply List.count_eq_zero.mpr
        intro hm
        obtain ⟨e, he', hed⟩ := List.mem_map.mp hm
        obtain ⟨h1, _⟩ := h.g.dirEnt x (Finset.mem_range.mp hx) e he' (hed ▸ hd)
        obtain ⟨h3, _⟩ := h.g.dirEnt y hylt _ (alookup_mem he) hd
        rw [hed] at h1
        simp only at h3
        rw [h1] at h3; injection h3 with h3; exact hne h3
      · intro hn; exact absurd (Finset.mem_range.mpr hylt) hn
    rw [hone]
    simp
    omega

example : (demo.stat ['/', 'g']).toOption.map Stat.nlink = some 2 ∧
    (demo.stat ['/', 'a']).toOption.map Stat.nlink = some 4 := by decide +kernel

/-! ## C12 -/

/-- Devices with a limit do not use more than the limit. -/
def QuotaOk (s : FS) : Prop := ∀ m ∈ s.mounts, ∀ t, m.total = some t → m.used ≤ max t 0

/-- C12: no call except `set_disk_usage` makes a device exceed its limit. -/
theorem quota_step {s : FS} (hs : Reachable s) (o : Op) (ho : ∀ t p, o ≠ .setDiskUsage t p) (hq : QuotaOk s) :
    QuotaOk (o.next s) := by
  intro m hm t ht
  rcases (next_step o (reachable_inv hs)).2 ho m hm t ht with h | ⟨m', hm', _, e, h⟩
  · exact h
  · exact le_trans h (hq m' hm' t (e.trans ht))

/-- C12: `set_disk_usage` keeps the limits if all devices had one: it refuses a size below the used size. -/
theorem quota_setDiskUsage {s : FS} (hs : Reachable s) (hall : ∀ m ∈ s.mounts, m.total ≠ none) (hq : QuotaOk s)
    (hpos : s.cfg.isWin = false) (t : Int) (p : Str) : QuotaOk (Op.next (.setDiskUsage t p) s) := by
  have h := reachable_inv hs
  show wp (setDiskUsage t p) (fun _ s' => QuotaOk s') s
  have hmp : wp (mountForPath p) (fun _ s' => s' = s) s := by
    show (mountForPathF s.limit p s).2 = s
    cases s.limit with
    | zero => rfl
    | succ n =>
      show wp (mountForPathF (n + 1) p) (fun _ s' => s' = s) s
      unfold mountForPathF
      apply wp_getBind
      dsimp only
      split
      · exact wp_pure rfl
      · apply wp_ite
        · intro hc; simp [hpos] at hc
        · intro _; exact wp_throw rfl
  unfold setDiskUsage
  apply wp_seq _ hmp
  · rintro e s' rfl; exact hq
  · rintro dev s' rfl
    apply wp_getBind
    split
    · exact hq
    · rename_i m0 hm0
      apply wp_ite
      · intro _; exact hq
      · intro hc
        apply wp_modify
        intro m hm t' ht'
        have hm : m ∈ s'.mounts.map fun m => if m.idev = dev then { m with total := some t } else m := hm
        obtain ⟨m1, hm1, e⟩ := List.mem_map.mp hm
        split at e
        · rename_i hdev
          have hm0m := List.mem_of_find?_eq_some hm0
          have hm0d : m0.idev = dev := by simpa using List.find?_some hm0
          have : m1 = m0 := by
            have hnd := h.m.devNodup
            exact List.inj_on_of_nodup_map hnd hm1 hm0m (hdev.trans hm0d.symm)
          subst this
          subst e
          simp only [Option.some.injEq] at ht'
          subst ht'
          have hsome : m1.total.isSome = true := by
            cases hh : m1.total with
            | none => exact absurd hh (hall m1 hm1)
            | some _ => rfl
          simp [hsome] at hc
          exact le_trans hc (le_max_left _ _)
        · subst e; exact hq m1 hm1 t' ht'

/-- C12 for histories: without `set_disk_usage` (the limits given at construction and to `add_mount_point`) no
device ever uses more than its limit. -/
theorem quota_history (k : Cfg) (limit uid gid umask : Nat) (clock : Int) (total : Option Int) (ops : List Op)
    (hops : ∀ o ∈ ops, ∀ t p, o ≠ Op.setDiskUsage t p) :
    QuotaOk (runs ops (initFS k limit uid gid umask clock total)) := by
  have h0 : QuotaOk (initFS k limit uid gid umask clock total) := by
    intro m hm t _
    have : m = { path := k.root, idev := 1, total := total, used := 0 } := List.mem_singleton.mp hm
    rw [this]; exact le_max_right _ _
  have hr : Reachable (initFS k limit uid gid umask clock total) := ⟨k, limit, uid, gid, umask, clock, total, [], rfl⟩
  generalize initFS k limit uid gid umask clock total = s at h0 hr
  induction ops generalizing s with
  | nil => exact h0
  | cons o ops ih =>
    exact ih (fun o' ho' => hops o' (by simp [ho'])) (o.next s) (quota_step hr o (hops o (by simp)) h0)
      (reachable_runs hr [o])

/-- C12 is false for `set_disk_usage` on a device without limit: the limit can be set below the used size
(fake_filesystem.py 1132-1137). -/
theorem quota_setDiskUsage_counterexample :
    ∃ s, Reachable s ∧ QuotaOk s ∧ ∃ t p, ¬ QuotaOk (Op.next (.setDiskUsage t p) s) := by
  refine ⟨runs [.createFile ['/', 'f'] (S_IFREG ||| 0o666) (some [1, 2, 3]) none true false]
    (initFS demoCfg 50 0 0 0o022 7 none), ⟨_, _, _, _, _, _, _, _, rfl⟩, ?_, 2, ['/'], ?_⟩
  · apply quota_history
    intro o ho t p e
    simp at ho; rw [ho] at e; simp at e
  · intro hq
    have := hq ⟨['/'], 1, some 2, 3⟩ (by
      have : (Op.next (.setDiskUsage 2 ['/']) (runs [.createFile ['/', 'f'] (S_IFREG ||| 0o666) (some [1, 2, 3]) none true false]
        (initFS demoCfg 50 0 0 0o022 7 none))).mounts = [⟨['/'], 1, some 2, 3⟩] := rfl
      rw [this]; simp) 2 rfl
    revert this; decide

/-- the limit is reached in a concrete history: the second file does not fit -/
example : (runs [.createFile ['/', 'f'] (S_IFREG ||| 0o666) (some [1, 2, 3]) none true false]
    (initFS demoCfg 50 0 0 0o022 7 (some 4))).mounts.map Mount.used = [3] ∧
  (createFile ['/', 'g'] (S_IFREG ||| 0o666) (some [1, 2]) none true false (runs
    [.createFile ['/', 'f'] (S_IFREG ||| 0o666) (some [1, 2, 3]) none true false]
    (initFS demoCfg 50 0 0 0o022 7 (some 4)))).1 = .error (.os .ENOSPC) := by decide +kernel

end Verif
