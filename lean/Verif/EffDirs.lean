import Verif.EffCreate
import Verif.Props.Create
/-!
# Effect of the component loop of `create_dir` and of `makedirs`
-/

namespace Verif
open Py Spec Cfg

/-- A chain of new directories `cs` below `d`, the last one being `x`; `ns` lists them. -/
inductive Grown : FS → FS → Ref → List Str → Ref → List Ref → Prop
  | nil (s : FS) (d : Ref) : Grown s s d [] d []
  | cons {s s1 s' : FS} {d x : Ref} {c : Str} {cs : List Str} {ns : List Ref} :
      Made s s1 d c (mkDirObj c PERM_DEF s) → Inv s1 → Grown s1 s' s.next cs x ns →
      Grown s s' d (c :: cs) x (s.next :: ns)

theorem mkOne {s : FS} (hi : Inv s) (hw : Within s) (ht : s.cfg.Tree) {d : Ref} (hd : d < s.next) {c : Str} (hc : Proper s.cfg.sep c)
    {β : Type} (f : Ref → M β) :
    (∃ e s', (newObj (mkDirObj c PERM_DEF) >>= fun x => addEntry d x >>= fun _ => f x) s = (.error e, s') ∧ Same s s' ∧ AddRefused s d c e) ∨
    ∃ s1, (newObj (mkDirObj c PERM_DEF) >>= fun x => addEntry d x >>= fun _ => f x) s = f s.next s1 ∧
      Made s s1 d c (mkDirObj c PERM_DEF s) ∧ Inv s1 := by
  have hrun : (newObj (mkDirObj c PERM_DEF) >>= fun x => addEntry d x >>= fun _ => f x) s =
      (addEntry d s.next >>= fun _ => f s.next) { s with heap := upd s.heap s.next (mkDirObj c PERM_DEF s), next := s.next + 1 } := rfl
  have hf := newDir_fresh hi c PERM_DEF
  obtain ⟨hg1, _, hfr, _⟩ := hf
  have hg2 := addEntry_good hg1.inv (d := d) (c := s.next) (hfr.addPre hg1.inv (Nat.lt_of_lt_of_le hd hg1.ext.next) (Nat.ne_of_lt hd) (by
    intro _ _
    show Proper s.cfg.sep (upd s.heap s.next (mkDirObj c PERM_DEF s) s.next).name
    rw [upd_same]; exact hc))
  rw [hrun, M.bind_eq]
  rcases addEntry_new (o := mkDirObj c PERM_DEF s) hi hw ht hd rfl rfl rfl rfl rfl with ⟨e, he, hr⟩ | ⟨s', he, h1, h2, h3, h4, h5⟩
  · exact Or.inl ⟨e, _, by rw [he], new_same s _, hr⟩
  · refine Or.inr ⟨s', by rw [he], ⟨h1, h2, h3, h4, h5⟩, ?_⟩
    have hg2' : wp (addEntry d s.next) (fun _ s' => Good _ s') { s with heap := upd s.heap s.next (mkDirObj c PERM_DEF s), next := s.next + 1 } := hg2
    unfold wp at hg2'
    rw [he] at hg2'
    exact hg2'.inv

theorem Made.cfg {s s' : FS} {d : Ref} {nm : Str} {o : Obj} (h : Made s s' d nm o) : s'.cfg = s.cfg := by rw [h.added.env]

theorem Made.within {s s' : FS} {d : Ref} {nm : Str} {o : Obj} (h : Made s s' d nm o) (hw : Within s) : Within s' := by
  unfold Within; rw [h.mounts]; exact hw

theorem dirContent_empty {s : FS} (ht : s.cfg.Tree) {d : Ref} (h : (s.heap d).entries = []) (c : Str) : s.dirContent d c = none := by
  rw [dirContent_tree ht.cs, h]; rfl

theorem createDirLoop_cons (cur : Ref) (c : Str) (cs : List Str) (news : List Ref) (s : FS) :
    createDirLoop cur (c :: cs) news s = (match s.dirContent cur c with
        | none => newObj (mkDirObj c PERM_DEF) >>= fun x => addEntry cur x >>= fun _ => createDirLoop x cs (news ++ [x])
        | some (_, r) => (if (s.heap r).isLnk then rd (fun s => s.resolve (s.linkTarget (s.heap r))) else M.pure r) >>= fun r =>
            M.get >>= fun s => if (s.heap r).mode &&& S_IFDIR ≠ S_IFDIR then M.raise .ENOTDIR else createDirLoop r cs news) s := by
  conv_lhs => unfold createDirLoop
  rw [M.bind_eq]
  dsimp only [M.get]
  cases s.dirContent cur c with
  | none => rfl
  | some p =>
    obtain ⟨n, r⟩ := p
    simp only
    split <;> rfl

/-- Below a new directory the rest of the chain is always made. -/
theorem grow : ∀ (cs : List Str) (s : FS) (d : Ref) (news : List Ref), Inv s → Within s → s.cfg.Tree → d < s.next →
    (s.heap d).isDir = true → (s.heap d).entries = [] → (s.heap d).mode &&& PERM_WRITE ≠ 0 → (∀ w ∈ cs, Proper s.cfg.sep w) →
    ∃ s' x ns, createDirLoop d cs news s = (.ok (x, news ++ ns), s') ∧ Grown s s' d cs x ns := by
  intro cs
  induction cs with
  | nil => intro s d news _ _ _ _ _ _ _ _; exact ⟨s, d, [], by rw [List.append_nil]; rfl, .nil s d⟩
  | cons c cs ih =>
    intro s d news hi hw ht hd hdir hent hmode hcs
    have hrun : createDirLoop d (c :: cs) news s =
        (newObj (mkDirObj c PERM_DEF) >>= fun x => addEntry d x >>= fun _ => createDirLoop x cs (news ++ [x])) s := by
      rw [createDirLoop_cons, dirContent_empty ht hent]
    rw [hrun]
    rcases mkOne hi hw ht hd (hcs c (by simp)) (fun x => createDirLoop x cs (news ++ [x])) with ⟨e, s', _, _, hr⟩ | ⟨s1, he, hm, hi1⟩
    · rcases hr with ⟨_, h⟩ | ⟨_, _, h⟩ | ⟨_, h⟩
      · rw [hdir] at h; simp at h
      · exact absurd h hmode
      · rw [hent] at h; simp [alookup] at h
    · rw [he]
      have ho := hm.obj
      obtain ⟨s', x, ns, h1, h2⟩ := ih s1 s.next (news ++ [s.next]) hi1 (hm.within hw) (by rw [hm.cfg]; exact ht)
        (by rw [hm.next]; exact Nat.lt_succ_self _) (by rw [ho]; rfl) (by rw [ho]; rfl) (by
          rw [ho]; show (S_IFDIR ||| PERM_DEF) &&& PERM_WRITE ≠ 0; decide) (by rw [hm.cfg]; exact fun w hw => hcs w (by simp [hw]))
      exact ⟨s', x, s.next :: ns, by rw [h1, List.append_assoc]; rfl, .cons hm hi1 h2⟩

namespace Spec
/-- Following names from a directory the way `create_dir` does: each name is an entry; an entry that is a link is
replaced by what the link's text resolves to.  All objects met have the directory bit. -/
inductive Follows (s : FS) : Ref → List Str → Ref → Prop
  | nil (r : Ref) : Follows s r [] r
  | entry {r y x : Ref} {c : Str} {cs : List Str} : alookup c (s.heap r).entries = some y → (s.heap y).isLnk = false →
      (s.heap y).mode &&& S_IFDIR = S_IFDIR → Follows s y cs x → Follows s r (c :: cs) x
  | link {r y z x : Ref} {c : Str} {cs : List Str} : alookup c (s.heap r).entries = some y → (s.heap y).isLnk = true →
      s.resolve (s.linkTarget (s.heap y)) = .ok z → (s.heap z).mode &&& S_IFDIR = S_IFDIR → Follows s z cs x → Follows s r (c :: cs) x
end Spec

/-- The loop of `create_dir`: it fails without a trace, or follows existing names and then makes a chain. -/
theorem createDirLoop_spec {s : FS} (hi : Inv s) (hw : Within s) (ht : s.cfg.Tree) : ∀ (cs : List Str) (cur : Ref), cur < s.next →
    ((s.heap cur).isDir = true → ∃ l, walk s.heap rootRef l = some cur) → (∀ w ∈ cs, Proper s.cfg.sep w) →
    (∃ e s', createDirLoop cur cs [] s = (.error e, s') ∧ Same s s') ∨
    (∃ d, createDirLoop cur cs [] s = (.ok (d, []), s) ∧ Follows s cur cs d) ∨
    ∃ pre c post d ld s' x ns, cs = pre ++ c :: post ∧ Follows s cur pre d ∧ walk s.heap rootRef ld = some d ∧
      alookup c (s.heap d).entries = none ∧
      createDirLoop cur cs [] s = (.ok (x, ns), s') ∧ Grown s s' d (c :: post) x ns := by
  intro cs
  induction cs with
  | nil => intro cur _ _ _; exact Or.inr (Or.inl ⟨cur, rfl, .nil cur⟩)
  | cons c cs ih =>
    intro cur hcur hloc hcs
    rw [createDirLoop_cons, dirContent_tree ht.cs]
    cases hal : alookup c (s.heap cur).entries with
    | none =>
      simp only [Option.map_none]
      rcases mkOne hi hw ht hcur (hcs c (by simp)) (fun x => createDirLoop x cs ([] ++ [x])) with ⟨e, s', h1, h2, _⟩ | ⟨s1, he, hm, hi1⟩
      · exact Or.inl ⟨e, s', h1, h2⟩
      · have ho := hm.obj
        obtain ⟨s', x, ns, h1, h2⟩ := grow cs s1 s.next ([] ++ [s.next]) hi1 (hm.within hw) (by rw [hm.cfg]; exact ht)
          (by rw [hm.next]; exact Nat.lt_succ_self _) (by rw [ho]; rfl) (by rw [ho]; rfl) (by
            rw [ho]; show (S_IFDIR ||| PERM_DEF) &&& PERM_WRITE ≠ 0; decide) (by rw [hm.cfg]; exact fun w hw => hcs w (by simp [hw]))
        obtain ⟨ld, hld⟩ := hloc hm.added.dir
        exact Or.inr (Or.inr ⟨[], c, cs, cur, ld, s', x, s.next :: ns, rfl, .nil cur, hld, hal, by rw [he, h1]; rfl, .cons hm hi1 h2⟩)
    | some y =>
      simp only [Option.map_some]
      have hdc : (s.heap cur).isDir = true := isDir_of_entry (alookup_some hal)
      obtain ⟨lc, hlc⟩ := hloc hdc
      have hylt : y < s.next := hi.g.entLt cur hcur _ (alookup_some hal)
      have step : ∀ z, z < s.next → ((s.heap z).isDir = true → ∃ l, walk s.heap rootRef l = some z) →
          (∀ pre d, (s.heap z).mode &&& S_IFDIR = S_IFDIR → Follows s z pre d → Follows s cur (c :: pre) d) →
          ∀ m : M Ref, m s = (.ok z, s) →
          (∃ e s', (m >>= fun r => M.get >>= fun s => if (s.heap r).mode &&& S_IFDIR ≠ S_IFDIR then M.raise .ENOTDIR else createDirLoop r cs []) s = (.error e, s') ∧ Same s s') ∨
          (∃ d, (m >>= fun r => M.get >>= fun s => if (s.heap r).mode &&& S_IFDIR ≠ S_IFDIR then M.raise .ENOTDIR else createDirLoop r cs []) s = (.ok (d, []), s) ∧ Follows s cur (c :: cs) d) ∨
          ∃ pre c' post d ld s' x ns, c :: cs = pre ++ c' :: post ∧ Follows s cur pre d ∧ walk s.heap rootRef ld = some d ∧
            alookup c' (s.heap d).entries = none ∧
            (m >>= fun r => M.get >>= fun s => if (s.heap r).mode &&& S_IFDIR ≠ S_IFDIR then M.raise .ENOTDIR else createDirLoop r cs []) s = (.ok (x, ns), s') ∧ Grown s s' d (c' :: post) x ns := by
        intro z hz hzl hfol m hmz
        have hrun' : (m >>= fun r => M.get >>= fun s => if (s.heap r).mode &&& S_IFDIR ≠ S_IFDIR then M.raise .ENOTDIR else createDirLoop r cs []) s =
            (if (s.heap z).mode &&& S_IFDIR ≠ S_IFDIR then M.raise .ENOTDIR else createDirLoop z cs []) s := by
          rw [M.bind_eq, hmz]; rfl
        rw [hrun']
        by_cases hmo : (s.heap z).mode &&& S_IFDIR = S_IFDIR
        · rw [if_neg (by simp [hmo])]
          rcases ih z hz hzl (fun w hw => hcs w (by simp [hw])) with h | ⟨d, h1, h2⟩ | ⟨pre, c', post, d, ld, s', x, ns, h1, h2, h3, h4, h5, h6⟩
          · exact Or.inl h
          · exact Or.inr (Or.inl ⟨d, h1, hfol _ _ hmo h2⟩)
          · exact Or.inr (Or.inr ⟨c :: pre, c', post, d, ld, s', x, ns, by rw [h1]; rfl, hfol _ _ hmo h2, h3, h4, h5, h6⟩)
        · rw [if_pos hmo]
          exact Or.inl ⟨_, s, rfl, Same.refl s⟩
      by_cases hl : (s.heap y).isLnk = true
      · rw [if_pos hl]
        cases hres : s.resolve (s.linkTarget (s.heap y)) with
        | error e => exact Or.inl ⟨e, s, by rw [M.bind_eq, rd_eq (f := fun s => s.resolve (s.linkTarget (s.heap y))) hres], Same.refl s⟩
        | ok z =>
          refine step z (resolve_lt hi hres) (fun hzd => ?_) (fun pre d hmo hf => .link hal hl hres hmo hf) _ (rd_eq (f := fun s => s.resolve (s.linkTarget (s.heap y))) hres)
          exact resolve_loc hi ht hres (isDir_ne_devNull hi hzd)
      · rw [if_neg hl]
        refine step y hylt (fun _ => ⟨lc ++ [c], ?_⟩) (fun pre d hmo hf => .entry hal (by simpa using hl) hmo hf) _ rfl
        rw [walk_append, hlc]
        simp [walk, hal]

end Verif
