import Verif.EffData
import Verif.Props.Create
/-!
# C18: hard links share one file
-/

namespace Verif
open Py Spec Cfg

namespace Spec
/-- The existing file `r` gets the additional name `nm` in the directory `d` at `ld`: one location more leads to it,
one more link is counted, it takes the device of the directory; its contents, size, mode, owner, times, inode number
and attributes stay; no other object and no other location changes, every path that led somewhere leads there still. -/
structure SecondName (s s' : FS) (d : Ref) (ld : List Str) (nm : Str) (r : Ref) : Prop where
  name : NewName s s' (ld ++ [nm]) r
  listed : (s'.heap d).entries = (s.heap d).entries ++ [(nm, r)]
  dir : s'.heap d = { s.heap d with content := (s'.heap d).content, nlink := (s.heap d).nlink + 1 }
  object : s'.heap r = { s.heap r with
    name := nm, parent := some d, nlink := (s.heap r).nlink + 1, dev := (s.heap d).dev }
  others : ∀ y < s.next, y ≠ d → y ≠ r → s'.heap y = s.heap y
  resolves : ∀ q f c y, s.resolve q f c = .ok y → y ≠ devNullRef → s'.resolve q f c = .ok y
  rest : s' = { s with heap := s'.heap }
end Spec

/-- Every plain path whose directory part led to the directory leads to the linked object. -/
theorem Spec.SecondName.reach {s s' : FS} (hi : Inv s) (hi' : Inv s') (ht : s.cfg.Tree) (hg : Genuine s) {d x : Ref} {ld : List Str} {nm : Str}
    (h : SecondName s s' d ld nm x) {p : Str} (hN : Names s p ld nm d) (ho : Ordinary s p) (hl : (s.heap x).isLnk = false)
    (hfree : alookup nm (s.heap d).entries = none) (hx : x ≠ devNullRef)
    (hdev : absPath s.cfg.sep (ld ++ [nm]) ≠ s.devName) : s'.resolve (s.absnorm p) true false = .ok x := by
  obtain ⟨⟨names, h1, h2, h3, h4⟩, h5, h6⟩ := hN
  obtain ⟨⟨names', h7, h8⟩, h9⟩ := ho
  have hp' : ∀ w ∈ names ++ [nm], Proper s.cfg.sep w := by
    intro w hw; rcases List.mem_append.mp hw with hw | hw
    · exact h1 w hw
    · simp at hw; subst hw; exact h2
  have e1 : names ++ [nm] = names' := absPath_inj ht.posix hp' (plain_proper h7) (by rw [← h3, h8])
  have hdlt : d < s.next := resolve_lt hi h4
  have hcfg : s'.cfg = s.cfg := by rw [h.rest]
  have hmode : (s'.heap d).mode = (s.heap d).mode := by rw [h.dir]
  have hdn : s'.devName = s.devName := by
    have : (s'.heap devNullRef) = s.heap devNullRef :=
      h.others _ (devNull_lt hi) (fun e => by
        have := isDir_ne_devNull hi h5; exact this e.symm) (fun e => hx e.symm)
    unfold FS.devName; rw [this]
  have hw : walk s'.heap rootRef ld = some d := by
    rw [h.name.elsewhere ld (fun e => by have := congrArg List.length e; simp at this)]; exact h6
  have hal : alookup nm (s'.heap d).entries = some x := by rw [h.listed, alookup_snoc, hfree]; simp
  have hdir : (s'.heap d).isDir = true := isDir_of_entry (alookup_some hal)
  have hl' : (s'.heap x).isLnk = false := by rw [h.object]; exact hl
  rw [h3]
  have key := resolve_child (s := s') (names := names) (ld := ld) (nm := nm) (d := d) (c := x) hi' (by rw [hcfg]; exact ht)
    (by rw [hcfg, e1]; exact h7) (by rw [hcfg]; exact h.resolves _ true false _ h4 (isDir_ne_devNull hi h5))
    (by unfold Obj.isDirMode; rw [hmode]; have := hg d hdlt; rw [h5] at this; exact this.symm) hdir hw hal hl'
    (by rw [hcfg, hdn, ← h3]; exact h9) (by rw [hcfg, hdn]; exact hdev)
  rw [hcfg] at key
  exact key

theorem Linked.secondName {s s' : FS} (hi : Inv s) (hi' : Inv s') (ht : s.cfg.Tree) {d r : Ref} {nm : Str}
    (h : Linked s s' d nm r) (hr : r ≠ devNullRef) {ld : List Str} (hld : walk s.heap rootRef ld = some d) :
    SecondName s s' d ld nm r := by
  have hcfg : s'.cfg = s.cfg := by rw [h.added.env]
  have hsub : Sub s s' := h.added.sub hi hr (fun _ => by rw [h.obj]; exact ⟨rfl, rfl⟩)
  have he : (s.heap r).entries = [] := mem_entries_nil h.file
  have he' : (s'.heap r).entries = [] := by rw [h.obj]; exact he
  refine ⟨h.added.newName hi hld he' (fun _ => he), h.added.entries, by rw [h.added.parent], h.obj, h.added.others, ?_, ?_⟩
  · intro q f c y hq hy
    cases f with
    | true => exact hsub.resolve hi hi' (by rw [hcfg]; exact ht) hq hy
    | false =>
      have hq' : s.lresolve q = .ok y := hq
      exact hsub.lresolve hi hi' (by rw [hcfg]; exact ht) hq'
  · have e : s' = { s with heap := s'.heap, next := s'.next, lastIno := s'.lastIno, mounts := s'.mounts } := h.added.env
    rw [h.mounts, h.next, h.lastIno] at e
    exact e

/-- C18: `link(old, new)` either fails, changing at most the stored name attribute of the object `old` leads to
(no path resolution depends on it), or makes exactly one new name, for the object `old` leads to; afterwards both
paths lead to this one object. -/
theorem link_effect {s : FS} (hs : Reachable s) (ht : s.cfg.Tree) (old new : Str) (follow : Bool)
    (hdev : s.resolve old follow ≠ .ok devNullRef) :
    (∃ e s', link old new follow s = (.error e, s') ∧ (s' = s ∨ ∃ r nm, s.resolve old follow = .ok r ∧ s' = s.named r nm) ∧
      ∀ q f c, s'.resolve q f c = s.resolve q f c) ∨
    ∃ s' ld nm d r, link old new follow s = (.ok r, s') ∧ s.resolve old follow = .ok r ∧ (s.heap r).isDir = false ∧
      Names s new ld nm d ∧ SecondName s s' d ld nm r ∧ s'.resolve old follow = .ok r ∧ walk s'.heap rootRef (ld ++ [nm]) = some r ∧
      (Genuine s → Ordinary s new → absPath s.cfg.sep (ld ++ [nm]) ≠ s.devName → (s.heap r).isLnk = false →
        s'.resolve (s.absnorm new) true false = .ok r) := by
  have hi := reachable_inv hs
  have hk := link_spec hi ht old new follow hdev
  have hg : wp (link old new follow) (fun _ s1 => Good s s1) s := createLink_pres old new follow false s hi
  unfold wp at hk hg
  rcases hr : link old new follow s with ⟨r, s'⟩
  rw [hr] at hk hg
  simp only at hk hg
  rcases hk with ⟨e, h1, h2⟩ | ⟨ld, nm, d, x, h1, h2, h3, h4, h5, _⟩
  · refine Or.inl ⟨e, s', by rw [h1], h2, ?_⟩
    rcases h2 with h2 | ⟨y, k, h2, h3⟩
    · intro q f c; rw [h2]
    · intro q f c
      rw [h3]
      exact (named_agree k (fun e => hdev (by rw [h2, e]))).resolve (closed_true s) q f c
  · have hN := h5.secondName hi hg.inv ht h3 h4.loc
    refine Or.inr ⟨s', ld, nm, d, x, by rw [h1], h2, h5.file, h4, hN, hN.resolves _ _ _ _ h2 h3, hN.name.here, ?_⟩
    intro hge ho hd hl
    exact hN.reach hi hg.inv ht hge h4 ho hl h5.added.free h3 hd

/-- C18, contents: whatever is stored in the file through one path is there through every other path to it, and
the paths still lead to it. -/
theorem contents_shared {s s' : FS} {p q : Str} {f f' c c' : Bool} {r : Ref} (hp : s.resolve p f c = .ok r)
    (hq : s.resolve q f' c' = .ok r) (hl : (s.heap r).isLnk = false) (hd : r ≠ devNullRef) {b : Bytes} {ch : Bool}
    (h : setContents r b s = (.ok ch, s')) :
    s'.resolve p f c = .ok r ∧ s'.resolve q f' c' = .ok r ∧ (s'.heap r).content = .file (some b) ∧ (s'.heap r).size = b.length := by
  cases hc : (s.heap r).content with
  | dir es =>
    unfold setContents at h
    rw [if_pos (by unfold Obj.isDir; rw [hc])] at h
    simp at h
  | file old =>
    have hf : (s.heap r).isDir = false := by unfold Obj.isDir; rw [hc]
    rw [setContents_eq hc hd] at h
    split at h
    · injection h with h1 h2
      have := withContents_data hf b
      rw [h2] at this
      refine ⟨by rw [this.resolve hl]; exact hp, by rw [this.resolve hl]; exact hq, ?_, ?_⟩
      · rw [← h2]; simp [FS.withContents]
      · rw [← h2]; simp [FS.withContents]
    · simp at h

/-- The hypotheses are met: in the demo filesystem `link("/a/f", "/a/h")` succeeds, and `/a/f` and `/g` are two
names of one file whose contents can be replaced. -/
example : demo.resolve ['/', 'a', '/', 'f'] true ≠ .ok devNullRef ∧ (link ['/', 'a', '/', 'f'] ['/', 'a', '/', 'h'] true demo).1 = .ok 3 ∧
    Ordinary demo ['/', 'a', '/', 'h'] ∧ demo.resolve ['/', 'a', '/', 'f'] = .ok 3 ∧ demo.resolve ['/', 'g'] = .ok 3 ∧
    (demo.heap 3).isLnk = false ∧ (setContents 3 [7] demo).1 = .ok true :=
  ⟨by decide +kernel, by decide +kernel, demo_ordinary (l := [['a'], ['h']]) (by decide) (by decide +kernel) (by decide +kernel),
    by decide +kernel, by decide +kernel, by decide +kernel, by decide +kernel⟩

end Verif
