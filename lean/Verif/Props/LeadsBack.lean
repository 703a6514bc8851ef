import Verif.Props.Create
/-!
# C43 continued: the reported path of a directory leads back to it
-/

namespace Verif
open Py Spec Cfg

theorem dir_not_link {o : Obj} (h : o.isDirMode = true) : o.isLnk = false := by
  unfold Obj.isDirMode at h; unfold Obj.isLnk
  rw [beq_iff_eq] at h
  rw [h]; decide

theorem noLink_of_dir {s : FS} (hi : Inv s) (hg : Genuine s) : ∀ {l : List Str} {r d : Ref}, r < s.next →
    walk s.heap r l = some d → (s.heap d).isDir = true → NoLink s.heap r l := by
  intro l
  induction l with
  | nil => intro r d _ _ _; trivial
  | cons c l ih =>
    intro r d hr h hd x hx
    simp only [walk, hx] at h
    have hlt := hi.g.entLt r hr _ (alookup_some hx)
    refine ⟨dir_not_link ?_, ih hlt h hd⟩
    rw [← hg x hlt]
    cases l with
    | nil => simp only [walk] at h; injection h with h; rw [h]; exact hd
    | cons c' l =>
      simp only [walk] at h
      cases ha : alookup c' (s.heap x).entries with
      | none => simp [ha] at h
      | some y => exact isDir_of_entry (alookup_some ha)

/-- C43: the reported path of a directory in the tree resolves to this directory, and exists. -/
theorem objPath_leads_back {s : FS} (hs : Reachable s) (ht : s.cfg.Tree) (hm : s.cfg.isMac = false) (hg : Genuine s) {l : List Str} {d : Ref}
    (hw : walk s.heap rootRef l = some d) (hd : (s.heap d).isDir = true) (hdr : ∀ w ∈ l.head?, ¬ DriveLike w)
    (hl : ∀ w ∈ l, Plain s.cfg.sep w) (hdev : absPath s.cfg.sep l ≠ s.devName) :
    s.resolve (s.objPath d) true false = .ok d ∧ s.exists_ (s.objPath d) = .ok true :=
  have hi := reachable_inv hs
  have h0 := root_lt hi
  objPath_resolves hs ht hm hw hd hdr hl (through_genuine hi hg h0 hw) hdev (noLink_of_dir hi hg h0 hw hd)

example : demo.resolve (demo.objPath 5) true false = .ok 5 ∧ demo.exists_ (demo.objPath 5) = .ok true :=
  objPath_leads_back demo_reachable demo_tree (by decide +kernel) demo_genuine (l := [['a'], ['d']]) (by decide +kernel) (by decide +kernel)
    (by rintro w hw ⟨c, hc⟩; simp only [List.head?_cons, Option.mem_def, Option.some.injEq] at hw; subst hw; simp at hc) (by decide +kernel) (by decide +kernel)
end Verif
