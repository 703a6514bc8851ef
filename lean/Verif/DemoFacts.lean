import Verif.Demo
import Verif.EffCreate
/-!
# The demo filesystem meets the hypotheses used by the effect theorems
-/

namespace Verif
open Py Spec Cfg

theorem demo_inv : Inv demo := reachable_inv demo_reachable

theorem demo_within : Within demo := by
  have h : demo.mounts.all (fun m => match m.total with | none => true | some t => decide (m.used ≤ t)) = true := by
    decide +kernel
  intro m hm t ht
  have := List.all_eq_true.mp h m hm
  rw [ht] at this
  exact of_decide_eq_true this

theorem demo_next : demo.next = 6 := by decide +kernel

theorem demo_genuine : Genuine demo := by
  intro x hx
  rw [demo_next] at hx
  have h : ∀ x < 6, (demo.heap x).isDir = (demo.heap x).isDirMode := by decide +kernel
  exact h x hx

theorem demo_cfg : demo.cfg = demoCfg := runs_cfg

theorem demo_sep : demo.cfg.sep = '/' := by rw [demo_cfg]; rfl

theorem demo_mac : demo.cfg.isMac = false := by rw [demo_cfg]; rfl

theorem demo_devName : demo.devName = absPath demo.cfg.sep [['d', 'e', 'v'], ['n', 'u', 'l', 'l']] := by decide +kernel

theorem demo_noDev : NoDev demo := by
  intro l hl h
  rw [demo_devName] at h
  have hp : ∀ w ∈ [['d', 'e', 'v'], ['n', 'u', 'l', 'l']], Proper demo.cfg.sep w := by rw [demo_sep]; decide
  rw [absPath_inj demo_tree.posix hl hp h]
  decide +kernel

theorem demo_root : demo.isRoot = true := by decide +kernel

theorem demo_may (d : Ref) : mayRemove demo d := by
  have := demo_root
  unfold mayRemove
  simp [this]

/-- the absolute path with the given names, in the demo filesystem -/
theorem demo_ordinary {p : Str} {l : List Str} (hl : ∀ w ∈ l, Plain '/' w) (h : demo.absnorm p = absPath '/' l)
    (hd : demo.absnorm p ≠ demo.devName) : Ordinary demo p := by
  refine ⟨⟨l, ?_, ?_⟩, hd⟩
  · rw [demo_sep]; exact hl
  · rw [demo_sep]; exact h

end Verif
