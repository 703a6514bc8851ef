import Verif.Hist
/-!
# A small concrete filesystem used to show that hypotheses can be met
-/

namespace Verif
open Py Spec Cfg

/-- A Linux-like configuration with one byte per character. -/
def demoCfg : Cfg :=
  posixCfg '/' id (fun s => s.map fun c => c.toNat.toUInt8) (fun b => b.map fun x => Char.ofNat x.toNat)

theorem demoCfg_tree : demoCfg.Tree :=
  ⟨rfl, ⟨rfl, rfl, by decide, Or.inl rfl⟩⟩

/-- calls making `/a`, the file `/a/f`, its second name `/g`, the link `/l → a/f` and the directory `/a/d` -/
def demoOps : List Op :=
  [.mkdir ['/', 'a'] 0o777,
   .createFile ['/', 'a', '/', 'f'] (S_IFREG ||| 0o666) (some [104, 105]) none true false,
   .createLink ['/', 'a', '/', 'f'] ['/', 'g'] true false,
   .createSymlink ['/', 'l'] ['a', '/', 'f'] false,
   .mkdir ['/', 'a', '/', 'd'] 0o777]

/-- the state reached by the demo calls, as root -/
def demo : FS := runs demoOps (initFS demoCfg 50 0 0 0o022 7 (some 1000))

theorem demo_reachable : Reachable demo := ⟨_, _, _, _, _, _, _, _, rfl⟩

theorem demo_tree : demo.cfg.Tree := by
  have : demo.cfg = demoCfg := runs_cfg
  rw [this]; exact demoCfg_tree

example : demo.resolve ['/', 'l'] = .ok 3 := by decide +kernel
example : demo.resolve ['/', 'g'] = .ok 3 := by decide +kernel
example : demo.resolve ['/', 'a', '/', 'd'] = .ok 5 := by decide +kernel
example : (demo.heap 3).nlink = 2 := by decide +kernel

end Verif
