import Verif.Props.PlatformMore
/-!
# C78 continued: a link with a trailing separator, renamed to itself
-/

namespace Verif
open Py Spec Cfg

/-- C78: renaming `link/` to `link` is refused with ENOTDIR on Linux and macOS, and does nothing on Windows. -/
theorem rename_link_self {s : FS} {old new : Str} {o n : Ref} (force : Bool) (hb : s.cfg.endsWithSep old = true) (hself : s.absnorm new = s.absnorm old)
    (hx : s.existsL (s.absnorm old) = .ok true) (he : s.exists_ (s.absnorm old) = .ok true) (ho : s.lresolve (s.absnorm old) = .ok o)
    (hl : s.isLink (s.absnorm old) = .ok true) (hd : s.isDir (s.absnorm old) false = .ok false) (hn : s.getObject (s.absnorm old) = .ok n)
    (hnl : (s.heap n).isLnk = true) :
    (s.cfg.isWin = false → rename old new force s = (.error (.os .ENOTDIR), s)) ∧ (s.cfg.isWin = true → rename old new force s = (.ok (), s)) := by
  have hbr : s.brokenLinkSep (s.absnorm old) = .ok () := by
    unfold FS.brokenLinkSep
    simp only [hl, he, bind, Except.bind]
    rfl
  constructor <;> intro hw
  · have hp : s.posixDirLinkErrors (s.absnorm old) (s.absnorm old) true = .error (.os .ENOTDIR) := by
      unfold FS.posixDirLinkErrors
      simp [hd, hl, hw, bind, Except.bind]
    unfold rename
    rw [M.bind_eq]
    dsimp only [M.get]
    rw [hself, hb, M.bind_eq, rd_eq (f := fun x => x.existsL _) hx]
    try dsimp only
    rw [if_neg (by simp)]
    try dsimp only
    rw [if_pos rfl]
    try dsimp only
    rw [M.bind_eq, rd_eq (f := fun x => x.brokenLinkSep _) hbr]
    try dsimp only
    rw [M.bind_eq, rd_eq (f := fun x => x.lresolve _) ho]
    try dsimp only
    rw [hw, if_pos (by simp)]
    try dsimp only
    rw [M.bind_eq, rd_eq (f := fun x => x.posixDirLinkErrors _ _ _) hp]
  · have key : renameToExisting force (s.absnorm old) (s.absnorm old) o true s = (.ok none, s) := by
      unfold renameToExisting
      rw [M.bind_eq, rd_eq (f := fun x => x.getObject _) hn]
      try dsimp only
      rw [M.bind_eq]
      dsimp only [M.get]
      rw [if_pos rfl, hnl, if_neg (by simp)]
      rfl
    unfold rename
    rw [M.bind_eq]
    dsimp only [M.get]
    rw [hself, hb, M.bind_eq, rd_eq (f := fun x => x.existsL _) hx]
    try dsimp only
    rw [if_neg (by simp)]
    try dsimp only
    rw [if_pos rfl]
    try dsimp only
    rw [M.bind_eq, rd_eq (f := fun x => x.brokenLinkSep _) hbr]
    try dsimp only
    rw [M.bind_eq, rd_eq (f := fun x => x.lresolve _) ho]
    try dsimp only
    rw [hw, if_neg (by simp)]
    try dsimp only
    rw [M.bind_eq, rd_eq (f := fun x => x.existsL _) hx]
    try dsimp only
    rw [if_pos rfl, M.bind_eq, key]
    rfl

example : rename "/k/".toList "/k".toList false onLinux = (.error (.os .ENOTDIR), onLinux) :=
  (rename_link_self (s := onLinux) (o := 6) (n := 6) false (by decide +kernel) (by decide +kernel) (by decide +kernel) (by decide +kernel) (by decide +kernel) (by decide +kernel)
    (by decide +kernel) (by decide +kernel) (by decide +kernel)).1 (by decide +kernel)
example : rename "/k/".toList "/k".toList true onWindows = (.ok (), onWindows) :=
  (rename_link_self (s := onWindows) (o := 6) (n := 6) true (by decide +kernel) (by decide +kernel) (by decide +kernel) (by decide +kernel) (by decide +kernel) (by decide +kernel)
    (by decide +kernel) (by decide +kernel) (by decide +kernel)).2 (by decide +kernel)
end Verif
