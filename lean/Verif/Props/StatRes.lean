import Verif.StatRes
import Verif.Props.Times
/-!
# C69: comparing stat results
-/

namespace Verif
open Py Spec Cfg

namespace Spec

/-- the ten public attributes of a stat result -/
structure Public where
  mode : Nat
  ino : Option Nat
  dev : Option Nat
  nlink : Int
  uid : Int
  gid : Int
  size : Nat
  atimeNs : Int
  mtimeNs : Int
  ctimeNs : Int

def publicOf (a : StatResult) : Public :=
  ⟨a.mode, a.ino, a.dev, a.nlink, a.uid, a.gid, a.size, a.atimeNs, a.mtimeNs, a.ctimeNs⟩

end Spec

/-- C69: two stat results are equal exactly if their ten public attributes (`st_mode`, `st_ino`, `st_dev`, `st_nlink`, `st_uid`,
`st_gid`, `st_size` and the three times in nanoseconds) are equal. -/
theorem stat_result_eq (a b : StatResult) : a.eq b = true ↔ publicOf a = publicOf b := by
  unfold StatResult.eq publicOf
  simp only [Bool.and_eq_true, beq_iff_eq, Public.mk.injEq]
  constructor
  · rintro ⟨⟨⟨⟨⟨⟨⟨⟨⟨h1, h2⟩, h3⟩, h4⟩, h5⟩, h6⟩, h7⟩, h8⟩, h9⟩, h10⟩
    exact ⟨h10, h9, h8, h7, h6, h5, h4, h1, h3, h2⟩
  · rintro ⟨h10, h9, h8, h7, h6, h5, h4, h1, h3, h2⟩
    exact ⟨⟨⟨⟨⟨⟨⟨⟨⟨h1, h2⟩, h3⟩, h4⟩, h5⟩, h6⟩, h7⟩, h8⟩, h9⟩, h10⟩

/-- the three laws of equality -/
theorem stat_result_equiv : Equivalence fun a b : StatResult => a.eq b = true :=
  ⟨fun a => (stat_result_eq a a).mpr rfl, fun h => (stat_result_eq _ _).mpr ((stat_result_eq _ _).mp h).symm,
    fun h k => (stat_result_eq _ _).mpr (((stat_result_eq _ _).mp h).trans ((stat_result_eq _ _).mp k))⟩

/-- Item access to a time does not depend on `stat_float_times`. -/
theorem seconds_toInt (R : Rounding) (g : Bool) (a : StatResult) (ns : Int) : (a.seconds R g ns).toInt = R.itemSec ns := by
  unfold StatResult.seconds Rounding.itemSec
  split <;> rfl

/-- C69: equal stat results give the same items, whatever `stat_float_times` was when they were made or is now; items 0 to 9
exist and no others. -/
theorem stat_result_items (R : Rounding) {g g' : Bool} {a b : StatResult} (h : a.eq b = true) (i : Nat) :
    a.item R g i = b.item R g' i ∧ ((a.item R g i).isSome ↔ i < 10) := by
  have e := (stat_result_eq a b).mp h
  unfold publicOf at e
  simp only [Public.mk.injEq] at e
  obtain ⟨h1, h2, h3, h4, h5, h6, h7, h8, h9, h10⟩ := e
  match i with
  | 0 => exact ⟨by simp only [StatResult.item, h1], by simp [StatResult.item]⟩
  | 1 => exact ⟨by simp only [StatResult.item, h2], by simp [StatResult.item]⟩
  | 2 => exact ⟨by simp only [StatResult.item, h3], by simp [StatResult.item]⟩
  | 3 => exact ⟨by simp only [StatResult.item, h4], by simp [StatResult.item]⟩
  | 4 => exact ⟨by simp only [StatResult.item, h5], by simp [StatResult.item]⟩
  | 5 => exact ⟨by simp only [StatResult.item, h6], by simp [StatResult.item]⟩
  | 6 => exact ⟨by simp only [StatResult.item, h7], by simp [StatResult.item]⟩
  | 7 => exact ⟨by simp only [StatResult.item, seconds_toInt, h8], by simp [StatResult.item]⟩
  | 8 => exact ⟨by simp only [StatResult.item, seconds_toInt, h9], by simp [StatResult.item]⟩
  | 9 => exact ⟨by simp only [StatResult.item, seconds_toInt, h10], by simp [StatResult.item]⟩
  | n + 10 => exact ⟨rfl, by simp [StatResult.item]⟩

/-- C69: the items are the attributes, the times in whole seconds. -/
theorem stat_result_item (R : Rounding) (g : Bool) (a : StatResult) :
    (List.range 10).map (a.item R g) = [some (some (a.mode : ℤ)), some (a.ino.map Int.ofNat), some (a.dev.map Int.ofNat), some (some a.nlink),
      some (some a.uid), some (some a.gid), some (some (a.size : ℤ)), some (some (R.itemSec a.atimeNs)), some (some (R.itemSec a.mtimeNs)),
      some (some (R.itemSec a.ctimeNs))] := by
  simp [List.range, List.range.loop, StatResult.item, seconds_toInt]

/-- C69: a copy is equal to the original, and it goes on reporting times in the same form when `stat_float_times` is
changed. -/
theorem stat_result_copy (R : Rounding) (g g' : Bool) (a : StatResult) :
    (a.copy g).eq a = true ∧ ∀ ns, (a.copy g).seconds R g' ns = a.seconds R g ns := by
  refine ⟨(stat_result_eq _ _).mpr rfl, fun ns => ?_⟩
  unfold StatResult.seconds StatResult.copy StatResult.floats
  cases a.useFloat <;> rfl

/-- C69: taking over the values of a real file keeps inode, device and link count, and takes the rest over exactly (on the
same kind of platform). -/
theorem stat_result_setFrom (a b : StatResult) (hw : a.isWin = b.isWin) :
    publicOf (a.setFrom b) = { publicOf b with ino := a.ino, dev := a.dev, nlink := a.nlink } := by
  unfold publicOf StatResult.setFrom StatResult.size
  dsimp only
  rw [hw]
  by_cases h : b.mode &&& S_IFLNK = S_IFLNK ∧ b.isWin = true
  · rw [if_pos h, if_pos h]
  · rw [if_neg h, if_neg h]

/-- C69: comparing the results of `stat` of two objects compares exactly what the model's stat records (`FS.statOf`) hold: two
`stat` calls return equal results iff all public attributes agree, so (C13) on one filesystem equal results belong to one
object. -/
theorem stat_result_record (s t : FS) (r x : Ref) : (s.statResult r).eq (t.statResult x) = true ↔ s.statOf r = t.statOf x := by
  rw [stat_result_eq]
  unfold publicOf FS.statOf FS.statResult StatResult.size FS.stSize
  simp only [Public.mk.injEq, Stat.mk.injEq]

/-- permission bits do not reach the file type -/
theorem perm_and {p : Nat} (hp : p < 0o10000) {f : Nat} (hf : f &&& 0o7777 = 0) : p &&& f = 0 := by
  have e : p &&& 0o7777 = p := by
    have : (0o7777 : Nat) = 2 ^ 12 - 1 := rfl
    rw [this, Nat.and_two_pow_sub_one_eq_mod]
    exact Nat.mod_eq_of_lt hp
  rw [← e, Nat.and_assoc, Nat.and_comm 0o7777 f, hf, Nat.and_zero]

theorem type_and {t p f : Nat} (hp : p < 0o10000) (hf : f &&& 0o7777 = 0) : (t ||| p) &&& f = t &&& f := by
  rw [Nat.and_or_distrib_right, perm_and hp hf, Nat.or_zero]

/-- C69: the Windows attributes by file type, for all permission bits. They are not those of Windows: a directory counts as a
device, and a regular file as a reparse point with the tag of a symlink (the type of a file is tested bit by bit). -/
theorem file_attributes_counterexample (a : StatResult) (hw : a.isWin = true) (p : Nat) (hp : p < 0o10000) :
    ({ a with mode := S_IFDIR ||| p } : StatResult).fileAttributes = some (StatResult.ATTR_DIRECTORY ||| StatResult.ATTR_DEVICE) ∧
    ({ a with mode := S_IFREG ||| p } : StatResult).fileAttributes = some (StatResult.ATTR_NORMAL ||| StatResult.ATTR_REPARSE) ∧
    ({ a with mode := S_IFREG ||| p } : StatResult).reparseTag = some StatResult.TAG_SYMLINK ∧
    ({ a with mode := S_IFLNK ||| p } : StatResult).fileAttributes =
      some (StatResult.ATTR_NORMAL ||| StatResult.ATTR_DEVICE ||| StatResult.ATTR_REPARSE) ∧
    ({ a with mode := S_IFLNK ||| p } : StatResult).reparseTag = some StatResult.TAG_SYMLINK ∧
    ({ a with mode := S_IFDIR ||| p } : StatResult).reparseTag = some 0 := by
  have hn : ¬ (a.isWin = false) := by rw [hw]; simp
  have h1 : S_IFDIR &&& 0o7777 = 0 := rfl
  have h2 : S_IFREG &&& 0o7777 = 0 := rfl
  have h3 : S_IFLNK &&& 0o7777 = 0 := rfl
  have h4 : (StatResult.S_IFCHR ||| StatResult.S_IFBLK) &&& 0o7777 = 0 := rfl
  unfold StatResult.fileAttributes StatResult.reparseTag
  simp only [if_neg hn, type_and hp h1, type_and hp h2, type_and hp h3, type_and hp h4]
  refine ⟨rfl, rfl, rfl, rfl, rfl, rfl⟩

/-- C69: on other platforms these attributes do not exist. -/
theorem file_attributes_posix (a : StatResult) (hw : a.isWin = false) : a.fileAttributes = none ∧ a.reparseTag = none := by
  unfold StatResult.fileAttributes StatResult.reparseTag
  rw [if_pos hw, if_pos hw]; exact ⟨rfl, rfl⟩

/-- In the example `/a/f` and `/g` are one file: their results are equal; those of `/a/f` and `/a` are not. -/
example : (demo.statResult 3).eq (demo.statResult 3) = true ∧ (demo.statResult 3).eq (demo.statResult 2) = false ∧
    (demo.statResult 3).nlink = 2 := by
  refine ⟨?_, ?_, ?_⟩ <;> decide +kernel

end Verif
