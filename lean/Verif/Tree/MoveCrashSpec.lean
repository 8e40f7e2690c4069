import Verif.Tree.RenameSpec
import Verif.Tree.CrashSpec
/-!
# What a device may show of a volume while an object is renamed
-/
namespace Fpm.Tree.Spec
open Fpm.Fat Fpm.DirDev Fpm.FatDir Fpm.Fat.Spec Fpm.FatFile.Spec Fpm.FatDir.Spec Fpm.Names Fpm.Names.Spec Fpm.Mount Fpm.Mount.Spec Fpm.DirDev.Spec

/-- Objects `os` that are seen in directory `e` while object `o` of directory `d` gets the name `cs` in directory `n`: all others are there, the object has its old name (perhaps the short one only) or, if it has
`moved`, is there with the new name, and nothing else is seen.  The objects `.` and `..` of a directory that is moved may change. -/
structure SeenMoved (v : Vol) (d n : Dir) (cs : List Nat) (o : Obj) (moved : Bool) (e : Dir) (os : List Obj) : Prop where
  kept : ∀ a ∈ e.os, (e = d → a ≠ o) → (Dotted a → e.sclust ≠ first v o) → a ∈ os
  only : ∀ a ∈ os, a ∈ e.os ∨ e = n ∧ Calls cs a ∨ e = d ∧ a = { o with long := none } ∨ Dotted a ∧ e.sclust = first v o
  old : moved = false → e = d → o ∈ os ∨ { o with long := none } ∈ os
  new : moved = true → e = n → ∃ o' ∈ os, Calls cs o' ∧ ¬ Dotted o' ∧ Carried v o o'

/-- Nothing is lost on device `q`: all chains and all data of files are what they were in state `s`, and directories show all their objects. -/
def Survives (v : Vol) (i : Info) (T : List Dir) (F : List (List Nat)) (s : St) (d n : Dir) (cs : List Nat) (o : Obj) (q : Disk) : Prop :=
  fat v q = tab v s ∧ (∀ l ∈ F, ∀ k ∈ secs v l, q k = view s k) ∧ ∃ moved, ∀ e ∈ T, ∃ os, Directory false (entries v i q e.loc) os ∧ SeenMoved v d n cs o moved e os

/-- There is room in directory `n` for an entry with this name, without another cluster. -/
def HasRoom (v : Vol) (i : Info) (s : St) (n : Dir) (cs : List Nat) : Prop :=
  ∀ buf fn fl, FileName cs true buf fn fl → ¬ NoRoom (entries v i (view s) n.loc) (fl &&& 2 ≠ 0) (units (trimmed cs)).length

end Fpm.Tree.Spec
