import Verif.Tree.MoveCrashSpec
/-!
# What a device may show of a volume while a directory is made
-/
namespace Fpm.Tree.Spec
open Fpm.Fat Fpm.DirDev Fpm.FatDir Fpm.Fat.Spec Fpm.FatFile.Spec Fpm.FatDir.Spec Fpm.Names Fpm.Names.Spec Fpm.Mount Fpm.Mount.Spec Fpm.DirDev.Spec

/-- Device `q` shows the directories `T` with their objects, and their chains and the chains `F`, and no other chain. -/
def Shown (v : Vol) (i : Info) (T : List Dir) (F : List (List Nat)) (q : Disk) : Prop :=
  (∀ e ∈ T, Directory false (entries v i q e.loc) e.os) ∧ Chains v.nFatent (fat v q) (dirChains T ++ F)

/-- While directory `cs` is made in `d`, device `q` shows the data of all files as in state `s`, and the directories and chains as they were, or in addition a cluster that belongs to nothing, or
all of it with the new directory in it, which has the entries `.` and `..`. -/
def Making (v : Vol) (i : Info) (tm : Nat) (T : List Dir) (F : List (List Nat)) (s : St) (d : Dir) (cs : List Nat) (q : Disk) : Prop :=
  (∀ l ∈ F, ∀ n ∈ secs v l, q n = view s n) ∧ (Shown v i T F q ∨ (∃ c, Shown v i T ([c] :: F) q) ∨ ∃ R T2, T.Perm (d :: R) ∧ Made v tm cs d (d :: R) T2 ∧ Shown v i T2 F q)

end Fpm.Tree.Spec
