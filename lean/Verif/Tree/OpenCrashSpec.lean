import Verif.Tree.MkdirCrashSpec
import Verif.Tree.OpenSpec
/-!
# What a device may show of a volume while a file is opened
-/
namespace Fpm.Tree.Spec
open Fpm.Fat Fpm.DirDev Fpm.FatDir Fpm.Fat.Spec Fpm.FatFile.Spec Fpm.FatDir.Spec Fpm.Names Fpm.Names.Spec Fpm.Mount Fpm.Mount.Spec Fpm.DirDev.Spec

/-- While the object `G` is opened, device `q` shows the data of all files as in state `s`, and the directories and chains as they were, or as they are when the file has been opened (made, made empty, or left as it was); then
there may be a rest of an old chain that belongs to nothing. -/
def Opening (v : Vol) (i : Info) (tm mode : Nat) (G : Goal) (T : List Dir) (F : List (List Nat)) (s : St) (q : Disk) : Prop :=
  (∀ l ∈ F, ∀ n ∈ secs v l, q n = view s n) ∧
  (Shown v i T F q ∨
   ∃ T1 F1 d R F2 o m rest, T.Perm T1 ∧ F.Perm F1 ∧ Opened v tm mode G T1 F1 d R F2 o m ∧ (rest = [] ∨ ∃ l ∈ F, rest <:+ l) ∧ Shown v i (d :: R) (withRest [] rest (withRest [] m F2)) q)

end Fpm.Tree.Spec
