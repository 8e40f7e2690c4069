import Verif.FatFile.Spec
/-!
# What others lose with the power
-/
namespace Fpm.FatFile.Spec
open Fpm.Fat Fpm.Fat.Spec

/-- A chain is complete on the device, and its clusters hold what they hold on the first one. -/
def Intact (v : Vol) (d0 d : Disk) (l : List Nat) : Prop := Links v.nFatent (fat v d) l ∧ (secs v l).flatMap d = (secs v l).flatMap d0

/-- Nothing of the chains `C`, nor of what lies in front of the clusters (besides the FATs: boot sector, root directory of FAT12 and FAT16), is
lost from the first device to the second. -/
def Unharmed (v : Vol) (C : List (List Nat)) (d0 d : Disk) : Prop :=
  (∀ l ∈ C, Links v.nFatent (fat v d0) l → Intact v d0 d l) ∧ ∀ n, n < v.database → ¬ Fat1 v n → ¬ Fat2 v n → d n = d0 n

end Fpm.FatFile.Spec
