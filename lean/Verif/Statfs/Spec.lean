import Verif.Statfs.Model
import Verif.Fat.ChainSpec
/-!
# What f_statfs should tell
-/
namespace Fpm.Statfs.Spec
open Fpm.Fat Fpm.Fat.Spec

/-- The first two entries of the table, which belong to no cluster, are not zero. -/
def Marked (f : Nat → Nat) : Prop := f 0 ≠ 0 ∧ f 1 ≠ 0

/-- The clusters that are free, by number. -/
def freeClusters (v : Vol) (s : St) : List Nat := (List.range v.nFatent).filter fun c => 2 ≤ c && tab v s c == 0

/-- Kind of FAT, bytes in a cluster, and number of free clusters. -/
structure Reported (v : Vol) (s : St) (f : FsInfo) : Prop where
  type : f.type = v.fsType
  bsize : f.bsize = v.ss * v.csize
  bfree : f.bfree = (freeClusters v s).length
  bavail : f.bavail = f.bfree

end Fpm.Statfs.Spec
