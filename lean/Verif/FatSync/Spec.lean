import Verif.FatSync.Model
import Verif.FatFile.Spec
/-!
# What the device holds
-/
namespace Fpm.FatSync.Spec
open Fpm.Fat Fpm.Fat.Spec Fpm.FatFile Fpm.FatFile.Spec Fpm.FatBytes.Spec

/-- A number of `k` bytes at offset `p` of a sector, lowest byte first. -/
def field (l : List Nat) (p k : Nat) : Nat := num ((l.drop p).take k)

/-- First cluster in a directory entry; the upper half counts in FAT32 only. -/
def first (v : Vol) (l : List Nat) (off : Nat) : Nat := field l (off + 26) 2 + if v.fsType = 3 then 2 ^ 16 * field l (off + 20) 2 else 0

/-- The device with contents `d` holds the file `data`, with the clusters `m`, in the directory entry at offset `off` of sector `n`:
the entry has its size and first cluster, the FAT the other clusters, and the clusters the bytes. -/
structure HoldsIn (v : Vol) (d : Disk) (n off : Nat) (m data : List Nat) : Prop where
  size : field (d n) (off + 28) 4 = data.length
  first : first v (d n) off = m.headD 0
  chain : m = [] ∨ Links v.nFatent (fat v d) m
  bytes : ((secs v m).flatMap d).take data.length = data

/-- The device holds the file in some clusters. -/
def Holds (v : Vol) (d : Disk) (n off : Nat) (data : List Nat) : Prop := ∃ m, HoldsIn v d n off m data

/-- Offsets in a directory entry that `f_sync` has no business with: name, and the bytes for case and creation. -/
def Untouched (i : Nat) : Prop := i < 11 ∨ 12 ≤ i ∧ i < 18

/-- A directory entry before and after `f_sync`: the archive attribute is set, the other attributes are as before, and `tm` is the time of the last change. -/
structure Stamped (l l' : List Nat) (off tm : Nat) : Prop where
  attr : ∃ x, l[off + 11]? = some x ∧ l'[off + 11]? = some (x ||| 0x20)
  time : field l' (off + 22) 4 = tm % 2 ^ 32

/-- The directory entry and the sector for free counts are outside of the FATs and of the clusters available to the file. -/
structure PlaceOk (v : Vol) (o : List Nat) (pl : Place) : Prop where
  off : pl.off + 32 ≤ v.ss
  not1 : ¬ Fat1 v pl.sect
  not2 : ¬ Fat2 v pl.sect
  own : ¬ OwnSect v o pl.sect
  info : ∀ n, pl.info = some n → n ≠ pl.sect ∧ ¬ Fat1 v n ∧ ¬ Fat2 v n ∧ ¬ OwnSect v o n
  big : pl.info ≠ none → 512 ≤ v.ss

end Fpm.FatSync.Spec
