import Verif.Mkfs.Model
import Verif.Mount.Spec
/-!
# What a new volume is
-/
namespace Fpm.Mkfs.Spec
open Fpm.Fat Fpm.Fat.Spec Fpm.FatFile.Spec Fpm.FatSync.Spec Fpm.Mount Fpm.Mount.Spec

/-- Sectors of the root directory: its cluster on FAT32, otherwise between FAT and clusters. -/
def InRoot (v : Vol) (i : Info) (n : Nat) : Prop := if v.fsType = 3 then n ∈ sectors v i.dirbase else i.dirbase ≤ n ∧ n < v.database

/-- A volume without files: all clusters are free but the one of the root directory on FAT32, which is a chain of its own; the root directory is zero; the first two entries of the FAT
hold the kind of the medium, 0xF8, with other bits set, and the mark for the end of a chain. -/
structure Empty (v : Vol) (i : Info) (d : Disk) : Prop where
  free : ∀ c, 2 ≤ c → c < v.nFatent → (v.fsType = 3 → c ≠ i.dirbase) → fat v d c = 0
  chain : v.fsType = 3 → 2 ≤ i.dirbase ∧ i.dirbase < v.nFatent ∧ v.nFatent ≤ fat v d i.dirbase
  root : ∀ n, InRoot v i n → d n = List.replicate v.ss 0
  ends : fat v d 0 = 2 ^ bits v - 8 ∧ fat v d 1 = 2 ^ bits v - 1

/-- Chains of a volume without files. -/
def rootChains (v : Vol) (i : Info) : List (List Nat) := if v.fsType = 3 then [[i.dirbase]] else []

/-- A sector with a partition table of one partition, from sector `b` to the end of the device. -/
structure Single (w : List Nat) (b size : Nat) : Prop extends Table w 0 b where
  count : b + field w 458 4 = size
  type : field w 450 1 ≠ 0
  others : (w.drop 462).take 48 = List.replicate 48 0

/-- The kind of FAT is one that was asked for. -/
def Asked (o : Opt) (v : Vol) : Prop := if v.fsType = 3 then o.fat32 = true else o.fat = true

/-- The configuration the command `format flash:` uses, kernel/cmd/cmd_format.c:29. -/
def flash : Opt := { fat := true, fat32 := false, exfat := false, sfd := true }

/-- The configuration the command `format sd:` uses, kernel/cmd/cmd_format.c:30. -/
def sd : Opt := { fat := false, fat32 := true, exfat := false, sfd := false }

end Fpm.Mkfs.Spec
