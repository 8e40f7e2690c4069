import Verif.Fat.Model
import Verif.FatBytes.Props
/-!
# What a FAT volume is, on the sectors
-/
namespace Fpm.Fat.Spec
open Fpm.FatBytes Fpm.FatBytes.Spec

/-- A sector holds `ss` bytes. -/
def Sec (v : Vol) (b : List Nat) : Prop := b.length = v.ss ∧ ∀ x ∈ b, x < 256

/-- Bits of an entry. -/
def width (v : Vol) : Nat := if v.fsType = 1 then 12 else if v.fsType = 2 then 16 else 32

/-- What `mount` has checked (fatfs/fatfs.c:3160-3240): sector size, number of FATs, kind of FAT and its size; and the
device transfers whole sectors. -/
structure Geo (v : Vol) : Prop where
  ss : v.ss % 4 = 0 ∧ 0 < v.ss
  nFats : v.nFats = 1 ∨ v.nFats = 2
  kind : v.fsType = 1 ∧ v.nFatent ≤ 0xFF7 ∨ v.fsType = 2 ∧ v.nFatent ≤ 0xFFF7 ∨ v.fsType = 3 ∧ v.nFatent ≤ 0x0FFFFFF7
  size : width v * v.nFatent ≤ 8 * (v.fsize * v.ss)
  pos : 3 ≤ v.nFatent
  junk : ∀ n j, v.io n = .fail j → Sec v j

/-- The device never fails. -/
def Sound (v : Vol) : Prop := ∀ n, v.io n = .ok

/-- Sectors of the first FAT. -/
def Fat1 (v : Vol) (n : Nat) : Prop := v.fatbase ≤ n ∧ n < v.fatbase + v.fsize

/-- Sectors of the second FAT. -/
def Fat2 (v : Vol) (n : Nat) : Prop := v.nFats = 2 ∧ v.fatbase + v.fsize ≤ n ∧ n < v.fatbase + 2 * v.fsize

/-- The contents the program sees: the window hides the sector under it. -/
def view (s : St) : Disk := fun n => if s.winsect = some n then s.win else s.disk n

/-- The first FAT as a sequence of bytes. -/
def area (v : Vol) (d : Disk) : List Nat := (List.range v.fsize).flatMap fun i => d (v.fatbase + i)

/-- Entry `c` of a table of `w`-bit numbers, lowest bits first. -/
def entry (w : Nat) (l : List Nat) (c : Nat) : Nat := num l / 2 ^ (w * c) % 2 ^ w

/-- Bits of an entry that count: 28 in FAT32. -/
def bits (v : Vol) : Nat := if v.fsType = 1 then 12 else if v.fsType = 2 then 16 else 28

/-- The FAT entry of a cluster. -/
def fat (v : Vol) (d : Disk) (c : Nat) : Nat := entry (width v) (area v d) c % 2 ^ bits v

/-- Bits of an entry that do not count and have to be preserved. -/
def reserved (v : Vol) (d : Disk) (c : Nat) : Nat := entry (width v) (area v d) c / 2 ^ bits v

/-- Consistent state: sectors are sectors; a clean window equals the disk; it does not show the second FAT. -/
structure Inv (v : Vol) (s : St) : Prop where
  disk : ∀ n, Sec v (s.disk n)
  win : Sec v s.win
  clean : s.wflag = false → ∀ n, s.winsect = some n → s.win = s.disk n
  dirty : s.wflag = true → s.winsect ≠ none
  fat2 : ∀ n, s.winsect = some n → ¬ Fat2 v n

end Fpm.Fat.Spec
