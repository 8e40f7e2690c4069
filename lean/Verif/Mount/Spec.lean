import Verif.Mount.Model
import Verif.FatSync.Spec
/-!
# What a well-formed FAT volume is
-/
namespace Fpm.Mount.Spec
open Fpm.Fat Fpm.Fat.Spec Fpm.FatFile.Spec Fpm.FatSync.Spec

/-- Number of clusters. -/
def clusters (v : Vol) : Nat := v.nFatent - 2

/-- Parts of a volume one after the other: reserved sectors, FATs, root directory (FAT12 and FAT16), clusters.  Everything is inside of the volume, each
FAT has an entry for each cluster, the kind of FAT follows from the number of clusters, and the sector for free counts is a reserved one. -/
structure Layout (v : Vol) (i : Info) : Prop where
  geo : Geo v
  data : DataGeo v
  reserved : i.volbase < v.fatbase
  root : v.fsType ≠ 3 → i.dirbase = v.fatbase + v.nFats * v.fsize ∧ 0 < i.nRoot ∧ v.database * v.ss = i.dirbase * v.ss + i.nRoot * 32
  root32 : v.fsType = 3 → i.nRoot = 0 ∧ v.database = v.fatbase + v.nFats * v.fsize
  inside : v.database + clusters v * v.csize ≤ i.volbase + i.totsec
  rest : i.volbase + i.totsec < v.database + (clusters v + 1) * v.csize
  limit : i.volbase + i.totsec ≤ 2 ^ 32
  kind : v.fsType = (if clusters v ≤ 4085 then 1 else if clusters v ≤ 65525 then 2 else 3)
  fsi : ∀ n, i.fsi = some n → v.fsType = 3 ∧ i.volbase < n ∧ n < v.fatbase

/-- The device: sectors of 512, 1024, 2048 or 4096 bytes, also when a transfer fails. -/
structure Dev (ss : Nat) (io : Nat → Io) (s : St) : Prop where
  kind : ss = 512 ∨ ss = 1024 ∨ ss = 2048 ∨ ss = 4096
  disk : ∀ n, (s.disk n).length = ss ∧ ∀ x ∈ s.disk n, x < 256
  win : s.win.length = ss ∧ ∀ x ∈ s.win, x < 256
  junk : ∀ n j, io n = .fail j → j.length = ss ∧ ∀ x ∈ j, x < 256

/-- A sector starts with a jump of an x86 processor. -/
def Jump (w : List Nat) : Prop := field w 0 1 = 0xEB ∨ field w 0 1 = 0xE9 ∨ field w 0 1 = 0xE8

/-- The boot sector `w` describes the volume: fields at their documented offsets. -/
structure Encodes (w : List Nat) (v : Vol) (i : Info) : Prop where
  jump : Jump w
  notEx : w.take 11 ≠ exfatSign
  sign : field w 510 2 = 0xAA55
  bps : field w 11 2 = v.ss
  spc : field w 13 1 = v.csize
  rsvd : i.volbase + field w 14 2 = v.fatbase
  nf : field w 16 1 = v.nFats
  root : field w 17 2 = i.nRoot
  total : field w 19 2 = i.totsec ∧ 128 ≤ i.totsec ∨ field w 19 2 = 0 ∧ field w 32 4 = i.totsec ∧ 0x10000 ≤ i.totsec
  small : v.fsType ≠ 3 → field w 22 2 = v.fsize
  large : v.fsType = 3 → field w 22 2 = 0 ∧ field w 36 4 = v.fsize ∧ field w 42 2 = 0 ∧ field w 44 4 = i.dirbase ∧ (w.drop 82).take 8 = fat32Sign
  fsi : i.fsi = if v.fsType = 3 ∧ field w 48 2 = 1 then some (i.volbase + 1) else none

/-- A sector with a partition table: partition `k` starts at sector `b`. -/
structure Table (w : List Nat) (k b : Nat) : Prop where
  notBoot : ¬ Jump w
  sign : field w 510 2 = 0xAA55
  start : field w (454 + 16 * k) 4 = b
  pos : 0 < b

/-- A partition that is not in use, or one without a boot sector. -/
def Skipped (d : Disk) (n : Nat) : Prop := n = 0 ∨ n < 2 ^ 32 - 1 ∧ ¬ Jump (d n)

/-- Where the volume is: at the start of the device, or in one of four partitions, after others that are no volumes. -/
def Located (d : Disk) (b : Nat) : Prop := b = 0 ∨ ∃ k < 4, Table (d 0) k b ∧ b < 2 ^ 32 - 1 ∧ ∀ j < k, Skipped d (field (d 0) (454 + 16 * j) 4)

/-- Number of free clusters that is stored on the device, or the value that stands for an unknown number. -/
def storedFree (d : Disk) (i : Info) : Nat :=
  match i.fsi with
  | some n => if field (d n) 0 4 = 0x41615252 ∧ field (d n) 484 4 = 0x61417272 ∧ field (d n) 510 2 = 0xAA55 then field (d n) 488 4 else 0xFFFFFFFF
  | none => 0xFFFFFFFF

end Fpm.Mount.Spec
