import Verif.Fat.Model
/-!
# f_statfs

Model of `f_statfs` of `fatfs/fatfs.c` for FAT12, FAT16 and FAT32, and of the numbers that the command `mount` shows.  exFAT is not modelled.
-/
namespace Fpm.Statfs
open Fpm.Fat Fpm.FatBytes

/-- `fs_info_t`, include/fpm/fs.h:74-81, without `f_pdrv`. -/
structure FsInfo where
  type : Nat
  bsize : Nat
  blocks : Nat
  bfree : Nat
  bavail : Nat
deriving DecidableEq

/-- Outcome of counting: state, result, `nfree`. -/
structure Count where
  st : St
  res : Nat
  nfree : Nat

/-- FAT12, fatfs/fatfs.c:4629-4643; the first argument is `fs->n_fatent - clst`. -/
def count12 (v : Vol) : Nat → St → Nat → Nat → Count
  | 0, s, _, n => ⟨s, FR_OK, n⟩
  | k + 1, s, clst, n =>
    if (getFat v s clst).2 = DERR then ⟨(getFat v s clst).1, FR_DISK_ERR, n⟩
    else if (getFat v s clst).2 = 1 then ⟨(getFat v s clst).1, FR_INT_ERR, n⟩
    else count12 v k (getFat v s clst).1 (clst + 1) (if (getFat v s clst).2 = 0 then n + 1 else n)

/-- `if (i == 0) move_window(fs, sect++)`, fatfs/fatfs.c:4673-4677. -/
def scanMove (v : Vol) (s : St) (sect i : Nat) : St × Nat := if i = 0 then moveWindow v s sect else (s, FR_OK)

/-- The entry at offset `i` of the window, fatfs/fatfs.c:4678-4686. -/
def scanEntry (v : Vol) (s : St) (i : Nat) : Option Nat := if v.fsType = 2 then ldWord s.win i else (ldDword s.win i).map (· &&& 0x0FFFFFFF)

/-- FAT16 and FAT32, fatfs/fatfs.c:4668-4690; the first argument is `clst`, which is not 0 in the beginning. -/
def scan (v : Vol) : Nat → St → Nat → Nat → Nat → Count
  | 0, s, _, _, n => ⟨s, FR_OK, n⟩
  | k + 1, s, sect, i, n =>
    if (scanMove v s sect i).2 = FR_OK then
      match scanEntry v (scanMove v s sect i).1 i with
      | none => ⟨(scanMove v s sect i).1, UB, n⟩
      | some x => scan v k (scanMove v s sect i).1 (if i = 0 then sect + 1 else sect) ((i + if v.fsType = 2 then 2 else 4) % v.ss) (if x = 0 then n + 1 else n)
    else ⟨(scanMove v s sect i).1, (scanMove v s sect i).2, n⟩

/-- The scan of the FAT, fatfs/fatfs.c:4625-4691. -/
def countFree (v : Vol) (s : St) : Count := if v.fsType = 1 then count12 v (v.nFatent - 2) s 2 0 else scan v v.nFatent s v.fatbase 0 0

/-- What is filled in, fatfs/fatfs.c:4700-4706; numbers of 32 bits. -/
def fsInfo (v : Vol) (totsec nfree : Nat) : FsInfo := ⟨v.fsType, v.ss * v.csize % 2 ^ 32, totsec / v.csize, nfree, nfree⟩

/-- After the scan, fatfs/fatfs.c:4692-4707. -/
def statDone (v : Vol) (totsec : Nat) (c : Count) : St × Nat × Option FsInfo :=
  if c.res = FR_OK then ({ c.st with freeClst := c.nfree, fsiFlag := true }, FR_OK, some (fsInfo v totsec c.nfree)) else (c.st, c.res, none)

/-- `f_statfs`, fatfs/fatfs.c:4597-4709, for a volume that is mounted and present; `totsec` is the number of its sectors. -/
def statFs (v : Vol) (totsec : Nat) (s : St) : St × Nat × Option FsInfo :=
  if s.freeClst ≤ v.nFatent - 2 then (s, FR_OK, some (fsInfo v totsec s.freeClst)) else statDone v totsec (countFree v s)

/-- `blk_to_kbytes`, kernel/cmd/cmd_mount.c:14-23; `unsigned long` has 32 bits on the microcontrollers. -/
def kbytes (num bsize : Nat) : Nat := if bsize = 0 then num else if bsize < 1024 then num / (1024 / bsize) else num * (bsize / 1024) % 2 ^ 32

/-- The columns of the command `mount`, kernel/cmd/cmd_mount.c:80-90: size, used, free, and per cent used. -/
def shown (f : FsInfo) : Nat × Nat × Nat × Nat :=
  let used := (f.blocks + 2 ^ 32 - f.bfree) % 2 ^ 32
  let avail := (f.bavail + used) % 2 ^ 32
  (kbytes f.blocks f.bsize, kbytes used f.bsize, kbytes f.bavail f.bsize, if avail = 0 then 100 else (used * 200 + avail) / avail / 2)

end Fpm.Statfs
