import Verif.Mount.Model
import Verif.FatFile.Model
/-!
# Making a FAT volume

Model of `f_mkfs` for FAT12, FAT16 and FAT32, and of `create_partition`, of `fatfs/fatfs.c`, on the device of `Verif.Fat.Model`.  Unsigned numbers of 32 bits wrap
around, sector numbers in transfers excepted.  The parameters `opt` are the default ones, as in the code, so that there is one FAT, and room for 512 entries
in the root directory.  Not modelled: choice and state of the drive, the queries of sector size, block size and size, which are parameters, the time, which is part
of the parameter `vsn`, and exFAT, which is an outcome.
-/
namespace Fpm.Mkfs
open Fpm.Fat Fpm.FatBytes Fpm.FatFile Fpm.Mount

/-- Flags of the argument `fmt`, include/fpm/fs.h:96-100. -/
structure Opt where
  fat : Bool
  fat32 : Bool
  exfat : Bool
  sfd : Bool

/-- Result codes, include/fpm/fs.h:34-39. -/
def FR_MKFS_ABORTED := 14
@[inherit_doc FR_MKFS_ABORTED] def FR_NOT_ENOUGH_CORE := 17
@[inherit_doc FR_MKFS_ABORTED] def FR_INVALID_PARAMETER := 19

/-- Not a result of the code: a loop goes on for too long. -/
def HANG := 2 ^ 34

/-- Limits of the numbers of clusters, fatfs/fatfs.c:38-42. -/
def MAX_FAT12 := 0xFF5
@[inherit_doc MAX_FAT12] def MAX_FAT16 := 0xFFF5
@[inherit_doc MAX_FAT12] def MAX_FAT32 := 0x0FFFFFF5

/-- `sz_blk`, fatfs/fatfs.c:5655-5656. -/
def block (b : Nat) : Nat := if b = 0 ∨ b > 0x8000 ∨ oneBit b = false then 1 else b

/-- `b_vol`, fatfs/fatfs.c:5692-5698. -/
def volBase (o : Opt) (size : Nat) : Nat := if o.sfd = false ∧ size > 63 then 63 else 0

/-- `sz_vol`, fatfs/fatfs.c:5697. -/
def volSize (o : Opt) (size : Nat) : Nat := size - volBase o size

/-- `fsty` to start with: 2 for FAT16, 3 for FAT32, 4 for exFAT; fatfs/fatfs.c:5705-5724, with `sz_au` 0. -/
def preType (o : Opt) (szVol : Nat) : Option Nat :=
  if o.exfat ∧ (o.fat = false ∧ o.fat32 = false ∨ szVol ≥ 0x4000000) then some 4
  else if o.fat32 ∧ o.fat = false then some 3
  else if o.fat = false then none
  else some 2

/-- The loops `for (i = 0, pau = 1; cst[i] && cst[i] <= n; i++, pau <<= 1)`, fatfs/fatfs.c:5954 and 5967. -/
def pick (n : Nat) : List Nat → Nat → Nat
  | [], pau => pau
  | c :: l, pau => if c ≤ n then pick n l (pau * 2) else pau

/-- `pau`, sectors of a cluster, fatfs/fatfs.c:5950-5969, tables 5617-5622. -/
def pauOf (fsty szAu szVol : Nat) : Nat :=
  if szAu = 0 then if fsty = 3 then pick (szVol / 0x20000) [1, 2, 4, 8, 16, 32] 1 else pick (szVol / 0x1000) [1, 4, 16, 64, 256, 512] 1
  else szAu

/-- A configuration: kind of FAT, sectors of a cluster, number of clusters, sectors of FAT, reserved sectors, sectors of the root directory. -/
structure Cfg where
  fsty : Nat
  pau : Nat
  nClst : Nat
  szFat : Nat
  szRsv : Nat
  szDir : Nat
deriving DecidableEq, Repr

/-- End of a round of the loop: break, continue with `sz_au` and `fsty`, or return. -/
inductive Round where
  | done (c : Cfg)
  | again (szAu fsty : Nat)
  | abort
deriving DecidableEq, Repr

/-- Sectors of the FAT before alignment, fatfs/fatfs.c:5957-5976; `fsty` is final. -/
def fatSect (ss fsty n : Nat) : Nat :=
  if fsty = 3 then u32 (n * 4 + 8 + ss - 1) / ss
  else if fsty = 1 then u32 (u32 (n * 3 + 1) / 2 + 3 + ss - 1) / ss
  else u32 (n * 2 + 4 + ss - 1) / ss

/-- Reserved sectors before alignment, fatfs/fatfs.c:5958 and 5977. -/
def rsvSect (fsty : Nat) : Nat := if fsty = 3 then 32 else 1

/-- `sz_dir`, fatfs/fatfs.c:5959 and 5978. -/
def dirSect (ss fsty : Nat) : Nat := if fsty = 3 then 0 else 512 * 32 / ss

/-- `b_data`, fatfs/fatfs.c:5980-5981. -/
def dataBase (ss bVol fsty n : Nat) : Nat := u32 (bVol + rsvSect fsty + fatSect ss fsty n + dirSect ss fsty)

/-- Sectors up to the next multiple of the block size, which is a power of two; fatfs/fatfs.c:5985-5987. -/
def gap (blk b : Nat) : Nat := u32 (u32 (b + blk - 1) / blk * blk + (2 ^ 32 - b))

/-- The number of clusters, fatfs/fatfs.c:6003. -/
def clusters (szVol rsv fat dir pau : Nat) : Nat := u32 (szVol + (2 ^ 32 - rsv) + (2 ^ 32 - fat) + (2 ^ 32 - dir)) / pau

/-- Checks of the number of clusters, fatfs/fatfs.c:6004-6035. -/
def judge (o : Opt) (szAu : Nat) (c : Cfg) : Round :=
  if c.fsty = 3 then
    if c.nClst ≤ MAX_FAT16 then if szAu = 0 ∧ c.pau / 2 ≠ 0 then .again (c.pau / 2) 3 else .abort
    else .done c
  else if c.fsty = 2 then
    if c.nClst > MAX_FAT16 then
      if szAu = 0 ∧ c.pau * 2 ≤ 64 then .again (c.pau * 2) 2
      else if o.fat32 then .again szAu 3
      else if szAu = 0 ∧ c.pau * 2 ≤ 128 then .again (c.pau * 2) 2
      else .abort
    else if c.nClst ≤ MAX_FAT12 then if szAu = 0 ∧ c.pau * 2 ≤ 128 then .again (c.pau * 2) 2 else .abort
    else .done c
  else if c.nClst > MAX_FAT12 then .abort
  else .done c

/-- Alignment of the data, fatfs/fatfs.c:5988-5998: FAT32 gets more reserved sectors, the others a longer FAT (`n % n_fat` is 0). -/
def config (ss szVol fsty pau n g : Nat) : Cfg :=
  if fsty = 3 then ⟨3, pau, clusters szVol (u32 (32 + g)) (fatSect ss 3 n) 0 pau, fatSect ss 3 n, u32 (32 + g), 0⟩
  else ⟨fsty, pau, clusters szVol 1 (u32 (fatSect ss fsty n + g)) (dirSect ss fsty) pau, u32 (fatSect ss fsty n + g), 1, dirSect ss fsty⟩

/-- From the kind of FAT to the end of the round, fatfs/fatfs.c:5980-6035. -/
def layout (o : Opt) (ss blk bVol szVol szAu fsty pau n : Nat) : Round :=
  if szVol < u32 (u32 (dataBase ss bVol fsty n + pau * 16) + (2 ^ 32 - bVol)) then .abort
  else judge o szAu (config ss szVol fsty pau n (gap blk (dataBase ss bVol fsty n)))

/-- One round, fatfs/fatfs.c:5948-6039. -/
def round (o : Opt) (ss blk bVol szVol szAu fsty : Nat) : Round :=
  if fsty = 3 then
    if szVol / pauOf 3 szAu szVol ≤ MAX_FAT16 ∨ szVol / pauOf 3 szAu szVol > MAX_FAT32 then .abort
    else layout o ss blk bVol szVol szAu 3 (pauOf 3 szAu szVol) (szVol / pauOf 3 szAu szVol)
  else if szVol / pauOf fsty szAu szVol > MAX_FAT12 then layout o ss blk bVol szVol szAu fsty (pauOf fsty szAu szVol) (szVol / pauOf fsty szAu szVol)
  else layout o ss blk bVol szVol szAu 1 (pauOf fsty szAu szVol) (szVol / pauOf fsty szAu szVol)

/-- The loop, fatfs/fatfs.c:5948-6040, with the number of rounds it is followed for: a configuration, `none` for none, or a loop that goes on. -/
def search (o : Opt) (ss blk bVol szVol : Nat) : Nat → Nat → Nat → Option (Option Cfg)
  | 0, _, _ => none
  | k + 1, szAu, fsty =>
    match round o ss blk bVol szVol szAu fsty with
    | .done c => some (some c)
    | .abort => some none
    | .again a t => search o ss blk bVol szVol k a t

/-- `memcpy` to a buffer, fatfs/fatfs.c:6050. -/
def stBytes (m : List Nat) (p : Nat) (l : List Nat) : Option (List Nat) :=
  if p + l.length ≤ m.length then some (m.take p ++ l ++ m.drop (p + l.length)) else none

/-- `"\xEB\xFE\x90" "MSDOS5.0"`, fatfs/fatfs.c:6051-6052. -/
def bootName : List Nat := [0xEB, 0xFE, 0x90, 77, 83, 68, 79, 83, 53, 46, 48]

/-- `"NO NAME    " "FAT32   "`, fatfs/fatfs.c:6080-6081. -/
def label32 : List Nat := [78, 79, 32, 78, 65, 77, 69, 32, 32, 32, 32, 70, 65, 84, 51, 50, 32, 32, 32]

/-- `"NO NAME    " "FAT     "`, fatfs/fatfs.c:6089-6090. -/
def label16 : List Nat := [78, 79, 32, 78, 65, 77, 69, 32, 32, 32, 32, 70, 65, 84, 32, 32, 32, 32, 32]

/-- Volume size, fatfs/fatfs.c:6060-6064. -/
def putSize (w : List Nat) (szVol : Nat) : Option (List Nat) := if szVol < 0x10000 then stWord w 19 szVol else stDword w 32 szVol

/-- Fields of FAT32, fatfs/fatfs.c:6071-6082. -/
def put32 (w : List Nat) (vsn : Nat) (c : Cfg) : Option (List Nat) :=
  (stDword w 67 vsn).bind fun w => (stDword w 36 c.szFat).bind fun w => (stDword w 44 2).bind fun w => (stWord w 48 1).bind fun w => (stWord w 50 6).bind fun w =>
    (stByte w 64 0x80).bind fun w => (stByte w 66 0x29).bind fun w => stBytes w 71 label32

/-- Fields of FAT12 and FAT16, fatfs/fatfs.c:6084-6091. -/
def put16 (w : List Nat) (vsn : Nat) (c : Cfg) : Option (List Nat) :=
  (stDword w 39 vsn).bind fun w => (stWord w 22 (c.szFat % 2 ^ 16)).bind fun w => (stByte w 36 0x80).bind fun w => (stByte w 38 0x29).bind fun w => stBytes w 43 label16

/-- The boot sector, fatfs/fatfs.c:6048-6094. -/
def bootSector (ss bVol szVol vsn : Nat) (c : Cfg) : Option (List Nat) :=
  (stBytes (List.replicate ss 0) 0 bootName).bind fun w => (stWord w 11 ss).bind fun w => (stByte w 13 (c.pau % 256)).bind fun w => (stWord w 14 (c.szRsv % 2 ^ 16)).bind fun w =>
    (stByte w 16 1).bind fun w => (stWord w 17 (if c.fsty = 3 then 0 else 512)).bind fun w => (putSize w szVol).bind fun w => (stByte w 21 0xF8).bind fun w =>
    (stWord w 24 63).bind fun w => (stWord w 26 255).bind fun w => (stDword w 28 bVol).bind fun w => (if c.fsty = 3 then put32 w vsn c else put16 w vsn c).bind fun w => stWord w 510 0xAA55

/-- The sector for free counts, fatfs/fatfs.c:6101-6106. -/
def infoSector (ss : Nat) (c : Cfg) : Option (List Nat) :=
  (stDword (List.replicate ss 0) 0 0x41615252).bind fun w => (stDword w 484 0x61417272).bind fun w => (stDword w 488 (u32 (c.nClst + (2 ^ 32 - 1)))).bind fun w => (stDword w 492 2).bind fun w => stWord w 510 0xAA55

/-- Three more sectors for FAT32, fatfs/fatfs.c:6099-6109; the results of the transfers are not looked at. -/
def putInfos (v : Vol) (s : St) (bVol : Nat) (w : List Nat) (c : Cfg) : Option St :=
  if c.fsty = 3 then
    (infoSector v.ss c).map fun f => (diskWrite v (diskWrite v (diskWrite v s (bVol + 6) w).1 (bVol + 7) f).1 (bVol + 1) f).1
  else some s

/-- The buffer with the start of the FAT, fatfs/fatfs.c:6115-6122; `z` is the cleared buffer. -/
def fatHead (z : List Nat) (fsty : Nat) : Option (List Nat) :=
  if fsty = 3 then (stDword z 0 0xFFFFFFF8).bind fun z => (stDword z 4 0xFFFFFFFF).bind fun z => stDword z 8 0x0FFFFFFF
  else stDword z 0 (if fsty = 1 then 0xFFFFF8 else 0xFFFFFFF8)

/-- The loops that fill sectors, fatfs/fatfs.c:6123-6131 and 6136-6142, with the number of rounds they are followed for: `buf` is the buffer now, `rest` in later rounds. -/
def fill (v : Vol) (szBuf : Nat) : Nat → St → Nat → List Nat → List Nat → Nat → St × Nat
  | 0, s, _, _, _, _ => (s, HANG)
  | k + 1, s, sect, buf, rest, nsect =>
    if (diskWriteN v s sect buf (min nsect szBuf)).2 then
      if nsect - min nsect szBuf = 0 then ((diskWriteN v s sect buf (min nsect szBuf)).1, FR_OK)
      else fill v szBuf k (diskWriteN v s sect buf (min nsect szBuf)).1 (sect + min nsect szBuf) rest rest (nsect - min nsect szBuf)
    else ((diskWriteN v s sect buf (min nsect szBuf)).1, FR_DISK_ERR)

/-- Heads, fatfs/fatfs.c:5563-5567: `n_hd` has 8 bits and gets 0 after 128. -/
def heads (szDrv : Nat) : Nat := ([8, 16, 32, 64, 128].find? fun h => decide (szDrv / h / 63 ≤ 1024)).getD 255

/-- `sz_part32`, fatfs/fatfs.c:5573-5578. -/
def partSize (szDrv p : Nat) : Nat := if p ≤ 100 then if p = 100 then szDrv else u32 (szDrv / 100 * p) else p

@[inherit_doc partSize] def clip (nxt szDrv z : Nat) : Nat := if u32 (nxt + z) > szDrv ∨ u32 (nxt + z) < nxt then u32 (szDrv + (2 ^ 32 - nxt)) else z

/-- Head, sector and cylinder of a sector number, fatfs/fatfs.c:5586-5598. -/
def putChs (w : List Nat) (p n hd : Nat) : Option (List Nat) :=
  (stByte w p (n / 63 % hd)).bind fun w => (stByte w (p + 1) ((n / 63 / hd >>> 2 &&& 0xC0) ||| (n % 63 + 1))).bind fun w => stByte w (p + 2) (n / 63 / hd)

/-- One entry of the partition table, fatfs/fatfs.c:5582-5598. -/
def putPart (w : List Nat) (p nxt z sys hd : Nat) : Option (List Nat) :=
  (stDword w (p + 8) nxt).bind fun w => (stDword w (p + 12) z).bind fun w => (stByte w (p + 4) sys).bind fun w => (putChs w (p + 1) nxt hd).bind fun w => putChs w (p + 5) (u32 (nxt + z + (2 ^ 32 - 1))) hd

/-- The loop over partitions, fatfs/fatfs.c:5571-5601: `k` more entries, the next is `i`. -/
def partLoop (plst : List Nat) (szDrv sys : Nat) : Nat → Nat → Nat → List Nat → Option (List Nat)
  | 0, _, _, w => some w
  | k + 1, i, nxt, w =>
    if nxt ≠ 0 ∧ nxt < szDrv then
      plst[i]?.bind fun p =>
        if clip nxt szDrv (partSize szDrv p) = 0 then some w
        else (putPart w (446 + 16 * i) nxt (clip nxt szDrv (partSize szDrv p)) sys (heads szDrv)).bind fun w =>
          partLoop plst szDrv sys k (i + 1) (u32 (nxt + clip nxt szDrv (partSize szDrv p))) w
    else some w

/-- The sector with the partition table, fatfs/fatfs.c:5569-5603.  The buffer is cleared for the largest sector size, whatever its length is. -/
def mbr (ss len szDrv szVol sys : Nat) : Option (List Nat) :=
  if len < 4096 then none else (partLoop [szVol, 0] szDrv sys 4 0 63 (List.replicate ss 0)).bind fun w => stWord w 510 0xAA55

/-- `sys`, fatfs/fatfs.c:6148-6158. -/
def sysId (fsty szVol : Nat) : Nat := if fsty = 3 then 0x0C else if szVol ≥ 0x10000 then 0x06 else if fsty = 2 then 0x04 else 0x01

/-- Partition table, fatfs/fatfs.c:6161-6172, 5604-5607. -/
def putTable (v : Vol) (o : Opt) (len size szVol : Nat) (c : Cfg) (s : St) : St × Nat :=
  if o.sfd then (s, FR_OK)
  else
    match mbr v.ss len size szVol (sysId c.fsty szVol) with
    | none => (s, UB)
    | some w => if (diskWrite v s 0 w).2 then ((diskWrite v s 0 w).1, FR_OK) else ((diskWrite v s 0 w).1, FR_DISK_ERR)

/-- The root directory, fatfs/fatfs.c:6135-6142, and the rest. -/
def putRoot (v : Vol) (o : Opt) (len size bVol szVol : Nat) (c : Cfg) (s : St) : St × Nat :=
  if (fill v (len / v.ss) ((if c.fsty = 3 then c.pau else c.szDir) + 1) s (bVol + c.szRsv + c.szFat) (List.replicate (len / v.ss * v.ss) 0) (List.replicate (len / v.ss * v.ss) 0)
      (if c.fsty = 3 then c.pau else c.szDir)).2 = FR_OK then
    putTable v o len size szVol c (fill v (len / v.ss) ((if c.fsty = 3 then c.pau else c.szDir) + 1) s (bVol + c.szRsv + c.szFat) (List.replicate (len / v.ss * v.ss) 0) (List.replicate (len / v.ss * v.ss) 0)
      (if c.fsty = 3 then c.pau else c.szDir)).1
  else fill v (len / v.ss) ((if c.fsty = 3 then c.pau else c.szDir) + 1) s (bVol + c.szRsv + c.szFat) (List.replicate (len / v.ss * v.ss) 0) (List.replicate (len / v.ss * v.ss) 0)
      (if c.fsty = 3 then c.pau else c.szDir)

/-- The FAT, fatfs/fatfs.c:6111-6132, and the rest.  In the rounds after the first one the buffer is all zero: its first sector is cleared again, the others have been. -/
def putFat (v : Vol) (o : Opt) (len size bVol szVol : Nat) (c : Cfg) (s : St) : St × Nat :=
  match fatHead (List.replicate (len / v.ss * v.ss) 0) c.fsty with
  | none => (s, UB)
  | some z =>
    if (fill v (len / v.ss) (c.szFat + 1) s (bVol + c.szRsv) z (List.replicate v.ss 0 ++ z.drop v.ss) c.szFat).2 = FR_OK then
      putRoot v o len size bVol szVol c (fill v (len / v.ss) (c.szFat + 1) s (bVol + c.szRsv) z (List.replicate v.ss 0 ++ z.drop v.ss) c.szFat).1
    else fill v (len / v.ss) (c.szFat + 1) s (bVol + c.szRsv) z (List.replicate v.ss 0 ++ z.drop v.ss) c.szFat

/-- The volume, fatfs/fatfs.c:6047-6175. -/
def create (v : Vol) (o : Opt) (len size bVol szVol vsn : Nat) (c : Cfg) (s : St) : St × Nat :=
  match bootSector v.ss bVol szVol vsn c with
  | none => (s, UB)
  | some w =>
    if (diskWrite v s bVol w).2 then
      match putInfos v (diskWrite v s bVol w).1 bVol w c with
      | none => ((diskWrite v s bVol w).1, UB)
      | some s => putFat v o len size bVol szVol c s
    else ((diskWrite v s bVol w).1, FR_DISK_ERR)

/-- `f_mkfs` from line 5676 on, fatfs/fatfs.c:5676-6176, for a drive with `size` sectors of `ss` bytes. -/
def mkfs (ss : Nat) (io : Nat → Io) (blk size : Nat) (o : Opt) (len vsn : Nat) (s : St) : St × Nat :=
  if len / ss = 0 then (s, FR_NOT_ENOUGH_CORE)
  else if volSize o size < 128 then (s, FR_MKFS_ABORTED)
  else
    match preType o (volSize o size) with
    | none => (s, FR_INVALID_PARAMETER)
    | some t =>
      if t = 4 then (s, EXFAT)
      else
        match search o ss (block blk) (volBase o size) (volSize o size) 3 0 t with
        | none => (s, HANG)
        | some none => (s, FR_MKFS_ABORTED)
        | some (some c) => create (raw ss io) o len size (volBase o size) (volSize o size) vsn c s

end Fpm.Mkfs
