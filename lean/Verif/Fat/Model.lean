import Verif.FatBytes.Model
/-!
# Sector window and FAT entries of FatFs

Model of `sync_window`, `move_window`, `clst2sect`, `get_fat`, `put_fat` of `fatfs/fatfs.c` for FAT12, FAT16 and FAT32.
The device is a map from sectors to contents; every transfer may fail, with arbitrary contents left behind.  Sector
numbers are natural numbers: `fs_lba_t` is 32 bits wide (fatfs/fatfs.h:37) and is assumed not to overflow.  exFAT is not modelled.
-/
namespace Fpm.Fat
open Fpm.FatBytes

/-- Outcome of one transfer; a failed one leaves arbitrary bytes in the sector (write) or buffer (read). -/
inductive Io where
  | ok
  | fail (junk : List Nat)

/-- Fields of `filesystem_t` that do not change while mounted, fatfs/fatfs.h:42-79, and the behaviour of the device. -/
structure Vol where
  /-- sector size `SS(fs)` -/
  ss : Nat
  /-- sectors per cluster -/
  csize : Nat
  fatbase : Nat
  fsize : Nat
  nFats : Nat
  nFatent : Nat
  /-- 1: FAT12, 2: FAT16, 3: FAT32 -/
  fsType : Nat
  database : Nat
  /-- outcome of the n-th transfer -/
  io : Nat → Io

/-- Contents of the sectors. -/
abbrev Disk := Nat → List Nat

/-- Fields of `filesystem_t` that change, the device, and its earlier contents (latest first). -/
structure St where
  disk : Disk
  past : List Disk
  /-- number of transfers so far -/
  cnt : Nat
  win : List Nat
  /-- `none` is the invalid sector number 0xFFFFFFFF -/
  winsect : Option Nat
  wflag : Bool
  lastClst : Nat
  freeClst : Nat
  fsiFlag : Bool

/-- Result codes, include/fpm/fs.h:20-23. -/
def FR_OK := 0
@[inherit_doc FR_OK] def FR_DISK_ERR := 1
@[inherit_doc FR_OK] def FR_INT_ERR := 2

/-- Not a result of the code: an access outside of the window. -/
def UB := 2 ^ 32

/-- The value 0xFFFFFFFF, which `get_fat` and `create_chain` return after an error of the device. -/
def DERR := 0xFFFFFFFF

/-- Contents after writing a sector. -/
def upd (d : Disk) (n : Nat) (b : List Nat) : Disk := fun m => if m = n then b else d m

/-- `disk_write` of one sector. -/
def diskWrite (v : Vol) (s : St) (sect : Nat) (b : List Nat) : St × Bool :=
  match v.io s.cnt with
  | .ok => ({ s with disk := upd s.disk sect b, past := s.disk :: s.past, cnt := s.cnt + 1 }, true)
  | .fail junk => ({ s with disk := upd s.disk sect junk, past := s.disk :: s.past, cnt := s.cnt + 1 }, false)

/-- `disk_read` of one sector into the window. -/
def diskReadWin (v : Vol) (s : St) (sect : Nat) : St × Bool :=
  match v.io s.cnt with
  | .ok => ({ s with win := s.disk sect, cnt := s.cnt + 1 }, true)
  | .fail junk => ({ s with win := junk, cnt := s.cnt + 1 }, false)

/-- Copy to the second FAT, fatfs/fatfs.c:789-793; the result of the transfer is not looked at. -/
def mirror (v : Vol) (s : St) (w : Nat) : St :=
  if v.fatbase ≤ w ∧ w - v.fatbase < v.fsize then
    if v.nFats = 2 then (diskWrite v s (w + v.fsize) s.win).1 else s
  else s

/-- `sync_window`, fatfs/fatfs.c:781-799.  The difference in line 789 is unsigned. -/
def syncWindow (v : Vol) (s : St) : St × Nat :=
  if s.wflag then
    match s.winsect with
    | none => (s, FR_DISK_ERR)
    | some w =>
      if (diskWrite v s w s.win).2 then (mirror v { (diskWrite v s w s.win).1 with wflag := false } w, FR_OK)
      else ((diskWrite v s w s.win).1, FR_DISK_ERR)
  else (s, FR_OK)

/-- Second half of `move_window`, fatfs/fatfs.c:812-818. -/
def fillWindow (v : Vol) (s : St) (sect : Nat) : St × Nat :=
  if (diskReadWin v s sect).2 then ({ (diskReadWin v s sect).1 with winsect := some sect }, FR_OK)
  else ({ (diskReadWin v s sect).1 with winsect := none }, FR_DISK_ERR)

/-- `move_window`, fatfs/fatfs.c:803-821. -/
def moveWindow (v : Vol) (s : St) (sect : Nat) : St × Nat :=
  if s.winsect = some sect then (s, FR_OK)
  else if (syncWindow v s).2 = FR_OK then fillWindow v (syncWindow v s).1 sect
  else syncWindow v s

/-- `clst2sect`, fatfs/fatfs.c:863-870; 0 for an invalid cluster. -/
def clst2sect (v : Vol) (clst : Nat) : Nat :=
  if clst < 2 ∨ clst ≥ v.nFatent then 0 else v.database + v.csize * (clst - 2)

/-- `if (move_window(fs, sect) != FR_OK) break;` with the value given for the error. -/
def window (v : Vol) (s : St) (sect err : Nat) (k : St → St × Nat) : St × Nat :=
  if (moveWindow v s sect).2 = FR_OK then k (moveWindow v s sect).1 else ((moveWindow v s sect).1, err)

/-- Use of a byte or number in the window. -/
def fromWin (s : St) (x : Option Nat) (k : Nat → St × Nat) : St × Nat :=
  match x with
  | none => (s, UB)
  | some b => k b

/-- `bc`, the byte offset of an entry of FAT12, fatfs/fatfs.c:891-892. -/
def bc12 (clst : Nat) : Nat := clst + clst / 2

/-- Value of an entry of FAT12, fatfs/fatfs.c:898-899. -/
def val12 (clst b0 b1 : Nat) : Nat := if clst % 2 = 1 then (b0 ||| b1 <<< 8) >>> 4 else (b0 ||| b1 <<< 8) &&& 0xFFF

/-- FAT12 in `get_fat`, fatfs/fatfs.c:890-900. -/
def getFat12 (v : Vol) (s : St) (clst : Nat) : St × Nat :=
  window v s (v.fatbase + bc12 clst / v.ss) DERR fun s => fromWin s s.win[bc12 clst % v.ss]? fun b0 =>
    window v s (v.fatbase + (bc12 clst + 1) / v.ss) DERR fun s => fromWin s s.win[(bc12 clst + 1) % v.ss]? fun b1 =>
      (s, val12 clst b0 b1)

/-- FAT16 in `get_fat`, fatfs/fatfs.c:902-906. -/
def getFat16 (v : Vol) (s : St) (clst : Nat) : St × Nat :=
  window v s (v.fatbase + clst / (v.ss / 2)) DERR fun s => fromWin s (ldWord s.win (clst * 2 % v.ss)) fun x => (s, x)

/-- FAT32 in `get_fat`, fatfs/fatfs.c:908-914. -/
def getFat32 (v : Vol) (s : St) (clst : Nat) : St × Nat :=
  window v s (v.fatbase + clst / (v.ss / 4)) DERR fun s => fromWin s (ldDword s.win (clst * 4 % v.ss)) fun x => (s, x &&& 0x0FFFFFFF)

/-- `get_fat`, fatfs/fatfs.c:877-954, without exFAT. -/
def getFat (v : Vol) (s : St) (clst : Nat) : St × Nat :=
  if clst < 2 ∨ clst ≥ v.nFatent then (s, 1)
  else if v.fsType = 1 then getFat12 v s clst
  else if v.fsType = 2 then getFat16 v s clst
  else if v.fsType = 3 then getFat32 v s clst
  else (s, 1)

/-- Assignment to the window, and `fs->wflag = 1`. -/
def setWin (s : St) (w : List Nat) : St := { s with win := w, wflag := true }

/-- First byte of an entry of FAT12, fatfs/fatfs.c:981-982. -/
def first12 (clst val b : Nat) : Nat := if clst % 2 = 1 then ((b &&& 0x0F) ||| (val % 256) <<< 4) % 256 else val % 256

/-- Second byte of an entry of FAT12, fatfs/fatfs.c:988-989. -/
def second12 (clst val b : Nat) : Nat := if clst % 2 = 1 then (val >>> 4) % 256 else ((b &&& 0xF0) ||| ((val >>> 8) % 256 &&& 0x0F)) % 256

/-- FAT12 in `put_fat`, fatfs/fatfs.c:973-991. -/
def putFat12 (v : Vol) (s : St) (clst val : Nat) : St × Nat :=
  window v s (v.fatbase + bc12 clst / v.ss) FR_DISK_ERR fun s => fromWin s s.win[bc12 clst % v.ss]? fun b0 =>
    window v (setWin s (s.win.set (bc12 clst % v.ss) (first12 clst val b0))) (v.fatbase + (bc12 clst + 1) / v.ss) FR_DISK_ERR fun s =>
      fromWin s s.win[(bc12 clst + 1) % v.ss]? fun b1 =>
        (setWin s (s.win.set ((bc12 clst + 1) % v.ss) (second12 clst val b1)), FR_OK)

/-- Result of storing into the window. -/
def stored (s : St) (w : Option (List Nat)) : St × Nat :=
  match w with
  | none => (s, UB)
  | some w => (setWin s w, FR_OK)

/-- FAT16 in `put_fat`, fatfs/fatfs.c:993-999. -/
def putFat16 (v : Vol) (s : St) (clst val : Nat) : St × Nat :=
  window v s (v.fatbase + clst / (v.ss / 2)) FR_DISK_ERR fun s => stored s (stWord s.win (clst * 2 % v.ss) (val % 2 ^ 16))

/-- FAT32 in `put_fat`, fatfs/fatfs.c:1001-1011. -/
def putFat32 (v : Vol) (s : St) (clst val : Nat) : St × Nat :=
  window v s (v.fatbase + clst / (v.ss / 4)) FR_DISK_ERR fun s => fromWin s (ldDword s.win (clst * 4 % v.ss)) fun x =>
    stored s (stDword s.win (clst * 4 % v.ss) ((val &&& 0x0FFFFFFF) ||| (x &&& 0xF0000000)))

/-- `put_fat`, fatfs/fatfs.c:962-1013, without exFAT. -/
def putFat (v : Vol) (s : St) (clst val : Nat) : St × Nat :=
  if clst < 2 ∨ clst ≥ v.nFatent then (s, FR_INT_ERR)
  else if v.fsType = 1 then putFat12 v s clst val
  else if v.fsType = 2 then putFat16 v s clst val
  else if v.fsType = 3 then putFat32 v s clst val
  else (s, FR_INT_ERR)

end Fpm.Fat
