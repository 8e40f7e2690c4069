import Verif.FatFile.Model
/-!
# Opening and flushing files with FatFs

Model of `f_sync`, `sync_fs` and the part of `f_open` for a file that exists, of `fatfs/fatfs.c`, on top of the model of open files.  Not
modelled: exFAT, locks, looking up the name (the place of the directory entry is an argument), `validate`.
-/
namespace Fpm.FatSync
open Fpm.Fat Fpm.FatFile Fpm.FatBytes

/-- Where things are: sector and offset of the directory entry (`fp->dir_sect`, `fp->dir_ptr - fs->win`; fatfs/fatfs.c:3545-3546), and the
sector for free counts, `fs->volbase + 1`, unless `fsi_flag` tells not to update it. -/
structure Place where
  sect : Nat
  off : Nat
  info : Option Nat

/-- `st_clust`, fatfs/fatfs.c:1616-1625. -/
def stClust (v : Vol) (w : List Nat) (off cl : Nat) : Option (List Nat) :=
  (stWord w (off + 26) (cl % 2 ^ 16)).bind fun w => if v.fsType = 3 then stWord w (off + 20) ((cl >>> 16) % 2 ^ 16) else some w

/-- `ld_clust`, fatfs/fatfs.c:1603-1614. -/
def ldClust (v : Vol) (w : List Nat) (off : Nat) : Option Nat :=
  (ldWord w (off + 26)).bind fun lo => if v.fsType = 3 then (ldWord w (off + 20)).bind fun hi => some (lo ||| hi <<< 16) else some lo

/-- The directory entry, fatfs/fatfs.c:3943-3950; `tm` is the value of `GET_FATTIME`. -/
def fillEntry (v : Vol) (w : List Nat) (off : Nat) (fp : File) (tm : Nat) : Option (List Nat) :=
  w[off + 11]?.bind fun x => (stByte w (off + 11) (x ||| 0x20)).bind fun w => (stClust v w off fp.sclust).bind fun w =>
    (stDword w (off + 28) (fp.objsize % 2 ^ 32)).bind fun w => (stDword w (off + 22) tm).bind fun w => stWord w (off + 18) 0

/-- Contents of the sector for free counts, fatfs/fatfs.c:838-843. -/
def infoBlock (v : Vol) (s : St) : Option (List Nat) :=
  (stWord (List.replicate v.ss 0) 510 0xAA55).bind fun w => (stDword w 0 0x41615252).bind fun w => (stDword w 484 0x61417272).bind fun w =>
    (stDword w 488 s.freeClst).bind fun w => stDword w 492 s.lastClst

/-- Writing the sector for free counts, fatfs/fatfs.c:844-846; the result of the transfer is not looked at. -/
def putInfo (v : Vol) (n : Nat) (w : List Nat) (s : St) : St :=
  { (diskWrite v { s with win := w, winsect := some n } n w).1 with fsiFlag := false }

/-- `disk_ioctl(.., CTRL_SYNC, ..)`, fatfs/fatfs.c:849-850. -/
def settle (v : Vol) (s : St) : St × Nat :=
  match v.io s.cnt with
  | .ok => ({ s with cnt := s.cnt + 1 }, FR_OK)
  | .fail _ => ({ s with cnt := s.cnt + 1 }, FR_DISK_ERR)

/-- Second half of `sync_fs`, fatfs/fatfs.c:835-850. -/
def syncInfo (v : Vol) (info : Option Nat) (s : St) : St × Nat :=
  match info, infoBlock v s with
  | none, _ => settle v s
  | some n, some w => if v.fsType = 3 ∧ s.fsiFlag = true then settle v (putInfo v n w s) else settle v s
  | some _, none => if v.fsType = 3 ∧ s.fsiFlag = true then (s, UB) else settle v s

/-- `sync_fs`, fatfs/fatfs.c:829-855. -/
def syncFs (v : Vol) (info : Option Nat) (s : St) : St × Nat :=
  if (syncWindow v s).2 = FR_OK then syncInfo v info (syncWindow v s).1 else syncWindow v s

/-- Storing the directory entry, fatfs/fatfs.c:3943-3953.  The file counts as unmodified whatever `sync_fs` returns. -/
def storeEntry (v : Vol) (pl : Place) (tm : Nat) (s : St) (fp : File) : Out :=
  match fillEntry v s.win pl.off fp tm with
  | none => ⟨s, fp, UB, [], false⟩
  | some w => ⟨(syncFs v pl.info (setWin s w)).1, { fp with modified := false }, (syncFs v pl.info (setWin s w)).2, [], false⟩

/-- Updating the directory entry, fatfs/fatfs.c:3940-3954. -/
def syncEntry (v : Vol) (pl : Place) (tm : Nat) (s : St) (fp : File) : Out :=
  if (moveWindow v s pl.sect).2 = FR_OK then storeEntry v pl tm (moveWindow v s pl.sect).1 fp
  else ⟨(moveWindow v s pl.sect).1, fp, (moveWindow v s pl.sect).2, [], false⟩

/-- `f_sync`, fatfs/fatfs.c:3885-3959; `f_close` (3967-3992) is the same followed by invalidating the file object. -/
def fSync (v : Vol) (pl : Place) (tm : Nat) (s : St) (fp : File) : Out :=
  if fp.modified then
    if fp.dirty then
      if (diskWrite v s fp.sect fp.buf).2 then syncEntry v pl tm (diskWrite v s fp.sect fp.buf).1 { fp with dirty := false }
      else ⟨(diskWrite v s fp.sect fp.buf).1, fp, FR_DISK_ERR, [], false⟩
    else syncEntry v pl tm s fp
  else done s fp

/-- The file object made by `f_open`, fatfs/fatfs.c:3575-3592. -/
def opened (v : Vol) (rd wr : Bool) (cl size : Nat) : File :=
  { fptr := 0, objsize := size, sclust := cl, clust := 0, sect := 0, buf := List.replicate v.ss 0, dirty := false, modified := false,
    canRead := rd, canWrite := wr, err := 0 }

/-- The part of `f_open` for a file that exists, fatfs/fatfs.c:3575-3592, without `FA_SEEKEND`.  `follow_path` has left the window on the
sector of the directory entry; that is the call of `move_window` here. -/
def fOpen (v : Vol) (pl : Place) (rd wr : Bool) (s : St) : Option (St × Nat × Option File) :=
  if (moveWindow v s pl.sect).2 = FR_OK then
    (ldClust v (moveWindow v s pl.sect).1.win pl.off).bind fun cl => (ldDword (moveWindow v s pl.sect).1.win (pl.off + 28)).bind fun size =>
      some ((moveWindow v s pl.sect).1, FR_OK, some (opened v rd wr cl size))
  else some ((moveWindow v s pl.sect).1, (moveWindow v s pl.sect).2, none)

end Fpm.FatSync
