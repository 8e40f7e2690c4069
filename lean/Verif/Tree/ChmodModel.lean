import Verif.Tree.Model
/-!
# f_chmod and f_utime

Simplified: without `mount_volume`, and the code for exFAT is left out.
-/
namespace Fpm.Tree
open Fpm.Fat Fpm.DirDev Fpm.FatBytes Fpm.Lfn Fpm.FatDir Fpm.FatSync Fpm.Names Fpm.Mount

/-- The common part of both functions after `follow_path`, fatfs/fatfs.c:5071-5088 and 5113-5125: `g` is what happens to the entry, `none` an access outside of it. -/
def changeAt (v : Vol) (i : Info) (g : List Nat → Option (List Nat)) (f : Fol) : St × Nat :=
  if f.res = FR_OK then
    if f.fl &&& 0xA0 ≠ 0 then (f.st, FR_INVALID_NAME)
    else
      match (dirEnt v f.st f.dp).bind g with
      | none => (f.st, UB)
      | some e => syncFs v i.fsi (setEnt v f.st f.dp e)
  else (f.st, f.res)

/-- New attributes in an entry, fatfs/fatfs.c:5074 and 5081-5082; `AM_RDO | AM_HID | AM_SYS | AM_ARC` is 0x27. -/
def chmodEntry (attr mask : Nat) (e : List Nat) : Option (List Nat) :=
  stByte e 11 (attr &&& (mask &&& 0x27) ||| byte e 11 &&& (0xFF ^^^ (mask &&& 0x27)))

/-- `f_chmod`, fatfs/fatfs.c:5057-5094. -/
def fChmod (v : Vol) (i : Info) (cdir attr mask : Nat) (path : List Nat) (s : St) (dp : Dp) (buf : List Nat) : St × Nat :=
  changeAt v i (chmodEntry attr mask) (followPath v i cdir path s dp buf)

/-- New time in an entry, fatfs/fatfs.c:5119; `fdate` and `ftime` have 16 bits. -/
def utimeEntry (date time : Nat) (e : List Nat) : Option (List Nat) := stDword e 22 (date <<< 16 ||| time)

/-- `f_utime`, fatfs/fatfs.c:5099-5131. -/
def fUtime (v : Vol) (i : Info) (cdir date time : Nat) (path : List Nat) (s : St) (dp : Dp) (buf : List Nat) : St × Nat :=
  changeAt v i (utimeEntry date time) (followPath v i cdir path s dp buf)

end Fpm.Tree
