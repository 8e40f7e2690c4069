import Verif.Tree.Model
import Verif.FatLock.Model
/-!
# Opening files by path

Model of `f_open` of `fatfs/fatfs.c` for FAT12, FAT16 and FAT32, on the device of `Verif.Fat.Model`, with the table of open objects of `Verif.FatLock.Model`.  The path is what `mount_volume`
leaves of it.  The result of `GET_FATTIME` is an argument.  exFAT is not modelled.
-/
namespace Fpm.Tree
open Fpm.Fat Fpm.FatBytes Fpm.Lfn Fpm.Names Fpm.FatDir Fpm.Mount Fpm.FatFile Fpm.FatSync Fpm.DirDev
open Fpm.FatLock (Sem Key chkShare enqShare incShare decShare)

/-- Result code, include/fpm/fs.h:38. -/
def FR_TOO_MANY_OPEN_FILES := 18

/-- What identifies an object in the table of open objects, fatfs/fatfs.c:675-677: volume, cluster of the directory, offset of the entry. -/
def keyOf (fs : Nat) (dp : Dp) : Key := ⟨fs, dp.sclust, dp.dptr⟩

/-- `(mode & ~FA_READ) ? 1 : 0`, fatfs/fatfs.c:3467 and 3551; `mode` has the bits of 3448-3450, and `FA_MODIFIED` only along with others. -/
def access (mode : Nat) : Nat := if mode &&& 0x3E ≠ 0 then 1 else 0

/-- May the object be used, fatfs/fatfs.c:3460-3470. -/
def openTest (files : List Sem) (fs mode : Nat) (f : Fol) : Nat :=
  if f.res = FR_OK then if f.fl &&& 0x80 ≠ 0 then FR_INVALID_NAME else chkShare files (keyOf fs f.dp) (access mode) else f.res

/-- A new entry, fatfs/fatfs.c:3474-3482; `res` is the result of the test. -/
def openNew (v : Vol) (i : Info) (files : List Sem) (f : Fol) (res : Nat) : Ret :=
  if res = FR_NO_FILE then if enqShare files then dirRegister v i f.st f.dp f.fn f.fl f.buf else ⟨f.st, f.dp, FR_TOO_MANY_OPEN_FILES⟩ else ⟨f.st, f.dp, res⟩

/-- An object exists that might be overwritten, fatfs/fatfs.c:3484-3491.  `dj.obj.attr` is that of the entry found. -/
def openOver (v : Vol) (mode : Nat) (f : Fol) : Ret :=
  match dirEnt v f.st f.dp with
  | none => ⟨f.st, f.dp, UB⟩
  | some e => ⟨f.st, f.dp, if attr e &&& 0x11 ≠ 0 then DirDev.FR_DENIED else if mode &&& 4 ≠ 0 then FR_EXIST else FR_OK⟩

/-- Initial state of an entry, fatfs/fatfs.c:3513-3519. -/
def blankEntry (v : Vol) (e : List Nat) (tm : Nat) : Option (List Nat) :=
  (stDword e 14 tm).bind fun e => (stDword e 22 tm).bind fun e => (stByte e 11 0x20).bind fun e => (stClust v e 0 0).bind fun e => stDword e 28 0

/-- After `remove_chain`, fatfs/fatfs.c:3524-3527; `sc` is the sector that the window had. -/
def cutWin (v : Vol) (cl sc : Nat) (p : St × Nat) : St × Nat := if p.2 = FR_OK then ({ (moveWindow v p.1 sc).1 with lastClst := cl - 1 }, (moveWindow v p.1 sc).2) else p

/-- The clusters of the old file, fatfs/fatfs.c:3521-3528. -/
def openCut (v : Vol) (cl : Nat) (s : St) : St × Nat := if cl ≠ 0 then cutWin v cl (s.winsect.getD 0xFFFFFFFF) (removeChain v s cl 0) else (s, FR_OK)

/-- The file becomes empty, fatfs/fatfs.c:3511-3529. -/
def openWipe (v : Vol) (tm : Nat) (r : Ret) : Ret :=
  match dirEnt v r.st r.dp with
  | none => ⟨r.st, r.dp, UB⟩
  | some e =>
    match ldClust v e 0, blankEntry v e tm with
    | some cl, some e' => ⟨(openCut v cl (setEnt v r.st r.dp e')).1, r.dp, (openCut v cl (setEnt v r.st r.dp e')).2⟩
    | _, _ => ⟨r.st, r.dp, UB⟩

/-- `if (res == FR_OK && (mode & FA_CREATE_ALWAYS))`, fatfs/fatfs.c:3493. -/
def openTrunc (v : Vol) (tm mode : Nat) (r : Ret) : Ret := if r.res = FR_OK ∧ mode &&& 8 ≠ 0 then openWipe v tm r else r

/-- To open an existing file, fatfs/fatfs.c:3532-3543. -/
def openKeep (v : Vol) (mode : Nat) (f : Fol) (res : Nat) : Ret :=
  if res = FR_OK then
    match dirEnt v f.st f.dp with
    | none => ⟨f.st, f.dp, UB⟩
    | some e => ⟨f.st, f.dp, if attr e &&& 0x10 ≠ 0 then FR_NO_FILE else if mode &&& 2 ≠ 0 ∧ attr e &&& 1 ≠ 0 then DirDev.FR_DENIED else FR_OK⟩
  else ⟨f.st, f.dp, res⟩

/-- New value of `mode`, fatfs/fatfs.c:3482: `FA_CREATE_ALWAYS` is set if there was nothing to open. -/
def openMode (mode res : Nat) : Nat := if mode &&& 0x1C ≠ 0 ∧ res ≠ FR_OK then mode ||| 8 else mode

/-- Creating or opening, fatfs/fatfs.c:3471-3543; `res` is the result of the test. -/
def openObj (v : Vol) (i : Info) (files : List Sem) (tm mode : Nat) (f : Fol) (res : Nat) : Ret :=
  if mode &&& 0x1C ≠ 0 then openTrunc v tm (openMode mode res) (if res ≠ FR_OK then openNew v i files f res else openOver v mode f)
  else openKeep v mode f res

/-- Outcome of `f_open`: state, result, file object (`none`: invalid, fatfs/fatfs.c:3631-3632), place of its entry, table of open objects, `fp->obj.lockid` (0 if there is none). -/
structure Opd where
  st : St
  res : Nat
  fp : Option File
  place : Place
  files : List Sem
  lock : Nat

/-- Loop of `f_open` to find the last cluster, fatfs/fatfs.c:3601-3607, with result, cluster, `ofs`; the first number bounds the rounds. -/
def endLoop (v : Vol) : Nat → St → Nat → Nat → St × Nat × Nat × Nat
  | 0, s, clst, ofs => (s, HANG, clst, ofs)
  | k + 1, s, clst, ofs =>
    if ofs > v.csize * v.ss then
      if (getFat v s clst).2 = DERR then ((getFat v s clst).1, FR_DISK_ERR, DERR, ofs - v.csize * v.ss)
      else if (getFat v s clst).2 = UB then ((getFat v s clst).1, UB, clst, ofs)
      else if (getFat v s clst).2 ≤ 1 then ((getFat v s clst).1, FR_INT_ERR, (getFat v s clst).2, ofs - v.csize * v.ss)
      else endLoop v k (getFat v s clst).1 (getFat v s clst).2 (ofs - v.csize * v.ss)
    else (s, FR_OK, clst, ofs)

/-- After the loop, fatfs/fatfs.c:3608-3620, for the file object `fp`: state, result, file object. -/
def endFill (v : Vol) (fp : File) (q : St × Nat × Nat × Nat) : St × Nat × File :=
  if q.2.1 = FR_OK ∧ q.2.2.2 % v.ss ≠ 0 then
    if clst2sect v q.2.2.1 = 0 then (q.1, FR_INT_ERR, { fp with clust := q.2.2.1 })
    else
      ((diskRead v q.1 (clst2sect v q.2.2.1 + q.2.2.2 / v.ss)).1, if (diskRead v q.1 (clst2sect v q.2.2.1 + q.2.2.2 / v.ss)).2.2 then FR_OK else FR_DISK_ERR,
        { fp with clust := q.2.2.1, sect := clst2sect v q.2.2.1 + q.2.2.2 / v.ss, buf := (diskRead v q.1 (clst2sect v q.2.2.1 + q.2.2.2 / v.ss)).2.1 })
  else (q.1, q.2.1, { fp with clust := q.2.2.1 })

/-- To the end of the file if asked for, fatfs/fatfs.c:3596-3627. -/
def openSeek (v : Vol) (mode : Nat) (s : St) (fp : File) : St × Nat × File :=
  if mode &&& 0x20 ≠ 0 ∧ fp.objsize > 0 then endFill v { fp with fptr := fp.objsize } (endLoop v (fp.objsize + 1) s fp.sclust fp.objsize) else (s, FR_OK, fp)

/-- The file object, fatfs/fatfs.c:3576-3595; `old` is the old value of `fp->clust`, which is not set here. -/
def openFp (v : Vol) (mode old cl size : Nat) : File := { opened v (mode &&& 1 ≠ 0) (mode &&& 2 ≠ 0) cl size with clust := old, modified := mode &&& 8 ≠ 0 }

/-- End of `f_open`, fatfs/fatfs.c:3620-3632: a file that cannot be used is not kept in the table. -/
def openOut (pl : Place) (q : List Sem × Nat) (p : St × Nat × File) : Opd :=
  if p.2.1 = FR_OK then ⟨p.1, FR_OK, some p.2.2, pl, q.1, q.2⟩ else ⟨p.1, p.2.1, none, pl, (decShare q.1 q.2).1, 0⟩

/-- The file object is filled in, fatfs/fatfs.c:3568-3627; `q` is what `inc_share` gave. -/
def openFill (v : Vol) (mode old : Nat) (r : Ret) (pl : Place) (q : List Sem × Nat) : Opd :=
  match (dirEnt v r.st r.dp).bind fun e => (ldClust v e 0).bind fun cl => (ldDword e 28).map fun size => (cl, size) with
  | none => ⟨r.st, UB, none, pl, q.1, 0⟩
  | some x => openOut pl q (openSeek v mode r.st (openFp v mode old x.1 x.2))

/-- The object enters the table, fatfs/fatfs.c:3544-3557. -/
def openLock (v : Vol) (i : Info) (files : List Sem) (fs mode old : Nat) (r : Ret) : Opd :=
  if r.res = FR_OK then
    if (incShare files (keyOf fs r.dp) (access mode)).2 = 0 then ⟨r.st, FR_INT_ERR, none, ⟨r.st.winsect.getD 0xFFFFFFFF, r.dp.dptr % v.ss, i.fsi⟩, (incShare files (keyOf fs r.dp) (access mode)).1, 0⟩
    else openFill v mode old r ⟨r.st.winsect.getD 0xFFFFFFFF, r.dp.dptr % v.ss, i.fsi⟩ (incShare files (keyOf fs r.dp) (access mode))
  else ⟨r.st, r.res, none, ⟨0, 0, i.fsi⟩, files, 0⟩

/-- `f_open` after `follow_path`, fatfs/fatfs.c:3460-3632. -/
def openAt (v : Vol) (i : Info) (files : List Sem) (fs tm mode old : Nat) (f : Fol) : Opd :=
  openLock v i files fs (openMode mode (openTest files fs mode f)) old (openObj v i files tm mode f (openTest files fs mode f))

/-- `f_open`, fatfs/fatfs.c:3434-3635, without `mount_volume`; `fs` stands for the volume, `old` is what `fp->clust` was. -/
def fOpen (v : Vol) (i : Info) (cdir : Nat) (files : List Sem) (fs tm mode old : Nat) (path : List Nat) (s : St) (dp : Dp) (buf : List Nat) : Opd :=
  openAt v i files fs tm (mode &&& 0x3F) old (followPath v i cdir path s dp buf)

end Fpm.Tree
