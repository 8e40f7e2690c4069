import Verif.Tree.OpenModel
import Verif.Glob.Model
/-!
# f_stat, f_opendir, and reading directories by path

Model of `f_stat`, `f_opendir`, `f_findfirst` and `f_findnext` of `fatfs/fatfs.c` for FAT12, FAT16 and FAT32.  The path is what `mount_volume` leaves of it.  exFAT is not modelled.
-/
namespace Fpm.Tree
open Fpm.Fat Fpm.FatBytes Fpm.Lfn Fpm.Names Fpm.FatDir Fpm.Mount Fpm.FatSync Fpm.DirDev
open Fpm.FatLock (Sem incShare)

/-- `file_info_t`, include/fpm/fs.h:57-67, without `altname`. -/
structure FInfo where
  name : List Nat
  attr : Nat
  size : Nat
  time : Nat
  date : Nat
  startblk : Nat
deriving DecidableEq

/-- `fno->fstartblk`, fatfs/fatfs.c:2482-2485; `old` is what it was before. -/
def startBlk (v : Vol) (old : Nat) (e : List Nat) : Option Nat := if attr e &&& 0x10 = 0 then (ldClust v e 0).bind fun cl => some (clst2sect v cl) else some old

/-- `get_fileinfo`, fatfs/fatfs.c:2346-2486, for an entry `e`, without `altname`; `blk` is `blk_ofs`. -/
def fileInfo (v : Vol) (old : Nat) (blk : Option Nat) (buf e : List Nat) : Option FInfo :=
  (listName (if blk = none then none else some buf) e).bind fun name => (ldDword e 28).bind fun size => (ldWord e 22).bind fun time => (ldWord e 24).bind fun date => (startBlk v old e).bind fun blk =>
    some ⟨name, attr e, size, time, date, blk⟩

/-- `f_stat` after `follow_path`, fatfs/fatfs.c:4575-4582, with `fno` given: state, result, and what `fno` holds if it was set.  With `dp->sect` 0 there is an empty name, fatfs/fatfs.c:2355-2357. -/
def statAt (v : Vol) (old : FInfo) (f : Fol) : St × Nat × Option FInfo :=
  if f.res = FR_OK then
    if f.fl &&& 0x80 ≠ 0 then (f.st, FR_INVALID_NAME, none)
    else if f.dp.sect = 0 then (f.st, FR_OK, some { old with name := [] })
    else
      match (dirEnt v f.st f.dp).bind fun e => fileInfo v old.startblk f.blk f.buf e with
      | none => (f.st, UB, none)
      | some info => (f.st, FR_OK, some info)
  else (f.st, f.res, none)

/-- `f_stat`, fatfs/fatfs.c:4563-4590, without `mount_volume`; `old` is what `fno` holds before. -/
def fStat (v : Vol) (i : Info) (cdir : Nat) (path : List Nat) (s : St) (dp : Dp) (buf : List Nat) (old : FInfo) : St × Nat × Option FInfo := statAt v old (followPath v i cdir path s dp buf)

/-! ## Directories -/

/-- Outcome of `f_opendir`: state, directory object, result, buffer for long names, lock index, table of open objects. -/
structure Opdir where
  st : St
  dp : Dp
  res : Nat
  buf : List Nat
  lock : Nat
  files : List Sem

/-- After `dir_sdi`, fatfs/fatfs.c:4436-4446: all but the root directory are locked. -/
def opendirLock (files : List Sem) (fs : Nat) (buf : List Nat) (r : Ret) : Opdir :=
  if r.res = FR_OK then
    if r.dp.sclust ≠ 0 then
      ⟨r.st, r.dp, if (incShare files (keyOf fs r.dp) 0).2 = 0 then FR_TOO_MANY_OPEN_FILES else FR_OK, buf, (incShare files (keyOf fs r.dp) 0).2, (incShare files (keyOf fs r.dp) 0).1⟩
    else ⟨r.st, r.dp, FR_OK, buf, 0, files⟩
  else ⟨r.st, r.dp, if r.res = FR_NO_FILE then FR_NO_PATH else r.res, buf, 0, files⟩

/-- The directory that `follow_path` has found, fatfs/fatfs.c:4416-4430: directory object and result.  `dp->obj.attr` is that of the entry found. -/
def opendirObj (v : Vol) (f : Fol) : Dp × Nat :=
  if f.fl &&& 0x80 ≠ 0 then (f.dp, FR_OK)
  else
    match dirEnt v f.st f.dp with
    | none => (f.dp, UB)
    | some e =>
      if attr e &&& 0x10 ≠ 0 then
        match ldClust v e 0 with
        | none => (f.dp, UB)
        | some cl => ({ f.dp with sclust := cl }, FR_OK)
      else (f.dp, FR_NO_PATH)

/-- `f_opendir` after `follow_path`, fatfs/fatfs.c:4415-4453. -/
def opendirAt (v : Vol) (i : Info) (files : List Sem) (fs : Nat) (f : Fol) : Opdir :=
  if f.res = FR_OK then
    if (opendirObj v f).2 = FR_OK then opendirLock files fs f.buf (dirSdi v i f.st (opendirObj v f).1 0)
    else ⟨f.st, f.dp, (opendirObj v f).2, f.buf, 0, files⟩
  else ⟨f.st, f.dp, if f.res = FR_NO_FILE then FR_NO_PATH else f.res, f.buf, 0, files⟩

/-- `f_opendir`, fatfs/fatfs.c:4401-4457, without `mount_volume`. -/
def fOpendir (v : Vol) (i : Info) (cdir : Nat) (files : List Sem) (fs : Nat) (path : List Nat) (s : St) (dp : Dp) (buf : List Nat) : Opdir := opendirAt v i files fs (followPath v i cdir path s dp buf)

/-- `f_opendir` and `f_readdir` to the end of the directory, as the `dir` command does, kernel/cmd/cmd_dir.c:563-585; `k` bounds the rounds. -/
def listPath (v : Vol) (i : Info) (cdir : Nat) (files : List Sem) (fs : Nat) (path : List Nat) (s : St) (dp : Dp) (buf : List Nat) (k : Nat) : Listed :=
  if (fOpendir v i cdir files fs path s dp buf).res = FR_OK then
    listLoop v i k (fOpendir v i cdir files fs path s dp buf).st (fOpendir v i cdir files fs path s dp buf).dp (fOpendir v i cdir files fs path s dp buf).buf
  else ⟨(fOpendir v i cdir files fs path s dp buf).st, (fOpendir v i cdir files fs path s dp buf).res, []⟩

/-! ## Searching -/

/-- `f_findnext`, fatfs/fatfs.c:4522-4538, for the pattern `pat`; the number bounds the rounds. -/
def findNext (v : Vol) (i : Info) (pat : List Nat) : Nat → St → Dp → List Nat → Item
  | 0, s, dp, buf => ⟨s, dp, HANG, none, buf⟩
  | k + 1, s, dp, buf =>
    if (readdir v i s dp buf).res = FR_OK then
      match (readdir v i s dp buf).item with
      | none => readdir v i s dp buf
      | some x =>
        match Glob.findMatch pat (x.1 ++ [0]) with
        | none => ⟨(readdir v i s dp buf).st, (readdir v i s dp buf).dp, UB, none, (readdir v i s dp buf).buf⟩
        | some true => readdir v i s dp buf
        | some false => findNext v i pat k (readdir v i s dp buf).st (readdir v i s dp buf).dp (readdir v i s dp buf).buf
    else readdir v i s dp buf

/-- `f_findnext` until there is no name; the numbers bound the rounds. -/
def searchLoop (v : Vol) (i : Info) (pat : List Nat) (m : Nat) : Nat → St → Dp → List Nat → Listed
  | 0, s, _, _ => ⟨s, HANG, []⟩
  | k + 1, s, dp, buf =>
    if (findNext v i pat m s dp buf).res = FR_OK then
      match (findNext v i pat m s dp buf).item with
      | none => ⟨(findNext v i pat m s dp buf).st, FR_OK, []⟩
      | some x => ⟨(searchLoop v i pat m k (findNext v i pat m s dp buf).st (findNext v i pat m s dp buf).dp (findNext v i pat m s dp buf).buf).st,
          (searchLoop v i pat m k (findNext v i pat m s dp buf).st (findNext v i pat m s dp buf).dp (findNext v i pat m s dp buf).buf).res,
          x :: (searchLoop v i pat m k (findNext v i pat m s dp buf).st (findNext v i pat m s dp buf).dp (findNext v i pat m s dp buf).buf).items⟩
    else ⟨(findNext v i pat m s dp buf).st, (findNext v i pat m s dp buf).res, []⟩

/-- `f_findfirst`, fatfs/fatfs.c:4544-4557, and `f_findnext` to the end of the directory. -/
def searchPath (v : Vol) (i : Info) (cdir : Nat) (files : List Sem) (fs : Nat) (path pat : List Nat) (s : St) (dp : Dp) (buf : List Nat) (k : Nat) : Listed :=
  if (fOpendir v i cdir files fs path s dp buf).res = FR_OK then
    searchLoop v i pat k k (fOpendir v i cdir files fs path s dp buf).st (fOpendir v i cdir files fs path s dp buf).dp (fOpendir v i cdir files fs path s dp buf).buf
  else ⟨(fOpendir v i cdir files fs path s dp buf).st, (fOpendir v i cdir files fs path s dp buf).res, []⟩

end Fpm.Tree
