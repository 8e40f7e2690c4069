import Verif.DirDev.Model
import Verif.FatSync.Model
/-!
# Paths, and making and removing objects

Model of `follow_path`, `f_unlink` and `f_mkdir` of `fatfs/fatfs.c` for FAT12, FAT16 and FAT32, on the device of `Verif.Fat.Model`.  The path is what `mount_volume` leaves
of it, without the volume.  Results of `chk_share` and of `GET_FATTIME` are arguments.  exFAT is not modelled.
-/
namespace Fpm.Tree
open Fpm.Fat Fpm.FatBytes Fpm.Lfn Fpm.Names Fpm.FatDir Fpm.Mount Fpm.FatSync Fpm.DirDev

/-- Result codes, include/fpm/fs.h:25,28. -/
def FR_NO_PATH := 5
@[inherit_doc FR_NO_PATH] def FR_EXIST := 8

/-- Outcome of `follow_path`: state, directory object, result, `fn`, its flags, buffer for long names, `blk_ofs`. -/
structure Fol where
  st : St
  dp : Dp
  res : Nat
  fn : List Nat
  fl : Nat
  buf : List Nat
  blk : Option Nat

/-- A round of `follow_path` after `dir_find`, fatfs/fatfs.c:2757-2795: an outcome, or state and directory object to go on with.  `dp->obj.attr` is that of the entry found,
fatfs/fatfs.c:2157.  The entry is read from the window, where `dp->dir` points. -/
def step (v : Vol) (fn : List Nat) (fl : Nat) (g : Got) : Fol ⊕ (St × Dp) :=
  if g.res = FR_OK then
    if fl &&& 4 ≠ 0 then .inl ⟨g.st, g.dp, FR_OK, fn, fl, g.buf, g.blk⟩
    else
      match dirEnt v g.st g.dp with
      | none => .inl ⟨g.st, g.dp, UB, fn, fl, g.buf, none⟩
      | some e =>
        if attr e &&& 0x10 = 0 then .inl ⟨g.st, g.dp, FR_NO_PATH, fn, fl, g.buf, none⟩
        else
          match ldClust v e 0 with
          | none => .inl ⟨g.st, g.dp, UB, fn, fl, g.buf, none⟩
          | some c => .inr (g.st, { g.dp with sclust := c })
  else if g.res = FR_NO_FILE then
    if fl &&& 0x20 ≠ 0 then
      if fl &&& 4 = 0 then .inr (g.st, g.dp) else .inl ⟨g.st, g.dp, FR_OK, fn, 0x80, g.buf, none⟩
    else .inl ⟨g.st, g.dp, if fl &&& 4 = 0 then FR_NO_PATH else FR_NO_FILE, fn, fl, g.buf, none⟩
  else .inl ⟨g.st, g.dp, g.res, fn, fl, g.buf, none⟩

/-- Loop of `follow_path`, fatfs/fatfs.c:2751-2796; the first number bounds the rounds. -/
def followLoop (v : Vol) (i : Info) : Nat → List Nat → St → Dp → List Nat → Fol
  | 0, _, s, dp, buf => ⟨s, dp, HANG, [], 0, buf, none⟩
  | k + 1, path, s, dp, buf =>
    match createName path buf with
    | .ub => ⟨s, dp, UB, [], 0, buf, none⟩
    | .bad => ⟨s, dp, FR_INVALID_NAME, [], 0, buf, none⟩
    | .ok buf fn fl rest =>
      match step v fn fl (dirFind v i s dp fn fl buf) with
      | .inl f => f
      | .inr (s, dp) => followLoop v i k rest s dp buf

/-- `IsSeparator`, fatfs/fatfs.c:51. -/
def isSep (c : Nat) : Bool := c = 47 || c = 92

/-- The directory where a path starts, fatfs/fatfs.c:2724-2733; `cdir` is the current directory of the volume. -/
def origin (cdir : Nat) (path : List Nat) : Nat := if isSep (path.headD 0) then 0 else cdir

/-- `follow_path`, fatfs/fatfs.c:2714-2801; `dp` and `buf` are the old contents of the directory object and of the buffer. -/
def followPath (v : Vol) (i : Info) (cdir : Nat) (path : List Nat) (s : St) (dp : Dp) (buf : List Nat) : Fol :=
  match path.dropWhile isSep with
  | [] => ⟨s, dp, UB, [], 0, buf, none⟩
  | b :: p =>
    if b < 32 then ⟨(dirSdi v i s { dp with sclust := origin cdir path } 0).st, (dirSdi v i s { dp with sclust := origin cdir path } 0).dp, (dirSdi v i s { dp with sclust := origin cdir path } 0).res, [], 0x80, buf, none⟩
    else followLoop v i ((b :: p).length + 1) (b :: p) s { dp with sclust := origin cdir path } buf

/-! ## Removing -/

/-- End of `f_unlink`, fatfs/fatfs.c:4833-4835. -/
def synced (v : Vol) (i : Info) (p : St × Nat) : St × Nat := if p.2 = FR_OK then syncFs v i.fsi p.1 else p

/-- `f_unlink` after `dir_remove`, fatfs/fatfs.c:4830-4835; `cl` is the first cluster of the object. -/
def unlinkChain (v : Vol) (i : Info) (cl : Nat) (r : Ret) : St × Nat :=
  if r.res = FR_OK then if cl ≠ 0 then synced v i (removeChain v r.st cl 0) else syncFs v i.fsi r.st else (r.st, r.res)

/-- Is the sub-directory empty, fatfs/fatfs.c:4815-4825. -/
def testEmpty (v : Vol) (i : Info) (buf : List Nat) (r : Ret) : St × Nat :=
  if r.res = FR_OK then
    ((dirRead v i r.st r.dp buf).st, if (dirRead v i r.st r.dp buf).res = FR_OK then FR_DENIED else if (dirRead v i r.st r.dp buf).res = FR_NO_FILE then FR_OK else (dirRead v i r.st r.dp buf).res)
  else (r.st, r.res)

/-- After the test, fatfs/fatfs.c:4828-4835. -/
def unlinkDir (v : Vol) (i : Info) (f : Fol) (cl : Nat) (p : St × Nat) : St × Nat := if p.2 = FR_OK then unlinkChain v i cl (dirRemove v i p.1 f.dp f.blk) else p

/-- An object that can be removed, fatfs/fatfs.c:4796-4836; `e` is its entry, `cl` its first cluster.  (Fields of the object `sdj` that are not set are not used for FAT.) -/
def unlinkObj (v : Vol) (i : Info) (cdir : Nat) (f : Fol) (e : List Nat) (cl : Nat) : St × Nat :=
  if attr e &&& 0x10 ≠ 0 then
    if cl = cdir then (f.st, FR_DENIED) else unlinkDir v i f cl (testEmpty v i f.buf (dirSdi v i f.st { f.dp with sclust := cl } 0))
  else unlinkChain v i cl (dirRemove v i f.st f.dp f.blk)

/-- `f_unlink` after `follow_path`, fatfs/fatfs.c:4783-4838; `share` gives results of `chk_share`. -/
def unlinkAt (v : Vol) (i : Info) (cdir : Nat) (share : Dp → Nat) (f : Fol) : St × Nat :=
  if f.res = FR_OK then
    if f.fl &&& 0x20 ≠ 0 then (f.st, FR_INVALID_NAME)
    else if share f.dp ≠ FR_OK then (f.st, share f.dp)
    else if f.fl &&& 0x80 ≠ 0 then (f.st, FR_INVALID_NAME)
    else
      match dirEnt v f.st f.dp with
      | none => (f.st, UB)
      | some e =>
        if attr e &&& 1 ≠ 0 then (f.st, FR_DENIED)
        else
          match ldClust v e 0 with
          | none => (f.st, UB)
          | some cl => unlinkObj v i cdir f e cl
  else (f.st, f.res)

/-- `f_unlink`, fatfs/fatfs.c:4770-4845, without `mount_volume`. -/
def fUnlink (v : Vol) (i : Info) (cdir : Nat) (share : Dp → Nat) (path : List Nat) (s : St) (dp : Dp) (buf : List Nat) : St × Nat := unlinkAt v i cdir share (followPath v i cdir path s dp buf)

/-! ## Making directories -/

/-- The entries `.` and `..`, fatfs/fatfs.c:4880-4889, in the window `w`. -/
def dotEntries (v : Vol) (w : List Nat) (tm dcl pcl : Nat) : Option (List Nat) :=
  (stDword ((List.replicate 11 32).set 0 46 ++ [0x10] ++ (w.drop 12).take 20) 22 tm).bind fun e => (stClust v e 0 dcl).bind fun e1 => (stClust v (e1.set 1 46) 0 pcl).bind fun e2 =>
    some (e1 ++ e2 ++ w.drop 64)

/-- The entry of the new directory, fatfs/fatfs.c:4908-4911, in the place of `e`. -/
def dirEntry (v : Vol) (e : List Nat) (tm dcl : Nat) : Option (List Nat) := (stDword e 22 tm).bind fun e => (stClust v e 0 dcl).bind fun e => stByte e 11 0x10

/-- After a failure, fatfs/fatfs.c:4917-4920: the result of `remove_chain` is not looked at. -/
def mkdirUndo (v : Vol) (s : St) (dcl res : Nat) : St × Nat := ((removeChain v s dcl 0).1, res)

/-- After `dir_register`, fatfs/fatfs.c:4896-4920. -/
def mkdirEnd (v : Vol) (i : Info) (tm dcl : Nat) (r : Ret) : St × Nat :=
  if r.res = FR_OK then
    match (dirEnt v r.st r.dp).bind fun e => dirEntry v e tm dcl with
    | none => (r.st, UB)
    | some e => syncFs v i.fsi (setEnt v r.st r.dp e)
  else mkdirUndo v r.st dcl r.res

/-- After `dir_clear`, fatfs/fatfs.c:4878-4920. -/
def mkdirCleared (v : Vol) (i : Info) (tm : Nat) (f : Fol) (dcl : Nat) (p : St × Nat) : St × Nat :=
  if p.2 = FR_OK then
    match dotEntries v p.1.win tm dcl f.dp.sclust with
    | none => (p.1, UB)
    | some w => mkdirEnd v i tm dcl (dirRegister v i (setWin p.1 w) f.dp f.fn f.fl f.buf)
  else mkdirUndo v p.1 dcl p.2

/-- After `create_chain`, fatfs/fatfs.c:4868-4920. -/
def mkdirNew (v : Vol) (i : Info) (tm : Nat) (f : Fol) (p : St × Nat) : St × Nat :=
  if p.2 = UB then p
  else if p.2 = 0 then mkdirUndo v p.1 p.2 FR_DENIED
  else if p.2 = 1 then mkdirUndo v p.1 p.2 FR_INT_ERR
  else if p.2 = DERR then mkdirUndo v p.1 p.2 FR_DISK_ERR
  else mkdirCleared v i tm f p.2 (dirClear v p.1 p.2)

/-- `f_mkdir` after `follow_path`, fatfs/fatfs.c:4863-4922. -/
def mkdirAt (v : Vol) (i : Info) (tm : Nat) (f : Fol) : St × Nat :=
  if f.res = FR_OK then (f.st, FR_EXIST)
  else if f.res = FR_NO_FILE then if f.fl &&& 0x20 ≠ 0 then (f.st, FR_INVALID_NAME) else mkdirNew v i tm f (createChain v f.st 0)
  else (f.st, f.res)

/-- `f_mkdir`, fatfs/fatfs.c:4850-4928, without `mount_volume`. -/
def fMkdir (v : Vol) (i : Info) (cdir tm : Nat) (path : List Nat) (s : St) (dp : Dp) (buf : List Nat) : St × Nat := mkdirAt v i tm (followPath v i cdir path s dp buf)

end Fpm.Tree
