import Verif.Tree.Model
/-!
# f_rename

Simplified: both paths are without drive numbers, and the code for exFAT is left out.
-/
namespace Fpm.Tree
open Fpm.Fat Fpm.DirDev Fpm.FatBytes Fpm.Lfn Fpm.FatDir Fpm.FatSync Fpm.Names Fpm.Mount

/-- The entry `e` of the new name with everything but the name from the old entry `b`, fatfs/fatfs.c:5007-5010: bytes 0 to 10 and 12 stay, files get the archive attribute. -/
def renameEntry (e b : List Nat) : List Nat := (e.take 13 ++ b.drop 13).set 11 (if byte b 11 &&& 0x10 = 0 then byte b 11 ||| 0x20 else byte b 11)

/-- The entry `..` in the window, fatfs/fatfs.c:5023-5027: it gets the cluster `pcl` if its second byte is a dot. -/
def renameDots (v : Vol) (pcl : Nat) (p : St × Nat) : St × Nat :=
  if p.2 = FR_OK ∧ byte p.1.win 33 = 46 then
    match stClust v p.1.win 32 pcl with
    | none => (p.1, UB)
    | some w => (setWin p.1 w, FR_OK)
  else p

/-- The sub-directory with first cluster `cl`, fatfs/fatfs.c:5016-5028. -/
def renameSub (v : Vol) (s : St) (cl pcl : Nat) : St × Nat :=
  if clst2sect v cl = 0 then (s, FR_INT_ERR) else renameDots v pcl (moveWindow v s (clst2sect v cl))

/-- The new entry `e`, fatfs/fatfs.c:5005-5029, is in the window; `b` is the old entry, `ocl` and `r.dp.sclust` are the directories. -/
def renamePut (v : Vol) (ocl : Nat) (b e : List Nat) (r : Ret) : St × Nat :=
  if byte b 11 &&& 0x10 ≠ 0 ∧ ocl ≠ r.dp.sclust then
    match ldClust v (renameEntry e b) 0 with
    | none => (r.st, UB)
    | some cl => renameSub v (setEnt v r.st r.dp (renameEntry e b)) cl r.dp.sclust
  else (setEnt v r.st r.dp (renameEntry e b), FR_OK)

/-- After `dir_register`, fatfs/fatfs.c:5004-5030. -/
def renameNew (v : Vol) (ocl : Nat) (b : List Nat) (r : Ret) : St × Nat :=
  if r.res = FR_OK then
    match dirEnt v r.st r.dp with
    | none => (r.st, UB)
    | some e => renamePut v ocl b e r
  else (r.st, r.res)

/-- The result of following the new path, fatfs/fatfs.c:4996-5000: is the name in use by another object? -/
def renameRes (f g : Fol) : Nat := if g.res = FR_OK then if g.dp.sclust = f.dp.sclust ∧ g.dp.dptr = f.dp.dptr then FR_NO_FILE else FR_EXIST else g.res

/-- After following the new path, fatfs/fatfs.c:4996-5031. -/
def renameTo (v : Vol) (i : Info) (b : List Nat) (f g : Fol) : St × Nat :=
  if renameRes f g = FR_NO_FILE then renameNew v f.dp.sclust b (dirRegister v i g.st g.dp g.fn g.fl g.buf) else (g.st, renameRes f g)

/-- Removing the old entry, fatfs/fatfs.c:5033-5038. -/
def renameEnd (v : Vol) (i : Info) (f : Fol) (p : St × Nat) : St × Nat :=
  if p.2 = FR_OK then synced v i ((dirRemove v i p.1 f.dp f.blk).st, (dirRemove v i p.1 f.dp f.blk).res) else p

/-- `f_rename` after following the old path, fatfs/fatfs.c:4950-5040; `share` gives results of `chk_share`. -/
def renameAt (v : Vol) (i : Info) (cdir : Nat) (share : Dp → Nat) (new : List Nat) (f : Fol) : St × Nat :=
  if f.res = FR_OK then
    if f.fl &&& 0xA0 ≠ 0 then (f.st, FR_INVALID_NAME)
    else if share f.dp ≠ FR_OK then (f.st, share f.dp)
    else
      match dirEnt v f.st f.dp with
      | none => (f.st, UB)
      | some b => renameEnd v i f (renameTo v i b f (followPath v i cdir new f.st f.dp f.buf))
  else (f.st, f.res)

/-- `f_rename`, fatfs/fatfs.c:4934-5045, without `mount_volume` and `get_ldnumber`. -/
def fRename (v : Vol) (i : Info) (cdir : Nat) (share : Dp → Nat) (old new : List Nat) (s : St) (dp : Dp) (buf : List Nat) : St × Nat :=
  renameAt v i cdir share new (followPath v i cdir old s dp buf)

end Fpm.Tree
