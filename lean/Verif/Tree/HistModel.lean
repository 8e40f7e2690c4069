import Verif.Tree.RenameModel
import Verif.Tree.OpenModel
import Verif.FatFile.Spec
/-!
# f_chdir, and series of calls

Simplified: paths are without drive numbers, and the code for exFAT is left out.
-/
namespace Fpm.Tree
open Fpm.Fat Fpm.DirDev Fpm.FatBytes Fpm.Lfn Fpm.FatDir Fpm.FatSync Fpm.Names Fpm.Mount Fpm.FatFile.Spec
open Fpm.FatLock (Sem chkShare)

/-- `f_chdir` after `follow_path` has found an object, fatfs/fatfs.c:4049-4063: state, current directory, result. -/
def chdirObj (v : Vol) (cdir : Nat) (f : Fol) : St × Nat × Nat :=
  match dirEnt v f.st f.dp with
  | none => (f.st, cdir, UB)
  | some e =>
    if attr e &&& 0x10 ≠ 0 then
      match ldClust v e 0 with
      | none => (f.st, cdir, UB)
      | some cl => (f.st, cl, FR_OK)
    else (f.st, cdir, FR_NO_PATH)

/-- `f_chdir` after `follow_path`, fatfs/fatfs.c:4040-4067. -/
def chdirAt (v : Vol) (cdir : Nat) (f : Fol) : St × Nat × Nat :=
  if f.res = FR_OK then if f.fl &&& 0x80 ≠ 0 then (f.st, f.dp.sclust, FR_OK) else chdirObj v cdir f
  else (f.st, cdir, if f.res = FR_NO_FILE then FR_NO_PATH else f.res)

/-- `f_chdir`, fatfs/fatfs.c:4024-4076, without `mount_volume`. -/
def fChdir (v : Vol) (i : Info) (cdir : Nat) (path : List Nat) (s : St) (dp : Dp) (buf : List Nat) : St × Nat × Nat := chdirAt v cdir (followPath v i cdir path s dp buf)

/-- Calls of a program.  `edit` is `f_open`, a series of `f_read`, `f_write`, `f_lseek`, `f_truncate`, and `f_close`; the numbers are times, and what `fp->clust` was before. -/
inductive Cmd where
  | mkdir (tm : Nat) (path : List Nat)
  | unlink (path : List Nat)
  | rename (old new : List Nat)
  | chdir (path : List Nat)
  | edit (mode tm old : Nat) (path : List Nat) (ops : List Op) (tm' : Nat)

/-- A call, with the table of open objects, and what is in the local variables `dj` and the name buffer before. -/
structure Call where
  cmd : Cmd
  files : List Sem
  dp : Dp
  buf : List Nat

/-- A mounted volume, and the current directory, `cdir` of fatfs/fatfs.h:62. -/
structure World where
  st : St
  cdir : Nat

/-- What is left when the file has been closed, fatfs/fatfs.c:3967-3992; the lock of the file is left out. -/
def editEnd (v : Vol) (tm : Nat) (ops : List Op) (p : Opd) : St :=
  match p.fp with
  | none => p.st
  | some fp => (fSync v p.place tm (calls v p.st fp ops).1 (calls v p.st fp ops).2.1).st

/-- One call of a program; `fs` stands for the volume. -/
def exec (v : Vol) (i : Info) (fs : Nat) (c : Call) (w : World) : World :=
  match c.cmd with
  | .mkdir tm path => ⟨(fMkdir v i w.cdir tm path w.st c.dp c.buf).1, w.cdir⟩
  | .unlink path => ⟨(fUnlink v i w.cdir (fun dp => chkShare c.files (keyOf fs dp) 2) path w.st c.dp c.buf).1, w.cdir⟩
  | .rename old new => ⟨(fRename v i w.cdir (fun dp => chkShare c.files (keyOf fs dp) 2) old new w.st c.dp c.buf).1, w.cdir⟩
  | .chdir path => ⟨(fChdir v i w.cdir path w.st c.dp c.buf).1, (fChdir v i w.cdir path w.st c.dp c.buf).2.1⟩
  | .edit mode tm old path ops tm' => ⟨editEnd v tm' ops (fOpen v i w.cdir c.files fs tm mode old path w.st c.dp c.buf), w.cdir⟩

/-- A series of calls. -/
def execs (v : Vol) (i : Info) (fs : Nat) : List Call → World → World
  | [], w => w
  | c :: cs, w => execs v i fs cs (exec v i fs c w)

end Fpm.Tree
