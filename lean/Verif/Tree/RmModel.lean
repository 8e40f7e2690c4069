import Verif.Tree.StatModel
import Verif.Tree.HistModel
/-!
# The command rm

Model of `remove_recursive`, `remove_directory`, `remove_file` and `remove` of `kernel/cmd/cmd_remove.c`.  Messages and prompts are left out, the answer of the user is a parameter.  A path is a string without its final zero.
-/
namespace Fpm.Tree
open Fpm.Fat Fpm.FatBytes Fpm.Lfn Fpm.Names Fpm.FatDir Fpm.Mount Fpm.FatSync Fpm.DirDev
open Fpm.FatLock (Sem chkShare incShare decShare)

/-- State of the volume, table of open objects, number of calls so far, result. -/
structure Rm where
  st : St
  files : List Sem
  n : Nat
  res : Nat

/-- What does not change: the volume, the current directory, the number of the volume, and what is in local variables of call number `n` before: directory object and name buffer (FF_USE_LFN is 2, fatfs/ffconf.h:67). -/
structure Env where
  v : Vol
  i : Info
  cdir : Nat
  fs : Nat
  old : Nat → Dp × List Nat

/-- `f_unlink(path)`, kernel/cmd/cmd_remove.c:36, 55, 93, 108 -/
def rmUnlink (g : Env) (path : List Nat) (r : Rm) : Rm :=
  ⟨(fUnlink g.v g.i g.cdir (fun dp => chkShare r.files (keyOf g.fs dp) 2) (path ++ [0]) r.st (g.old r.n).1 (g.old r.n).2).1, r.files, r.n + 1,
   (fUnlink g.v g.i g.cdir (fun dp => chkShare r.files (keyOf g.fs dp) 2) (path ++ [0]) r.st (g.old r.n).1 (g.old r.n).2).2⟩

/-- `child`, kernel/cmd/cmd_remove.c:72-77 and 87: the array has `baselen + FF_LFN_BUF + 2` bytes, FF_LFN_BUF is 255; none if they are too few. -/
def childPath (dir name : List Nat) : Option (List Nat) := if dir.length + 1 + name.length + 1 ≤ dir.length + 255 + 2 then some (dir ++ 47 :: name) else none

/-- One object of the directory, kernel/cmd/cmd_remove.c:88-99; `rec` removes a directory. -/
def rmOne (g : Env) (rec : List Nat → Rm → Rm) (e path : List Nat) (r : Rm) : Rm := if attr e &&& 0x10 ≠ 0 then rec path r else rmUnlink g path r

/-- The loop, kernel/cmd/cmd_remove.c:79-103; the number bounds the rounds. -/
def rmLoop (g : Env) (rec : List Nat → Rm → Rm) (path : List Nat) : Nat → Dp → Rm → Rm
  | 0, _, r => { r with res := HANG }
  | k + 1, dp, r =>
    if (readdir g.v g.i r.st dp (g.old r.n).2).res = FR_OK then
      match (readdir g.v g.i r.st dp (g.old r.n).2).item with
      | none => ⟨(readdir g.v g.i r.st dp (g.old r.n).2).st, r.files, r.n + 1, FR_OK⟩
      | some x =>
        if x.1.headD 0 = 0 then ⟨(readdir g.v g.i r.st dp (g.old r.n).2).st, r.files, r.n + 1, FR_OK⟩
        else
          match childPath path x.1 with
          | none => ⟨(readdir g.v g.i r.st dp (g.old r.n).2).st, r.files, r.n + 1, UB⟩
          | some c =>
            if (rmOne g rec x.2 c ⟨(readdir g.v g.i r.st dp (g.old r.n).2).st, r.files, r.n + 1, FR_OK⟩).res = FR_OK then
              rmLoop g rec path k (readdir g.v g.i r.st dp (g.old r.n).2).dp (rmOne g rec x.2 c ⟨(readdir g.v g.i r.st dp (g.old r.n).2).st, r.files, r.n + 1, FR_OK⟩)
            else rmOne g rec x.2 c ⟨(readdir g.v g.i r.st dp (g.old r.n).2).st, r.files, r.n + 1, FR_OK⟩
    else ⟨(readdir g.v g.i r.st dp (g.old r.n).2).st, r.files, r.n + 1, (readdir g.v g.i r.st dp (g.old r.n).2).res⟩

/-- `f_closedir`, fatfs/fatfs.c:4463-4482; the code does not look at the result. -/
def rmClose (lock : Nat) (r : Rm) : Rm := { r with files := if lock ≠ 0 then (decShare r.files lock).1 else r.files }

/-- After the loop, kernel/cmd/cmd_remove.c:106-115. -/
def rmEnd (g : Env) (path : List Nat) (r : Rm) : Rm := if r.res = FR_OK then rmUnlink g path r else r

/-- After `f_opendir`, kernel/cmd/cmd_remove.c:67-115; `n` is the number of calls so far. -/
def rmInside (g : Env) (rec : List Nat → Rm → Rm) (path : List Nat) (n : Nat) (o : Opdir) : Rm :=
  if o.res = FR_OK then rmEnd g path (rmClose o.lock (rmLoop g rec path ROUNDS o.dp ⟨o.st, o.files, n, FR_OK⟩)) else ⟨o.st, o.files, n, o.res⟩

/-- `f_opendir(path)` and what follows, kernel/cmd/cmd_remove.c:65-115. -/
def rmOpen (g : Env) (rec : List Nat → Rm → Rm) (path : List Nat) (r : Rm) : Rm :=
  rmInside g rec path (r.n + 1) (fOpendir g.v g.i g.cdir r.files g.fs (path ++ [0]) r.st (g.old r.n).1 (g.old r.n).2)

/-- `remove_recursive`, kernel/cmd/cmd_remove.c:52-116; the number bounds the depth. -/
def rmRec (g : Env) : Nat → List Nat → Rm → Rm
  | 0, _, r => { r with res := HANG }
  | k + 1, path, r => if (rmUnlink g path r).res = FR_OK then rmUnlink g path r else rmOpen g (rmRec g k) path (rmUnlink g path r)

/-- Options, kernel/cmd/cmd_remove.c:13-17, without `verbose`. -/
structure RmOpt where
  force : Bool
  recursive : Bool

/-- `remove` after `f_stat`, kernel/cmd/cmd_remove.c:153-164, with `remove_directory` (121-142) and `remove_file` (22-47); `yes` is the answer of the user, who is asked about directories in any case. -/
def rmStat (g : Env) (opt : RmOpt) (yes : Bool) (k : Nat) (path : List Nat) (r : Rm) (info : Option FInfo) : Rm :=
  match info with
  | none => r
  | some x =>
    if x.attr &&& 0x10 ≠ 0 then if opt.recursive ∧ yes then rmRec g k path r else r
    else if opt.force ∨ yes then rmUnlink g path r else r

/-- `remove`, kernel/cmd/cmd_remove.c:147-164; the number bounds the depth of directories, `info` is what is in the variable `info` before. -/
def rmPath (g : Env) (opt : RmOpt) (yes : Bool) (k : Nat) (path : List Nat) (r : Rm) (info : FInfo) : Rm :=
  rmStat g opt yes k path ⟨(fStat g.v g.i g.cdir (path ++ [0]) r.st (g.old r.n).1 (g.old r.n).2 info).1, r.files, r.n + 1, (fStat g.v g.i g.cdir (path ++ [0]) r.st (g.old r.n).1 (g.old r.n).2 info).2.1⟩
    (fStat g.v g.i g.cdir (path ++ [0]) r.st (g.old r.n).1 (g.old r.n).2 info).2.2

end Fpm.Tree
