import Verif.Tree.RmModel
/-!
# The command rmdir

Model of `kernel/cmd/cmd_rmdir.c` on the device: `f_stat` and `f_unlink` are the models of these functions.  Messages are told apart by what they say.  What `fpm_getopt` makes of the arguments (C22) is a list.  Paths are strings without
their final zero, and without names of drives.
-/
namespace Fpm.Tree
open Fpm.Fat Fpm.Lfn Fpm.Names Fpm.FatDir Fpm.Mount Fpm.FatSync Fpm.DirDev
open Fpm.FatLock (Sem chkShare)

/-- What `fpm_getopt` gives for an argument, kernel/cmd/cmd_rmdir.c:36-53. -/
inductive RdArg where
  | path (p : List Nat)
  | unknown
  | help
deriving DecidableEq

/-- Messages of `rmdir`, with the result that `f_strerror` puts into words. -/
inductive RdMsg where
  /-- kernel/cmd/cmd_rmdir.c:14 -/
  | missing (res : Nat)
  /-- line 18 -/
  | notDir
  /-- line 23 -/
  | failed (res : Nat)
  /-- line 49 -/
  | usage
  /-- not a message: the code has used a structure `info` that was not filled -/
  | garbage
deriving DecidableEq

/-- State of the volume, number of calls with names so far, messages so far. -/
structure Rd where
  st : St
  n : Nat
  msgs : List RdMsg

/-- What `f_unlink` leaves, kernel/cmd/cmd_rmdir.c:21-24: `q` is its outcome. -/
def rdSaid (q : St × Nat) (r : Rd) : Rd := ⟨q.1, r.n + 1, if q.2 ≠ FR_OK then r.msgs ++ [.failed q.2] else r.msgs⟩

/-- After `f_stat`, kernel/cmd/cmd_rmdir.c:13-24: `q` is its outcome, `files` is the table of open objects. -/
def rdSeen (g : Env) (files : List Sem) (path : List Nat) (r : Rd) (q : St × Nat × Option FInfo) : Rd :=
  if q.2.1 ≠ FR_OK then ⟨q.1, r.n + 1, r.msgs ++ [.missing q.2.1]⟩
  else
    match q.2.2 with
    | none => ⟨q.1, r.n + 1, r.msgs ++ [.garbage]⟩
    | some x =>
      if x.attr &&& 0x10 = 0 then ⟨q.1, r.n + 1, r.msgs ++ [.notDir]⟩
      else rdSaid (fUnlink g.v g.i g.cdir (fun dp => chkShare files (keyOf g.fs dp) 2) (path ++ [0]) q.1 (g.old (r.n + 1)).1 (g.old (r.n + 1)).2) ⟨q.1, r.n + 1, r.msgs⟩

/-- `remove_directory`, kernel/cmd/cmd_rmdir.c:9-25; `info` is what is in the variable `info` before. -/
def rdOne (g : Env) (files : List Sem) (info : FInfo) (path : List Nat) (r : Rd) : Rd :=
  rdSeen g files path r (fStat g.v g.i g.cdir (path ++ [0]) r.st (g.old r.n).1 (g.old r.n).2 info)

/-- The loop of `fpm_cmd_rmdir`, kernel/cmd/cmd_rmdir.c:36-60; the number is `argcount`. -/
def rdLoop (g : Env) (files : List Sem) (info : FInfo) : List RdArg → Nat → Rd → Rd
  | [], k, r => if k = 0 then { r with msgs := r.msgs ++ [.usage] } else r
  | .path p :: as, k, r => rdLoop g files info as (k + 1) (rdOne g files info p r)
  | .unknown :: _, _, r => r
  | .help :: _, _, r => { r with msgs := r.msgs ++ [.usage] }

/-- `fpm_cmd_rmdir`, kernel/cmd/cmd_rmdir.c:27-61. -/
def rdCmd (g : Env) (files : List Sem) (info : FInfo) (as : List RdArg) (r : Rd) : Rd := rdLoop g files info as 0 r

end Fpm.Tree
