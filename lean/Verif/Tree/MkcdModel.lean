import Verif.Tree.RmdirModel
import Verif.Tree.CwdModel
/-!
# The commands mkdir and cd

Model of `kernel/cmd/cmd_mkdir.c` and `kernel/cmd/cmd_cd.c` on the device: `f_mkdir`, `f_chdir` and `f_getcwd` are the models of these functions.  Messages are told apart by what they say.  What `fpm_getopt` makes of the arguments (C22) is
a list.  Paths are strings without their final zero, and without names of drives.
-/
namespace Fpm.Tree
open Fpm.Fat Fpm.Lfn Fpm.Names Fpm.FatDir Fpm.Mount Fpm.FatSync Fpm.DirDev

/-- Messages of `mkdir`, with the result that `f_strerror` puts into words. -/
inductive MkMsg where
  /-- kernel/cmd/cmd_mkdir.c:13 -/
  | failed (res : Nat)
  /-- line 39 -/
  | usage
deriving DecidableEq

/-- State of the volume, number of calls with names so far, messages so far. -/
structure Mk where
  st : St
  n : Nat
  msgs : List MkMsg

/-- What `f_mkdir` leaves, kernel/cmd/cmd_mkdir.c:11-14: `q` is its outcome. -/
def mkSaid (q : St × Nat) (r : Mk) : Mk := ⟨q.1, r.n + 1, if q.2 ≠ FR_OK then r.msgs ++ [.failed q.2] else r.msgs⟩

/-- `create_directory`, kernel/cmd/cmd_mkdir.c:9-15; `tm` is the time of each call. -/
def mkOne (g : Env) (tm : Nat → Nat) (path : List Nat) (r : Mk) : Mk := mkSaid (fMkdir g.v g.i g.cdir (tm r.n) (path ++ [0]) r.st (g.old r.n).1 (g.old r.n).2) r

/-- The loop of `fpm_cmd_mkdir`, kernel/cmd/cmd_mkdir.c:26-50; the number is `argcount`. -/
def mkLoop (g : Env) (tm : Nat → Nat) : List RdArg → Nat → Mk → Mk
  | [], k, r => if k = 0 then { r with msgs := r.msgs ++ [.usage] } else r
  | .path p :: as, k, r => mkLoop g tm as (k + 1) (mkOne g tm p r)
  | .unknown :: _, _, r => r
  | .help :: _, _, r => { r with msgs := r.msgs ++ [.usage] }

/-- `fpm_cmd_mkdir`, kernel/cmd/cmd_mkdir.c:17-51. -/
def mkCmd (g : Env) (tm : Nat → Nat) (as : List RdArg) (r : Mk) : Mk := mkLoop g tm as 0 r

/-- What `cd` shows. -/
inductive CdOut where
  /-- nothing but line ends -/
  | silent
  /-- kernel/cmd/cmd_cd.c:13, 51 -/
  | failed (res : Nat)
  /-- line 37 -/
  | usage
  /-- line 49 -/
  | text (t : List Nat)
  /-- nothing: memory outside of the array `path` was used -/
  | overrun
deriving DecidableEq

/-- `chdir`, kernel/cmd/cmd_cd.c:9-15: `q` is the outcome of `f_chdir`. -/
def cdTo (q : St × Nat × Nat) : World × CdOut := (⟨q.1, q.2.1⟩, if q.2.2 ≠ FR_OK then .failed q.2.2 else .silent)

/-- kernel/cmd/cmd_cd.c:47-53: `q` is the outcome of `f_getcwd`; `fpm_puts` shows the bytes up to the first zero, which has to be in the array. -/
def cdShow (cdir : Nat) (q : St × Nat × Option (List Nat)) : World × CdOut :=
  match q.2.2 with
  | none => (⟨q.1, cdir⟩, .overrun)
  | some out => (⟨q.1, cdir⟩, if q.2.1 = FR_OK then (if 0 ∈ out then .text (out.takeWhile (· ≠ 0)) else .overrun) else .failed q.2.1)

/-- `fpm_cmd_cd`, kernel/cmd/cmd_cd.c:17-54; `vp` is the name of the disk, `dp`, `buf` and `out` (the array `path`) are local variables. -/
def cdCmd (v : Vol) (i : Info) (vp : List Nat) (dp : Dp) (buf out : List Nat) (as : List RdArg) (w : World) : World × CdOut :=
  match as with
  | .path p :: _ => cdTo (fChdir v i w.cdir (p ++ [0]) w.st dp buf)
  | .unknown :: _ => (w, .silent)
  | .help :: _ => (w, .usage)
  | [] => cdShow w.cdir (fGetcwd v i w.cdir vp w.st dp buf out)

end Fpm.Tree
