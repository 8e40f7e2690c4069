import Verif.Tree.HistModel
import Verif.Tree.StatModel
import Verif.Tree.RmModel
import Verif.Copy.Model
/-!
# Renaming and moving with the command mv

Model of `kernel/cmd/cmd_rename.c` on the device: `f_stat` and `f_rename` are the models of these functions.  Prompts are left out, the answers of the user are parameters.  Messages are told apart by what they say; the words shown with the
option `-v` are left out, and so is the parsing of options (C22).  Paths are strings without their final zero, and without names of drives.
-/
namespace Fpm.Tree
open Fpm.Fat Fpm.Lfn Fpm.Names Fpm.FatDir Fpm.Mount Fpm.FatSync Fpm.DirDev
open Fpm.FatLock (Sem chkShare)

/-- Messages of `mv`, with the result that `f_strerror` puts into words. -/
inductive MvMsg where
  /-- kernel/cmd/cmd_rename.c:33 -/
  | missing (res : Nat)
  /-- line 45 -/
  | kept
  /-- line 53 -/
  | failed (res : Nat)
  /-- line 147 -/
  | across
  /-- line 162 -/
  | notDir
  /-- not a message: the code has written beyond the array `destination` of line 69 -/
  | overrun
deriving DecidableEq

/-- State of the volume, number of calls with names so far, messages so far. -/
structure Mv where
  st : St
  n : Nat
  msgs : List MvMsg

/-- What `f_rename` leaves, kernel/cmd/cmd_rename.c:51-60: `q` is its outcome. -/
def mvSaid (q : St × Nat) (r : Mv) : Mv := ⟨q.1, r.n + 1, if q.2 = FR_OK then r.msgs else r.msgs ++ [.failed q.2]⟩

/-- `f_rename`, kernel/cmd/cmd_rename.c:51-60; `files` is the table of open objects. -/
def mvDo (g : Env) (files : List Sem) (src dst : List Nat) (r : Mv) : Mv :=
  mvSaid (fRename g.v g.i g.cdir (fun dp => chkShare files (keyOf g.fs dp) 2) (src ++ [0]) (dst ++ [0]) r.st (g.old r.n).1 (g.old r.n).2) r

/-- The question, kernel/cmd/cmd_rename.c:31-60: something is called like the destination, and `q` is what `f_stat` has said about the source. -/
def mvAsk (g : Env) (files : List Sem) (yes : Bool) (src dst : List Nat) (r : Mv) (q : St × Nat × Option FInfo) : Mv :=
  if q.2.1 ≠ FR_OK then ⟨q.1, r.n + 1, r.msgs ++ [.missing q.2.1]⟩
  else if yes = false then ⟨q.1, r.n + 1, r.msgs ++ [.kept]⟩
  else mvDo g files src dst ⟨q.1, r.n + 1, r.msgs⟩

/-- kernel/cmd/cmd_rename.c:27-60: `q` is what `f_stat` has said about the destination. -/
def mvSeen (g : Env) (files : List Sem) (yes : Bool) (info : FInfo) (src dst : List Nat) (r : Mv) (q : St × Nat × Option FInfo) : Mv :=
  if q.2.1 = FR_OK then mvAsk g files yes src dst ⟨q.1, r.n + 1, r.msgs⟩ (fStat g.v g.i g.cdir (src ++ [0]) q.1 (g.old (r.n + 1)).1 (g.old (r.n + 1)).2 info)
  else mvDo g files src dst ⟨q.1, r.n + 1, r.msgs⟩

/-- `rename_file`, kernel/cmd/cmd_rename.c:20-60; `yes` is the answer of the user, `info` what is in the variable `info` before. -/
def mvFile (g : Env) (files : List Sem) (force yes : Bool) (info : FInfo) (src dst : List Nat) (r : Mv) : Mv :=
  if force then mvDo g files src dst r
  else mvSeen g files yes info src dst r (fStat g.v g.i g.cdir (dst ++ [0]) r.st (g.old r.n).1 (g.old r.n).2 info)

/-- The loop of `move_files_to_directory`, kernel/cmd/cmd_rename.c:78-91; `ans` has the answers. -/
def mvAll (g : Env) (files : List Sem) (force : Bool) (ans : List Nat → Bool) (info : FInfo) : List (List Nat × List Nat) → Mv → Mv
  | [], r => r
  | p :: ps, r => mvAll g files force ans info ps (mvFile g files force (ans p.2) info p.1 p.2 r)

/-- `move_files_to_directory`, kernel/cmd/cmd_rename.c:65-92. -/
def mvInto (g : Env) (files : List Sem) (force : Bool) (ans : List Nat → Bool) (info : FInfo) (sources : List (List Nat)) (dst : List Nat) (r : Mv) : Mv :=
  match Copy.moveToDirectory dst sources with
  | none => { r with msgs := r.msgs ++ [.overrun] }
  | some ps => mvAll g files force ans info ps r

/-- kernel/cmd/cmd_rename.c:153-158: does the destination pass for a directory?  `res` and `info` are from `f_stat`. -/
def mvDir (res : Nat) (info : Option FInfo) : Bool :=
  if res = FR_INVALID_NAME then true
  else if res = FR_OK then
    match info with
    | none => false
    | some x => x.attr &&& 0x10 ≠ 0
  else false

/-- kernel/cmd/cmd_rename.c:158-169. -/
def mvMany (g : Env) (files : List Sem) (force : Bool) (ans : List Nat → Bool) (info : FInfo) (sources : List (List Nat)) (dst : List Nat) (r : Mv) (isDir : Bool) : Mv :=
  if isDir then mvInto g files force ans info sources dst r
  else
    match sources with
    | [src] => mvFile g files force (ans dst) info src dst r
    | _ => { r with msgs := r.msgs ++ [.notDir] }

/-- `fpm_cmd_rename` after its options, kernel/cmd/cmd_rename.c:145-171; the structure `info` of line 151 has only zeros. -/
def mvCmd (g : Env) (files : List Sem) (force : Bool) (ans : List Nat → Bool) (info : FInfo) (sources : List (List Nat)) (dst : List Nat) (r : Mv) : Mv :=
  if 58 ∈ dst then { r with msgs := r.msgs ++ [.across] }
  else
    mvMany g files force ans info sources dst ⟨(fStat g.v g.i g.cdir (dst ++ [0]) r.st (g.old r.n).1 (g.old r.n).2 ⟨[], 0, 0, 0, 0, 0⟩).1, r.n + 1, r.msgs⟩
      (mvDir (fStat g.v g.i g.cdir (dst ++ [0]) r.st (g.old r.n).1 (g.old r.n).2 ⟨[], 0, 0, 0, 0, 0⟩).2.1 (fStat g.v g.i g.cdir (dst ++ [0]) r.st (g.old r.n).1 (g.old r.n).2 ⟨[], 0, 0, 0, 0, 0⟩).2.2)

end Fpm.Tree
