import Verif.Tree.RmdirModel
import Verif.Tree.MvSpec
/-!
# What the command rmdir should do
-/
namespace Fpm.Tree.Spec
open Fpm.Fat Fpm.DirDev Fpm.FatDir Fpm.Names Fpm.Fat.Spec Fpm.FatFile.Spec Fpm.Lfn Fpm.Names.Spec Fpm.TextIo.Spec Fpm.FatDir.Spec Fpm.Mount Fpm.Mount.Spec Fpm.DirDev.Spec
open Fpm.FatLock (Sem)

/-- The object is a directory that may go: nothing is in it, it is not the current directory, not read-only, not in use, and not called `.` or `..`. -/
structure MayGo (v : Vol) (files : List Sem) (fs cdir : Nat) (T : List Dir) (d : Dir) (cs : List Nat) (o : Obj) : Prop where
  dir : IsDir o
  nodot : ¬ DotName cs
  closed : ¬ InUse files fs d o
  write : ¬ ReadOnly o
  away : first v o ≠ cdir
  vacant : Vacant v T o

/-- The end of `rmdir` for one place: messages, and the directories then. -/
inductive RdEnd (v : Vol) (files : List Sem) (fs cdir : Nat) (T : List Dir) : Goal → List RdMsg → List Dir → Prop where
  /-- Nothing is there. -/
  | missing {G : Goal} {r : Nat} : Absent r G → RdEnd v files fs cdir T G [.missing r] T
  /-- It is a file. -/
  | file {d : Dir} {cs : List Nat} {o : Obj} : ¬ IsDir o → RdEnd v files fs cdir T (.object d cs o) [.notDir] T
  /-- It is called `.` or `..`. -/
  | dots {d : Dir} {cs : List Nat} {o : Obj} : IsDir o → DotName cs → RdEnd v files fs cdir T (.object d cs o) [.failed FR_INVALID_NAME] T
  /-- It is in use. -/
  | used {d : Dir} {cs : List Nat} {o : Obj} : IsDir o → ¬ DotName cs → InUse files fs d o → RdEnd v files fs cdir T (.object d cs o) [.failed 16] T
  /-- It must stay. -/
  | kept {d : Dir} {cs : List Nat} {o : Obj} : IsDir o → ¬ DotName cs → ReadOnly o ∨ first v o = cdir ∨ ¬ Vacant v T o → RdEnd v files fs cdir T (.object d cs o) [.failed DirDev.FR_DENIED] T
  /-- It has gone. -/
  | gone {d d' : Dir} {cs : List Nat} {o : Obj} {x y : List Obj} {R : List Dir} : MayGo v files fs cdir T d cs o → T.Perm (d :: d' :: R) → d'.sclust = first v o → d.os = x ++ o :: y →
      RdEnd v files fs cdir T (.object d cs o) [] ({ d with os := x ++ y } :: R)

/-- One path after the other. -/
inductive RdRun (v : Vol) (files : List Sem) (fs cdir : Nat) : List (List Nat) → List Dir → List RdMsg → List Dir → Prop where
  | nil {T : List Dir} : RdRun v files fs cdir [] T [] T
  | cons {p : List Nat} {ps : List (List Nat)} {abs : Bool} {l : List (List Nat)} {G : Goal} {T T1 T2 : List Dir} {ms ms' : List RdMsg} : PathOf (p ++ [0]) abs l → Resolves v T cdir abs l G → RdEnd v files fs cdir T G ms T1 →
      RdRun v files fs cdir ps T1 ms' T2 → RdRun v files fs cdir (p :: ps) T (ms ++ ms') T2

/-- The paths before the first option, if there is one, and what is shown at the end. -/
inductive Line : List RdArg → List (List Nat) → List RdMsg → Prop where
  | bare : Line [] [] [.usage]
  | paths {ps : List (List Nat)} : ps ≠ [] → Line (ps.map .path) ps []
  | unknown {ps : List (List Nat)} {as : List RdArg} : Line (ps.map .path ++ .unknown :: as) ps []
  | help {ps : List (List Nat)} {as : List RdArg} : Line (ps.map .path ++ .help :: as) ps [.usage]

end Fpm.Tree.Spec
