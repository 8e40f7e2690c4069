import Verif.Tree.MkcdModel
import Verif.Tree.CwdSpec
import Verif.Tree.CpSpec
/-!
# What the commands mkdir and cd should do
-/
namespace Fpm.Tree.Spec
open Fpm.Fat Fpm.DirDev Fpm.FatDir Fpm.Names Fpm.Fat.Spec Fpm.FatFile.Spec Fpm.Lfn Fpm.Names.Spec Fpm.TextIo.Spec Fpm.FatDir.Spec Fpm.Mount Fpm.Mount.Spec Fpm.DirDev.Spec

/-- The end of `mkdir` for one place: messages, and the directories then.  `s'` is the volume then. -/
inductive MkEnd (v : Vol) (i : Info) (F : List (List Nat)) (s' : St) (tm : Nat) (T : List Dir) : Goal → List MkMsg → List Dir → Prop where
  /-- Something is there already, or there is no place of this name. -/
  | refused {G : Goal} {r : Nat} : MkdirRefused r G → MkEnd v i F s' tm T G [.failed r] T
  /-- There is no room. -/
  | full {d : Dir} {cs : List Nat} {R : List Dir} {loc : Loc} : T.Perm (d :: R) → Longer d.loc loc → NoPlace v i ({ d with loc := loc } :: R) F (view s') { d with loc := loc } cs →
      MkEnd v i F s' tm T (.free d cs) [.failed DirDev.FR_DENIED] ({ d with loc := loc } :: R)
  /-- It has been made, and is on the device. -/
  | made {d : Dir} {cs : List Nat} {R T' : List Dir} : T.Perm (d :: R) → Made v tm cs d (d :: R) T' → s'.wflag = false → MkEnd v i F s' tm T (.free d cs) [] T'

/-- One path after the other, with the time of each. -/
inductive MkRun (v : Vol) (i : Info) (F : List (List Nat)) (cdir : Nat) : List (List Nat × Nat) → List Dir → List MkMsg → List Dir → Prop where
  | nil {T : List Dir} : MkRun v i F cdir [] T [] T
  | cons {p : List Nat} {tm : Nat} {ps : List (List Nat × Nat)} {abs : Bool} {l : List (List Nat)} {G : Goal} {s : St} {T T1 T2 : List Dir} {ms ms' : List MkMsg} : PathOf (p ++ [0]) abs l → Resolves v T cdir abs l G → Tree v i T1 F s →
      MkEnd v i F s tm T G ms T1 → MkRun v i F cdir ps T1 ms' T2 → MkRun v i F cdir ((p, tm) :: ps) T (ms ++ ms') T2

/-- The paths before the first option, if there is one, and what is shown at the end. -/
inductive MkLine : List RdArg → List (List Nat) → List MkMsg → Prop where
  | bare : MkLine [] [] [.usage]
  | paths {ps : List (List Nat)} : ps ≠ [] → MkLine (ps.map .path) ps []
  | unknown {ps : List (List Nat)} {as : List RdArg} : MkLine (ps.map .path ++ .unknown :: as) ps []
  | help {ps : List (List Nat)} {as : List RdArg} : MkLine (ps.map .path ++ .help :: as) ps [.usage]

/-- What `cd path` shows, and the current directory `c` then, if the path leads to this place: it goes to directories. -/
inductive CdEnd (v : Vol) (cdir : Nat) : Goal → Nat → CdOut → Prop where
  | self {d : Dir} : CdEnd v cdir (.self d) d.sclust .silent
  | dir {d : Dir} {cs : List Nat} {o : Obj} : IsDir o → CdEnd v cdir (.object d cs o) (first v o) .silent
  | file {d : Dir} {cs : List Nat} {o : Obj} : ¬ IsDir o → CdEnd v cdir (.object d cs o) cdir (.failed FR_NO_PATH)
  | free {d : Dir} {cs : List Nat} : CdEnd v cdir (.free d cs) cdir (.failed FR_NO_PATH)
  | noPath : CdEnd v cdir .noPath cdir (.failed FR_NO_PATH)
  | badName : CdEnd v cdir .badName cdir (.failed FR_INVALID_NAME)

end Fpm.Tree.Spec
