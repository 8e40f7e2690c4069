import Verif.Tree.MvModel
import Verif.Tree.HistSpec
import Verif.Tree.CpSpec
import Verif.Copy.Spec
/-!
# What the command mv should do
-/
namespace Fpm.Tree.Spec
open Fpm.Fat Fpm.DirDev Fpm.FatDir Fpm.Names Fpm.Fat.Spec Fpm.FatFile.Spec Fpm.Lfn Fpm.Names.Spec Fpm.TextIo.Spec Fpm.FatDir.Spec Fpm.Mount Fpm.Mount.Spec Fpm.DirDev.Spec
open Fpm.FatLock (Sem)

/-- Nothing can be moved from this place, and why. -/
def Absent (r : Nat) : Goal → Prop
  | .badName => r = FR_INVALID_NAME
  | .noPath => r = FR_NO_PATH
  | .free _ _ => r = FR_NO_FILE
  | .self _ => r = FR_INVALID_NAME
  | .object _ _ _ => False

/-- The object is in the table of open objects. -/
def InUse (files : List Sem) (fs : Nat) (d : Dir) (o : Obj) : Prop := ∃ x ∈ files, x.key = ⟨fs, d.sclust, 32 * o.pos⟩

/-- Reasons not to move an object to a place, with results. -/
def Hindered (files : List Sem) (fs r : Nat) : Goal → Goal → Prop
  | .object d cs o, G => DotName cs ∧ r = FR_INVALID_NAME ∨ ¬ DotName cs ∧ InUse files fs d o ∧ r = 16 ∨ ¬ DotName cs ∧
      match G with
      | .badName => r = FR_INVALID_NAME
      | .noPath => r = FR_NO_PATH
      | .free _ _ => False
      | .self _ => r = FR_EXIST ∨ r = FR_INVALID_NAME
      | .object d' _ o' => ¬ (d' = d ∧ o' = o) ∧ r = FR_EXIST
  | G1, _ => Absent r G1

/-- The end of moving one object to a place: messages, directories and volume. -/
inductive MvEnd (v : Vol) (i : Info) (files : List Sem) (fs : Nat) (force yes : Bool) (G1 G : Goal) (T : List Dir) (F : List (List Nat)) (s' : St) : List MvMsg → List Dir → Prop where
  /-- Nothing is there to be moved. -/
  | missing {r : Nat} : force = false → (∃ d cs o, G = .object d cs o) → Absent r G1 → MvEnd v i files fs force yes G1 G T F s' [.missing r] T
  /-- The user does not want it. -/
  | kept : force = false → yes = false → (∃ d cs o, G = .object d cs o) → (∃ d cs o, G1 = .object d cs o) → MvEnd v i files fs force yes G1 G T F s' [.kept] T
  /-- It cannot be. -/
  | refused {r : Nat} : Asked force yes G → Hindered files fs r G1 G → MvEnd v i files fs force yes G1 G T F s' [.failed r] T
  /-- There is no room for an entry. -/
  | full {d n : Dir} {cs cs' : List Nat} {o : Obj} {R : List Dir} {loc : Loc} : Asked force yes G → G1 = .object d cs o → ¬ DotName cs → ¬ InUse files fs d o → Target d o n cs' G → T.Perm (n :: R) → Longer n.loc loc →
      NoEntry v i ({ n with loc := loc } :: R) F (view s') { n with loc := loc } cs' → MvEnd v i files fs force yes G1 G T F s' [.failed DirDev.FR_DENIED] ({ n with loc := loc } :: R)
  /-- It has been moved, and all is on the device. -/
  | moved {d n : Dir} {cs cs' : List Nat} {o : Obj} {T' : List Dir} : Asked force yes G → G1 = .object d cs o → ¬ DotName cs → ¬ InUse files fs d o → Target d o n cs' G → Renamed v d n cs' o T T' → s'.wflag = false →
      MvEnd v i files fs force yes G1 G T F s' [] T'

/-- Does `mv` take the destination for a directory?  It does if it is one, and also if it is no name at all. -/
def Passes : Goal → Prop
  | .badName => True
  | .self _ => True
  | .object _ _ o => IsDir o
  | _ => False

/-- The path to which `mv src dst` moves, if `dst` leads to `G`: `dst` itself, or the last name of `src` in the directory `dst`. -/
def Aim (G : Goal) (src dst path : List Nat) : Prop :=
  Passes G ∧ (∃ b name sl, Copy.Spec.DirSlash dst b ∧ Copy.Spec.Last src name sl ∧ (name ++ sl).length ≤ 255 ∧ path = b ++ name ++ sl) ∨ ¬ Passes G ∧ path = dst

/-- A file with these bytes is in a directory that can be reached from the root directory. -/
def Stored (v : Vol) (T : List Dir) (F : List (List Nat)) (s : St) (data : List Nat) : Prop :=
  ∃ d ∈ T, Within v T 0 d.sclust ∧ ∃ o ∈ d.os, ∃ m, ¬ IsDir o ∧ (m = [] ∨ m ∈ F) ∧ first v o = m.headD 0 ∧ bytesOf v s m o = data

/-- The place is in the directory that is to be moved, or below it. -/
def IntoItself (v : Vol) (T : List Dir) (G1 G : Goal) : Prop := ∃ d cs o n cs', G1 = .object d cs o ∧ IsDir o ∧ Target d o n cs' G ∧ Within v T (first v o) n.sclust

end Fpm.Tree.Spec
