import Verif.Tree.StatModel
import Verif.Tree.Spec
import Verif.Glob.Spec
/-!
# What f_stat, f_opendir and reading a directory should give
-/
namespace Fpm.Tree.Spec
open Fpm.Fat Fpm.DirDev Fpm.FatDir Fpm.Names Fpm.Fat.Spec Fpm.FatFile.Spec Fpm.Lfn Fpm.Names.Spec Fpm.TextIo.Spec Fpm.FatDir.Spec Fpm.Mount Fpm.Mount.Spec Fpm.DirDev.Spec
open Fpm.FatLock (Sem)

/-- What is told about an object besides its name: attributes, size, time and date of the last change, and for a file the first sector of its data, 0 if it has none. -/
structure Told (v : Vol) (o : Obj) (info : FInfo) : Prop where
  attr : info.attr = byte o.entry 11 % 64
  size : info.size = size o
  time : info.time + 65536 * info.date = FatSync.Spec.field o.entry 22 4
  time_lt : info.time < 65536
  start : ¬ IsDir o → info.startblk = if first v o = 0 then 0 else v.database + v.csize * (first v o - 2)

/-- The name that `f_stat` tells about the object that was called `cs`: the one of its entry, or, if the object has a long name, `cs` as it was written in the path. -/
def Echoed (cs : List Nat) (o : Obj) (name : List Nat) : Prop :=
  (o.long = none → Shown o name) ∧ ∀ n, o.long = some n → (text (trimmed cs)).length ≤ 255 → name = text (trimmed cs)

/-- Outcome of `f_stat`. -/
def Stated (v : Vol) (r : Nat) (info : Option FInfo) : Goal → Prop
  | .badName => r = FR_INVALID_NAME ∧ info = none
  | .noPath => r = FR_NO_PATH ∧ info = none
  | .free _ _ => r = FR_NO_FILE ∧ info = none
  | .self _ => r = FR_INVALID_NAME ∧ info = none
  | .object _ cs o => r = FR_OK ∧ ∃ x, info = some x ∧ Told v o x ∧ Echoed cs o x.name

/-- The directory that a place is or leads to, if there is one; else the error. -/
inductive Into (v : Vol) (T : List Dir) : Goal → Dir ⊕ Nat → Prop where
  | badName : Into v T .badName (.inr FR_INVALID_NAME)
  | noPath : Into v T .noPath (.inr FR_NO_PATH)
  | free {d : Dir} {cs : List Nat} : Into v T (.free d cs) (.inr FR_NO_PATH)
  | self {d : Dir} : Into v T (.self d) (.inl d)
  | file {d : Dir} {cs : List Nat} {o : Obj} : ¬ IsDir o → Into v T (.object d cs o) (.inr FR_NO_PATH)
  | dir {d d' : Dir} {cs : List Nat} {o : Obj} : IsDir o → d' ∈ T → d'.sclust = first v o → Into v T (.object d cs o) (.inl d')

/-- What can be seen of a directory by those who open it: the names and entries of its objects, in order, without `.` and `..`.  A directory other than the root needs a place in the table of open objects. -/
def Seen (fs : Nat) (files : List Sem) (r : Nat) (items : List (List Nat × List Nat)) : Dir ⊕ Nat → Prop
  | .inl d => r = FR_OK ∧ Listing d.os items ∨ r = FR_TOO_MANY_OPEN_FILES ∧ items = [] ∧ d.sclust ≠ 0 ∧ (∀ x ∈ files, x.key ≠ ⟨fs, d.sclust, 0⟩) ∧ ∀ x ∈ files, x.key.fs ≠ 0
  | .inr e => r = e ∧ items = []

end Fpm.Tree.Spec
