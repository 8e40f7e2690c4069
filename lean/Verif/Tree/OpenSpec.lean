import Verif.Tree.OpenModel
import Verif.Tree.Spec
/-!
# What opening a file should do
-/
namespace Fpm.Tree.Spec
open Fpm.Fat Fpm.DirDev Fpm.FatDir Fpm.Names Fpm.Fat.Spec Fpm.FatFile.Spec Fpm.Lfn Fpm.Names.Spec Fpm.TextIo.Spec Fpm.FatDir.Spec Fpm.Mount Fpm.Mount.Spec Fpm.DirDev.Spec
open Fpm.FatLock (Sem Key chkShare enqShare incShare)

/-- Modes that make a file if there is none: `FA_CREATE_NEW`, `FA_CREATE_ALWAYS`, `FA_OPEN_ALWAYS`, include/fpm/fs.h:46-54. -/
def Creates (mode : Nat) : Prop := mode.testBit 2 ∨ mode.testBit 3 ∨ mode.testBit 4

/-- `FA_CREATE_NEW`: there must be no such object. -/
def MustBeNew (mode : Nat) : Prop := mode.testBit 2

/-- `FA_CREATE_ALWAYS`: what is in the file is lost. -/
def Wipes (mode : Nat) : Prop := mode.testBit 3

/-- `FA_OPEN_APPEND` has this bit: start at the end. -/
def AtEnd (mode : Nat) : Prop := mode.testBit 5

/-- `FA_WRITE` -/
def Writes (mode : Nat) : Prop := mode.testBit 1

/-- Open for reading only; all other modes exclude others from the file. -/
def ReadsOnly (mode : Nat) : Prop := ∀ k, 1 ≤ k → k < 6 → mode.testBit k = false

instance (mode : Nat) : Decidable (Creates mode) := by unfold Creates; infer_instance
instance (mode : Nat) : Decidable (MustBeNew mode) := by unfold MustBeNew; infer_instance
instance (mode : Nat) : Decidable (Wipes mode) := by unfold Wipes; infer_instance
instance (mode : Nat) : Decidable (AtEnd mode) := by unfold AtEnd; infer_instance
instance (mode : Nat) : Decidable (Writes mode) := by unfold Writes; infer_instance
instance (mode : Nat) : Decidable (ReadsOnly mode) := decidable_of_iff (∀ k ∈ List.range 6, 1 ≤ k → mode.testBit k = false) ⟨fun h k h1 h2 => h k (List.mem_range.mpr h2) h1, fun h k h1 h2 => h k h2 (List.mem_range.mp h1)⟩

/-- Kind of access in the table of open objects. -/
def kind (mode : Nat) : Nat := if ReadsOnly mode then 0 else 1

/-- Result of the table for object `o` of directory `d`, with the volume `fs`. -/
def lock (files : List Sem) (fs mode : Nat) (d : Dir) (o : Obj) : Nat := chkShare files ⟨fs, d.sclust, 32 * o.pos⟩ (kind mode)

/-- Reasons not to open what a path leads to, with results. -/
def OpenRefused (files : List Sem) (fs mode r : Nat) : Goal → Prop
  | .badName => r = FR_INVALID_NAME
  | .noPath => r = FR_NO_PATH
  | .free _ _ => ¬ Creates mode ∧ r = FR_NO_FILE ∨ Creates mode ∧ (∀ f ∈ files, f.key.fs ≠ 0) ∧ r = FR_TOO_MANY_OPEN_FILES
  | .self _ => r = FR_INVALID_NAME
  | .object d _ o => lock files fs mode d o ≠ 0 ∧ r = lock files fs mode d o ∨ lock files fs mode d o = 0 ∧
      (Creates mode ∧ (IsDir o ∨ ReadOnly o) ∧ r = DirDev.FR_DENIED ∨ Creates mode ∧ ¬ IsDir o ∧ ¬ ReadOnly o ∧ MustBeNew mode ∧ r = FR_EXIST ∨
       ¬ Creates mode ∧ IsDir o ∧ r = FR_NO_FILE ∨ ¬ Creates mode ∧ ¬ IsDir o ∧ Writes mode ∧ ReadOnly o ∧ r = DirDev.FR_DENIED)

/-- An empty file that has just been made. -/
structure Blank (v : Vol) (tm : Nat) (o : Obj) : Prop where
  attr : byte o.entry 11 = 0x20
  first : first v o = 0
  size : size o = 0
  time : stamp o = tm % 2 ^ 32
  made : FatSync.Spec.field o.entry 14 4 = tm % 2 ^ 32
  nodot : ¬ Dotted o

/-- What has been opened.  Before: directories and chains; after: the directory with the object, the other directories, the other chains, the object, its chain. -/
inductive Opened (v : Vol) (tm mode : Nat) : Goal → List Dir → List (List Nat) → Dir → List Dir → List (List Nat) → Obj → List Nat → Prop where
  | kept {d : Dir} {cs : List Nat} {o : Obj} {R : List Dir} {F : List (List Nat)} {m : List Nat} : ¬ Wipes mode → ¬ MustBeNew mode → ¬ IsDir o → (ReadOnly o → ¬ Writes mode ∧ ¬ Creates mode) → first v o = m.headD 0 →
      Opened v tm mode (.object d cs o) (d :: R) (withRest [] m F) d R F o m
  | wiped {d : Dir} {cs : List Nat} {o o' : Obj} {x y : List Obj} {R : List Dir} {F : List (List Nat)} {m : List Nat} : Wipes mode → ¬ MustBeNew mode → ¬ IsDir o → ¬ ReadOnly o → d.os = x ++ o :: y → first v o = m.headD 0 →
      o'.pos = o.pos → o'.long = o.long → o'.fn = o.fn → Blank v tm o' → Opened v tm mode (.object d cs o) (d :: R) (withRest [] m F) { d with os := x ++ o' :: y } R F o' []
  | new {d : Dir} {cs : List Nat} {o : Obj} {x y : List Obj} {loc : Loc} {R : List Dir} {F : List (List Nat)} : Creates mode → d.os = x ++ y → Longer d.loc loc → Calls cs o → Blank v tm o →
      Opened v tm mode (.free d cs) (d :: R) F { d with loc := loc, os := x ++ o :: y } R F o []

/-- There is no place for a new object called `cs` in `d`: it cannot get longer and has no room, or 99 numbered names are in use. -/
def NoEntry (v : Vol) (i : Info) (T : List Dir) (F : List (List Nat)) (disk : Disk) (d : Dir) (cs : List Nat) : Prop :=
  ∃ buf fn fl, FileName cs true buf fn fl ∧
    ((d.loc = .root ∨ (entries v i disk d.loc).length = 65536 ∨ (dirChains T ++ F).flatten.length = v.nFatent - 2) ∧ NoRoom (entries v i disk d.loc) (fl &&& 2 ≠ 0) (units (trimmed cs)).length ∨
     ∀ z, 1 ≤ z → z < 100 → ∃ o ∈ d.os, genNumname fn buf z = some o.fn)

/-- Where the entry of an object is. -/
structure EntryAt (v : Vol) (i : Info) (d : Dir) (o : Obj) (pl : FatSync.Place) : Prop where
  sect : (dirSecs v i d.loc)[32 * o.pos / v.ss]? = some pl.sect
  off : pl.off = 32 * o.pos % v.ss
  info : pl.info = i.fsi

/-- Tables of open objects before and after one more user of the object `k`, with access `acc` (0: shared): its entry counts one more, or a free entry is for it.  The number tells which entry, counted from 1. -/
inductive Taken (files : List Sem) (k : Key) (acc : Nat) : List Sem → Nat → Prop where
  | more {j : Nat} {e : Sem} : files[j]? = some e → e.key = k → acc = 0 ∨ e.ctr = 0 → Taken files k acc (files.set j ⟨k, if acc = 0 then e.ctr + 1 else 0x100⟩) (j + 1)
  | first {j : Nat} {e : Sem} : files[j]? = some e → e.key.fs = 0 → (∀ x ∈ files, x.key ≠ k) → Taken files k acc (files.set j ⟨k, if acc = 0 then 1 else 0x100⟩) (j + 1)

/-- A file object that has just been made, for a file with clusters `m`; all other chains, and the data. -/
structure Handle (v : Vol) (mode : Nat) (chains : List (List Nat)) (m data : List Nat) (s : St) (fp : FatFile.File) : Prop where
  repr : FatFile.Spec.Repr v chains [] m s fp ⟨data, if AtEnd mode then data.length else 0⟩
  read : fp.canRead = mode.testBit 0
  write : fp.canWrite = mode.testBit 1
  clean : fp.dirty = false

/-- The same objects are open in the same places of two tables. -/
def SameTable (a b : List FatLock.Sem) : Prop := a.length = b.length ∧ ∀ (j : Nat) (x y : FatLock.Sem), a[j]? = some x → b[j]? = some y → x = y ∨ x.key.fs = 0 ∧ y.key.fs = 0

end Fpm.Tree.Spec
