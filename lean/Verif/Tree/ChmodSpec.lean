import Verif.Tree.Spec
/-!
# Changing attributes and times of objects
-/
namespace Fpm.Tree.Spec
open Fpm.Fat Fpm.DirDev Fpm.FatDir Fpm.Names Fpm.Fat.Spec Fpm.FatFile.Spec Fpm.Lfn Fpm.Names.Spec Fpm.TextIo.Spec Fpm.FatDir.Spec Fpm.Mount Fpm.Mount.Spec Fpm.DirDev.Spec

/-- The attributes that can be changed: read-only, hidden, system, archive. -/
def Settable (b : Nat) : Prop := b = 0 ∨ b = 1 ∨ b = 2 ∨ b = 5

instance (b : Nat) : Decidable (Settable b) := by unfold Settable; infer_instance

/-- The same object with other attributes: those in `mask` that can be changed are as in `attr`, all others and all the rest are as before. -/
structure Remarked (attr mask : Nat) (o o' : Obj) : Prop where
  pos : o'.pos = o.pos
  long : o'.long = o.long
  size : o'.entry.length = o.entry.length
  rest : ∀ k, k ≠ 11 → byte o'.entry k = byte o.entry k
  bits : ∀ b, b < 8 → (byte o'.entry 11).testBit b = if Settable b ∧ mask.testBit b = true then attr.testBit b else (byte o.entry 11).testBit b

/-- The same object with another time of the last change: days in the upper half. -/
structure Retimed (date time : Nat) (o o' : Obj) : Prop where
  pos : o'.pos = o.pos
  long : o'.long = o.long
  size : o'.entry.length = o.entry.length
  rest : ∀ k, k < 22 ∨ 26 ≤ k → byte o'.entry k = byte o.entry k
  time : stamp o' = date * 65536 + time

/-- Object `o` of directory `d` has become `o'`, all else is the same. -/
def Swapped (d : Dir) (o o' : Obj) (T : List Dir) (d' : Dir) (T' : List Dir) : Prop :=
  ∃ x y R, d.os = x ++ o :: y ∧ d' = { d with os := x ++ o' :: y } ∧ T.Perm (d :: R) ∧ T' = d' :: R

/-- Results when nothing is changed. -/
def ChangeRefused (r : Nat) : Goal → Prop
  | .badName => r = FR_INVALID_NAME
  | .noPath => r = FR_NO_PATH
  | .free _ _ => r = FR_NO_FILE
  | .self _ => r = FR_INVALID_NAME
  | .object _ cs _ => DotName cs ∧ r = FR_INVALID_NAME

/-- Outcome on a device that does not fail: nothing is changed for one of the reasons above, or the object has become one that `Q` allows, and it is on the device. -/
def Changed (v : Vol) (i : Info) (T : List Dir) (F : List (List Nat)) (s : St) (G : Goal) (Q : Obj → Obj → Prop) (r : St × Nat) : Prop :=
  ChangeRefused r.2 G ∧ Tree v i T F r.1 ∧ (∀ n, ¬ Fat2 v n → view r.1 n = view s n) ∨
  ∃ d cs o o' d' T', G = .object d cs o ∧ ¬ DotName cs ∧ r.2 = FR_OK ∧ r.1.wflag = false ∧ Q o o' ∧ Swapped d o o' T d' T' ∧ Tree v i T' F r.1 ∧ ∀ l ∈ F, ∀ n ∈ secs v l, view r.1 n = view s n

/-- Outcome on any device: failures are told, and all directories are as before or as they should be. -/
def ChangedAny (v : Vol) (i : Info) (T : List Dir) (F : List (List Nat)) (s : St) (G : Goal) (Q : Obj → Obj → Prop) (r : St × Nat) : Prop :=
  (r.2 = FR_DISK_ERR ∧ ¬ Sound v ∨ ChangeRefused r.2 G) ∧ Tree v i T F r.1 ∧ (∀ n, ¬ Fat2 v n → view r.1 n = view s n) ∨
  ∃ d cs o o' d' T', G = .object d cs o ∧ ¬ DotName cs ∧ (r.2 = FR_OK ∨ r.2 = FR_DISK_ERR ∧ ¬ Sound v) ∧ Q o o' ∧ Swapped d o o' T d' T' ∧ (∀ q ∈ T', DirOk v i r.1 q) ∧ (∀ l ∈ F, ∀ n ∈ secs v l, view r.1 n = view s n) ∧
    ∀ l ∈ dirChains T' ++ F, Links v.nFatent (tab v r.1) l

/-- The directory after the change. -/
def NowDir (d d' q q' : Dir) : Prop := q = d ∧ q' = d' ∨ q ≠ d ∧ q' = q

/-- The same place after the change. -/
inductive SamePlace (d d' : Dir) (o o' : Obj) : Goal → Goal → Prop where
  | badName : SamePlace d d' o o' .badName .badName
  | noPath : SamePlace d d' o o' .noPath .noPath
  | free {q q' : Dir} {cs : List Nat} : NowDir d d' q q' → SamePlace d d' o o' (.free q cs) (.free q' cs)
  | self {q q' : Dir} : NowDir d d' q q' → SamePlace d d' o o' (.self q) (.self q')
  | this {cs : List Nat} : SamePlace d d' o o' (.object d cs o) (.object d' cs o')
  | object {q q' : Dir} {cs : List Nat} {a : Obj} : NowDir d d' q q' → ¬ (q = d ∧ a = o) → SamePlace d d' o o' (.object q cs a) (.object q' cs a)

end Fpm.Tree.Spec
