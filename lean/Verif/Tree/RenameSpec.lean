import Verif.Tree.RenameModel
import Verif.Tree.OpenSpec
/-!
# What renaming means
-/
namespace Fpm.Tree.Spec
open Fpm.Fat Fpm.DirDev Fpm.FatDir Fpm.Names Fpm.Fat.Spec Fpm.FatFile.Spec Fpm.Lfn Fpm.Names.Spec Fpm.TextIo.Spec Fpm.FatDir.Spec Fpm.Mount Fpm.Mount.Spec Fpm.DirDev.Spec

/-- Directory `d` has one more object, and may have got more clusters. -/
def Added (d : Dir) (o : Obj) (T T' : List Dir) : Prop :=
  ∃ x y loc R, d.os = x ++ y ∧ Longer d.loc loc ∧ T.Perm (d :: R) ∧ T'.Perm ({ d with loc := loc, os := x ++ o :: y } :: R)

/-- The object `..` of the directory with cluster `k` leads to the directory with cluster `n`. -/
def Turned (v : Vol) (k n : Nat) (T T' : List Dir) : Prop :=
  ∃ (d : Dir) (x y : List Obj) (b : Obj) (e : List Nat) (R : List Dir), d.sclust = k ∧ d.os = x ++ b :: y ∧ b.fn = pad 11 [46, 46] ∧ e.take 20 = b.entry.take 20 ∧ FatSync.Spec.first v e 0 = n ∧
    T.Perm (d :: R) ∧ T'.Perm ({ d with os := x ++ { b with entry := e } :: y } :: R)

/-- The directory with cluster `k` does not have object `o` any more. -/
def Dropped (k : Nat) (o : Obj) (T T' : List Dir) : Prop :=
  ∃ (d : Dir) (x y : List Obj) (R : List Dir), d.sclust = k ∧ d.os = x ++ o :: y ∧ T.Perm (d :: R) ∧ T'.Perm ({ d with os := x ++ y } :: R)

/-- The same object with another name: first cluster, size, times and attributes are those of `o`, but files get the archive attribute. -/
structure Carried (v : Vol) (o o' : Obj) : Prop where
  first : first v o' = first v o
  size : size o' = size o
  attr : byte o'.entry 11 = if IsDir o then byte o.entry 11 else byte o.entry 11 ||| 0x20
  rest : o'.entry.drop 13 = o.entry.drop 13

/-- The name of the object is spelled just like this: it is its long name, or the one that is listed for it if it has none. -/
def Spelled (cs : List Nat) (o : Obj) : Prop := o.long = some (units (trimmed cs)) ∨ o.long = none ∧ listName none o.entry = some (text (trimmed cs))

/-- Object `o` of directory `d` has become one called `cs` of directory `n`, which may be the same one; if it is a directory whose place has changed, its object `..` follows. -/
def Renamed (v : Vol) (d n : Dir) (cs : List Nat) (o : Obj) (T T' : List Dir) : Prop :=
  ∃ o' T1 T2, Added n o' T T1 ∧ Calls cs o' ∧ Spelled cs o' ∧ ¬ Dotted o' ∧ (d.sclust = n.sclust → o'.pos ≠ o.pos) ∧ Carried v o o' ∧
    (if IsDir o ∧ d.sclust ≠ n.sclust then Turned v (first v o) n.sclust T1 T2 else T2 = T1) ∧ Dropped d.sclust o T2 T'

/-- The second entry of the directory is `..`. -/
def DotsSecond (d : Dir) : Prop := ∃ b ∈ d.os, b.pos = 1 ∧ b.fn = pad 11 [46, 46]

/-- Reasons not to rename, because of the old path, or because of the new one, with results; `share` says whether an object is in use. -/
def RenameRefused (v : Vol) (i : Info) (share : Dp → Nat) (r : Nat) : Goal → Goal → Prop
  | .badName, _ => r = FR_INVALID_NAME
  | .noPath, _ => r = FR_NO_PATH
  | .free _ _, _ => r = FR_NO_FILE
  | .self _, _ => r = FR_INVALID_NAME
  | .object d cs o, G => DotName cs ∧ r = FR_INVALID_NAME ∨ ¬ DotName cs ∧ (∃ dp : Dp, dp.sclust = d.sclust ∧ At v i d.loc o.pos dp ∧ share dp ≠ FR_OK ∧ r = share dp) ∨ ¬ DotName cs ∧
      match G with
      | .badName => r = FR_INVALID_NAME
      | .noPath => r = FR_NO_PATH
      | .free _ _ => False
      | .self _ => r = FR_EXIST ∨ r = FR_INVALID_NAME
      | .object d' _ o' => ¬ (d' = d ∧ o' = o) ∧ r = FR_EXIST

/-- The place of the new name: a free name, or the name of the object itself. -/
def Target (d : Dir) (o : Obj) (n : Dir) (cs : List Nat) : Goal → Prop
  | .free d' cs' => n = d' ∧ cs = cs'
  | .object d' cs' o' => n = d ∧ d' = d ∧ o' = o ∧ cs = cs'
  | _ => False

/-- Directories that can be reached from the one with cluster `k`. -/
inductive Within (v : Vol) (T : List Dir) (k : Nat) : Nat → Prop where
  | self : Within v T k k
  | sub {d : Dir} {o : Obj} : Within v T k d.sclust → d ∈ T → o ∈ d.os → ¬ Dotted o → IsDir o → Within v T k (first v o)

end Fpm.Tree.Spec
