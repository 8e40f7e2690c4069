import Verif.Tree.Spec
import Verif.Fat.ChainSpec
/-!
# What a device may show of a volume while an object is removed
-/
namespace Fpm.Tree.Spec
open Fpm.Fat Fpm.DirDev Fpm.FatDir Fpm.Fat.Spec Fpm.FatFile.Spec Fpm.FatDir.Spec Fpm.Mount Fpm.Mount.Spec Fpm.DirDev.Spec

/-- Other directories than `d`, and the data of all files, are on device `q` what was seen in state `s`. -/
def Untouched (v : Vol) (i : Info) (T : List Dir) (F : List (List Nat)) (s : St) (d : Dir) (q : Disk) : Prop :=
  (∀ d' ∈ T, d' ≠ d → entries v i q d'.loc = entries v i (view s) d'.loc) ∧ ∀ l ∈ F, ∀ n ∈ secs v l, q n = view s n

/-- Object `o` of directory `d` is still there, perhaps with its short name only, and so are all chains. -/
def StillThere (v : Vol) (i : Info) (T : List Dir) (F : List (List Nat)) (d : Dir) (x : List Obj) (o : Obj) (y : List Obj) (q : Disk) : Prop :=
  (∃ long, (long = o.long ∨ long = none) ∧ Directory false (entries v i q d.loc) (x ++ { o with long := long } :: y)) ∧ Chains v.nFatent (fat v q) (dirChains T ++ F)

/-- The object is gone; the other chains are there, and perhaps a rest of its own one, which belongs to no object. -/
def Gone (v : Vol) (i : Info) (T : List Dir) (F : List (List Nat)) (d : Dir) (x : List Obj) (o : Obj) (y : List Obj) (q : Disk) : Prop :=
  Directory true (entries v i q d.loc) (x ++ y) ∧
    ∃ m A pre suf, (dirChains T ++ F).Perm (withRest [] m A) ∧ m.headD 0 = first v o ∧ m = pre ++ suf ∧ Chains v.nFatent (fat v q) (withRest [] suf A)

end Fpm.Tree.Spec
