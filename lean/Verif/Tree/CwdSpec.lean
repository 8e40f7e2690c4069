import Verif.Tree.CwdModel
import Verif.Tree.HistSpec
/-!
# What f_getcwd should give
-/
namespace Fpm.Tree.Spec
open Fpm.Fat Fpm.DirDev Fpm.FatDir Fpm.Names Fpm.Fat.Spec Fpm.FatFile.Spec Fpm.Lfn Fpm.Names.Spec Fpm.TextIo.Spec Fpm.FatDir.Spec Fpm.Mount Fpm.Mount.Spec Fpm.DirDev.Spec

/-- The name under which an object is listed, as characters: its long name if that can be listed, else its short name in the case that its flags tell. -/
def Known (o : Obj) (cs : List Nat) : Prop :=
  (∀ c ∈ cs, NameChar c) ∧ trimmed cs = cs ∧ (o.long = some (units cs) ∧ (text cs).length ≤ 255 ∨ Unlisted o ∧ ∃ body ext, EightThree cs body ext ∧ o.fn = form body ext ∧ oneCase body = true ∧ oneCase ext = true ∧
    (byte o.entry 12 &&& 8 ≠ 0 ↔ hasLower body = true) ∧ (byte o.entry 12 &&& 0x10 ≠ 0 ↔ hasLower ext = true))

/-- The directories from the root to the one with cluster `n`, by names as listed. -/
inductive Trail (v : Vol) (T : List Dir) : Nat → List (List Nat) → Prop where
  | root : Trail v T 0 []
  | sub {d : Dir} {o : Obj} {l : List (List Nat)} {name : List Nat} : Trail v T d.sclust l → d ∈ T → o ∈ d.os → ¬ Dotted o → IsDir o → Shown o name → Trail v T (first v o) (l ++ [name])

/-- The directories from the root to the one with cluster `n`, by names as characters. -/
inductive PathTo (v : Vol) (T : List Dir) : Nat → List (List Nat) → Prop where
  | root : PathTo v T 0 []
  | sub {d : Dir} {o : Obj} {l : List (List Nat)} {cs : List Nat} : PathTo v T d.sclust l → d ∈ T → o ∈ d.os → ¬ Dotted o → IsDir o → Known o cs → PathTo v T (first v o) (l ++ [cs])

/-- A path from the root directory: a slash before each name, or one slash. -/
def slashed (names : List (List Nat)) : List Nat := if names = [] then [47] else names.flatMap (47 :: ·)

/-- The path with the name of the disk as a C string in a buffer of `len` bytes. -/
def Tells (vp : List Nat) (len : Nat) (names : List (List Nat)) (out : List Nat) : Prop := out.length = len ∧ ∃ z, out = vp ++ 58 :: (slashed names ++ 0 :: z)

/-- There is room for that string. -/
def Fits (vp : List Nat) (len : Nat) (names : List (List Nat)) : Prop := vp.length + 1 + (slashed names).length + 1 ≤ len

/-- An empty C string. -/
def NoText (len : Nat) (out : List Nat) : Prop := out.length = len ∧ ∃ z, out = 0 :: z

end Fpm.Tree.Spec
