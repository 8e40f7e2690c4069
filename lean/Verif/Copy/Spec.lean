import Verif.Copy.Model

/-!
# What copying has to do
-/
namespace Fpm.Copy.Spec

/-- `name` is the last component of the path `s`, followed by the slashes `sl`. -/
def Last (s name sl : List Nat) : Prop :=
  ∃ pre, s = pre ++ name ++ sl ∧ (pre = [] ∨ pre.getLast? = some 47) ∧
    name ≠ [] ∧ 47 ∉ name ∧ ∀ c ∈ sl, c = 47

/-- `d` is the directory `dir` written with a slash at its end. -/
def DirSlash (dir d : List Nat) : Prop :=
  d.getLast? = some 47 ∧ (d = dir ∨ d = dir ++ [47]) ∧ (dir.getLast? = some 47 → d = dir)

end Fpm.Copy.Spec
