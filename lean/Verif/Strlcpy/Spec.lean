import Verif.Utf8.Spec
/-! # Specification of bounded copies -/
namespace Fpm.Spec

/-- `dst` with the items `new` written over its beginning. -/
def overwrite (dst new : List Nat) : List Nat := new ++ dst.drop new.length

/-- A NUL-free string. -/
def NulFree (s : List Nat) : Prop := ∀ c ∈ s, c ≠ 0

instance (s : List Nat) : Decidable (NulFree s) := by unfold NulFree; infer_instance

/-- Longest prefix of `s` that a conversion with character budget `n` (= nitems-1) emits when
a character of `w` bytes is accepted only while at least `w` budget units remain and every
character costs one unit. -/
def charBudget : Nat → List Nat → List Nat
  | _, [] => []
  | 0, _ => []
  | n + 1, c :: s => if (enc c).length ≤ n + 1 then c :: charBudget n s else []

end Fpm.Spec
