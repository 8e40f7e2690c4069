/-!
# What names of drives are
-/
namespace Fpm.Drive.Spec

/-- Characters that can be in front of a colon: no control characters, and no colon. -/
def Plain (w : List Nat) : Prop := ∀ c ∈ w, 32 ≤ c ∧ c ≠ 58

instance (w : List Nat) : Decidable (Plain w) := by unfold Plain; infer_instance

/-- Same character but for the case of ASCII letters. -/
def Same (a b : Nat) : Prop := a = b ∨ (65 ≤ a ∧ a ≤ 90 ∧ b = a + 32) ∨ (65 ≤ b ∧ b ≤ 90 ∧ a = b + 32)

instance (a b : Nat) : Decidable (Same a b) := by unfold Same; infer_instance

/-- Same text but for the case of ASCII letters. -/
def Equal : List Nat → List Nat → Prop
  | [], [] => True
  | a :: s, b :: t => Same a b ∧ Equal s t
  | _, _ => False

instance decEqual : ∀ s t : List Nat, Decidable (Equal s t)
  | [], [] => isTrue trivial
  | a :: s, b :: t => by
    unfold Equal
    have := decEqual s t
    infer_instance
  | [], _ :: _ => isFalse id
  | _ :: _, [] => isFalse id

/-- One digit. -/
def Digit (w : List Nat) : Prop := ∃ d < 10, w = [48 + d]

/-- The text in front of the colon names drive `k`: a digit names the drive of this number, and no other text does; any other text names the first drive with this name. -/
def Names (names : List (List Nat)) (w : List Nat) (k : Nat) : Prop :=
  w = [48 + k] ∧ k < 10 ∧ k < names.length ∨ ¬ Digit w ∧ ∃ n, names[k]? = some n ∧ Equal n w ∧ ∀ j < k, ∀ m, names[j]? = some m → ¬ Equal m w

/-- Names by which each drive is reached: no control characters and colons, not just a digit, different without regard to case. -/
def Usable (names : List (List Nat)) : Prop :=
  (∀ n ∈ names, Plain n ∧ ¬ Digit n) ∧ ∀ (j k : Nat) (m n : List Nat), names[j]? = some m → names[k]? = some n → Equal m n → j = k

/-- The drives that the paths of a series of calls of `f_chdrive` name, with those that name none left out. -/
inductive Named (names : List (List Nat)) : Nat → List (List Nat) → Nat → Prop where
  | nil (c) : Named names c [] c
  | stay {c d w b rest ps} : Plain w → b < 32 → Named names c ps d → Named names c ((w ++ b :: rest) :: ps) d
  | go {c d k w rest ps} : Plain w → Names names w k → k < names.length → Named names k ps d → Named names c ((w ++ 58 :: rest) :: ps) d
  | miss {c d w rest ps} : Plain w → (∀ k, ¬ Names names w k) → Named names c ps d → Named names c ((w ++ 58 :: rest) :: ps) d

end Fpm.Drive.Spec
