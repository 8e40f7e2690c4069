/-!
# Specification of UTF-8 for 16-bit characters, by arithmetic only
-/
namespace Fpm.Spec

/-- UTF-8 encoding of a 16-bit character. -/
def enc (c : Nat) : List Nat :=
  if c < 128 then [c]
  else if c < 2048 then [192 + c / 64, 128 + c % 64]
  else [224 + c / 4096, 128 + c / 64 % 64, 128 + c % 64]

/-- UTF-8 encoding of a character string. -/
def encs (s : List Nat) : List Nat := s.flatMap enc

/-- A NUL-free string of 16-bit characters. -/
def Chars (s : List Nat) : Prop := ∀ c ∈ s, 0 < c ∧ c < 65536

instance (s : List Nat) : Decidable (Chars s) := by unfold Chars; infer_instance

end Fpm.Spec
