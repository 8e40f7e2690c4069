/-!
# Specification of UTF-8 and UTF-16 for all Unicode scalar values, by arithmetic
-/
namespace Fpm.TextIo.Spec

/-- Unicode scalar values. -/
def Scalar (c : Nat) : Prop := c < 0x110000 ∧ ¬ (0xD800 ≤ c ∧ c ≤ 0xDFFF)

instance (c : Nat) : Decidable (Scalar c) := by unfold Scalar; infer_instance

/-- UTF-8 encoding of a scalar value. -/
def uenc (c : Nat) : List Nat :=
  if c < 0x80 then [c]
  else if c < 0x800 then [192 + c / 64, 128 + c % 64]
  else if c < 0x10000 then [224 + c / 4096, 128 + c / 64 % 64, 128 + c % 64]
  else [240 + c / 262144, 128 + c / 4096 % 64, 128 + c / 64 % 64, 128 + c % 64]

/-- UTF-8 encoding of a text. -/
def text (s : List Nat) : List Nat := s.flatMap uenc

/-- UTF-16 code unit or surrogate pair (high unit in the upper half) of a scalar value. -/
def utf16 (c : Nat) : Nat :=
  if c < 0x10000 then c
  else (0xD800 + (c - 0x10000) / 1024) * 65536 + (0xDC00 + (c - 0x10000) % 1024)

/-- `s` is a text of scalar values without NUL. -/
def Text (s : List Nat) : Prop := ∀ c ∈ s, Scalar c ∧ c ≠ 0

instance (s : List Nat) : Decidable (Text s) := by unfold Text; infer_instance

/-- Three- or four-byte sequence of lead and trailing bytes that spells the scalar `c` although a
shorter spelling exists. -/
def Overlong (c : Nat) (s : List Nat) : Prop :=
  (c < 0x800 ∧ s = [224, 128 + c / 64, 128 + c % 64]) ∨
  (c < 0x10000 ∧ s = [240, 128 + c / 4096, 128 + c / 64 % 64, 128 + c % 64])

end Fpm.TextIo.Spec
