import Mathlib.Algebra.Polynomial.Div
import Mathlib.Algebra.Polynomial.FieldDivision
import Mathlib.Algebra.Field.ZMod

/-!
# Checksums as remainders of polynomials over the field with two elements
-/
namespace Fpm.Crc.Spec
open Polynomial

/-- The polynomial whose coefficients are the lowest `w` bits of a number. -/
noncomputable def poly (w n : ℕ) : (ZMod 2)[X] :=
  ∑ i ∈ Finset.range w, if n.testBit i then X ^ i else 0

/-- The same for a number stored in reflected form: bit 0 has the highest power. -/
noncomputable def rpoly (w n : ℕ) : (ZMod 2)[X] :=
  ∑ i ∈ Finset.range w, if n.testBit i then X ^ (w - 1 - i) else 0

/-- A message sent byte after byte, the highest bit of each byte first. -/
noncomputable def msg : List ℕ → (ZMod 2)[X] := List.foldl (fun p b => X ^ 8 * p + poly 8 b) 0

/-- A message sent byte after byte, the lowest bit of each byte first. -/
noncomputable def rmsg : List ℕ → (ZMod 2)[X] := List.foldl (fun p b => X ^ 8 * p + rpoly 8 b) 0

/-- Generator of the SD card command checksum. -/
noncomputable def g7 : (ZMod 2)[X] := X ^ 7 + X ^ 3 + 1

/-- Generator of CRC-16/CCITT. -/
noncomputable def g16 : (ZMod 2)[X] := X ^ 16 + X ^ 12 + X ^ 5 + 1

/-- Generator of CRC-32. -/
noncomputable def g32 : (ZMod 2)[X] :=
  X ^ 32 + X ^ 26 + X ^ 23 + X ^ 22 + X ^ 16 + X ^ 12 + X ^ 11 + X ^ 10 + X ^ 8 + X ^ 7 + X ^ 5 +
    X ^ 4 + X ^ 2 + X + 1

/-- Bit `p` of a message in the order of transmission, highest bit of a byte first. -/
def bitAt (m : List ℕ) (p : ℕ) : Bool := (m.getD (p / 8) 0).testBit (7 - p % 8)

/-- Bit `p` of a message in the order of transmission, lowest bit of a byte first. -/
def rbitAt (m : List ℕ) (p : ℕ) : Bool := (m.getD (p / 8) 0).testBit (p % 8)

/-- All bytes. -/
def Bytes (m : List ℕ) : Prop := ∀ b ∈ m, b < 256

end Fpm.Crc.Spec
