import Verif.Drive.Spec
import Verif.Editline.Spec
/-!
# What `format` is to do
-/
namespace Fpm.Format.Spec
open Fpm.Drive.Spec Fpm.Editline.Spec

/-- The word means drive `k`: its name and a colon; an empty word means the current drive. -/
def Means (names : List (List Nat)) (curr : Nat) (w : List Nat) (k : Nat) : Prop :=
  (∃ u, w = u ++ [58] ∧ Plain u ∧ Names names u k) ∨ w = [] ∧ k = curr

/-- What the keys make of an empty line (of 63 characters at most, without history), and whether it ends with Return. -/
def typed (keys : List Nat) : List Nat × Bool :=
  let a := Abs.run 63 keys ⟨[], [], none, [], false⟩
  (a.1.text, a.2)

/-- The reply is a confirmation: a line that begins with `y` or `Y`. -/
def Yes (keys : List Nat) : Prop := ∃ t, typed keys = (121 :: t, true) ∨ typed keys = (89 :: t, true)

/-- The line never gets longer than 31 characters. -/
def Short (keys : List Nat) : Prop := ∀ n, (typed (keys.take n)).1.length ≤ 31

/-- Number `a.b` of MBytes, rounded down to tenths. -/
def Size (bytes a b : Nat) : Prop := b < 10 ∧ (10 * a + b) * 2 ^ 20 ≤ 10 * bytes ∧ 10 * bytes < (10 * a + b + 1) * 2 ^ 20

def text (s : String) : List Nat := s.toList.map Char.toNat
def number (n : Nat) : List Nat := (Nat.toDigits 10 n).map Char.toNat

/-- What the user is told before the reply: drive, product, size. -/
def Told (name product : List Nat) (bytes : Nat) (q : List Nat) : Prop :=
  ∃ a b, Size bytes a b ∧ q = text "Do you really want to format drive " ++ name ++ text "?\r\nDisk '" ++ product ++ text "', size " ++ number a ++ text "." ++ number b ++
    text " Mbytes.\r\nAll data on the disk will be lost.\r\n"

/-- Kind of file system: the flash disk (drive 0) has FAT12 or FAT16 and no partitions, the SD card (drive 1) has FAT32. -/
def kinds : Nat → Nat
  | 0 => 0x09
  | 1 => 0x02
  | _ => 0

end Fpm.Format.Spec
