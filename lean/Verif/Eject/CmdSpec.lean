import Verif.Eject.CmdModel
import Verif.Eject.Spec
/-!
# What eject and mount should do with their arguments
-/
namespace Fpm.Eject.Spec

/-- Names of the drives. -/
def FLASH : List Nat := [102, 108, 97, 115, 104]
@[inherit_doc FLASH] def SD : List Nat := [115, 100]

/-- A letter in lower case. -/
def low (c : Nat) : Nat := if 65 ≤ c ∧ c ≤ 90 then c + 32 else c

/-- The string before a colon means this drive: its name in any case, or its number. -/
def Means (w : List Nat) (v : Nat) : Prop := v = 0 ∧ (w.map low = FLASH ∨ w = [48]) ∨ v = 1 ∧ (w.map low = SD ∨ w = [49])

/-- No control characters, no colon. -/
def Word (w : List Nat) : Prop := ∀ c ∈ w, 32 ≤ c ∧ c ≠ 58

end Fpm.Eject.Spec
