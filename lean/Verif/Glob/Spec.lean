import Verif.TextIo.Spec
import Verif.Glob.Model
/-!
# What wildcards mean, on code points
-/
namespace Fpm.Glob.Spec
open Fpm.TextIo.Spec Fpm.Upcase

/-- Equal up to case.  (Only the basic plane has case, by the table described in C73.) -/
def SameCase (a b : Nat) : Prop := a = b ∨ a < 0x10000 ∧ b < 0x10000 ∧ wtoupper a = wtoupper b

/-- The name is described by the pattern: `?` is one character, `*` any number of them. -/
inductive Matches : List Nat → List Nat → Prop where
  | nil : Matches [] []
  | one (x : Nat) {p n : List Nat} : Matches p n → Matches (63 :: p) (x :: n)
  | any (xs : List Nat) {p n : List Nat} : Matches p n → Matches (42 :: p) (xs ++ n)
  | lit {c x : Nat} {p n : List Nat} : c ≠ 63 → c ≠ 42 → SameCase c x → Matches p n → Matches (c :: p) (x :: n)

/-- A wildcard. -/
def isWild (c : Nat) : Bool := c = 63 || c = 42

/-- Number of groups of adjacent wildcards. -/
def groups : List Nat → Nat
  | [] => 0
  | c :: p => groups p + if isWild c && !(p.head?.any isWild) then 1 else 0

end Fpm.Glob.Spec
