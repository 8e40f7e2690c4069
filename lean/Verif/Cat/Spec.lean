/-!
# What a terminal shows: only a carriage return brings the cursor to column 0
-/
namespace Fpm.Cat.Spec

/-- Whether the cursor is in column 0 after some output, given whether it was before. -/
def col0 : Bool → List Nat → Bool
  | b, [] => b
  | b, c :: s => col0 (if c = 13 then true else if c = 10 then b else false) s

/-- Line feeds sent while the cursor is not in column 0 (they would leave a staircase). -/
def stairs : Bool → List Nat → Nat
  | _, [] => 0
  | b, c :: s =>
    (if c = 10 ∧ b = false then 1 else 0) + stairs (if c = 13 then true else if c = 10 then b else false) s

/-- Number of line feeds directly preceded by a character other than CR and LF; `prev` is the
character before the text. -/
def bareLf : Nat → List Nat → Nat
  | _, [] => 0
  | prev, c :: s => (if c = 10 ∧ prev ≠ 10 ∧ prev ≠ 13 then 1 else 0) + bareLf c s

end Fpm.Cat.Spec
