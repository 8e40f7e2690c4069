/-!
# Meaning of backslash escapes in a format string
-/
namespace Fpm.PrintfEsc.Spec

/-- Documented one-letter escapes: bell, backspace, form feed, newline, return, tab, vertical tab. -/
def letter : List (Nat × Nat) :=
  [(97, 7), (98, 8), (102, 12), (110, 10), (114, 13), (116, 9), (118, 11)]

/-- Octal digit characters. -/
def isOct (c : Nat) : Bool := 48 ≤ c && c ≤ 55

/-- Value of a string of octal digits. -/
def octVal (ds : List Nat) : Nat := ds.foldl (fun v d => 8 * v + (d - 48)) 0

/-- `Unesc s t`: the string `s` stands for the bytes `t`. -/
inductive Unesc : List Nat → List Nat → Prop
  /-- empty string -/
  | nil : Unesc [] []
  /-- ordinary character -/
  | lit (c : Nat) (s t : List Nat) : c ≠ 92 → Unesc s t → Unesc (c :: s) (c :: t)
  /-- backslash at the end of the string stands for itself -/
  | trailing : Unesc [92] [92]
  /-- one-letter escape -/
  | letter (d b : Nat) (s t : List Nat) : (d, b) ∈ letter → Unesc s t → Unesc (92 :: d :: s) (b :: t)
  /-- octal escape: as many octal digits as follow, but at most three -/
  | octal (ds s t : List Nat) : ds ≠ [] → ds.length ≤ 3 → (∀ d ∈ ds, isOct d) →
      (ds.length = 3 ∨ ∀ c s', s = c :: s' → isOct c = false) →
      Unesc s t → Unesc (92 :: ds ++ s) (octVal ds % 256 :: t)
  /-- any other character stands for itself -/
  | other (d : Nat) (s t : List Nat) : isOct d = false → (∀ b, (d, b) ∉ Spec.letter) →
      Unesc s t → Unesc (92 :: d :: s) (d :: t)

end Fpm.PrintfEsc.Spec
