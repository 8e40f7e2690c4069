/-!
# Specification of key decoding: a grammar of terminal input
-/
namespace Fpm.GetKey.Spec

/-- Units of terminal input. -/
inductive KeySeq where
  | plain (c : Nat)                               -- a character other than ESC
  | unknown (c : Nat)                             -- ESC and a character other than `[` and `O`
  | letter (p c : Nat)                            -- ESC, `[` or `O`, a non-digit
  | number (p : Nat) (ds : List Nat) (t : Nat)    -- ESC, `[` or `O`, digits, a non-digit

/-- Letters of cursor keys. -/
def cursorKeys : List (Nat × Nat) :=
  [(65, 0x2191), (66, 0x2193), (67, 0x2192), (68, 0x2190), (72, 0x21e4), (70, 0x21e5)]

/-- Characters sent by the terminal. -/
def KeySeq.chars : KeySeq → List Nat
  | .plain c => [c]
  | .unknown c => [27, c]
  | .letter p c => [27, p, c]
  | .number p ds t => 27 :: p :: (ds ++ [t])

/-- Value of a decimal numeral. -/
def value (ds : List Nat) : Nat := ds.foldl (fun v d => v * 10 + (d - 48)) 0

/-- Digits. -/
def Digit (c : Nat) : Prop := 48 ≤ c ∧ c ≤ 57

instance (c : Nat) : Decidable (Digit c) := by unfold Digit; infer_instance

/-- Key meant by a unit; `none`: not a known key. -/
def KeySeq.key : KeySeq → Option Nat
  | .plain c => some c
  | .unknown _ => none
  | .letter _ c => (cursorKeys.find? (·.1 = c)).map (·.2)
  | .number _ ds t => if t = 126 ∧ value ds = 3 then some 0x2421 else none

/-- Well-formed units. -/
def KeySeq.Ok : KeySeq → Prop
  | .plain c => c ≠ 27
  | .unknown c => c ≠ 91 ∧ c ≠ 79
  | .letter p c => (p = 91 ∨ p = 79) ∧ ¬ Digit c
  | .number p ds t => (p = 91 ∨ p = 79) ∧ ds ≠ [] ∧ (∀ d ∈ ds, Digit d) ∧ ¬ Digit t

/-- Unfinished escape sequences. -/
def Unfinished (s : List Nat) : Prop :=
  s = [] ∨ s = [27] ∨ ∃ p ds, (p = 91 ∨ p = 79) ∧ (∀ d ∈ ds, Digit d) ∧ s = 27 :: p :: ds

end Fpm.GetKey.Spec
