import Verif.Gpio.Model
/-!
# What the command gpio is to do
-/
namespace Fpm.Gpio.Spec

/-- Digits. -/
def Decimal (c : Nat) : Prop := 48 ≤ c ∧ c ≤ 57
def Octal (c : Nat) : Prop := 48 ≤ c ∧ c ≤ 55
def Hexadecimal (c : Nat) : Prop := Decimal c ∨ 97 ≤ c ∧ c ≤ 102 ∨ 65 ≤ c ∧ c ≤ 70

/-- What a digit stands for: 0 to 9, a to f, A to F. -/
def weight (c : Nat) : Nat := if c < 58 then c - 48 else if c < 71 then c - 65 + 10 else c - 97 + 10

/-- The number with these digits. -/
def value (base : Nat) : List Nat → Nat
  | [] => 0
  | c :: cs => weight c * base ^ cs.length + value base cs

/-- Numbers as in C: decimal, octal, hexadecimal. -/
inductive Numeral : List Nat → Nat → Prop
  | dec (d : Nat) (ds : List Nat) : 49 ≤ d → d ≤ 57 → (∀ c ∈ ds, Decimal c) → Numeral (d :: ds) (value 10 (d :: ds))
  | oct (ds : List Nat) : (∀ c ∈ ds, Octal c) → Numeral (48 :: ds) (value 8 ds)
  | hex (x d : Nat) (ds : List Nat) : x = 120 ∨ x = 88 → (∀ c ∈ d :: ds, Hexadecimal c) → Numeral (48 :: x :: d :: ds) (value 16 (d :: ds))

/-- One pin or several. -/
inductive Pins : List Nat → Nat → Nat → Prop
  | one (t : List Nat) (n : Nat) : Numeral t n → n < 30 → Pins t n n
  | more (t u : List Nat) (a b : Nat) : Numeral t a → Numeral u b → a < 2 ^ 32 → b < 30 → Pins (t ++ 45 :: u) a b

/-- Arguments of the command. -/
inductive Word where
  | info
  | mode (m : Mode)
  | pins (a b : Nat)
  | assign (a b : Nat) (level : Bool)

/-- How they are written. -/
inductive Spelled : List Nat → Word → Prop
  | info : Spelled (asc "info") .info
  | out : Spelled (asc "out") (.mode .out)
  | inp : Spelled (asc "in") (.mode .inp)
  | pu : Spelled (asc "pu") (.mode .pu)
  | pd : Spelled (asc "pd") (.mode .pd)
  | pins (t : List Nat) (a b : Nat) : Pins t a b → Spelled t (.pins a b)
  | assign (t u : List Nat) (a b v : Nat) : Pins t a b → Numeral u v → v < 2 ^ 32 → Spelled (t ++ 61 :: u) (.assign a b (v ≠ 0))

/-- The pins `a` to `b`. -/
def Among (a b i : Nat) : Prop := a ≤ i ∧ i ≤ b

instance (a b i : Nat) : Decidable (Among a b i) := inferInstanceAs (Decidable (_ ∧ _))

/-- A pin after it has been configured. -/
def Configured (m : Mode) (old new : Pin) : Prop :=
  new.func = .sio ∧ new.level = false ∧
    match m with
    | .getset => False
    | .out => new.out = true ∧ new.up = old.up ∧ new.down = old.down
    | .inp => new.out = false ∧ new.up = false ∧ new.down = false
    | .pu => new.out = false ∧ new.up = true ∧ new.down = false
    | .pd => new.out = false ∧ new.up = false ∧ new.down = true

/-- The line about a pin. -/
def lineOf (env : Sense) (p : Nat → Pin) (i : Nat) : List Nat :=
  asc s!"gpio {i}: " ++
    (if (p i).func = .null then asc "unused"
    else if (p i).func = .sio then
      (if (p i).out then asc (if env p i then " out 1" else " out 0")
      else asc (if env p i then " in 1" else " in 0") ++ (if (p i).up then asc " pull up" else if (p i).down then asc " pull down" else []))
    else asc "function " ++ funcName (p i).func) ++ asc "\r\n"

/-- The effect of an argument: mode and pins before, what is printed, mode and pins after. -/
inductive Step (env : Sense) : Word → Mode → (Nat → Pin) → List Nat → Mode → (Nat → Pin) → Prop
  | info (m p) : Step env .info m p ((List.range 30).flatMap (lineOf env p)) m p
  | mode (m m' p) : Step env (.mode m') m p [] m' p
  | get (a b p) : Step env (.pins a b) .getset p (((List.range 30).filter (Among a b)).flatMap fun i => if env p i then [32, 49] else [32, 48]) .getset p
  | setup (a b m p p') : m ≠ .getset → (∀ i, Among a b i → Configured m (p i) (p' i)) → (∀ i, ¬ Among a b i → p' i = p i) → Step env (.pins a b) m p [] m p'
  | assign (a b v p p') : (∀ i, Among a b i → p' i = { p i with level := v }) → (∀ i, ¬ Among a b i → p' i = p i) → Step env (.assign a b v) .getset p [] .getset p'

/-- The effect of several arguments. -/
inductive Steps (env : Sense) : List Word → Mode → (Nat → Pin) → List Nat → (Nat → Pin) → Prop
  | nil (m p) : Steps env [] m p [] p
  | cons (w ws m p o m' p' o' p'') : Step env w m p o m' p' → Steps env ws m' p' o' p'' → Steps env (w :: ws) m p (o ++ o') p''

/-- A level is assigned in the first mode only: `Good` series. -/
def Good : Mode → List Word → Prop
  | _, [] => True
  | m, .info :: ws => Good m ws
  | _, .mode m' :: ws => Good m' ws
  | m, .pins _ _ :: ws => Good m ws
  | m, .assign _ _ _ :: ws => m = .getset ∧ Good m ws

end Fpm.Gpio.Spec
