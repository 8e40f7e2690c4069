/-!
# The command gpio, apps/gpio/gpio.c

Characters are numbers.  The functions of the Pico SDK are state changes of a pin; what a pin reads
is left to the environment.  Pins that the chip does not have are a distinct outcome, `none`.
-/
namespace Fpm.Gpio

/-- The C library's `strtoul` with base 0 skips white space. -/
def isSpace (c : Nat) : Bool := c = 32 ∨ 9 ≤ c ∧ c ≤ 13

/-- Value of a character as digit, for the C library's `strtoul`. -/
def digitOf (c : Nat) : Nat :=
  if 48 ≤ c ∧ c ≤ 57 then c - 48
  else if 97 ≤ c ∧ c ≤ 122 then c - 87
  else if 65 ≤ c ∧ c ≤ 90 then c - 55
  else 36

/-- The digits of a number, for the C library's `strtoul`. -/
def digits (base : Nat) (s : List Nat) : Nat := (s.takeWhile fun c => digitOf c < base).foldl (fun v c => base * v + digitOf c) 0

/-- Prefix and digits, for the C library's `strtoul`. -/
def magnitude : List Nat → Nat
  | 48 :: 120 :: s => digits 16 s
  | 48 :: 88 :: s => digits 16 s
  | 48 :: s => digits 8 s
  | s => digits 10 s

/-- Out of range, and the sign, for the C library's `strtoul`. -/
def ranged (minus : Bool) (v : Nat) : Nat × Bool := if 2 ^ 32 ≤ v then (2 ^ 32 - 1, true) else (if minus then (2 ^ 32 - v) % 2 ^ 32 else v, false)

/-- `fpm_strtoul` with base 0, kernel/fpm_strtol.c:21-26: the value, and whether it is out of range.  The C library is
taken as in its standard; `unsigned long` has 32 bits. -/
def strtoul (s : List Nat) : Nat × Bool :=
  match s.dropWhile isSpace with
  | 45 :: t => ranged true (magnitude t)
  | 43 :: t => ranged false (magnitude t)
  | t => ranged false (magnitude t)

/-- Functions of a pin, apps/gpio/gpio.c:20-36. -/
inductive Func where
  | xip | spi | uart | i2c | pwm | sio | pio0 | pio1 | gpck | usb | null | unknown
  deriving DecidableEq

/-- A pin: direction, output level, function, resistors. -/
structure Pin where
  out : Bool
  level : Bool
  func : Func
  up : Bool
  down : Bool
  deriving DecidableEq

/-- The level that each pin reads. -/
abbrev Sense := (Nat → Pin) → Nat → Bool

/-- `NUM_BANK0_GPIOS` of the RP2040. -/
def PINS : Nat := 30

/-- Text of C strings. -/
def asc (s : String) : List Nat := s.toList.map Char.toNat

/-- `func_name`, apps/gpio/gpio.c:20-36. -/
def funcName : Func → List Nat
  | .xip => asc "XIP"
  | .spi => asc "SPI"
  | .uart => asc "UART"
  | .i2c => asc "I2C"
  | .pwm => asc "PWM"
  | .sio => asc "SIO"
  | .pio0 => asc "PIO0"
  | .pio1 => asc "PIO1"
  | .gpck => asc "GPCK"
  | .usb => asc "USB"
  | .null => asc "NULL"
  | .unknown => asc "(unknown)"

/-- `%d` with a bool. -/
def bit (b : Bool) : List Nat := if b then [49] else [48]

/-- `show_signal`, apps/gpio/gpio.c:41-57. -/
def showSignal (env : Sense) (p : Nat → Pin) (i : Nat) : List Nat :=
  if (p i).out then asc " out " ++ bit (env p i)
  else asc " in " ++ bit (env p i) ++ (if (p i).up then asc " pull up" else if (p i).down then asc " pull down" else [])

/-- `%u` with the number of a pin, below 100. -/
def small (n : Nat) : List Nat := if n < 10 then [48 + n] else [48 + n / 10, 48 + n % 10]

/-- One line of `show_all`, apps/gpio/gpio.c:65-79. -/
def showLine (env : Sense) (p : Nat → Pin) (i : Nat) : List Nat :=
  asc "gpio " ++ small i ++ asc ": " ++
    (match (p i).func with
    | .null => asc "unused\r\n"
    | .sio => showSignal env p i ++ asc "\r\n"
    | f => asc "function " ++ funcName f ++ asc "\r\n")

/-- The loop of `show_all`, apps/gpio/gpio.c:64-80, with `n` pins to go. -/
def showLoop (env : Sense) (p : Nat → Pin) : Nat → Nat → List Nat
  | 0, _ => []
  | n + 1, i => showLine env p i ++ showLoop env p n (i + 1)

/-- `show_all`, apps/gpio/gpio.c:62-81. -/
def showAll (env : Sense) (p : Nat → Pin) : List Nat := showLoop env p PINS 0

/-- `gpio_get` for `n` pins from `i` on, apps/gpio/gpio.c:105-107. -/
def getLoop (env : Sense) (p : Nat → Pin) : Nat → Nat → Option (List Nat)
  | 0, _ => some []
  | n + 1, i => if i < PINS then (getLoop env p n (i + 1)).map fun o => 32 :: bit (env p i) ++ o else none

/-- A change of `n` pins from `i` on, apps/gpio/gpio.c:115-117, 141-163. -/
def eachLoop (f : Pin → Pin) : Nat → Nat → (Nat → Pin) → Option (Nat → Pin)
  | 0, _, p => some p
  | n + 1, i, p => if i < PINS then eachLoop f n (i + 1) (fun k => if k = i then f (p k) else p k) else none

/-- `strchr`: the text behind the character. -/
def behind (c : Nat) : List Nat → Option (List Nat)
  | [] => none
  | x :: s => if x = c then some s else behind c s

/-- First and last pin, apps/gpio/gpio.c:90-103, 127-140; or the message. -/
def range (arg : List Nat) : List Nat ⊕ (Nat × Nat) :=
  if (strtoul arg).2 then .inl (asc "\r\nBad pin: " ++ arg ++ asc "\r\n")
  else match behind 45 arg with
    | none => .inr ((strtoul arg).1, (strtoul arg).1)
    | some t => if (strtoul t).2 then .inl (asc "\r\nBad limit: " ++ arg ++ asc "\r\n") else .inr ((strtoul arg).1, (strtoul t).1)

/-- `get_set`, apps/gpio/gpio.c:88-119: what is printed, and the pins. -/
def getSet (env : Sense) (p : Nat → Pin) (arg : List Nat) : Option (List Nat × (Nat → Pin)) :=
  match range arg with
  | .inl msg => some (msg, p)
  | .inr (a, b) =>
    match behind 61 arg with
    | none => (getLoop env p (b + 1 - a) a).map fun o => (o, p)
    | some t =>
      if (strtoul t).2 then some (asc "\r\nBad value: " ++ arg ++ asc "\r\n", p)
      else (eachLoop (fun q => { q with level := (strtoul t).1 ≠ 0 }) (b + 1 - a) a p).map fun p' => ([], p')

/-- `mode`, apps/gpio/gpio.c:9-15. -/
inductive Mode where
  | getset | out | inp | pu | pd
  deriving DecidableEq

/-- One pin in `configure`, apps/gpio/gpio.c:142-162. -/
def setup (mode : Mode) (q : Pin) : Pin :=
  match mode with
  | .getset => q
  | .out => { q with out := true, level := false, func := .sio }
  | .inp => { q with out := false, level := false, func := .sio, up := false, down := false }
  | .pu => { q with out := false, level := false, func := .sio, up := true, down := false }
  | .pd => { q with out := false, level := false, func := .sio, up := false, down := true }

/-- `configure`, apps/gpio/gpio.c:125-164. -/
def configure (p : Nat → Pin) (arg : List Nat) (mode : Mode) : Option (List Nat × (Nat → Pin)) :=
  match range arg with
  | .inl msg => some (msg, p)
  | .inr (a, b) => (eachLoop (setup mode) (b + 1 - a) a p).map fun p' => ([], p')

/-- An argument, apps/gpio/gpio.c:178-201: what is printed, the mode, the pins. -/
def argument (env : Sense) (mode : Mode) (p : Nat → Pin) (arg : List Nat) : Option (List Nat × Mode × (Nat → Pin)) :=
  if arg = asc "info" then some (showAll env p, mode, p)
  else if arg = asc "out" then some ([], .out, p)
  else if arg = asc "in" then some ([], .inp, p)
  else if arg = asc "pu" then some ([], .pu, p)
  else if arg = asc "pd" then some ([], .pd, p)
  else if mode = .getset then (getSet env p arg).map fun r => (r.1, mode, r.2)
  else (configure p arg mode).map fun r => (r.1, mode, r.2)

/-- The loop over the arguments, apps/gpio/gpio.c:176-222, without options. -/
def arguments (env : Sense) : Mode → (Nat → Pin) → List (List Nat) → Option (List Nat × (Nat → Pin))
  | _, p, [] => some ([], p)
  | mode, p, a :: as => (argument env mode p a).bind fun r => (arguments env r.2.1 r.2.2 as).map fun s => (r.1 ++ s.1, s.2)

/-- `main`, apps/gpio/gpio.c:166-228, without options. -/
def gpio (env : Sense) (p : Nat → Pin) (args : List (List Nat)) : Option (List Nat × (Nat → Pin)) :=
  if args = [] then some (showAll env p, p) else arguments env .getset p args

end Fpm.Gpio
