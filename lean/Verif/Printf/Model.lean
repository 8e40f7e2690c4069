import Verif.PrintfEsc.Model
/-!
# The conversions of the printf application

Model of `apps/printf/printf.c` behind `escape`.  The array `argv[1]` is a list of bytes, in three parts: before `start`,
from `start` to `fmt`, and from `fmt` on.  A read behind its end is an outcome of its own, and so are an overrun of the array
`buf`, a call of `fpm_printf` with other arguments than its format needs, and the use of a null pointer as text.
Arguments are lists of bytes without their final zero.  `char` is unsigned, as on the Pico.
-/
namespace Fpm.Printf

/-- The last argument of `fpm_printf`. -/
inductive Val (D : Type) where
  | char (c : Nat)
  | str (s : List Nat)
  | long (v : Int)
  | dbl (d : D)

/-- The C library, with its wrappers kernel/fpm_strtol.c:10-15 and pico/fpm_pico.c:57-80: `fpm_strtol` with base 0 (value, whether all characters are part of the number,
whether it is out of range), `atof`, conversion of an integer, and `fpm_printf` with a number of integers followed by a value; `none`: the
arguments are not those that the format needs. -/
structure Lib (D : Type) where
  strtol : List Nat → Int × Bool × Bool
  atof : List Nat → D
  real : Int → D
  printf : List Nat → List Int → Val D → Option (List Nat)

/-- What goes wrong, apps/printf/printf.c:46-71, 189-201, 242-348. -/
inductive Fault where
  /-- read behind the end of the format -/
  | over
  /-- write behind the end of `buf` -/
  | buf
  /-- arguments of `fpm_printf` missing or of another type -/
  | args
  /-- null pointer as text -/
  | null
  deriving DecidableEq

/-- Exit code and output, apps/printf/printf.c:218-350. -/
inductive Res where
  | done (code : Nat) (out : List Nat)
  | fault (f : Fault)
  deriving DecidableEq

/-- A text constant of apps/printf/printf.c as bytes. -/
def ascii (s : String) : List Nat := s.toList.map Char.toNat

/-- apps/printf/printf.c:44 -/
def Number : List Nat := [43, 45, 46, 48, 49, 50, 51, 52, 53, 54, 55, 56, 57]

/-- Result of taking an argument: the value and the arguments left; or a message. -/
inductive Got (α : Type) where
  | ok (a : α) (args : List (List Nat))
  | err (text : List Nat)
  | null

/-- `asciicode`, apps/printf/printf.c:151-160. -/
def asciicode (a : List Nat) : Nat := if a.getD 0 0 = 39 ∨ a.getD 0 0 = 34 then a.getD 1 0 else a.getD 0 0

/-- `strchr(Number, **gargv)`, apps/printf/printf.c:168, 207: finds also the final zero. -/
def isNumber (a : List Nat) : Bool := a.getD 0 0 = 0 ∨ a.getD 0 0 ∈ Number

variable {D : Type}

/-- `getlong`, apps/printf/printf.c:162-187. -/
def getLong (L : Lib D) : List (List Nat) → Got Int
  | [] => .ok 0 []
  | a :: as =>
    if isNumber a then
      if (L.strtol a).2.1 = false then .err (a ++ ascii ": illegal number\n")
      else if (L.strtol a).2.2 then .err (a ++ ascii ": value out of bounds\n")
      else .ok (L.strtol a).1 as
    else .ok (asciicode a) as

/-- `getint`, apps/printf/printf.c:189-201: the message is about the next argument. -/
def getInt (L : Lib D) (args : List (List Nat)) : Got Int :=
  match getLong L args with
  | .ok v as =>
    if v > 65535 then
      match as with
      | [] => .null
      | b :: _ => .err (b ++ ascii ": value out of bounds\n")
    else .ok v as
  | g => g

/-- `getchr`, apps/printf/printf.c:137-142. -/
def getChr : List (List Nat) → Nat × List (List Nat)
  | [] => (0, [])
  | a :: as => (a.getD 0 0, as)

/-- `getstr`, apps/printf/printf.c:144-149. -/
def getStr : List (List Nat) → List Nat × List (List Nat)
  | [] => ([], [])
  | a :: as => (a, as)

/-- `getdouble`, apps/printf/printf.c:203-210. -/
def getDouble (L : Lib D) : List (List Nat) → D × List (List Nat)
  | [] => (L.real 0, [])
  | a :: as => (if isNumber a then L.atof a else L.real (asciicode a), as)

/-- The text at a pointer, as `fpm_puts` and `strlen` see it, apps/printf/printf.c:65, 255, 266. -/
def cstr (s : List Nat) : List Nat := s.takeWhile (· ≠ 0)

/-- `mklong`, apps/printf/printf.c:59-71, with the array of line 323: what is in it, `none` if it is too small. -/
def mklong (str : List Nat) (ch : Nat) : Option (List Nat) :=
  if str.length + 2 ≤ 64 then some (str.take (str.length - 1) ++ [108, if ch = 88 then 120 else ch]) else none

/-- The variables of `main`, apps/printf/printf.c:222-225; `fmt`, `start` as positions in the format. -/
structure State where
  /-- before `start` -/
  pre : List Nat
  /-- from `start` to `fmt` -/
  mid : List Nat
  /-- from `fmt` on -/
  rest : List Nat
  args : List (List Nat)
  out : List Nat
  /-- `end` -/
  fin : Bool

/-- A round of the loop, apps/printf/printf.c:242-348. -/
inductive Step where
  | go (s : State)
  | stop (r : Res)

/-- Result of the loop for the next `%`: end of the format, `%%`, something else behind `%`, or a read behind the array. -/
inductive Found where
  | finish (mid rest : List Nat)
  | percent (mid rest : List Nat)
  | spec (mid rest : List Nat)
  | over

/-- The loop for the next `%`, apps/printf/printf.c:246-269; `rest` begins at `fmt`, for `%%` behind both. -/
def find : List Nat → List Nat → Found
  | _, [] => .over
  | mid, c :: r =>
    if c = 0 then .finish mid (c :: r)
    else if c = 37 then
      match r with
      | [] => .over
      | d :: r' => if d = 37 then .percent (mid ++ [37]) r' else .spec (mid ++ [37]) (d :: r')
    else find (mid ++ [c]) r

/-- Loops with `strchr`, apps/printf/printf.c:272, 281, 292: the final zero is found, too. -/
def skip (set : List Nat) : List Nat → List Nat → Option (List Nat × List Nat)
  | _, [] => none
  | mid, c :: r => if c = 0 ∨ c ∈ set then skip set (mid ++ [c]) r else some (mid, c :: r)

/-- apps/printf/printf.c:220 -/
def skip1 : List Nat := [35, 45, 43, 32, 48]
/-- apps/printf/printf.c:221 -/
def skip2 : List Nat := [42, 48, 49, 50, 51, 52, 53, 54, 55, 56, 57]

/-- A field width or precision `*`, apps/printf/printf.c:274-278, 285-289. -/
def star (L : Lib D) (r : List Nat) (args : List (List Nat)) : Got Int := if r.head? = some 42 then getInt L args else .ok 0 args

/-- `PF`, apps/printf/printf.c:46-57: the integers. -/
def ints (fieldwidth precision : Int) : List Int := (if fieldwidth ≠ 0 then [fieldwidth] else []) ++ (if precision ≠ 0 then [precision] else [])

/-- `PF` with what follows, apps/printf/printf.c:307, 314, 329, 340, 347. -/
def emit (L : Lib D) (s : State) (f : List Nat) (fieldwidth precision : Int) (v : Val D) : Step :=
  match L.printf f (ints fieldwidth precision) v with
  | none => .stop (.fault .args)
  | some t => .go { s with out := s.out ++ t }

/-- The end of a conversion, apps/printf/printf.c:299-347: `mid` ends before the character of conversion, `r` begins with it; `s` has the arguments
that are left. -/
def convert (L : Lib D) (s : State) (mid r : List Nat) (fieldwidth precision : Int) : Step :=
  match r with
  | convch :: nextch :: r' =>
    let f := cstr (mid ++ [convch])
    let s' : State := { s with pre := s.pre ++ mid ++ [convch], mid := [], rest := nextch :: r', fin := false }
    if convch = 99 then emit L { s' with args := (getChr s.args).2 } f fieldwidth precision (.char (getChr s.args).1)
    else if convch = 115 then emit L { s' with args := (getStr s.args).2 } f fieldwidth precision (.str (getStr s.args).1)
    else if convch ∈ [100, 105, 111, 117, 120, 88] then
      match mklong f convch with
      | none => .stop (.fault .buf)
      | some b =>
        match getLong L s.args with
        | .ok v as => emit L { s' with args := as } b fieldwidth precision (.long v)
        | .err t => .stop (.done 1 (s.out ++ t))
        | .null => .stop (.fault .null)
    else if convch ∈ [101, 69, 102, 103, 71] then emit L { s' with args := (getDouble L s.args).2 } f fieldwidth precision (.dbl (getDouble L s.args).1)
    else .stop (.done 1 (s.out ++ ascii "illegal format character\n"))
  | _ => .stop (.fault .over)

/-- apps/printf/printf.c:291-297; the final zero never is met here, as `strchr` finds it. -/
def third (L : Lib D) (s : State) (mid r : List Nat) (fieldwidth precision : Int) : Step :=
  match skip skip2 mid r with
  | none => .stop (.fault .over)
  | some (mid', r') => if r'.head? = some 0 then .stop (.done 1 (s.out ++ ascii "missing format character\n")) else convert L s mid' r' fieldwidth precision

/-- apps/printf/printf.c:285-289. -/
def precise (L : Lib D) (s : State) (mid r : List Nat) (fieldwidth : Int) : Step :=
  match r with
  | [] => .stop (.fault .over)
  | _ =>
    match star L r s.args with
    | .ok precision as => third L { s with args := as } mid r fieldwidth precision
    | .err t => .stop (.done 1 (s.out ++ t))
    | .null => .stop (.fault .null)

/-- apps/printf/printf.c:280-284. -/
def second (L : Lib D) (s : State) (mid r : List Nat) (fieldwidth : Int) : Step :=
  match skip skip2 mid r with
  | none => .stop (.fault .over)
  | some (mid', r') => if r'.head? = some 46 then precise L s (mid' ++ [46]) r'.tail fieldwidth else precise L s mid' r' fieldwidth

/-- apps/printf/printf.c:271-278; `mid` ends with `%`. -/
def first (L : Lib D) (s : State) (mid r : List Nat) : Step :=
  match skip skip1 mid r with
  | none => .stop (.fault .over)
  | some (mid', r') =>
    match star L r' s.args with
    | .ok fieldwidth as => second L { s with args := as } mid' r' fieldwidth
    | .err t => .stop (.done 1 (s.out ++ t))
    | .null => .stop (.fault .null)

/-- The end of the format, apps/printf/printf.c:247-260. -/
def finish (s : State) (mid r : List Nat) : Step :=
  if s.fin then .stop (.done 1 (s.out ++ ascii "missing format character\n"))
  else if s.args = [] then .stop (.done 0 (s.out ++ cstr mid))
  else .go { pre := [], mid := [], rest := s.pre ++ mid ++ r, args := s.args, out := s.out ++ cstr mid, fin := true }

/-- From `next` to the next `goto next` or the end of the loop, apps/printf/printf.c:242-348. -/
def step (L : Lib D) (s : State) : Step :=
  match find s.mid s.rest with
  | .over => .stop (.fault .over)
  | .finish mid r => finish s mid r
  | .percent mid r => .go { s with pre := s.pre ++ mid ++ [0], mid := [], rest := r, out := s.out ++ cstr mid }
  | .spec mid r => first L s mid r

/-- The loop, apps/printf/printf.c:242-348; `none`: more than `n` rounds. -/
def run (L : Lib D) : Nat → State → Option Res
  | 0, _ => none
  | n + 1, s =>
    match step L s with
    | .stop r => some r
    | .go s' => run L n s'

/-- `main` with a format, apps/printf/printf.c:240-350: `buf` is the array `argv[1]`, `args` are the other arguments. -/
def main (L : Lib D) (n : Nat) (buf : List Nat) (args : List (List Nat)) : Option Res :=
  match PrintfEsc.escape buf with
  | none => some (.fault .over)
  | some b => run L n ⟨[], [], b, args, [], false⟩

end Fpm.Printf
