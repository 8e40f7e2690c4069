import Verif.Printf.Model
/-!
# Formats and what they print
-/
namespace Fpm.Printf.Spec
open Fpm.Printf (Val Lib Res ascii)

/-- Field width or precision. -/
inductive Num where
  | none
  | digits (ds : List Nat)
  | star

structure Dir where
  flags : List Nat
  width : Num
  prec : Option Num
  long : Bool
  conv : Nat

def Num.shown : Num → List Nat
  | .none => []
  | .digits ds => ds
  | .star => [42]

def precShown : Option Num → List Nat
  | .none => []
  | some p => 46 :: p.shown

/-- A directive behind its `%`. -/
def Dir.tail (d : Dir) : List Nat := d.flags ++ (d.width.shown ++ (precShown d.prec ++ ((if d.long then [108] else []) ++ [d.conv])))

def isDigit (c : Nat) : Bool := 48 ≤ c ∧ c ≤ 57
def isFlag (c : Nat) : Bool := c ∈ [35, 45, 43, 32, 48]

inductive Kind where
  | char
  | str
  | long
  | dbl
  deriving DecidableEq

def kindOf (c : Nat) : Option Kind :=
  if c = 99 then some .char else if c = 115 then some .str
  else if c ∈ [100, 105, 111, 117, 120, 88] then some .long
  else if c ∈ [101, 69, 102, 103, 71] then some .dbl
  else .none

def Val.kind {D : Type} : Val D → Kind
  | .char _ => .char
  | .str _ => .str
  | .long _ => .long
  | .dbl _ => .dbl

def Num.Well : Num → Prop
  | .digits ds => ds ≠ [] ∧ ∀ c ∈ ds, isDigit c
  | _ => True

structure Dir.Well (d : Dir) : Prop where
  flags : ∀ c ∈ d.flags, isFlag c
  width : d.width.Well
  zero : ∀ ds, d.width = .digits ds → ds.head? ≠ some 48
  prec : ∀ p, d.prec = some p → p.Well
  conv : (kindOf d.conv).isSome

/-! ## `printf` of C, for formats with one directive -/

/-- Field width or precision at the begin of a text. -/
def numAt (s : List Nat) : Num × List Nat :=
  if s.head? = some 42 then (.star, s.tail)
  else if s.takeWhile isDigit = [] then (.none, s)
  else (.digits (s.takeWhile isDigit), s.dropWhile isDigit)

/-- A directive at the begin of a text, behind the `%`. -/
def dirAt (s : List Nat) : Option (Dir × List Nat) :=
  let w := numAt (s.dropWhile isFlag)
  let p : Option Num × List Nat := if w.2.head? = some 46 then (some (numAt w.2.tail).1, (numAt w.2.tail).2) else (none, w.2)
  let l : Bool × List Nat := if p.2.head? = some 108 then (true, p.2.tail) else (false, p.2)
  match l.2 with
  | [] => none
  | c :: r => if (kindOf c).isSome then some (⟨s.takeWhile isFlag, w.1, p.1, l.1, c⟩, r) else none

def stars (d : Dir) : Nat := (match d.width with | .star => 1 | _ => 0) + (match d.prec with | some .star => 1 | _ => 0)

/-- The output for a format of text and at most one directive; `render` is the text of a directive.  `none`: arguments are missing or of another type. -/
def cprintf {D : Type} (render : Dir → List Int → Val D → List Nat) (f : List Nat) (is : List Int) (v : Val D) : Option (List Nat) :=
  match f.dropWhile (· ≠ 37) with
  | [] => some f
  | _ :: r =>
    match dirAt r with
    | some (d, []) => if stars d = is.length ∧ kindOf d.conv = some (Val.kind v) ∧ (d.long = true ↔ Val.kind v = .long) then some (f.takeWhile (· ≠ 37) ++ render d is v) else none
    | _ => none

/-! ## The application -/

/-- A part of a format: text before `%%`, or before a directive. -/
inductive Item where
  | percent (t : List Nat)
  | dir (t : List Nat) (d : Dir)

def Item.shown : Item → List Nat
  | .percent t => t ++ [37, 37]
  | .dir t d => t ++ 37 :: d.tail

def shown : List Item → List Nat
  | [] => []
  | i :: is => i.shown ++ shown is

/-- Text without `%`. -/
def Plain (t : List Nat) : Prop := ∀ c ∈ t, c ≠ 0 ∧ c ≠ 37

def Item.Well : Item → Prop
  | .percent t => Plain t
  | .dir t d => Plain t ∧ d.Well ∧ d.long = false

/-- The numeric value of an argument: a number as in C, or the code of its first character or that behind a quotation mark; `none`: not a number. -/
def numeric {D : Type} (L : Lib D) : List Nat → Option Int
  | [] => if (L.strtol []).2.1 ∧ (L.strtol []).2.2 = false then some (L.strtol []).1 else none
  | c :: a =>
    if isDigit c ∨ c = 43 ∨ c = 45 ∨ c = 46 then (if (L.strtol (c :: a)).2.1 ∧ (L.strtol (c :: a)).2.2 = false then some (L.strtol (c :: a)).1 else none)
    else if c = 39 ∨ c = 34 then some ((a.getD 0 0 : Nat) : Int) else some (c : Int)

/-- What is said about an argument that is not a number. -/
def complaint {D : Type} (L : Lib D) (a : List Nat) : List Nat := a ++ (if (L.strtol a).2.1 then ascii ": value out of bounds\n" else ascii ": illegal number\n")

/-- Result of something: a value, the end with a message, or a case that is not described. -/
inductive Out (α : Type) where
  | ok (a : α)
  | bad (text : List Nat)
  | odd

/-- A field width or precision. -/
def starred {D : Type} (L : Lib D) (n : Num) (args : List (List Nat)) : Out (List Int × List (List Nat)) :=
  match n, args with
  | .star, [] => .odd
  | .star, a :: as =>
    match numeric L a with
    | none => .bad (complaint L a)
    | some v => if v = 0 ∨ v > 65535 then .odd else .ok ([v], as)
  | _, as => .ok ([], as)

/-- The argument of a conversion; without argument it is zero or the empty text. -/
def value {D : Type} (L : Lib D) (k : Kind) (args : List (List Nat)) : Out (Val D × List (List Nat)) :=
  match k, args with
  | .char, [] => .ok (.char 0, [])
  | .char, a :: as => .ok (.char (a.getD 0 0), as)
  | .str, [] => .ok (.str [], [])
  | .str, a :: as => .ok (.str a, as)
  | .long, [] => .ok (.long 0, [])
  | .long, a :: as =>
    match numeric L a with
    | none => .bad (complaint L a)
    | some v => .ok (.long v, as)
  | .dbl, [] => .ok (.dbl (L.real 0), [])
  | .dbl, [] :: as => .ok (.dbl (L.atof []), as)
  | .dbl, (c :: a) :: as => .ok (.dbl (if isDigit c ∨ c = 43 ∨ c = 45 ∨ c = 46 then L.atof (c :: a) else if c = 39 ∨ c = 34 then L.real (a.getD 0 0 : Nat) else L.real c), as)

/-- What a directive prints, and the arguments that are left. -/
def directive {D : Type} (L : Lib D) (render : Dir → List Int → Val D → List Nat) (t : List Nat) (d : Dir) (args : List (List Nat)) : Out (List Nat × List (List Nat)) :=
  match starred L d.width args with
  | .odd => .odd
  | .bad x => .bad x
  | .ok (ws, as) =>
    match starred L (d.prec.getD .none) as with
    | .odd => .odd
    | .bad x => .bad x
    | .ok (ps, as') =>
      match kindOf d.conv with
      | none => .odd
      | some k =>
        if k = .long ∧ (61 < t.length + d.tail.length ∨ d.conv = 88) then .odd
        else
          match value L k as' with
          | .odd => .odd
          | .bad x => .bad x
          | .ok (v, as'') => .ok (t ++ render { d with long := decide (k = .long) } (ws ++ ps) v, as'')

/-- What the format prints, used once. -/
def pass {D : Type} (L : Lib D) (render : Dir → List Int → Val D → List Nat) : List Item → List (List Nat) → List Nat → Out (List Nat × List (List Nat))
  | [], args, out => .ok (out, args)
  | .percent t :: is, args, out => pass L render is args (out ++ (t ++ [37]))
  | .dir t d :: is, args, out =>
    match directive L render t d args with
    | .odd => .odd
    | .bad x => .bad (out ++ x)
    | .ok (o, as) => pass L render is as (out ++ o)

def Item.isDir : Item → Bool
  | .dir _ _ => true
  | _ => false

/-- What the command prints, and its exit code: the format (parts, then text) is used again while there are arguments. -/
inductive Prints {D : Type} (L : Lib D) (render : Dir → List Int → Val D → List Nat) (is : List Item) (t : List Nat) : List (List Nat) → List Nat → Res → Prop
  | bad {args out x} : pass L render is args out = .bad x → Prints L render is t args out (.done 1 x)
  | last {args out o} : pass L render is args out = .ok (o, []) → Prints L render is t args out (.done 0 (o ++ t))
  | text {args out o as} : pass L render is args out = .ok (o, as) → as ≠ [] → is = [] → Prints L render is t args out (.done 1 (o ++ t ++ ascii "missing format character\n"))
  | again {args out o as r} : pass L render is args out = .ok (o, as) → as ≠ [] → is ≠ [] → (∀ i ∈ is, i.isDir = true) → Prints L render is t as (o ++ t) r → Prints L render is t args out r

end Fpm.Printf.Spec
