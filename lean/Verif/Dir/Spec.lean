import Verif.Dir.Model
/-!
# Specification of directory listings
-/
namespace Fpm.Dir.Spec

/-- Order of names: lexicographic by bytes (`<` of lists). -/
def nameLe (a b : List Nat) : Prop := a < b ∨ a = b

/-- Names ascending, or descending in reverse. -/
def NameOrder (reverse : Bool) (a b : Item) : Prop :=
  if reverse then nameLe b.name a.name else nameLe a.name b.name

/-- Newest first, names ascending among equal times. -/
def newerFirst (a b : Item) : Prop := a.mtime > b.mtime ∨ (a.mtime = b.mtime ∧ nameLe a.name b.name)

/-- Newest first, or the exact reverse. -/
def TimeOrder (reverse : Bool) (a b : Item) : Prop := if reverse then newerFirst b a else newerFirst a b

/-- Is an entry to be shown: hidden files only on request, at top level no directories. -/
def shown (o : Opts) (x : Item) : Bool :=
  (o.showhidden || x.attrib / 2 % 2 == 0) && !(o.toplevel && x.attrib / 16 % 2 == 1)

/-- Text for an entry: its name, for directories followed by a slash if types are to be shown. -/
def text (o : Opts) (x : Item) : List Nat := x.name ++ (if o.type && x.attrib / 16 % 2 == 1 then [47] else [])

/-- Number of characters of a text: bytes that do not continue a multi-byte sequence. -/
def width (s : List Nat) : Nat := s.countP (fun b => b / 64 % 4 ≠ 2)

/-- Cells of a row, each but the last filled up to `w` characters. -/
def row (w : Nat) : List (List Nat) → List Nat
  | [] => []
  | [c] => c
  | c :: cs => c ++ List.replicate (w - width c) 32 ++ row w cs

/-- Entry `c` columns to the right and `r` rows down in a table of `R` rows filled column by column. -/
def cell (texts : List (List Nat)) (R r c : Nat) : Option (List Nat) := texts[c * R + r]?

/-- Table of `R` rows and at most `C` columns filled column by column, columns `w` apart. -/
def table (texts : List (List Nat)) (R C w : Nat) : List (List Nat) :=
  (List.range R).map fun r => row w ((List.range C).filterMap (cell texts R r))

/-- Decimal digits of a number. -/
def digits (n : Nat) : List Nat := (Nat.toDigits 10 n).map Char.toNat

/-- `s` is the number `n` with a comma after every third digit from the right. -/
def Grouped (n : Nat) (s : List Nat) : Prop :=
  s.filter (· ≠ 44) = digits n ∧ (∀ k c, s.reverse[k]? = some c → (c = 44 ↔ k % 4 = 3)) ∧ s.head? ≠ some 44

/-- A letter if a bit of the attributes is set, else a dash. -/
def flag (attrib bit letter : Nat) : Nat := if attrib / bit % 2 = 1 then letter else 45

/-- Attributes of an entry: archive, directory, system, hidden, read-only. -/
def attrText (x : Item) : List Nat :=
  [flag x.attrib 32 97, flag x.attrib 16 100, flag x.attrib 4 115, flag x.attrib 2 104, flag x.attrib 1 114]

/-- Text filled with blanks at the right. -/
def fillRight (w : Nat) (s : List Nat) : List Nat := s ++ List.replicate (w - s.length) 32

/-- Text filled at the left. -/
def fillLeft (w c : Nat) (s : List Nat) : List Nat := List.replicate (w - s.length) c ++ s

/-- Date and time of a FAT time stamp: `YYYY/M/D` in 11 columns, `HH:MM`, two blanks. -/
def timeText (m : Nat) : List Nat :=
  fillRight 11 (digits (1980 + m / 2 ^ 25 % 2 ^ 7) ++ [47] ++ digits (m / 2 ^ 21 % 2 ^ 4) ++ [47] ++ digits (m / 2 ^ 16 % 2 ^ 5)) ++
    fillLeft 2 32 (digits (m / 2 ^ 11 % 2 ^ 5)) ++ [58] ++ fillLeft 2 48 (digits (m / 2 ^ 5 % 2 ^ 6)) ++ [32, 32]

/-- Columns taken by the type character. -/
def slash (o : Opts) : Nat := if o.type then 1 else 0

end Fpm.Dir.Spec
