import Verif.Lfn.Model
/-!
# What long names are
-/
namespace Fpm.Lfn.Spec
open Fpm.Upcase Fpm.Lfn

/-- A long name: up to 255 UTF-16 units, none of them zero. -/
structure Name (n : List Nat) : Prop where
  ne : n ≠ []
  le : n.length ≤ 255
  units : ∀ u ∈ n, 0 < u ∧ u < 0x10000

/-- The buffer holds the name, with a zero behind it. -/
def Holds (buf n : List Nat) : Prop := buf.length = 256 ∧ n ++ [0] <+: buf

/-- Number of entries for a name. -/
def parts (n : List Nat) : Nat := (n.length + 12) / 13

/-- Unit `p` of a name spread over entries: the name, a zero, and fillers. -/
def spread (n : List Nat) (p : Nat) : Nat := if p < n.length then n.getD p 0 else if p = n.length then 0 else 0xFFFF

/-- The entry describes part `j` (counted from zero) of the name, for a short name with the given checksum. -/
structure Part (n : List Nat) (sum j : Nat) (e : List Nat) : Prop where
  len : e.length = 32
  attr : byte e 11 = 0x0F
  typ : byte e 12 = 0
  chk : byte e 13 = sum
  clus : word e 26 = 0
  ord : byte e 0 = j + 1 + if j + 1 = parts n then 0x40 else 0
  units : ∀ s < 13, word e (lfnOfs.getD s 0) = spread n (13 * j + s)

/-- Units equal up to case. -/
def SameUnit (a b : Nat) : Prop := wtoupper a = wtoupper b

/-- Names equal up to case. -/
def SameName (n m : List Nat) : Prop := n.map wtoupper = m.map wtoupper

/-- Entries of the name, last part first, as they are stored in a directory: parts `k-1, …, 0`. -/
inductive Stored (n : List Nat) (sum : Nat) : Nat → List (List Nat) → Prop where
  | nil : Stored n sum 0 []
  | cons {k : Nat} {e : List Nat} {es : List (List Nat)} : Part n sum k e → Stored n sum k es → Stored n sum (k + 1) (e :: es)

end Fpm.Lfn.Spec
