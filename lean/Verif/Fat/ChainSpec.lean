import Verif.Fat.Spec
import Verif.Fat.ChainModel
/-!
# What chains of clusters are
-/
namespace Fpm.Fat.Spec

/-- A chain in the table `f` of clusters 2 to `n - 1`: every cluster names the next one, the last one names none. -/
def Links (n : Nat) (f : Nat → Nat) : List Nat → Prop
  | [] => False
  | [c] => 2 ≤ c ∧ c < n ∧ n ≤ f c
  | c :: d :: l => 2 ≤ c ∧ c < n ∧ f c = d ∧ Links n f (d :: l)

/-- A well-formed table: chains, no cluster twice, and nothing else is in use.  (Lost clusters and bad clusters make chains of their
own, to which no file belongs.) -/
structure Chains (n : Nat) (f : Nat → Nat) (cs : List (List Nat)) : Prop where
  chain : ∀ l ∈ cs, Links n f l
  nodup : cs.flatten.Nodup
  used : ∀ c, 2 ≤ c → c < n → f c ≠ 0 → c ∈ cs.flatten

/-- Number of free clusters below `n`. -/
def freeCount (f : Nat → Nat) : Nat → Nat
  | 0 => 0
  | n + 1 => freeCount f n + if 2 ≤ n ∧ f n = 0 then 1 else 0

/-- The table the program sees. -/
def tab (v : Vol) (s : St) : Nat → Nat := fat v (view s)

/-- The number of free clusters is right if it is known. -/
def CountOk (v : Vol) (s : St) : Prop := s.freeClst ≤ v.nFatent - 2 → s.freeClst = freeCount (tab v s) v.nFatent

/-- Bits of the entry are in two sectors. -/
def TwoSectors (v : Vol) (c : Nat) : Prop := width v * c / (8 * v.ss) ≠ (width v * c + width v - 1) / (8 * v.ss)

/-- All contents of the device after the start in `s` up to `s'`, and the one after a flush, have a property. -/
def AtAllTimes (s s' : St) (P : Disk → Prop) : Prop := (∀ d ∈ s'.disk :: s'.past, d ∈ s.disk :: s.past ∨ P d) ∧ P (view s')

/-- Chains with one more in the middle, unless it is empty. -/
def withRest (a : List (List Nat)) (m : List Nat) (b : List (List Nat)) : List (List Nat) := if m = [] then a ++ b else a ++ m :: b

end Fpm.Fat.Spec
