import Verif.Expand.Model
import Verif.FatFile.Spec
/-!
# What allocating a contiguous block should do
-/
namespace Fpm.Expand.Spec
open Fpm.Fat Fpm.Fat.Spec Fpm.FatFile

/-- A block of `t` free clusters from `c` on, in a table of clusters 2 to `n - 1`. -/
structure Block (n : Nat) (f : Nat → Nat) (c t : Nat) : Prop where
  low : 2 ≤ c
  high : c + t ≤ n
  free : ∀ x, c ≤ x → x < c + t → f x = 0

/-- `t` clusters of `b` bytes hold `size` bytes, and fewer do not. -/
def Fits (b size t : Nat) : Prop := size ≤ t * b ∧ ∀ u, size ≤ u * b → t ≤ u

/-- An empty file open for writing. -/
def Fresh (fp : File) : Prop := fp.err = 0 ∧ fp.objsize = 0 ∧ fp.sclust = 0 ∧ fp.canWrite = true

/-- Nothing of the volume has changed for programs, and nothing of the file. -/
def Unchanged (v : Vol) (s s' : St) (fp fp' : File) : Prop := (∀ n, ¬ Fat2 v n → view s' n = view s n) ∧ s'.freeClst = s.freeClst ∧ fp' = fp

/-- The file has got the block at `c`: its clusters follow each other, the other chains `cs` are as before, and so are all sectors
outside of the FATs; the search for the next free cluster will start behind the block. -/
structure Given (v : Vol) (cs : List (List Nat)) (size c t : Nat) (s s' : St) (fp fp' : File) : Prop where
  inv : Inv v s'
  chains : Chains v.nFatent (tab v s') (List.range' c t :: cs)
  others : ∀ x, 2 ≤ x → x < v.nFatent → (x < c ∨ c + t ≤ x) → tab v s' x = tab v s x
  data : ∀ n, ¬ Fat1 v n → ¬ Fat2 v n → view s' n = view s n
  count : CountOk v s'
  next : s'.lastClst + 1 = c + t
  file : fp' = { fp with sclust := c, objsize := size, modified := true }

/-- Clusters that a file gets one after the other when it grows; `c` is its last cluster so far, 0 at first. -/
def following (v : Vol) : Nat → St → Nat → List Nat
  | 0, _, _ => []
  | n + 1, s, c => (createChain v s c).2 :: following v n (createChain v s c).1 (createChain v s c).2

end Fpm.Expand.Spec
