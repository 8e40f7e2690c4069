import Verif.DiskIo.Model

/-!
# What block access has to do
-/
namespace Fpm.DiskIo.Spec

/-- The sectors are on a medium of `size` bytes with sectors of `ss` bytes. -/
def OnMedium (ss size sector count : Nat) : Prop := (sector + count) * ss ≤ size

/-- The bytes of `got` are the bytes `k + j` of the medium. -/
def ReadsAt (m got : List Nat) (k n : Nat) : Prop :=
  got.length = n ∧ ∀ j < n, got[j]? = m[k + j]?

/-- `m'` is `m` with exactly the bytes `k … k+n-1` replaced by those of `buf`. -/
def WritesAt (m m' buf : List Nat) (k n : Nat) : Prop :=
  m'.length = m.length ∧ (∀ j < n, m'[k + j]? = buf[j]?) ∧
    ∀ i, (i < k ∨ k + n ≤ i) → m'[i]? = m[i]?

end Fpm.DiskIo.Spec
