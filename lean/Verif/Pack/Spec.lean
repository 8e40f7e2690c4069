import Verif.Pack.Model
import Verif.Cpr.Spec

/-!
# What an image should hold
-/

namespace Fpm.Pack.Spec
open Fpm.Cpr Fpm.Cpr.Spec

/-- What a node should be found as: a file with these bytes, a directory, or not at all. -/
def wanted (n : Node) : Option (Option (List Nat)) :=
  match n.kind with
  | .dir => some none
  | .file d => some (some d)
  | .other => none

/-- Nodes that are copied. -/
def copied (l : List Node) : List Node :=
  l.filter fun n => decide (n.path ≠ []) && decide (n.kind ≠ .other)

/-- The walk comes to each object once. -/
def Once (l : List Node) : Prop := ((copied l).map (·.path)).Nodup

/-- No two names in one directory differ only in upper and lower case. -/
def Distinct (fold : Name → Name) (l : List Node) : Prop :=
  ((copied l).map fun n => n.path.map fold).Nodup

/-- The walk comes to a directory before it comes to what is in it. -/
def Preorder (l : List Node) : Prop :=
  ∀ pre n post x p, l = pre ++ n :: post → n ∈ copied l → n.path = x :: p → p ≠ [] →
    ∃ m ∈ pre, m.path = p ∧ m.kind = .dir

/-- The file system holds the objects of the walk and no others. -/
def Holds (fold : Name → Name) (fs : FS) (l : List Node) : Prop :=
  (∀ n ∈ copied l, seen fs (n.path.map fold) = wanted n) ∧
  (∀ q, q ≠ [] → (∀ n ∈ copied l, q ≠ n.path.map fold) → seen fs q = none)

end Fpm.Pack.Spec
