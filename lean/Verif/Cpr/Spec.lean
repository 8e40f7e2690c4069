import Verif.Cpr.Model

/-!
# What copying a directory means
-/

namespace Fpm.Cpr.Spec
open Fpm.Cpr

/-- What a user finds at a place: nothing, a file with these bytes (`some (some d)`), or a directory
(`some none`). -/
def seen (fs : FS) (q : Path) : Option (Option (List Nat)) :=
  match fs q with
  | none => none
  | some (.file d) => some (some d)
  | some (.dir _) => some none

/-- A place is in directory `p`, or is `p`. -/
def Within (p q : Path) : Prop := ∃ r, q = r ++ p

/-- Neither of two places is in the other one. -/
def Apart (p q : Path) : Prop := ¬ Within p q ∧ ¬ Within q p

/-- Names that a directory may have: not empty, without slash. -/
def Good (n : Name) : Prop := n ≠ [] ∧ 47 ∉ n

/-- A tree in order: objects are listed exactly once in the directory they are in, and what is
listed exists. -/
structure Sound (fs : FS) : Prop where
  listed : ∀ p n o, fs (n :: p) = some o → ∃ l, fs p = some (.dir l) ∧ some n ∈ l
  there : ∀ p n l, fs p = some (.dir l) → some n ∈ l → ∃ o, fs (n :: p) = some o
  once : ∀ p l, fs p = some (.dir l) → (l.filterMap id).Nodup
  good : ∀ p n l, fs p = some (.dir l) → some n ∈ l → Good n

/-- Directory `q` of the later tree holds a copy of directory `p` of the earlier one: what was in
`p` is in `q`, with the same bytes, and all else in `q` is as before. -/
structure Copied (fs fs' : FS) (p q : Path) : Prop where
  same : ∀ r, (seen fs (r ++ p)).isSome → seen fs' (r ++ q) = seen fs (r ++ p)
  rest : ∀ r, seen fs (r ++ p) = none → seen fs' (r ++ q) = seen fs (r ++ q)

/-- Outside of `q` nothing has changed. -/
def Outside (fs fs' : FS) (q : Path) : Prop := ∀ a, ¬ Within q a → seen fs' a = seen fs a

/-- Reading directories works. -/
def Reads (e : Env) : Prop := ∀ p i, e.bad p i = false

/-- Nothing goes wrong: the device works and has room, and the user agrees to all. -/
structure Works (e : Env) : Prop where
  reads : Reads e
  agreed : e.force = true ∨ ∀ p, e.ans p = true
  makes : ∀ p, e.makes p = true
  opens : ∀ p, e.opens p = true
  room : ∀ p, e.room p = none

/-- All directories in `p` have less than `w` entries (free ones included). -/
def Narrow (fs : FS) (w : Nat) (p : Path) : Prop :=
  ∀ q l, Within p q → fs q = some (.dir l) → l.length < w

/-- Objects in `p` are not too deep for `f` objects open at once: files have to be at most `f - 2`
levels down, directories at most `f - 1`. -/
def Shallow (fs : FS) (f : Nat) (p : Path) : Prop :=
  (∀ r d, seen fs (r ++ p) = some (some d) → r.length + 2 ≤ f) ∧
  (∀ r, seen fs (r ++ p) = some none → r.length + 1 ≤ f)

/-- Where both have an object, they are of the same kind. -/
def Fits (fs : FS) (p q : Path) : Prop :=
  ∀ r a b, seen fs (r ++ p) = some a → seen fs (r ++ q) = some b → a.isSome = b.isSome

/-- There is a directory for an object with this path. -/
def Parent (fs : FS) (q : Path) : Prop := ∃ n p, q = n :: p ∧ seen fs p = some none

/-- Where the copy of `src` goes: into the directory `dst` under its own name, or, if `dst` is no
directory, to this place (comment of kernel/cmd/cmd_copy.c:185-199). -/
def goal (fs : FS) (src dst : List Nat) : Path :=
  if place dst = [] ∨ seen fs (place dst) = some none then (place src).take 1 ++ place dst
  else place dst

end Fpm.Cpr.Spec
