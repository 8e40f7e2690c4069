import Verif.TextIo.Spec
import Verif.Lfn.Spec
/-!
# What names mean
-/
namespace Fpm.Names.Spec
open Fpm.TextIo.Spec

/-- UTF-16 units of a text. -/
def units (cs : List Nat) : List Nat :=
  cs.flatMap fun c => if c < 0x10000 then [c] else [0xD800 + (c - 0x10000) / 1024, 0xDC00 + (c - 0x10000) % 1024]

/-- Bytes that are read as the text: each character in UTF-8, or in a longer spelling of three or four bytes (those are accepted, see C57). -/
inductive Spells : List Nat → List Nat → Prop where
  | nil : Spells [] []
  | cons {o s : List Nat} {c : Nat} {cs : List Nat} : (o = uenc c ∨ 0x80 ≤ c ∧ Overlong c o) → Spells s cs → Spells (o ++ s) (c :: cs)

/-- Characters allowed in names: no control characters, slashes, and none of `"*:<>?|` and DEL. -/
def NameChar (c : Nat) : Prop := Scalar c ∧ 32 ≤ c ∧ c ∉ [34, 42, 47, 58, 60, 62, 63, 92, 124, 127]

instance (c : Nat) : Decidable (NameChar c) := by unfold NameChar; infer_instance

/-- A name without the spaces and dots at its end. -/
def trimmed (n : List Nat) : List Nat := (n.reverse.dropWhile fun c => c = 32 || c = 46).reverse

/-- Characters of short names. -/
def Char83 (c : Nat) : Prop := 33 ≤ c ∧ c ≤ 126 ∧ c ∉ [34, 42, 43, 44, 46, 47, 58, 59, 60, 61, 62, 63, 91, 92, 93, 124]

instance (c : Nat) : Decidable (Char83 c) := by unfold Char83; infer_instance

/-- ASCII upper case. -/
def up (c : Nat) : Nat := if 97 ≤ c ∧ c ≤ 122 then c - 32 else c

/-- The name is of the form body, or body dot extension, with up to eight and three characters. -/
structure EightThree (n body ext : List Nat) : Prop where
  eq : n = body ++ if ext = [] then [] else 46 :: ext
  ne : body ≠ []
  body8 : body.length ≤ 8
  ext3 : ext.length ≤ 3
  body_chars : ∀ c ∈ body, Char83 c
  ext_chars : ∀ c ∈ ext, Char83 c

/-- Filled up with spaces. -/
def pad (k : Nat) (l : List Nat) : List Nat := l ++ List.replicate (k - l.length) 32

/-- Directory form of a short name. -/
def form (body ext : List Nat) : List Nat := pad 8 (body.map up) ++ pad 3 (ext.map up)

/-- Has upper-case letters. -/
def hasUpper (l : List Nat) : Bool := l.any fun c => 65 ≤ c && c ≤ 90

/-- Has lower-case letters. -/
def hasLower (l : List Nat) : Bool := l.any fun c => 97 ≤ c && c ≤ 122

/-- Letters of one case only. -/
def oneCase (l : List Nat) : Bool := !(hasUpper l && hasLower l)

/-- Flags of a short name: 1 no 8.3 form, 2 a long name is needed, 8 body in lower case, 16 extension in lower case; 4 is given. -/
structure Flags (n : List Nat) (last : Bool) (fl : Nat) : Prop where
  short : ∀ body ext, EightThree n body ext → fl = (if last then 4 else 0) +
    if oneCase body ∧ oneCase ext then (if hasLower body then 8 else 0) + (if hasLower ext then 16 else 0) else 2
  long : (¬ ∃ body ext, EightThree n body ext) → fl = (if last then 4 else 0) + 3

/-- Bytes of a directory form. -/
def FormByte (c : Nat) : Prop := c = 32 ∨ Char83 c ∧ up c = c

instance (c : Nat) : Decidable (FormByte c) := by unfold FormByte; infer_instance

/-- The directory form of the name: its short form if it has one, else some form of legal characters. -/
structure Form (n fn : List Nat) : Prop where
  len : fn.length = 11
  chars : ∀ c ∈ fn, FormByte c
  short : ∀ body ext, EightThree n body ext → fn = form body ext

/-- What may follow a segment of a path, whether it ends the path, and where the path goes on. -/
inductive Tail : List Nat → Bool → List Nat → Prop where
  | fin {b : Nat} {z : List Nat} : b < 32 → Tail (b :: z) true z
  | sep {s : List Nat} {b : Nat} {z : List Nat} : s ≠ [] → (∀ c ∈ s, c = 47 ∨ c = 92) → b ≠ 47 → b ≠ 92 → Tail (s ++ b :: z) (decide (b < 32)) (b :: z)

/-- What is made of the text of a segment of a path: the long name in the buffer, directory form, and flags. -/
structure Named (cs : List Nat) (last : Bool) (buf fn : List Nat) (fl : Nat) : Prop where
  dot : cs = [46] ∨ cs = [46, 46] → Lfn.Spec.Holds buf cs ∧ fn = pad 11 cs ∧ fl = (if last then 4 else 0) + 0x20
  name : ¬ (cs = [46] ∨ cs = [46, 46]) → trimmed cs ≠ [] ∧ Lfn.Spec.Holds buf (units (trimmed cs)) ∧ Form (units (trimmed cs)) fn ∧ Flags (units (trimmed cs)) last fl

/-- Segments that are names. -/
def Good (cs : List Nat) : Prop := (units cs).length ≤ 255 ∧ (cs = [46] ∨ cs = [46, 46] ∨ trimmed cs ≠ [])

instance (cs : List Nat) : Decidable (Good cs) := by unfold Good; infer_instance

end Fpm.Names.Spec
