import Verif.Lfn.Spec
import Verif.Names.Spec
/-!
# What a directory is
-/
namespace Fpm.FatDir.Spec
open Fpm.Lfn Fpm.Lfn.Spec Fpm.Names.Spec Fpm.TextIo.Spec

/-- Entries are 32 bytes. -/
def Table (t : List (List Nat)) : Prop := ∀ e ∈ t, e.length = 32 ∧ ∀ b ∈ e, b < 256

/-- An object of a directory: the index of its short entry, its long name, and the short entry. -/
structure Obj where
  pos : Nat
  long : Option (List Nat)
  entry : List Nat
deriving DecidableEq

/-- Name in directory form. -/
def Obj.fn (o : Obj) : List Nat := o.entry.take 11

/-- A short entry in use, not a volume label. -/
structure Sfn (s : List Nat) : Prop where
  used : byte s 0 ≠ 0 ∧ byte s 0 ≠ 0xE5
  attr : byte s 11 &&& 8 = 0

/-- An entry with a part of a long name. -/
structure LfnEntry (e : List Nat) : Prop where
  used : byte e 0 ≠ 0 ∧ byte e 0 ≠ 0xE5 ∧ byte e 0 ≠ 46
  attr : byte e 11 &&& 0x3F = 0x0F

/-- An entry that is no object: deleted, or a volume label. -/
def Skip (e : List Nat) : Prop := byte e 0 = 0xE5 ∨ (byte e 0 ≠ 0 ∧ byte e 11 &&& 0x1F = 8)

/-- The entries look like a complete long name: numbered down to one, the first marked, all with the checksum. -/
def Claims (b : List (List Nat)) (sum : Nat) : Prop :=
  b ≠ [] ∧ ∀ j < b.length, byte (b.getD j []) 0 = b.length - j + (if j = 0 then 0x40 else 0) ∧ byte (b.getD j []) 13 = sum

/-- No long name for the short entry in what is left over before it. -/
def Broken (j : List (List Nat)) (s : List Nat) : Prop := ¬ ∃ a b, j = a ++ b ∧ Claims b (sumSfn s)

/-- Leftover parts of long names; none if the directory is clean. -/
def Junk (clean : Bool) (j : List (List Nat)) : Prop := (∀ e ∈ j, LfnEntry e) ∧ (clean = true → j = [])

/-- The entries `es` before `s` hold the long name; `j` are leftovers before them. -/
def Long (j es : List (List Nat)) (s : List Nat) : Option (List Nat) → Prop
  | some n => Name n ∧ Stored n (sumSfn s) (parts n) es
  | none => es = [] ∧ Broken j s

/-- A table, from index `i` on, has these objects.  In a clean one there are no leftovers of long names. -/
inductive Rep (clean : Bool) : Nat → List (List Nat) → List Obj → Prop where
  | nil {i : Nat} {j : List (List Nat)} : Junk clean j → Rep clean i j []
  | fin {i : Nat} {j : List (List Nat)} {e : List Nat} {t : List (List Nat)} : Junk clean j → byte e 0 = 0 → Rep clean i (j ++ e :: t) []
  | skip {i : Nat} {j : List (List Nat)} {e : List Nat} {t : List (List Nat)} {os : List Obj} : Junk clean j → Skip e → Rep clean (i + j.length + 1) t os → Rep clean i (j ++ e :: t) os
  | obj {i : Nat} {j es : List (List Nat)} {s : List Nat} {long : Option (List Nat)} {t : List (List Nat)} {os : List Obj} : Junk clean j → Long j es s long → Sfn s →
      Rep clean (i + j.length + es.length + 1) t os → Rep clean i (j ++ (es ++ s :: t)) (⟨i + j.length + es.length, long, s⟩ :: os)

/-- Behind the end of the directory there is nothing. -/
def Ended (t : List (List Nat)) : Prop := ∀ x e y, t = x ++ e :: y → byte e 0 = 0 → ∀ z ∈ y, byte z 0 = 0

/-- A complete long name with the checksum is before a free entry, or at the end of the table. -/
def Orphan (t : List (List Nat)) (sum : Nat) : Prop :=
  ∃ x b y, t = x ++ (b ++ y) ∧ Claims b sum ∧ (y = [] ∨ ∃ e z, y = e :: z ∧ (byte e 0 = 0xE5 ∨ byte e 0 = 0))

/-- The object has the name: as long name, up to case, or as short name if the name has such a form.  Flags: 0x40 search for the short name only, 1 no short form. -/
def Hit (n fn : List Nat) (fl : Nat) (o : Obj) : Prop :=
  (fl &&& 0x40 = 0 ∧ ∃ m, o.long = some m ∧ SameName m n) ∨ (fl &&& 1 = 0 ∧ o.fn = fn)

/-- The object has no long name, or one with more than 255 bytes in UTF-8, which is too long to be listed. -/
def Unlisted (o : Obj) : Prop := o.long = none ∨ ∃ cs, (∀ c ∈ cs, Scalar c ∧ c ≠ 0) ∧ o.long = some (units cs) ∧ 255 < (text cs).length

/-- What is listed for an object: its long name in UTF-8, or the short name, with the case that its flags tell. -/
def Shown (o : Obj) (name : List Nat) : Prop :=
  (∀ cs, (∀ c ∈ cs, Scalar c ∧ c ≠ 0) → o.long = some (units cs) → (text cs).length ≤ 255 → name = text cs) ∧
  (∀ n body ext, EightThree n body ext → Unlisted o → o.fn = form body ext → oneCase body = true → oneCase ext = true →
    (byte o.entry 12 &&& 8 ≠ 0 ↔ hasLower body = true) → (byte o.entry 12 &&& 0x10 ≠ 0 ↔ hasLower ext = true) → name = n)

/-- The list of all objects but `.` and `..`, in order. -/
inductive Listing : List Obj → List (List Nat × List Nat) → Prop where
  | nil : Listing [] []
  | dot {o : Obj} {os : List Obj} {l : List (List Nat × List Nat)} : byte o.entry 0 = 46 → Listing os l → Listing (o :: os) l
  | cons {o : Obj} {os : List Obj} {name : List Nat} {l : List (List Nat × List Nat)} : byte o.entry 0 ≠ 46 → Shown o name → Listing os l → Listing (o :: os) ((name, o.entry) :: l)

/-- A long name of the form 8.3 goes with that short name. -/
def Consistent (o : Obj) : Prop := ∀ n body ext, o.long = some n → EightThree n body ext → o.fn = form body ext

/-- No name means both objects. -/
structure Distinct (o o' : Obj) : Prop where
  short : o.fn ≠ o'.fn
  long : ∀ n n', o.long = some n → o'.long = some n' → ¬ SameName n n'
  left : ∀ n m body ext, o.long = some n → EightThree m body ext → o'.fn = form body ext → ¬ SameName n m
  right : ∀ n m body ext, o'.long = some n → EightThree m body ext → o.fn = form body ext → ¬ SameName n m

/-- A directory where each name means one object. -/
structure Names (os : List Obj) : Prop where
  consistent : ∀ o ∈ os, Consistent o
  distinct : os.Pairwise Distinct

/-- The name means the object: it is its long name, up to case, or its short name. -/
def Means (n : List Nat) (o : Obj) : Prop :=
  (∃ m, o.long = some m ∧ SameName m n) ∨ ∃ body ext, EightThree n body ext ∧ o.fn = form body ext

/-- A short name in directory form. -/
def Ok83 (fn : List Nat) : Prop := fn.length = 11 ∧ ∀ c ∈ fn, FormByte c

/-- A new object with the name: its long name if one is needed, an entry with a short name that no other object has (the given one if the name has this form),
the case of its letters, and zeros. -/
structure NewObj (n fn : List Nat) (fl : Nat) (os : List Obj) (o : Obj) : Prop where
  long : o.long = if fl &&& 2 ≠ 0 then some n else none
  entry : o.entry = o.fn ++ [0, fl &&& 0x18] ++ List.replicate 19 0
  ok : Ok83 o.fn
  same : fl &&& 1 = 0 → o.fn = fn
  fresh : ∀ o' ∈ os, o'.fn = o.fn → fl &&& 1 = 0 ∧ Means n o'

/-- The text of a segment of a path that is a name for a file, and what is made of it. -/
structure FileName (cs : List Nat) (last : Bool) (buf fn : List Nat) (fl : Nat) : Prop where
  chars : ∀ c ∈ cs, NameChar c
  nodot : ¬ (cs = [46] ∨ cs = [46, 46])
  named : Named cs last buf fn fl

/-- The table has these objects, and nothing behind its end. -/
structure Directory (clean : Bool) (t : List (List Nat)) (os : List Obj) : Prop where
  table : Table t
  rep : Rep clean 0 t os
  ended : Ended t

/-- There is no room for an object: wherever as many entries are taken as it needs - one, and for a long name one for each 13 units - one of them is in use. -/
def NoRoom (t : List (List Nat)) (long : Prop) [Decidable long] (len : Nat) : Prop :=
  ∀ u f y, t = u ++ (f ++ y) → f.length = (if long then (len + 12) / 13 + 1 else 1) → ∃ e ∈ f, byte e 0 ≠ 0 ∧ byte e 0 ≠ 0xE5

end Fpm.FatDir.Spec
