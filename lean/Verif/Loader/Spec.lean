import Verif.Loader.Model

/-!
# What an executable says, independently of how the loader walks it
-/
namespace Fpm.Loader.Spec
open Fpm.Loader

/-- The little-endian number `v` of `w` bytes is stored at offset `off`. -/
def Field (img : List Nat) (off w v : Nat) : Prop :=
  v < 256 ^ w ∧ ∀ k < w, img[off + k]? = some (v / 256 ^ k % 256)

/-- The NUL-terminated string `s` is stored at offset `off`. -/
def Str (img : List Nat) (off : Nat) (s : List Nat) : Prop :=
  (∀ c ∈ s, c ≠ 0) ∧ ∀ k ≤ s.length, img[off + k]? = (s ++ [0])[k]?

/-- An import or own definition: name and value (0: to be imported). -/
abbrev Import := List Nat × Nat

/-- The image is an executable whose jump slots are `imps`, in order.  Section `r` is the first
relocation section with the link flag (RELA preferred), `y` its symbol table, `z` the string
table. -/
structure Describes (L : Layout) (img : List Nat) (imps : List Import) where
  magic : Field img 0 4 0x464c457f
  cls : Field img 4 1 L.cls
  data : Field img 5 1 1
  version : Field img 6 1 1
  type : Field img 16 2 3
  machine : Field img 18 2 L.machine
  shoff : Nat
  shnum : Nat
  hshoff : Field img L.eShoff L.w shoff
  hshnum : Field img L.eShnum 2 shnum
  /-- types and flags of all sections -/
  types : Nat → Nat
  flags : Nat → Nat
  htypes : ∀ i < shnum, Field img (shoff + i * L.shdr + 4) 4 (types i)
  hflags : ∀ i < shnum, Field img (shoff + i * L.shdr + L.shFlags) L.w (flags i)
  r : Nat
  hr : r < shnum
  /-- the jump slots are in the first section of the wanted kind -/
  first : (types r = 4 ∧ flags r &&& 0x40 = 0x40 ∧
            ∀ i < r, ¬ (types i = 4 ∧ flags i &&& 0x40 = 0x40)) ∨
          (types r = 9 ∧ flags r &&& 0x40 = 0x40 ∧
            (∀ i < shnum, ¬ (types i = 4 ∧ flags i &&& 0x40 = 0x40)) ∧
            ∀ i < r, ¬ (types i = 9 ∧ flags i &&& 0x40 = 0x40))
  relOff : Nat
  hrelOff : Field img (shoff + r * L.shdr + L.shOffset) L.w relOff
  /-- entries have the size of the structure -/
  hent : Field img (shoff + r * L.shdr + L.shEnt) L.w (if types r = 4 then L.rela else L.rel)
  hsize : Field img (shoff + r * L.shdr + L.shSize) L.w
    (imps.length * if types r = 4 then L.rela else L.rel)
  y : Nat
  hy : Field img (shoff + r * L.shdr + L.shLink) 4 y
  symOff : Nat
  hsymOff : Field img (shoff + y * L.shdr + L.shOffset) L.w symOff
  z : Nat
  hz : Field img (shoff + y * L.shdr + L.shLink) 4 z
  strOff : Nat
  hstrOff : Field img (shoff + z * L.shdr + L.shOffset) L.w strOff
  /-- symbol number and relocation type of each slot -/
  sym : Nat → Nat
  rtype : Nat → Nat
  name : Nat → Nat
  hrel : ∀ i < imps.length, sym i < 2 ^ 32 ∧ rtype i < 2 ^ L.symShift ∧
    Field img (relOff + i * (if types r = 4 then L.rela else L.rel) + L.rInfo) L.w
      (sym i * 2 ^ L.symShift + rtype i)
  hsym : ∀ i (_ : i < imps.length), Field img (symOff + sym i * L.sym) 4 (name i) ∧
    Field img (symOff + sym i * L.sym + L.stValue) L.w (imps[i]).2 ∧ (imps[i]).2 < 2 ^ 32 ∧
    Str img (strOff + name i) (imps[i]).1
  count : imps.length < 2 ^ 32

/-- First entry with a given name, searching the child's map first, then its parents'. -/
def lookup (name : List Nat) (maps : List Map) : Option Nat :=
  (maps.flatten.find? (fun e => e.1 = name)).map (·.2)

/-- What a slot has to be: the program's own definition, else the entry of the link maps (an entry
with a null address defines nothing). -/
def slot (maps : List Map) (i : Import) : Option Slot :=
  if i.2 ≠ 0 then some (.own i.2)
  else match lookup i.1 maps with
    | some a => if a = 0 then none else some (.ext a)
    | none => none

end Fpm.Loader.Spec
