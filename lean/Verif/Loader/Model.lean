/-!
# The dynamic loader

Model of `kernel/fpm_loader.c` on the bytes of the mapped executable.  `Layout` collects the field
positions of the structures in `include/fpm/elf.h` for 64-bit and 32-bit programs.  The machine is
little-endian.  A read outside the image is the outcome `none`.
-/
namespace Fpm.Loader

/-- Field positions and sizes, include/fpm/elf.h:459-494 (Ehdr), 623-650 (Shdr), 654-670 (Sym),
703-723 (Rel, Rela), 725-729 (R_SYM). -/
structure Layout where
  /-- width of addresses, offsets and sizes -/
  w : Nat
  /-- `EI_CLASS` -/
  cls : Nat
  /-- `e_machine` -/
  machine : Nat
  eShoff : Nat
  eShnum : Nat
  shdr : Nat
  shFlags : Nat
  shOffset : Nat
  shSize : Nat
  shLink : Nat
  shEnt : Nat
  rel : Nat
  rela : Nat
  rInfo : Nat
  /-- `R_SYM(x)` is `x >> symShift` -/
  symShift : Nat
  sym : Nat
  stValue : Nat
deriving DecidableEq

/-- 64-bit layout (x86-64), include/fpm/elf.h:477-494, 637-648, 663-670, 708-711, 719-723. -/
def elf64 : Layout :=
  { w := 8, cls := 2, machine := 62, eShoff := 40, eShnum := 60, shdr := 64, shFlags := 8,
    shOffset := 24, shSize := 32, shLink := 40, shEnt := 56, rel := 16, rela := 24, rInfo := 8,
    symShift := 32, sym := 24, stValue := 8 }

/-- 32-bit layout (ARM), include/fpm/elf.h:459-474, 623-634, 654-661, 703-706, 714-718. -/
def elf32 : Layout :=
  { w := 4, cls := 1, machine := 40, eShoff := 32, eShnum := 48, shdr := 40, shFlags := 8,
    shOffset := 16, shSize := 20, shLink := 24, shEnt := 36, rel := 8, rela := 12, rInfo := 4,
    symShift := 8, sym := 16, stValue := 4 }

/-- Little-endian read of `n` bytes at offset `off` of the image. -/
def rd (img : List Nat) (off : Nat) : Nat → Option Nat
  | 0 => some 0
  | n + 1 =>
    match img[off]?, rd img (off + 1) n with
    | some b, some v => some (b + 256 * v)
    | _, _ => none

/-- `fpm_section_by_type_flags`, kernel/fpm_loader.c:37-49, loop from section `i` with `n` sections
left: offset of the section header.  Outer `none`: read outside the image. -/
def findSection (L : Layout) (img : List Nat) (shoff type flags : Nat) :
    Nat → Nat → Option (Option Nat)
  | 0, _ => some none
  | n + 1, i =>
    match rd img (shoff + i * L.shdr + 4) 4 with
    | none => none
    | some ty =>
      if ty = type then
        match rd img (shoff + i * L.shdr + L.shFlags) L.w with
        | none => none
        | some fl =>
          if fl &&& flags = flags then some (some (shoff + i * L.shdr))
          else findSection L img shoff type flags n (i + 1)
      else findSection L img shoff type flags n (i + 1)

/-- What `fpm_load` leaves in the context. -/
structure Ctx where
  /-- offset of the header of the relocation section -/
  relSection : Nat
  numLinks : Nat
deriving DecidableEq, Repr

/-- Header checks of `fpm_load`, kernel/fpm_loader.c:74-127.  Inner `false`: rejected. -/
def checkHeader (L : Layout) (img : List Nat) : Option Bool :=
  match rd img 0 4, rd img 6 1, rd img 5 1, rd img 4 1, rd img 16 2, rd img 18 2 with
  | some mag, some ver, some data, some cls, some ty, some mach =>
    some (mag = 0x464c457f ∧ ver = 1 ∧ data = 1 ∧ cls = L.cls ∧ ty = 3 ∧ mach = L.machine)
  | _, _, _, _, _, _ => none

/-- Relocation section of `fpm_load`, kernel/fpm_loader.c:130-139: RELA, else REL. -/
def findRel (L : Layout) (img : List Nat) : Option (Option Nat) :=
  match rd img L.eShoff L.w, rd img L.eShnum 2 with
  | some shoff, some shnum =>
    match findSection L img shoff 4 0x40 shnum 0 with
    | none => none
    | some (some s) => some (some s)
    | some none => findSection L img shoff 9 0x40 shnum 0
  | _, _ => none

/-- `fpm_load`, kernel/fpm_loader.c:65-146, of a mapped image.  Outer `none`: undefined behaviour
(read outside the image, division by zero); inner `none`: refused.  The order of the header checks
is not modelled: they are read together, so a file is required to hold a whole header. -/
def load (L : Layout) (img : List Nat) : Option (Option Ctx) :=
  match checkHeader L img with
  | none => none
  | some false => some none
  | some true =>
    match findRel L img with
    | none => none
    | some none => some none
    | some (some s) =>
      match rd img (s + L.shSize) L.w, rd img (s + L.shEnt) L.w with
      | some size, some ent =>
        if ent = 0 then none
        else some (some { relSection := s, numLinks := size / ent % 2 ^ 32 })
      | _, _ => none

/-- The C string at an offset of the image. -/
def cstring : List Nat → Option (List Nat)
  | [] => none
  | c :: s => if c = 0 then some [] else (cstring s).map (c :: ·)

/-- Symbol index of relocation `i`, kernel/fpm_loader.c:164-172. -/
def relSym (L : Layout) (img : List Nat) (ctx : Ctx) (i : Nat) : Option Nat :=
  match rd img (ctx.relSection + 4) 4, rd img (ctx.relSection + L.shOffset) L.w with
  | some ty, some off =>
    (rd img (off + i * (if ty = 4 then L.rela else L.rel) + L.rInfo) L.w).map
      (fun info => (info >>> L.symShift) % 2 ^ 32)
  | _, _ => none

/-- `fpm_section_by_index` and the field `sh_offset`, kernel/fpm_loader.c:54-60. -/
def sectionOffset (L : Layout) (img : List Nat) (index : Nat) : Option Nat :=
  (rd img L.eShoff L.w).bind fun shoff => rd img (shoff + index * L.shdr + L.shOffset) L.w

/-- Field `sh_link` of section `index`. -/
def sectionLink (L : Layout) (img : List Nat) (index : Nat) : Option Nat :=
  (rd img L.eShoff L.w).bind fun shoff => rd img (shoff + index * L.shdr + L.shLink) 4

/-- `fpm_get_name`, kernel/fpm_loader.c:159-187: name and 32-bit value of the symbol of
relocation `i`. -/
def getName (L : Layout) (img : List Nat) (ctx : Ctx) (i : Nat) : Option (List Nat × Nat) := do
  let k ← relSym L img ctx i
  let dyn ← rd img (ctx.relSection + L.shLink) 4
  let symOff ← sectionOffset L img dyn
  let value ← rd img (symOff + k * L.sym + L.stValue) L.w
  let str ← sectionLink L img dyn
  let strOff ← sectionOffset L img str
  let nameOff ← rd img (symOff + k * L.sym) 4
  let name ← cstring (img.drop (strOff + nameOff))
  some (name, value % 2 ^ 32)

/-- A link map: its entries after the parent link, up to the null name. -/
abbrev Map := List (List Nat × Nat)

/-- Inner loop of `find_address_by_name`, kernel/fpm_loader.c:208-212. -/
def inMap (name : List Nat) : Map → Option Nat
  | [] => none
  | (n, a) :: m => if name = n then some a else inMap name m

/-- `find_address_by_name`, kernel/fpm_loader.c:204-221.  The maps linked by the parent links are a
list, the child's first; 0 is the null result. -/
def findAddress (name : List Nat) : List Map → Nat
  | [] => 0
  | m :: ms =>
    match inMap name m with
    | some a => a
    | none => findAddress name ms

/-- An entry of the table built by `fpm_invoke`. -/
inductive Slot where
  /-- address inside the program: `value + base` -/
  | own (value : Nat)
  /-- address from a link map -/
  | ext (address : Nat)
deriving DecidableEq, Repr

/-- Binding loop of `fpm_invoke`, kernel/fpm_loader.c:278-297, from relocation `i` with `n` left.
`fails` counts missing symbols.  Slots are only stored while there is no failure. -/
def bindLoop (L : Layout) (img : List Nat) (ctx : Ctx) (maps : List Map) :
    Nat → Nat → Nat → List Slot → Option (Nat × List Slot)
  | 0, _, fails, got => some (fails, got)
  | n + 1, i, fails, got =>
    match getName L img ctx i with
    | none => none
    | some (name, value) =>
      if value ≠ 0 then bindLoop L img ctx maps n (i + 1) fails (got ++ [.own value])
      else if findAddress name maps = 0 then bindLoop L img ctx maps n (i + 1) (fails + 1) got
      else if fails = 0 then
        bindLoop L img ctx maps n (i + 1) fails (got ++ [.ext (findAddress name maps)])
      else bindLoop L img ctx maps n (i + 1) fails got

/-- `fpm_invoke`, kernel/fpm_loader.c:271-322: `some (some got)` if the program is entered with the
table `got`, `some none` if it is not entered. -/
def invoke (L : Layout) (img : List Nat) (ctx : Ctx) (maps : List Map) :
    Option (Option (List Slot)) :=
  (bindLoop L img ctx maps ctx.numLinks 0 0 []).map
    fun r => if r.1 > 0 then none else some r.2

end Fpm.Loader
