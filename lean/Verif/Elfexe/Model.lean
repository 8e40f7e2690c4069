/-!
# The tool that rewrites the procedure linkage table of a program

Model of `tools/elfexe/elfexe.c` on the bytes of the mapped file.  The host is little-endian.  An access outside of the file is the
outcome `ub` (on the machine: zeros up to the end of the page, then a signal).  Simplified: `sh_offset` and `sh_size` are read once, that is, the table does not overlap its
own section header; offsets do not wrap around (files below 4 GB); messages are left out.
-/
namespace Fpm.Elfexe

/-- Little-endian read of `n` bytes. -/
def rd : List Nat → Nat → Option Nat
  | _, 0 => some 0
  | [], _ + 1 => none
  | b :: l, n + 1 => (rd l n).map (b + 256 * ·)

/-- Comparison of bytes at offsets, one after the other, ended by the first difference. -/
def same (c : List Nat) : List (Nat × Nat) → Option Bool
  | [] => some true
  | (o, v) :: r =>
    match c[o]? with
    | none => none
    | some b => if b = v then same c r else some false

/-- `is_amd64_entry`, tools/elfexe/elfexe.c:209-214. -/
def isAmd64Entry (c : List Nat) : Option Bool :=
  same c [(0, 0xf3), (1, 0x0f), (2, 0x1e), (3, 0xfa), (4, 0xff), (5, 0x25), (10, 0x66), (11, 0x0f), (12, 0x1f), (13, 0x44)]

/-- `is_amd64_entry2`, tools/elfexe/elfexe.c:222-225. -/
def isAmd64Entry2 (c : List Nat) : Option Bool := same c [(0, 0xff), (1, 0x25)]

/-- `is_amd64_preamble`, tools/elfexe/elfexe.c:233-238. -/
def isAmd64Preamble (c : List Nat) : Option Bool :=
  same c [(0, 0xff), (1, 0x35), (6, 0xff), (7, 0x25), (12, 0x0f), (13, 0x1f), (14, 0x40), (15, 0x00)]

/-- `(word & mask) == value` for words at offsets, one after the other, ended by the first difference. -/
def sameWords (c : List Nat) : List (Nat × Nat × Nat) → Option Bool
  | [] => some true
  | (o, mask, v) :: r =>
    match rd (c.drop o) 4 with
    | none => none
    | some w => if w &&& mask = v then sameWords c r else some false

/-- `is_arm64_entry`, tools/elfexe/elfexe.c:348-354. -/
def isArm64Entry (c : List Nat) : Option Bool :=
  sameWords c [(0, 0x9f000000, 0x90000000), (4, 0xffc003ff, 0xf9400211), (8, 0xff800000, 0x91000000), (12, 0xffffffff, 0xd61f0220)]

/-- `is_arm32_entry`, tools/elfexe/elfexe.c:414-419. -/
def isArm32Entry (c : List Nat) : Option Bool :=
  sameWords c [(0, 0xfffff000, 0xe28fc000), (4, 0xfffff000, 0xe28cc000), (8, 0xffff0000, 0xe5bc0000)]

/-- Bytes of a 32-bit word. -/
def le32 (v : Nat) : List Nat := [v % 256, v / 2 ^ 8 % 256, v / 2 ^ 16 % 256, v / 2 ^ 24 % 256]

/-- What is done at an entry: outside of the file, a bad entry, left alone, or its first bytes are replaced. -/
inductive Step where
  | ub
  | bad
  | skip
  | patch (bs : List Nat)

/-- Bytes to be written, if they are inside of the file. -/
def write (c bs : List Nat) : Step := if bs.length ≤ c.length then .patch bs else .ub

/-- Code with branch tracking, tools/elfexe/elfexe.c:286-299; `endbr64` is kept (it is what was found there). -/
def amd64Stub (index : Nat) : List Nat :=
  [0xf3, 0x0f, 0x1e, 0xfa, 0x65, 0xff, 0x24, 0x25] ++ le32 (index * 8 % 2 ^ 32) ++ [0x0f, 0x1f, 0x04, 0x00]

/-- Simple code, tools/elfexe/elfexe.c:307-325. -/
def amd64Stub2 (index : Nat) : List Nat :=
  [0x65, 0xff, 0x24, 0x25] ++ le32 (index * 8 % 2 ^ 32) ++ [0x0f, 0x1f, 0x84, 0x00, 0x01, 0x00, 0x00, 0x00]

/-- Body of the loop of `process_amd64_plt`, tools/elfexe/elfexe.c:269-335, on the file from the entry on.  For a bad entry eight bytes are printed. -/
def amd64Step (c : List Nat) (index : Nat) : Step :=
  match isAmd64Preamble c with
  | none => .ub
  | some true => .skip
  | some false =>
    match isAmd64Entry c with
    | none => .ub
    | some true => write c (amd64Stub index)
    | some false =>
      match isAmd64Entry2 c with
      | none => .ub
      | some true => write c (amd64Stub2 index)
      | some false => if 8 ≤ c.length then .bad else .ub

/-- Code for arm64, tools/elfexe/elfexe.c:398-401. -/
def arm64Stub (index : Nat) : List Nat :=
  le32 0xd53bd050 ++ le32 (0x91000210 ||| index <<< 13 % 2 ^ 32) ++ le32 0xf9400211 ++ le32 0xd61f0220

/-- Body of the loop of `process_arm64_plt`, tools/elfexe/elfexe.c:388-403. -/
def arm64Step (c : List Nat) (index : Nat) : Step :=
  match isArm64Entry c with
  | none => .ub
  | some true => write c (arm64Stub index)
  | some false => if 16 ≤ c.length then .bad else .ub

/-- Code for arm32, tools/elfexe/elfexe.c:466-468. -/
def arm32Stub (index : Nat) : List Nat := le32 0xee1dcf50 ++ le32 (0xe59cf000 ||| index) ++ le32 0xe320f000

/-- Body of the second loop of `process_arm32_plt`, tools/elfexe/elfexe.c:456-471. -/
def arm32Step (c : List Nat) (index : Nat) : Step :=
  match isArm32Entry c with
  | none => .ub
  | some true => write c (arm32Stub index)
  | some false => if 12 ≤ c.length then .bad else .ub

/-- How the table is left: with the changed bytes from its start on, and the number of links.  A file with a bad entry keeps what was changed before. -/
inductive Out where
  | ub
  | bad (c : List Nat)
  | ok (c : List Nat) (links : Nat)
deriving DecidableEq

/-- The bytes in front of the others. -/
def Out.behind (l : List Nat) : Out → Out
  | .ub => .ub
  | .bad c => .bad (l ++ c)
  | .ok c n => .ok (l ++ c) n

/-- The loops over the entries of `size` bytes, tools/elfexe/elfexe.c:268, 387, 455: `n` entries to go; `index` is `num_links`. -/
def loop (step : List Nat → Nat → Step) (size : Nat) : Nat → List Nat → Nat → Out
  | 0, c, index => .ok c index
  | n + 1, c, index =>
    match step c index with
    | .ub => .ub
    | .bad => .bad c
    | .skip => (loop step size n (c.drop size) index).behind (c.take size)
    | .patch bs => (loop step size n (c.drop size) (index + 1)).behind bs

/-- Number of rounds of a loop over `size` bytes by steps of `k`. -/
def rounds (size k : Nat) : Nat := (size + k - 1) / k

/-- `process_amd64_plt`, tools/elfexe/elfexe.c:244-339. -/
def amd64 (c : List Nat) (size : Nat) : Out := loop amd64Step 16 (rounds size 16) c 0

/-- `process_arm64_plt`, tools/elfexe/elfexe.c:359-406: the preamble has 32 bytes. -/
def arm64 (c : List Nat) (size : Nat) : Out := (loop arm64Step 16 (rounds (size - 32) 16) (c.drop 32) 0).behind (c.take 32)

/-- Preamble for arm32, tools/elfexe/elfexe.c:448-454: number of words, with `n` words to go. -/
def preamble32 : Nat → List Nat → Option Nat
  | 0, _ => some 0
  | n + 1, c =>
    match isArm32Entry c with
    | none => none
    | some true => some 0
    | some false => (preamble32 n (c.drop 4)).map (· + 1)

/-- `process_arm32_plt`, tools/elfexe/elfexe.c:424-473. -/
def arm32 (c : List Nat) (size : Nat) : Out :=
  match preamble32 (rounds size 4) c with
  | none => .ub
  | some k => (loop arm32Step 12 (rounds (size - 4 * k) 12) (c.drop (4 * k)) 0).behind (c.take (4 * k))

/-! ## The program -/

/-- Positions of fields, include/fpm/elf.h:459-494, 623-648. -/
structure Layout where
  w : Nat
  eShoff : Nat
  eShnum : Nat
  shdr : Nat
  shOffset : Nat
  shSize : Nat

/-- Fields of 64-bit files, include/fpm/elf.h:477-494, 637-648. -/
def elf64 : Layout := ⟨8, 40, 60, 64, 24, 32⟩

/-- Fields of 32-bit files, include/fpm/elf.h:459-474, 623-634. -/
def elf32 : Layout := ⟨4, 32, 48, 40, 16, 20⟩

/-- `strcmp(..., name) == 0`, for the string at the start of `c`. -/
def strEq : List Nat → List Nat → Option Bool
  | [], _ => none
  | b :: _, [] => some (b == 0)
  | b :: c, x :: name => if b = x then strEq c name else some false

/-- `find_elf64_section`, `find_elf32_section`, tools/elfexe/elfexe.c:150-201: offset of the section header; sections from `i`, `n` to go. -/
def find (L : Layout) (img name : List Nat) (shoff strings : Nat) : Nat → Nat → Option (Option Nat)
  | 0, _ => some none
  | n + 1, i =>
    match rd (img.drop (shoff + i * L.shdr)) 4 with
    | none => none
    | some nm =>
      match strEq (img.drop (strings + nm)) name with
      | none => none
      | some true => some (some (shoff + i * L.shdr))
      | some false => find L img name shoff strings n (i + 1)

/-- Table of section headers and names, then the search, tools/elfexe/elfexe.c:150-201.  If there are no sections, nothing else is read. -/
def findSection (L : Layout) (img name : List Nat) : Option (Option Nat) :=
  match rd (img.drop L.eShoff) L.w, rd (img.drop L.eShnum) 2, rd (img.drop (L.eShnum + 2)) 2 with
  | some shoff, some num, some ndx =>
    if num = 0 then some none
    else
      match rd (img.drop (shoff + ndx * L.shdr + L.shOffset)) L.w with
      | none => none
      | some strings => find L img name shoff strings num 0
  | _, _, _ => none

/-- How the program ends: undefined, with an error (and perhaps a changed file), nothing to do, or done. -/
inductive Result where
  | ub
  | fail (img : List Nat)
  | already
  | done (img : List Nat) (links : Nat)
deriving DecidableEq

/-- `check_file_format`, tools/elfexe/elfexe.c:94-135: `none` outside of the file, else the end of the program, or class and machine. -/
def checkFormat (img : List Nat) : Option (Result ⊕ (Nat × Nat)) :=
  match same img [(0, 0x7f), (1, 0x45), (2, 0x4c), (3, 0x46), (6, 1), (5, 1)], rd (img.drop 16) 2, img[7]?, img[4]?, rd (img.drop 18) 2 with
  | some ok, some typ, some abi, some cls, some mach =>
    some (if !ok then .inl (.fail img) else if typ ≠ 3 then .inl (.fail img) else if abi = 255 then .inl .already else .inr (cls, mach))
  | _, _, _, _, _ => none

/-- Mark of a processed file, tools/elfexe/elfexe.c:563-569. -/
def mark (img : List Nat) (links : Nat) : List Nat := if links > 0 then img.set 7 255 else img

/-- Processing of the table found, tools/elfexe/elfexe.c:529-569. -/
def finish (img : List Nat) (off : Nat) : Out → Result
  | .ub => .ub
  | .bad c => .fail (img.take off ++ c)
  | .ok c n => .done (mark (img.take off ++ c) n) n

/-- Section header at `sh`: process the section. -/
def section_ (L : Layout) (img : List Nat) (process : List Nat → Nat → Out) (sh : Nat) : Result :=
  match rd (img.drop (sh + L.shOffset)) L.w, rd (img.drop (sh + L.shSize)) L.w with
  | some off, some size => finish img off (process (img.drop off) size)
  | _, _ => .ub

/-- Names of the sections: `.plt.sec` and `.plt`. -/
def nameSec : List Nat := [46, 112, 108, 116, 46, 115, 101, 99]
@[inherit_doc nameSec] def namePlt : List Nat := [46, 112, 108, 116]

/-- 64-bit programs, tools/elfexe/elfexe.c:517-543. -/
def main64 (img : List Nat) (mach : Nat) (sh : Nat) : Result :=
  if mach = 62 then section_ elf64 img amd64 sh
  else if mach = 183 then section_ elf64 img arm64 sh
  else .fail img

/-- `main`, tools/elfexe/elfexe.c:485-571, for one file. -/
def elfexe (img : List Nat) : Result :=
  match checkFormat img with
  | none => .ub
  | some (.inl r) => r
  | some (.inr (cls, mach)) =>
    if cls = 2 then
      match findSection elf64 img nameSec with
      | none => .ub
      | some (some sh) => main64 img mach sh
      | some none =>
        match findSection elf64 img namePlt with
        | none => .ub
        | some none => .fail img
        | some (some sh) => main64 img mach sh
    else
      match findSection elf32 img namePlt with
      | none => .ub
      | some none => .fail img
      | some (some sh) => if mach = 40 then section_ elf32 img arm32 sh else .fail img

end Fpm.Elfexe
