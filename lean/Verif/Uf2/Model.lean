/-!
# The tool that puts a file system into a UF2 file

Model of `tools/uf2fat/format.cpp` on the bytes of the files, little-endian host, and of the place where the firmware looks for the file system (`pico/flash.c`).
Unsigned variables have 32 bits, `size_t` has 64.  The file system itself is built by FatFs: it enters as the list of sectors of `fs_image`, in the order of the map.
Messages are left out; a failed run has no output.
-/
namespace Fpm.Uf2

/-- Fields and bytes of a block, tools/uf2fat/uf2.h:47-64. -/
structure Block where
  magicStart0 : Nat
  magicStart1 : Nat
  flags : Nat
  targetAddr : Nat
  payloadSize : Nat
  blockNo : Nat
  numBlocks : Nat
  reserved : Nat
  data : List Nat
  magicEnd : Nat
deriving DecidableEq

/-- Little-endian number in the bytes. -/
def num : List Nat → Nat
  | [] => 0
  | b :: l => b + 256 * num l

/-- Bytes of a 32-bit number. -/
def le32 (v : Nat) : List Nat := [v % 256, v / 2 ^ 8 % 256, v / 2 ^ 16 % 256, v / 2 ^ 24 % 256]

/-- A block read from a file: layout of tools/uf2fat/uf2.h:47-64. -/
def decode (s : List Nat) : Block :=
  ⟨num (s.take 4), num ((s.drop 4).take 4), num ((s.drop 8).take 4), num ((s.drop 12).take 4), num ((s.drop 16).take 4), num ((s.drop 20).take 4), num ((s.drop 24).take 4),
    num ((s.drop 28).take 4), (s.drop 32).take 476, num ((s.drop 508).take 4)⟩

/-- A block written to a file. -/
def encode (b : Block) : List Nat :=
  le32 b.magicStart0 ++ le32 b.magicStart1 ++ le32 b.flags ++ le32 b.targetAddr ++ le32 b.payloadSize ++ le32 b.blockNo ++ le32 b.numBlocks ++ le32 b.reserved ++ b.data ++ le32 b.magicEnd

/-- Results of the scan. -/
structure Loc where
  flashStart : Nat
  progEnd : Nat
  family : Nat
deriving DecidableEq

/-- `scan_block`, tools/uf2fat/format.cpp:141-166; `none`: the program ends with an error. -/
def scanBlock (b : Block) (l : Loc) : Option Loc :=
  if b.magicStart0 ≠ 0x0A324655 ∨ b.magicStart1 ≠ 0x9E5D5157 ∨ b.magicEnd ≠ 0x0AB16F30 then none
  else some
    ⟨if b.targetAddr < l.flashStart then b.targetAddr else l.flashStart,
     if (b.targetAddr + b.payloadSize) % 2 ^ 32 > l.progEnd then (b.targetAddr + b.payloadSize) % 2 ^ 32 else l.progEnd,
     if b.flags &&& 0x2000 ≠ 0 ∧ l.family = 0 then b.reserved else l.family⟩

/-- A block that is not to be flashed. -/
def noFlash (b : Block) : Bool := b.flags &&& 1 != 0

/-- The test for the last block, tools/uf2fat/format.cpp:191, 288, 307. -/
def isLast (b : Block) : Bool := (b.blockNo + 1) % 2 ^ 32 == b.numBlocks

/-- Loop of `get_location_and_family`, tools/uf2fat/format.cpp:186-195; `n` whole blocks to go. -/
def scan : Nat → List Nat → Loc → Option Loc
  | 0, _, l => some l
  | n + 1, f, l =>
    if noFlash (decode (f.take 512)) then scan n (f.drop 512) l
    else
      match scanBlock (decode (f.take 512)) l with
      | none => none
      | some l' => if isLast (decode (f.take 512)) then some l' else scan n (f.drop 512) l'

/-- `get_location_and_family`, tools/uf2fat/format.cpp:172-203. -/
def getLocation (f : List Nat) : Option Loc := scan (f.length / 512) f ⟨2 ^ 32 - 1, 0, 0⟩

/-- Loops over the input in `save_image`, tools/uf2fat/format.cpp:283-292, 302-312: number of blocks up to the last one; `none`: there is no last block. -/
def kept : Nat → List Nat → Option Nat
  | 0, _ => none
  | n + 1, f =>
    if noFlash (decode (f.take 512)) then (kept n (f.drop 512)).map (· + 1)
    else if isLast (decode (f.take 512)) then some 1
    else (kept n (f.drop 512)).map (· + 1)

/-- The part of the input that is in front of the file system.  In place (no output file) an input without a last block ends the program: the position is -1, and
`resize_file` throws.  Otherwise all its whole blocks are copied. -/
def front (inPlace : Bool) (f : List Nat) : Option (List Nat) :=
  match kept (f.length / 512) f with
  | some k => some (f.take (512 * k))
  | none => if inPlace then none else some (f.take (512 * (f.length / 512)))

/-- Data of a block: 256 bytes of the sector in the cleared field, tools/uf2fat/format.cpp:247, 262. -/
def pad (data : List Nat) : List Nat := data.take 256 ++ List.replicate 220 0

/-- Loop of `write_sector`, tools/uf2fat/format.cpp:261-266; `n` blocks to go. -/
def sectorBlocks : Nat → Block → List Nat → List Nat
  | 0, _, _ => []
  | n + 1, b, data =>
    encode { b with data := pad data } ++
      sectorBlocks n { b with blockNo := b.blockNo + 1, targetAddr := (b.targetAddr + 256) % 2 ^ 32 } (data.drop 256)

/-- `write_sector`, tools/uf2fat/format.cpp:245-267. -/
def writeSector (address : Nat) (data : List Nat) (family : Nat) : List Nat :=
  sectorBlocks 16 ⟨0x0A324655, 0x9E5D5157, if family ≠ 0 then 0x2000 else 0, address, 256, 0, 16, family, [], 0x0AB16F30⟩ data

/-- Sectors of the file system, tools/uf2fat/format.cpp:314-317. -/
def imageBytes (fsStart family : Nat) : List (Nat × List Nat) → List Nat
  | [] => []
  | (s, d) :: l => writeSector ((fsStart + s * 4096) % 2 ^ 32) d family ++ imageBytes fsStart family l

/-- `save_image`, tools/uf2fat/format.cpp:272-318. -/
def saveImage (inPlace : Bool) (f : List Nat) (fsStart family : Nat) (image : List (Nat × List Nat)) : Option (List Nat) :=
  (front inPlace f).map (· ++ imageBytes fsStart family image)

/-- Start of the file system, tools/uf2fat/format.cpp:331. -/
def fsStart (progEnd : Nat) : Nat := (progEnd + 0x10000) % 2 ^ 32 / 0x10000 * 0x10000

/-- Start and size of the file system, tools/uf2fat/format.cpp:331-339; `none`: not enough space. -/
def place (l : Loc) (flashBytes : Nat) : Option (Nat × Nat) :=
  if (l.flashStart + flashBytes) % 2 ^ 64 < (fsStart l.progEnd + 5 * 4096) % 2 ^ 32 then none
  else some (fsStart l.progEnd, ((l.flashStart + flashBytes) % 2 ^ 64 + 2 ^ 64 - fsStart l.progEnd) % 2 ^ 32)

/-- `format_filesystem`, tools/uf2fat/format.cpp:323-346.  `build` is the file system made for a size (`build_filesystem`). -/
def format (inPlace : Bool) (f : List Nat) (flashBytes : Nat) (build : Nat → List (Nat × List Nat)) : Option (List Nat) :=
  match getLocation f with
  | none => none
  | some l =>
    match place l flashBytes with
    | none => none
    | some (start, size) => saveImage inPlace f start l.family (build size)

/-- Offset of the file system in the flash memory according to the firmware, pico/flash.c:122-126, for a program of this length. -/
def firmwareOffset (len : Nat) : Nat := (len + 0xffff) % 2 ^ 32 / 0x10000 * 0x10000

/-! ## Size on the command line -/

/-- Value of a character as a digit. -/
def digit (base c : Nat) : Option Nat :=
  let v := if 48 ≤ c ∧ c ≤ 57 then c - 48 else if 97 ≤ c ∧ c ≤ 122 then c - 87 else if 65 ≤ c ∧ c ≤ 90 then c - 55 else 99
  if v < base then some v else none

/-- Digits of `std::stoul`: number and rest. -/
def digits (base : Nat) : List Nat → Nat → Nat × List Nat
  | [], n => (n, [])
  | c :: s, n =>
    match digit base c with
    | none => (n, c :: s)
    | some d => digits base s (n * base + d)

/-- `std::stoul(str, &pos, 0)`: number and rest; `none` is an exception.  Simplified: no white space and no sign in front. -/
def stoul (s : List Nat) : Option (Nat × List Nat) :=
  match s with
  | 48 :: x :: c :: r => if (x = 120 ∨ x = 88) ∧ (digit 16 c).isSome then some (digits 16 (c :: r) 0) else some (digits 8 s 0)
  | 48 :: _ => some (digits 8 s 0)
  | c :: _ => if (digit 10 c).isSome then some (digits 10 s 0) else none
  | [] => none

/-- `parse_size`, tools/uf2fat/main.cpp:44-61; `none`: the program ends with a message or an exception. -/
def parseSize (s : List Nat) : Option Nat :=
  match stoul s with
  | none => none
  | some (n, r) =>
    if 2 ^ 64 ≤ n then none
    else
      match r with
      | [] => some n
      | c :: _ => if c = 107 ∨ c = 75 then some (n * 1024 % 2 ^ 64) else if c = 109 ∨ c = 77 then some (n * (1024 * 1024) % 2 ^ 64) else none

end Fpm.Uf2
