/-!
# Block devices

Model of `disk_read`/`disk_write` of the Unix port, of the flash driver and of the image tool, and
of the block transfer of the SD card driver.  The medium is a list of bytes.  `unsigned` is 32 bits
wide, its arithmetic wraps around.
-/
namespace Fpm.DiskIo

/-- 32-bit unsigned arithmetic. -/
def u32 (n : Nat) : Nat := n % 2 ^ 32

/-- Result of an access. -/
inductive Res (α : Type) where
  | refused
  | ioError
  | ok (a : α)
deriving DecidableEq, Repr

/-- Bytes at an offset of the medium; fewer if the medium ends. -/
def slice (m : List Nat) (off n : Nat) : List Nat := (m.drop off).take n

/-- Overwriting bytes of a file at an offset; a file grows if needed (the gap reads as zero). -/
def splice (m : List Nat) (off : Nat) (d : List Nat) : List Nat :=
  m.take off ++ List.replicate (off - m.length) 0 ++ d ++ m.drop (off + d.length)

/-! ## Unix port -/

/-- The checks of `disk_read` and `disk_write`, unix/diskio_unix.c:188-198 and 213-223: sector size
`ss`, medium of `size` bytes; yields byte offset and length.  The result of `lseek` is truncated to
`int`, so an offset of 2^31 or more looks like an error. -/
def unixRange (ss size sector count : Nat) : Res (Nat × Nat) :=
  if count = 0 then .refused
  else if u32 (u32 (sector * ss) + u32 (count * ss)) > size then .refused
  else if u32 (sector * ss) ≥ 2 ^ 31 then .ioError
  else .ok (u32 (sector * ss), u32 (count * ss))

/-- `disk_read`, unix/diskio_unix.c:185-205: the bytes stored in the buffer.  A short `read` is not
noticed. -/
def unixRead (ss size : Nat) (m : List Nat) (sector count : Nat) : Res (List Nat) :=
  match unixRange ss size sector count with
  | .ok (off, n) => .ok (slice m off n)
  | .refused => .refused
  | .ioError => .ioError

/-- `disk_write`, unix/diskio_unix.c:210-230: the new contents of the medium. -/
def unixWrite (ss size : Nat) (m buf : List Nat) (sector count : Nat) : Res (List Nat) :=
  match unixRange ss size sector count with
  | .ok (off, n) => .ok (splice m off (buf.take n))
  | .refused => .refused
  | .ioError => .ioError

/-! ## Flash driver -/

/-- `flash_read`, pico/flash.c:151-167, of a flash disk of `size` bytes.  `none`: memory outside
the flash disk is read. -/
def flashRead (ss size : Nat) (m : List Nat) (block count : Nat) : Option (Res (List Nat)) :=
  if count = 0 then some .refused
  else if u32 (u32 (block * ss) + u32 (count * ss)) > size then some .refused
  else if u32 (block * ss) + u32 (count * ss) ≤ size then
    some (.ok (slice m (u32 (block * ss)) (u32 (count * ss))))
  else none

/-- `flash_write`, pico/flash.c:169-191.  `flash` is the whole flash memory: `base` bytes of program
followed by the disk.  `none`: memory beyond the flash is erased and programmed. -/
def flashWrite (ss base size : Nat) (flash buf : List Nat) (block count : Nat) :
    Option (Res (List Nat)) :=
  if u32 (count * ss) = 0 then some .refused
  else if u32 (u32 (block * ss) + u32 (count * ss)) > size then some .refused
  else if u32 (block * ss) + u32 (count * ss) ≤ size then
    some (.ok (splice flash (u32 (base + u32 (block * ss))) (buf.take (u32 (count * ss)))))
  else none

/-! ## Image tool -/

/-- Sectors of the image: `std::map<unsigned, SectorData>`. -/
abbrev Image := Nat → Option (List Nat)

/-- Loop of `disk_read`, tools/uf2fat/diskio.cpp:63-67; `none`: the map throws. -/
def imageReadLoop (im : Image) : Nat → Nat → Option (List Nat)
  | _, 0 => some []
  | sector, n + 1 =>
    match im sector, imageReadLoop im (u32 (sector + 1)) n with
    | some d, some ds => some (d ++ ds)
    | _, _ => none

/-- `disk_read`, tools/uf2fat/diskio.cpp:55-69; exceptions are `refused`. -/
def imageRead (ss size : Nat) (im : Image) (sector count : Nat) : Res (List Nat) :=
  if count = 0 then .refused
  else if u32 (sector + count) > size / ss then .refused
  else
    match imageReadLoop im sector count with
    | some d => .ok d
    | none => .refused

/-- Loop of `disk_write`, tools/uf2fat/diskio.cpp:79-83. -/
def imageWriteLoop (ss : Nat) : Image → List Nat → Nat → Nat → Image
  | im, _, _, 0 => im
  | im, buf, sector, n + 1 =>
    imageWriteLoop ss (fun s => if s = sector then some (buf.take ss) else im s) (buf.drop ss)
      (u32 (sector + 1)) n

/-- `disk_write`, tools/uf2fat/diskio.cpp:71-85. -/
def imageWrite (ss size : Nat) (im : Image) (buf : List Nat) (sector count : Nat) : Res Image :=
  if count = 0 then .refused
  else if u32 (sector + count) > size / ss then .refused
  else .ok (imageWriteLoop ss im buf sector count)

/-! ## SD card -/

/-- What the card does during `in_sd_write_blocks`: response to the write command, the response
token to each data block (`true`: accepted), and the result of the final status command. -/
structure Card where
  cmdOk : Bool
  accept : Nat → Bool
  statusOk : Bool

/-- Write loop, pico/sd_pico/sd_card.c:1046-1055, `do … while (--blockCnt)`, with `n` blocks to
send, starting with block `i`: number of blocks accepted, and whether a block was rejected. -/
def sdLoop (c : Card) : Nat → Nat → Nat × Bool
  | 0, i => (i, false)
  | n + 1, i => if c.accept i then sdLoop c n (i + 1) else (i, true)

/-- `in_sd_write_blocks`, pico/sd_pico/sd_card.c:1012-1066, for a ready card of `sectors` sectors:
result, and the number of blocks the card accepted.  The status of the loop is overwritten by the
status command.  With `count` 0 the loop counter wraps around. -/
def sdWrite (sectors : Nat) (c : Card) (sector count : Nat) : Res Unit × Nat :=
  if sector + count > sectors then (.refused, 0)
  else if !c.cmdOk then (.ioError, 0)
  else
    ((if c.statusOk then .ok () else .ioError),
      (sdLoop c (if count = 0 then 2 ^ 32 else count) 0).1)

/-- Reading: command result, and for each block data with the checksum received. -/
structure ReadCard where
  cmdOk : Bool
  /-- `none`: no start token within the timeout -/
  block : Nat → Option (List Nat × Nat)
  stopOk : Bool

/-- Read loop, pico/sd_pico/sd_card.c:938-945, with `sd_read_block` (872-905); `crc` is the checksum
function.  `none`: an error. -/
def sdReadLoop (crc : List Nat → Nat) (c : ReadCard) : Nat → Nat → Option (List Nat)
  | 0, _ => some []
  | n + 1, i =>
    match c.block i with
    | none => none
    | some (d, k) =>
      if crc d ≠ k then none
      else (sdReadLoop crc c n (i + 1)).map (d ++ ·)

/-- `in_sd_read_blocks`, pico/sd_pico/sd_card.c:907-951, for a ready card; errors are `ioError`. -/
def sdRead (crc : List Nat → Nat) (sectors : Nat) (c : ReadCard) (sector count : Nat) :
    Res (List Nat) :=
  if sector + count > sectors then .refused
  else if !c.cmdOk then .ioError
  else
    match sdReadLoop crc c count 0 with
    | none => .ioError
    | some d => if count > 1 ∧ !c.stopOk then .ioError else .ok d

end Fpm.DiskIo
