/-!
# The flash disk of the Pico

Model of `pico/flash.c` and of the part of `pico/diskio.c` for drive 0.  The chip is a function from addresses to bytes; what the Pico SDK does with it (`flash_range_erase`, `flash_range_program`) is described by what the SDK documents.
The names of chips and the serial number are left out.
-/
namespace Fpm.Flash

/-- `DISK_OK`, `DISK_ERROR`, `DISK_PARERR` of `disk_result_t`, include/fpm/diskio.h:54-60. -/
def DISK_OK : Nat := 0
/-- see `DISK_OK` -/
def DISK_ERROR : Nat := 1
/-- see `DISK_OK` -/
def DISK_PARERR : Nat := 4

/-- Size of the chip by manufacturer and device, pico/flash.c:90-120. -/
def chipSize (mf dev : Nat) : Nat :=
  if mf = 0xef then
    if dev = 0x4015 ∨ dev = 0x7015 then 2 * 1024 * 1024
    else if dev = 0x4016 ∨ dev = 0x7016 then 4 * 1024 * 1024
    else if dev = 0x4017 ∨ dev = 0x7017 then 8 * 1024 * 1024
    else if dev = 0x4018 ∨ dev = 0x7018 then 16 * 1024 * 1024
    else 2 * 1024 * 1024
  else if mf = 0x1f then
    if dev = 0x8601 then 2 * 1024 * 1024
    else if dev = 0x8701 then 4 * 1024 * 1024
    else if dev = 0x8801 then 8 * 1024 * 1024
    else if dev = 0x8901 then 16 * 1024 * 1024
    else 2 * 1024 * 1024
  else 2 * 1024 * 1024

/-- What `flash_probe` leaves: `flash_base_offset` (32 bits) and `flash_info.num_bytes` (64 bits). -/
structure Info where
  base : Nat
  num : Nat
deriving DecidableEq

/-- `flash_probe`, pico/flash.c:81-130; `len` is `__flash_binary_end - __flash_binary_start`.  `~0xffff` is 2^32 - 2^16 after conversion to unsigned. -/
def probe (mf dev len : Nat) : Info :=
  ⟨(len + 0xffff) % 2 ^ 32 &&& (2 ^ 32 - 2 ^ 16), (chipSize mf dev + 2 ^ 64 - ((len + 0xffff) % 2 ^ 32 &&& (2 ^ 32 - 2 ^ 16))) % 2 ^ 64⟩

/-- `flash_block_count`, pico/flash.c:135-141; the result has 32 bits. -/
def blockCount (f : Info) : Nat := f.num / 4096 % 2 ^ 32

/-- Outcome of an access; `ub`: an address outside of the chip is used. -/
inductive Out (α : Type) where
  | err (res : Nat)
  | ok (a : α)
  | ub
deriving DecidableEq

/-- `memcpy` from the chip. -/
def bytes (mem : Nat → Nat) (a n : Nat) : List Nat := (List.range n).map (fun i => mem (a + i))

/-- `flash_read`, pico/flash.c:151-167; `size` is the size of the chip.  Index arithmetic on `flash_disk_image` does not wrap. -/
def read (size : Nat) (f : Info) (mem : Nat → Nat) (block count : Nat) : Out (List Nat) :=
  if count = 0 then .err DISK_PARERR
  else if (block * 4096 % 2 ^ 32 + count * 4096 % 2 ^ 32) % 2 ^ 32 > f.num then .err DISK_PARERR
  else if f.base + block * 4096 % 2 ^ 32 + count * 4096 % 2 ^ 32 > size then .ub
  else .ok (bytes mem (f.base + block * 4096 % 2 ^ 32) (count * 4096 % 2 ^ 32))

/-- `flash_range_erase` of the Pico SDK: all bits of the range become one. -/
def erase (mem : Nat → Nat) (a n : Nat) : Nat → Nat := fun x => if a ≤ x ∧ x < a + n then 0xFF else mem x

/-- `flash_range_program` of the Pico SDK: bits can only become zero. -/
def program (mem : Nat → Nat) (a n : Nat) (buf : List Nat) : Nat → Nat := fun x => if a ≤ x ∧ x < a + n then mem x &&& buf.getD (x - a) 0 else mem x

/-- `flash_write`, pico/flash.c:169-191: the sum `flash_base_offset + offset` has 32 bits. -/
def write (size : Nat) (f : Info) (mem : Nat → Nat) (buf : List Nat) (block count : Nat) : Out (Nat → Nat) :=
  if count * 4096 % 2 ^ 32 = 0 ∨ (block * 4096 % 2 ^ 32 + count * 4096 % 2 ^ 32) % 2 ^ 32 > f.num then .err DISK_PARERR
  else if (f.base + block * 4096 % 2 ^ 32) % 2 ^ 32 + count * 4096 % 2 ^ 32 > size then .ub
  else
    .ok (program (erase mem ((f.base + block * 4096 % 2 ^ 32) % 2 ^ 32) (count * 4096 % 2 ^ 32)) ((f.base + block * 4096 % 2 ^ 32) % 2 ^ 32)
      (count * 4096 % 2 ^ 32) buf)

/-- `disk_ioctl` with `GET_SECTOR_COUNT` for drive 0, pico/diskio.c:306-333. -/
def sectorCount (f : Info) : Out Nat := if blockCount f = 0 then .err DISK_ERROR else .ok (blockCount f)

/-- A request to `disk_read` or `disk_write` for drive 0, pico/diskio.c:248-266 and 274-292. -/
inductive Op where
  | rd (block count : Nat)
  | wr (block : Nat) (buf : List Nat)

/-- What a request gives. -/
inductive Got where
  | data (l : List Nat)
  | done
  | err (res : Nat)
  | ub
deriving DecidableEq

/-- Result of `disk_read`, drive 0, pico/diskio.c:254-256. -/
def gotRead : Out (List Nat) → Got
  | .ok l => .data l
  | .err r => .err r
  | .ub => .ub

/-- Result of `disk_write`, drive 0, pico/diskio.c:280-282, and the chip after it. -/
def gotWrite (mem : Nat → Nat) : Out (Nat → Nat) → (Nat → Nat) × Got
  | .ok m => (m, .done)
  | .err r => (mem, .err r)
  | .ub => (mem, .ub)

/-- One request; the buffer of a write holds whole blocks. -/
def step (size : Nat) (f : Info) (mem : Nat → Nat) : Op → (Nat → Nat) × Got
  | .rd b c => (mem, gotRead (read size f mem b c))
  | .wr b buf => gotWrite mem (write size f mem buf b (buf.length / 4096))

/-- Requests one after the other. -/
def run (size : Nat) (f : Info) : (Nat → Nat) → List Op → (Nat → Nat) × List Got
  | mem, [] => (mem, [])
  | mem, o :: os => ((run size f (step size f mem o).1 os).1, (step size f mem o).2 :: (run size f (step size f mem o).1 os).2)

end Fpm.Flash
