/-!
# Integers in FAT structures

Model of `ld_word`, `ld_dword`, `ld_qword`, `st_word`, `st_dword`, `st_qword` of `fatfs/fatfs.c`.  Memory is
a list of bytes and a pointer an index into it; an access outside is the outcome `none`.
-/
namespace Fpm.FatBytes

/-- One step `rv = rv << 8 | byte` on a variable of `n` bits, fatfs/fatfs.c:431. -/
def shiftIn (n rv b : Nat) : Nat := (rv <<< 8 ||| b) % 2 ^ n

/-- `ld_word`, fatfs/fatfs.c:426-433. -/
def ldWord (m : List Nat) (p : Nat) : Option Nat :=
  m[p + 1]?.bind fun b1 => m[p]?.bind fun b0 => some (shiftIn 16 b1 b0)

/-- `ld_dword`, fatfs/fatfs.c:435-444. -/
def ldDword (m : List Nat) (p : Nat) : Option Nat :=
  m[p + 3]?.bind fun b3 => m[p + 2]?.bind fun b2 => m[p + 1]?.bind fun b1 => m[p]?.bind fun b0 =>
    some (shiftIn 32 (shiftIn 32 (shiftIn 32 b3 b2) b1) b0)

/-- `ld_qword`, fatfs/fatfs.c:446-459. -/
def ldQword (m : List Nat) (p : Nat) : Option Nat :=
  m[p + 7]?.bind fun b7 => m[p + 6]?.bind fun b6 => m[p + 5]?.bind fun b5 => m[p + 4]?.bind fun b4 =>
    m[p + 3]?.bind fun b3 => m[p + 2]?.bind fun b2 => m[p + 1]?.bind fun b1 => m[p]?.bind fun b0 =>
      some (shiftIn 64 (shiftIn 64 (shiftIn 64 (shiftIn 64 (shiftIn 64 (shiftIn 64 (shiftIn 64 b7 b6) b5) b4) b3) b2) b1) b0)

/-- `*ptr = (uint8_t)val`. -/
def stByte (m : List Nat) (p v : Nat) : Option (List Nat) := if p < m.length then some (m.set p (v % 256)) else none

/-- `st_word`, fatfs/fatfs.c:462-467. -/
def stWord (m : List Nat) (p v : Nat) : Option (List Nat) :=
  (stByte m p v).bind fun m => stByte m (p + 1) (v >>> 8)

/-- `st_dword`, fatfs/fatfs.c:469-478. -/
def stDword (m : List Nat) (p v : Nat) : Option (List Nat) :=
  (stByte m p v).bind fun m => (stByte m (p + 1) (v >>> 8)).bind fun m => (stByte m (p + 2) (v >>> 8 >>> 8)).bind fun m =>
    stByte m (p + 3) (v >>> 8 >>> 8 >>> 8)

/-- `st_qword`, fatfs/fatfs.c:480-497. -/
def stQword (m : List Nat) (p v : Nat) : Option (List Nat) :=
  (stByte m p v).bind fun m => (stByte m (p + 1) (v >>> 8)).bind fun m => (stByte m (p + 2) (v >>> 8 >>> 8)).bind fun m =>
    (stByte m (p + 3) (v >>> 8 >>> 8 >>> 8)).bind fun m => (stByte m (p + 4) (v >>> 8 >>> 8 >>> 8 >>> 8)).bind fun m =>
      (stByte m (p + 5) (v >>> 8 >>> 8 >>> 8 >>> 8 >>> 8)).bind fun m =>
        (stByte m (p + 6) (v >>> 8 >>> 8 >>> 8 >>> 8 >>> 8 >>> 8)).bind fun m =>
          stByte m (p + 7) (v >>> 8 >>> 8 >>> 8 >>> 8 >>> 8 >>> 8 >>> 8)

end Fpm.FatBytes
