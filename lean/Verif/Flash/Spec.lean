import Verif.Flash.Model
/-!
# What a flash disk is

An array of blocks of 4096 bytes behind the program, in the rest of the chip.
-/
namespace Fpm.Flash.Spec

/-- Where the disk begins: the next multiple of 64 kbytes after a program of this length. -/
def start (len : Nat) : Nat := (len + 65535) / 65536 * 65536

/-- Number of blocks of a disk on a chip of this size. -/
def blocks (size len : Nat) : Nat := (size - start len) / 4096

/-- The program leaves something of the chip. -/
def Fits (size len : Nat) : Prop := start len < size

/-- All cells of the chip are bytes. -/
def Bytes (mem : Nat → Nat) : Prop := ∀ a, mem a < 256

/-- Contents of a block. -/
def block (len : Nat) (mem : Nat → Nat) (i : Nat) : List Nat := (List.range 4096).map (fun j => mem (start len + i * 4096 + j))

/-- An array of `n` blocks serves a request; requests that do not lie in the array are refused and change nothing. -/
def serve (n : Nat) (d : Nat → List Nat) : Op → (Nat → List Nat) × Got
  | .rd b c => (d, if c ≠ 0 ∧ b + c ≤ n then .data ((List.range c).flatMap (fun i => d (b + i))) else .err DISK_PARERR)
  | .wr b buf =>
    if buf.length / 4096 ≠ 0 ∧ b + buf.length / 4096 ≤ n then
      (fun i => if b ≤ i ∧ i < b + buf.length / 4096 then (buf.drop ((i - b) * 4096)).take 4096 else d i, .done)
    else (d, .err DISK_PARERR)

/-- Requests one after the other. -/
def serveAll (n : Nat) : (Nat → List Nat) → List Op → (Nat → List Nat) × List Got
  | d, [] => (d, [])
  | d, o :: os => ((serveAll n (serve n d o).1 os).1, (serve n d o).2 :: (serveAll n (serve n d o).1 os).2)

/-- Requests as the interface allows them: 32-bit numbers, and data of whole blocks of bytes. -/
def Allowed : Op → Prop
  | .rd b c => b < 2 ^ 32 ∧ c < 2 ^ 32
  | .wr b buf => b < 2 ^ 32 ∧ buf.length / 4096 < 2 ^ 32 ∧ buf.length % 4096 = 0 ∧ ∀ x ∈ buf, x < 256

/-- The last block asked for has a number below 2^20 - 1, so that no byte offset reaches 2^32. -/
def Small : Op → Prop
  | .rd b c => b + c < 2 ^ 20
  | .wr b buf => b + buf.length / 4096 < 2 ^ 20

end Fpm.Flash.Spec
