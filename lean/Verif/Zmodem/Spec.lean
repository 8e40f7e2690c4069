import Verif.Crc.Spec
import Verif.Zmodem.Model
/-!
# ZMODEM on the wire, as a conforming sender produces it
-/
namespace Fpm.Zmodem.Spec
open Polynomial Fpm.Crc.Spec

/-- All bytes arrive unchanged: `char` is unsigned or the byte is ASCII; control-C does not occur where
it kills the program. -/
def Clean (t : Target) (s : List Nat) : Prop :=
  ∀ b ∈ s, b < 256 ∧ (t.signedChar = true → b < 128) ∧ (t.breakOn3 = true → b ≠ 3)

/-- The Pico: `char` is unsigned and control-C is data. -/
def pico : Target := ⟨false, false⟩

/-- Linux on x86-64: `char` is signed and control-C kills the program. -/
def amd64 : Target := ⟨true, true⟩

/-- `Wire p w`: the bytes `w` may be sent for the data `p`.  Flow control characters may occur between
the characters; XON, XOFF and ZDLE themselves are escaped; other control characters may be. -/
inductive Wire : List Nat → List Nat → Prop
  /-- nothing -/
  | nil : Wire [] []
  /-- flow control inserted on the way -/
  | noise (n : Nat) (p w : List Nat) : n = 17 ∨ n = 19 → Wire p w → Wire p (n :: w)
  /-- a byte sent as it is -/
  | plain (b : Nat) (p w : List Nat) : b < 256 → b ≠ 17 → b ≠ 19 → b ≠ 24 → Wire p w → Wire (b :: p) (b :: w)
  /-- an escaped control character (with or without bit 7) -/
  | esc (b : Nat) (p w : List Nat) : b < 32 ∨ (128 ≤ b ∧ b < 160) → Wire p w → Wire (b :: p) (24 :: (b + 64) :: w)
  /-- escaped delete -/
  | rub0 (p w : List Nat) : Wire p w → Wire (127 :: p) (24 :: 108 :: w)
  /-- escaped 255 -/
  | rub1 (p w : List Nat) : Wire p w → Wire (255 :: p) (24 :: 109 :: w)

/-- `c` is the CRC-16 of a message: the remainder of division by X^16 + X^12 + X^5 + 1. -/
def IsCrc16 (m : List Nat) (c : Nat) : Prop := c < 2 ^ 16 ∧ poly 16 c = (X ^ 16 * msg m) %ₘ g16

/-- `c` is the CRC-32 of a message: the complement of the remainder, the register preset to ones. -/
def IsCrc32 (m : List Nat) (c : Nat) : Prop :=
  c < 2 ^ 32 ∧ rpoly 32 (2 ^ 32 - 1 - c) = (X ^ (8 * m.length) * rpoly 32 (2 ^ 32 - 1) + X ^ 32 * rmsg m) %ₘ g32

/-- The check bytes sent after a message: two, high byte first, or four, low byte first. -/
def Check (in32 : Bool) (m cs : List Nat) : Prop :=
  if in32 then ∃ c, IsCrc32 m c ∧ cs = [c % 256, c / 2 ^ 8 % 256, c / 2 ^ 16 % 256, c / 2 ^ 24]
  else ∃ c, IsCrc16 m c ∧ cs = [c / 256, c % 256]

/-- Number of check bytes. -/
def checkLen (in32 : Bool) : Nat := if in32 then 4 else 2

/-- Frame ends: `h` (end, no reply), `i` (more follows), `j` (more follows, reply wanted), `k` (end,
reply wanted). -/
def FrameEnd (e : Nat) : Prop := 104 ≤ e ∧ e ≤ 107

/-- A data subpacket: payload, frame end, check bytes. -/
def Sub (payload : List Nat) (e : Nat) (check w : List Nat) : Prop :=
  FrameEnd e ∧ ∃ w1 w2, Wire payload w1 ∧ Wire check w2 ∧ w = w1 ++ [24, e] ++ w2

/-- Lower-case hexadecimal digit. -/
def digit (n : Nat) : Nat := if n < 10 then 48 + n else 87 + n

/-- Two digits for a byte. -/
def hex2 (b : Nat) : List Nat := [digit (b / 16), digit (b % 16)]

/-- The hexadecimal header for five bytes (type and four bytes of flags or position). -/
def HexHdr (five w : List Nat) : Prop :=
  five.length = 5 ∧ (∀ b ∈ five, b < 256) ∧ ∃ cs, Check false five cs ∧ w = [42, 42, 24, 66] ++ (five ++ cs).flatMap hex2 ++ [13, 138]

/-- The binary header with CRC-16 or CRC-32. -/
def BinHdr (in32 : Bool) (five w : List Nat) : Prop :=
  five.length = 5 ∧ (∀ b ∈ five, b < 256) ∧
    ∃ cs w1, Check in32 five cs ∧ Wire (five ++ cs) w1 ∧ w = [42, 24, if in32 then 67 else 65] ++ w1

/-- Any of the three kinds of header, preceded by characters other than ZDLE; `in32` tells which check
follows data. -/
def Header (in32 : Bool) (five w : List Nat) : Prop :=
  ∃ junk w1, (∀ b ∈ junk, b ≠ 24) ∧ w = junk ++ w1 ∧ (BinHdr in32 five w1 ∨ (in32 = false ∧ HexHdr five w1))

/-- The four bytes of a number, lowest first. -/
def le4 (n : Nat) : List Nat := [n % 256, n / 2 ^ 8 % 256, n / 2 ^ 16 % 256, n / 2 ^ 24 % 256]

/-- `x` after ZDLE stands for the symbol `v`: a byte, or 512 + `e` for the frame end `e`. -/
def EscSym (v x : Nat) : Prop :=
  ((v < 32 ∨ (128 ≤ v ∧ v < 160)) ∧ x = v + 64) ∨ (v = 127 ∧ x = 108) ∨ (v = 255 ∧ x = 109) ∨ (v = 512 + x ∧ FrameEnd x)

/-- Everything a receiver may take for a symbol: like `Wire`, and ZDLE may be repeated up to three
times. -/
inductive Sym : Nat → List Nat → Prop
  /-- flow control before it -/
  | noise (n v : Nat) (w : List Nat) : n = 17 ∨ n = 19 → Sym v w → Sym v (n :: w)
  /-- a byte as it is -/
  | plain (b : Nat) : b < 256 → b ≠ 17 → b ≠ 19 → b ≠ 24 → Sym b [b]
  /-- an escaped symbol -/
  | esc (k v x : Nat) : 1 ≤ k → k ≤ 4 → EscSym v x → Sym v (List.replicate k 24 ++ [x])

/-- A sequence of symbols. -/
inductive Syms : List Nat → List Nat → Prop
  /-- nothing -/
  | nil : Syms [] []
  /-- one more -/
  | cons (v : Nat) (vs w1 w2 : List Nat) : Sym v w1 → Syms vs w2 → Syms (v :: vs) (w1 ++ w2)

/-- A sequence of bytes; frame ends count as the byte. -/
def Vals (bs w : List Nat) : Prop := ∃ vs, Syms vs w ∧ bs = vs.map (· % 256)

/-- What a receiver may take for a data subpacket with a good check. -/
def GoodSub (in32 : Bool) (payload : List Nat) (e : Nat) (w : List Nat) : Prop :=
  FrameEnd e ∧ ∃ w1 w2 w3 cs, w = w1 ++ w2 ++ w3 ∧ Syms payload w1 ∧ (∀ b ∈ payload, b < 256) ∧ Sym (512 + e) w2 ∧ Vals cs w3 ∧
    Check in32 (payload ++ [e]) cs

/-- What a receiver may take for a header with a good check, after the character for its kind. -/
def GoodHdr (in32 : Bool) (five w : List Nat) : Prop :=
  five.length = 5 ∧ (∀ b ∈ five, b < 256) ∧ ∃ cs, Check in32 five cs ∧
    (Vals (five ++ cs) w ∨ (in32 = false ∧ ∃ w1, w = (five ++ cs).flatMap hex2 ++ w1))

end Fpm.Zmodem.Spec
