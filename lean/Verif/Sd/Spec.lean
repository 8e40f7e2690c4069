import Verif.Sd.Model
import Verif.Crc.Spec
/-!
# An SD card in SPI mode

After the "SD Specifications, Part 1, Physical Layer Simplified Specification", chapter 7, as far as
the driver needs it: a machine that receives a byte and sends one at the same time.
-/
namespace Fpm.Sd.Spec
open Polynomial Fpm.Crc.Spec

/-- Cards of version 1, of version 2 with standard capacity, and with high or extended capacity. -/
inductive Kind where
  | v1
  | v2
  | hc
  deriving DecidableEq

/-- What a card is receiving: a command, the token before a block, or a block (of a series). -/
inductive Inp where
  | cmd (got : List Nat)
  | token (multi : Bool) (n : Nat)
  | data (multi : Bool) (n : Nat) (got : List Nat)

structure Card where
  kind : Kind
  /-- number of blocks of 512 bytes -/
  blocks : Nat
  mem : Nat → List Nat
  csd : List Nat
  cid : List Nat
  /-- clocks with chip select high since power on -/
  clk : Nat
  /-- in SPI mode -/
  spi : Bool
  /-- not in idle state -/
  ready : Bool
  /-- checksums are verified -/
  crc : Bool
  /-- CMD55 has been received -/
  app : Bool
  /-- how often ACMD41 is still answered with "idle" -/
  left : Nat
  inp : Inp
  /-- bytes to be sent -/
  out : List Nat
  /-- block to be sent next (CMD18) -/
  next : Option Nat
  /-- number of commands and blocks so far -/
  t : Nat

/-- What the standard leaves open: bytes before a response, before data, while the card is busy; bits
and bytes without meaning.  And the checksums, and defects. -/
structure Make where
  ncr : Nat → Nat
  nac : Nat → Nat
  busy : Nat → Nat
  junk : Nat → Nat
  c7 : List Nat → Nat
  c16 : List Nat → Nat
  /-- commands that it leaves without a response -/
  mute : Nat → Bool

/-- It responds to all commands. -/
def Able (m : Make) : Prop := ∀ i, m.mute i = false

/-- The checksums are those of the standard: remainders for x⁷+x³+1 and x¹⁶+x¹²+x⁵+1. -/
structure Sums (m : Make) : Prop where
  c7 : ∀ l, Bytes l → m.c7 l < 2 ^ 7 ∧ poly 7 (m.c7 l) = (X ^ 7 * msg l) %ₘ g7
  c16 : ∀ l, Bytes l → m.c16 l < 2 ^ 16 ∧ poly 16 (m.c16 l) = (X ^ 16 * msg l) %ₘ g16

/-- A number of several bytes, the first one has the highest weight. -/
def number (l : List Nat) : Nat := l.foldl (fun n b => 256 * n + b) 0

/-- A block of data as it is sent. -/
def packed (m : Make) (d : List Nat) (t : Nat) : List Nat := List.replicate (m.nac t) 0xFF ++ 0xFE :: d ++ [m.c16 d / 256, m.c16 d % 256]

/-- A response to a command, and more. -/
def reply (m : Make) (c : Card) (r : Nat) (more : List Nat) : Card := { c with inp := .cmd [], app := false, next := none, out := List.replicate (m.ncr c.t) 0xFF ++ r :: more, t := c.t + 1 }

def idle (c : Card) : Nat := if c.ready then 0 else 1

/-- The block that an argument means: addresses are bytes, but blocks if the capacity is high. -/
def place (c : Card) (arg : Nat) : Option Nat :=
  if c.kind = .hc then (if arg < c.blocks then some arg else none)
  else if arg % 512 = 0 ∧ arg / 512 < c.blocks then some (arg / 512)
  else none

/-- Operation conditions: power up status, capacity status, voltages. -/
def ocr (c : Card) : List Nat := [(if c.ready then (if c.kind = .hc then 0xC0 else 0x80) else 0), 0xFF, 0x80, 0]

/-- ACMD41: high capacity must be supported by the host. -/
def operate (m : Make) (c : Card) (arg : Nat) : Card :=
  if c.kind = .hc ∧ (arg / 2 ^ 30) % 2 = 0 then reply m c 1 []
  else if c.left = 0 then reply m { c with ready := true } 0 []
  else reply m { c with left := c.left - 1 } (idle c) []

/-- Commands that are allowed in idle state. -/
def early (m : Make) (c : Card) (i arg : Nat) : Option Card :=
  if i = 0 then some (reply m { c with ready := false, crc := false } 1 [])
  else if i = 8 ∧ c.kind ≠ .v1 then some (reply m c (idle c) [0, 0, arg / 256 % 16, arg % 256])
  else if i = 58 then some (reply m c (idle c) (ocr c))
  else if i = 59 then some (reply m { c with crc := arg % 2 = 1 } (idle c) [])
  else if i = 55 then some { reply m c (idle c) [] with app := true }
  else if i = 41 ∧ c.app then some (operate m c arg)
  else none

/-- Reading at this place, or an error for a wrong address. -/
def reading (m : Make) (c : Card) (multi : Bool) : Option Nat → Card
  | none => reply m c 0x40 []
  | some n => { reply m c 0 (packed m (c.mem n) c.t) with next := if multi then some (n + 1) else none }

def writing (m : Make) (c : Card) (multi : Bool) : Option Nat → Card
  | none => reply m c 0x40 []
  | some n => { reply m c 0 [] with inp := .token multi n }

/-- The other commands. -/
def late (m : Make) (c : Card) (i arg : Nat) : Option Card :=
  if i = 9 then some (reply m c 0 (packed m c.csd c.t))
  else if i = 10 then some (reply m c 0 (packed m c.cid c.t))
  else if i = 12 then some { reply m c 0 (List.replicate (m.busy c.t) 0) with out := m.junk c.t :: (reply m c 0 (List.replicate (m.busy c.t) 0)).out }
  else if i = 13 then some (reply m c 0 [0])
  else if i = 16 then some (reply m c (if arg = 512 then 0 else 0x40) [])
  else if i = 17 then some (reading m c false (place c arg))
  else if i = 18 then some (reading m c true (place c arg))
  else if i = 23 ∧ c.app then some (reply m c 0 [])
  else if i = 24 then some (writing m c false (place c arg))
  else if i = 25 then some (writing m c true (place c arg))
  else none

/-- A command with its argument; others are illegal. -/
def exec (m : Make) (c : Card) (i arg : Nat) : Card := ((early m c i arg).or (if c.ready then late m c i arg else none)).getD (reply m c (idle c + 4) [])

/-- Six bytes have been received.  In native mode the card waits for CMD0, with its checksum. -/
def command (m : Make) (c : Card) (p : List Nat) : Card :=
  if c.spi then
    if m.mute (p.headD 0 % 64) then { c with inp := .cmd [], out := [], next := none }
    else if (c.crc ∨ p.headD 0 % 64 = 8) ∧ p.getD 5 0 ≠ 2 * m.c7 (p.take 5) + 1 then reply m c (idle c + 8) []
    else exec m c (p.headD 0 % 64) (number ((p.drop 1).take 4))
  else if 74 ≤ c.clk ∧ p.headD 0 % 64 = 0 ∧ p.getD 5 0 = 2 * m.c7 (p.take 5) + 1 then reply m { c with spi := true, ready := false, crc := false } 1 []
  else { c with inp := .cmd [], out := [] }

/-- A block with its checksum has been received: response token, and the card is busy. -/
def stored (m : Make) (c : Card) (multi : Bool) (n : Nat) (p : List Nat) : Card :=
  let after := if multi then Inp.token true (n + 1) else .cmd []
  if c.crc ∧ number (p.drop 512) ≠ m.c16 (p.take 512) then { c with inp := after, out := [32 * (m.junk c.t % 8) + 0x0B], t := c.t + 1 }
  else if c.blocks ≤ n then { c with inp := after, out := [32 * (m.junk c.t % 8) + 0x0D], t := c.t + 1 }
  else { c with inp := after, mem := fun k => if k = n then p.take 512 else c.mem k, out := (32 * (m.junk c.t % 8) + 5) :: List.replicate (m.busy c.t) 0, t := c.t + 1 }

/-- A byte is received. -/
def receive (m : Make) (c : Card) (b : Nat) : Card :=
  match c.inp with
  | .cmd [] => if b / 64 = 1 then { c with inp := .cmd [b] } else c
  | .cmd (a :: got) => if got.length < 4 then { c with inp := .cmd (a :: got ++ [b]) } else command m c (a :: got ++ [b])
  | .token multi n =>
    if b = (if multi then 0xFC else 0xFE) then { c with inp := .data multi n [] }
    else if multi ∧ b = 0xFD then { c with inp := .cmd [], out := m.junk c.t :: List.replicate (m.busy c.t) 0, t := c.t + 1 }
    else c
  | .data multi n got => if got.length < 513 then { c with inp := .data multi n (got ++ [b]) } else stored m c multi n (got ++ [b])

/-- A byte is sent. -/
def emit (m : Make) (c : Card) : Card × Nat :=
  match c.out with
  | b :: bs => ({ c with out := bs }, b)
  | [] =>
    match c.next with
    | some n => if n < c.blocks then ({ c with out := (packed m (c.mem n) c.t).tail, next := some (n + 1), t := c.t + 1 }, (packed m (c.mem n) c.t).headD 0) else (c, 0xFF)
    | none => (c, 0xFF)

def step (m : Make) (c : Card) (b : Nat) : Card × Nat := (receive m (emit m c).1 b, (emit m c).2)

/-- With chip select high the card does not listen. -/
def deaf (c : Card) (_ : Nat) : Card := { c with clk := c.clk + 8 }

/-- The wires to a card. -/
def line (m : Make) (rounds : Nat → Nat) : Line Card := ⟨step m, deaf, rounds⟩

/-- A card is as fast as the standard demands, and as the driver hopes. -/
structure Quick (m : Make) (rounds : Nat → Nat) : Prop where
  ncr : ∀ t, m.ncr t ≤ 8
  nac : ∀ t n, m.nac t ≤ rounds n
  busy : ∀ t n, m.busy t ≤ rounds n

/-- Blocks have 512 bytes, and all of them have an address. -/
structure Sane (c : Card) : Prop where
  mem : ∀ n < c.blocks, (c.mem n).length = 512 ∧ Bytes (c.mem n)
  addr : (if c.kind = .hc then c.blocks else c.blocks * 512) ≤ 2 ^ 32

/-- The card waits for commands. -/
structure Rest (c : Card) : Prop where
  spi : c.spi = true
  ready : c.ready = true
  crc : c.crc = true
  app : c.app = false
  inp : c.inp = .cmd []
  out : c.out = []
  next : c.next = none

/-- The driver knows the card. -/
structure Knows (s : Sd Card) : Prop where
  noinit : s.noinit = false
  nodisk : s.nodisk = false
  sectors : s.sectors = s.bus.blocks
  type : s.type = V2HC ↔ s.bus.kind = .hc

/-- Driver and card between two requests. -/
structure Up (s : Sd Card) : Prop where
  sane : Sane s.bus
  rest : Rest s.bus
  knows : Knows s

/-- Bits `msb` to `lsb` of a register of 128 bits. -/
def field (reg : List Nat) (msb lsb : Nat) : Nat := number reg / 2 ^ lsb % 2 ^ (msb + 1 - lsb)

/-- Number of blocks after the register CSD, versions 1.0 and 2.0. -/
def Capacity (csd : List Nat) (n : Nat) : Prop :=
  field csd 127 126 = 0 ∧ n * 512 = (field csd 73 62 + 1) * 2 ^ (field csd 49 47 + 2) * 2 ^ field csd 83 80 ∨
  field csd 127 126 = 1 ∧ n * 512 = (field csd 69 48 + 1) * 512 * 1024

/-- The registers are as the standard says. -/
structure Registers (c : Card) : Prop where
  csd : c.csd.length = 16 ∧ Bytes c.csd
  cid : c.cid.length = 16 ∧ Bytes c.cid
  capacity : Capacity c.csd c.blocks
  some : 0 < c.blocks
  width : c.blocks < 2 ^ 32

/-- The card has power, and nothing is going on; it may be in SPI mode already. -/
structure Fresh (c : Card) : Prop where
  inp : c.inp = .cmd []
  out : c.out = []
  next : c.next = none

/-- What is asked from a medium of blocks. -/
inductive Req where
  | read (sector count : Nat)
  | write (sector count : Nat) (data : List Nat)

/-- Arguments as `disk_read` and `disk_write` allow them. -/
def Req.Fine : Req → Prop
  | .read _ count => 1 ≤ count
  | .write _ count data => 1 ≤ count ∧ count < 2 ^ 32 ∧ data.length = 512 * count ∧ Bytes data

/-- The contents of blocks in sequence. -/
def listed (mem : Nat → List Nat) (sector count : Nat) : List Nat := (List.range count).flatMap fun i => mem (sector + i)

/-- An array of `blocks` blocks: the new contents, and the answer; `none` is a failure. -/
def serve (blocks : Nat) (mem : Nat → List Nat) : Req → (Nat → List Nat) × Option (List Nat)
  | .read sector count => (mem, if sector + count ≤ blocks then some (listed mem sector count) else none)
  | .write sector count data =>
    if sector + count ≤ blocks then (fun n => if sector ≤ n ∧ n < sector + count then (data.drop (512 * (n - sector))).take 512 else mem n, some [])
    else (mem, none)

/-- Several requests. -/
def serves (blocks : Nat) : (Nat → List Nat) → List Req → (Nat → List Nat) × List (Option (List Nat))
  | mem, [] => (mem, [])
  | mem, q :: qs => ((serves blocks (serve blocks mem q).1 qs).1, (serve blocks mem q).2 :: (serves blocks (serve blocks mem q).1 qs).2)

/-- Where a request begins. -/
def Req.sector : Req → Nat
  | .read n _ => n
  | .write n _ _ => n

/-- How many blocks it is about. -/
def Req.count : Req → Nat
  | .read _ c => c
  | .write _ c _ => c

/-- The request at another place. -/
def Req.at (n : Nat) : Req → Req
  | .read _ c => .read n c
  | .write _ c data => .write n c data

/-- The address of a block in this card. -/
def spot (c : Card) (n : Nat) : Nat := (if c.kind = .hc then n else n * 512) % 2 ^ 32

end Fpm.Sd.Spec
