import Verif.Crc.Model
/-!
# The driver of SD cards, pico/sd_pico/sd_card.c and sd_spi.c

The wires are an arbitrary machine: a byte is sent and one is received at the same time.  How long
the driver waits is given by the number of bytes that it can exchange in that time.  Configuration:
`SD_CRC_ENABLED`, `crc_on`; no switch for card detection (`use_card_detect` is false, as for all
boards but one); plain `char` is unsigned.  Locks, the clock rate of SPI and messages are left out;
transfers by DMA succeed.  Error numbers are without their sign.
-/
namespace Fpm.Sd
open Fpm.Crc

/-- What the driver works with: `low` exchanges a byte with chip select low, `high` sends one with
chip select high, pico/sd_pico/sd_spi.c:57-125; `rounds n` is how often the `n`-th waiting loop can
be repeated before its time is over. -/
structure Line (σ : Type) where
  low : σ → Nat → σ × Nat
  high : σ → Nat → σ
  rounds : Nat → Nat

/-- The fields of `sd_card_t` used here, pico/sd_pico/sd_card.h:33-56 (`m_Status` as two flags), with
the wires and the number of waiting loops so far. -/
structure Sd (σ : Type) where
  bus : σ
  waits : Nat
  noinit : Bool
  nodisk : Bool
  type : Nat
  sectors : Nat
  oem : List Nat
  product : List Nat
  serial : Nat

variable {σ : Type}

/-- `SPI_FILL_CHAR`, pico/sd_pico/spi.h:28. -/
def FILL : Nat := 0xFF

/-! Card types and errors, pico/sd_pico/sd_card.c:211-215, pico/sd_pico/sd_card.h:58-69. -/
def V1 : Nat := 1
def V2 : Nat := 2
def V2HC : Nat := 3
def UNKNOWN : Nat := 4
def UNSUPPORTED : Nat := 5002
def PARAMETER : Nat := 5003
def NO_DEVICE : Nat := 5005
def WRITE_PROTECTED : Nat := 5006
def UNUSABLE : Nat := 5007
def NO_RESPONSE : Nat := 5008
def CRC : Nat := 5009
def ERASE : Nat := 5010
def WRITE : Nat := 5011

/-- `sd_spi_write`, pico/sd_pico/sd_spi.c:113-125. -/
def send (L : Line σ) (s : Sd σ) (b : Nat) : Sd σ × Nat := ({ s with bus := (L.low s.bus b).1 }, (L.low s.bus b).2)

/-- `sd_spi_transfer` of several bytes, and loops of `sd_spi_write`: what is received. -/
def sendAll (L : Line σ) : Sd σ → List Nat → Sd σ × List Nat
  | s, [] => (s, [])
  | s, b :: bs => ((sendAll L (send L s b).1 bs).1, (send L s b).2 :: (sendAll L (send L s b).1 bs).2)

/-- Bytes with chip select high. -/
def away (L : Line σ) : Sd σ → List Nat → Sd σ
  | s, [] => s
  | s, b :: bs => away L { s with bus := L.high s.bus b } bs

/-- `sd_spi_deselect` and `sd_spi_select` in sequence, pico/sd_pico/sd_spi.c:57-94: in
`sd_spi_deselect_pulse`, and in `sd_release` followed by `sd_acquire`. -/
def pulse (L : Line σ) (s : Sd σ) : Sd σ := (send L (away L s [FILL]) FILL).1

/-- The packet of a command, pico/sd_pico/sd_card.c:291-300.  (No index of `crc7` is outside of the
table, C42.) -/
def packet (cmd arg : Nat) : List Nat :=
  let p := [0x40 ||| (cmd &&& 0x3F), (arg >>> 24) % 256, (arg >>> 16) % 256, (arg >>> 8) % 256, arg % 256]
  p ++ [(((crc7 p).getD 0 <<< 1) ||| 1) % 256]

/-- The loop for the response, pico/sd_pico/sd_card.c:329-335. -/
def respLoop (L : Line σ) : Nat → Sd σ → Nat → Sd σ × Nat
  | 0, s, r => (s, r)
  | n + 1, s, _ => if (send L s FILL).2 &&& 0x80 = 0 then send L s FILL else respLoop L n (send L s FILL).1 (send L s FILL).2

/-- `sd_cmd_spi`, pico/sd_pico/sd_card.c:286-337. -/
def cmdSpi (L : Line σ) (s : Sd σ) (cmd arg : Nat) : Sd σ × Nat :=
  respLoop L 16 (if cmd = 12 then (send L (sendAll L s (packet cmd arg)).1 FILL).1 else (sendAll L s (packet cmd arg)).1) FILL

/-- The loop of `sd_wait_ready`, pico/sd_pico/sd_card.c:346-348, repeated at most `n` times. -/
def readyLoop (L : Line σ) : Nat → Sd σ → Sd σ × Bool
  | 0, s => ((send L s 0xFF).1, (send L s 0xFF).2 ≠ 0)
  | n + 1, s => if (send L s 0xFF).2 = 0 then readyLoop L n (send L s 0xFF).1 else ((send L s 0xFF).1, true)

/-- `sd_wait_ready`, pico/sd_pico/sd_card.c:339-356. -/
def waitReady (L : Line σ) (s : Sd σ) : Sd σ × Bool := readyLoop L (L.rounds s.waits) { s with waits := s.waits + 1 }

/-- The loop of `sd_wait_token`, pico/sd_pico/sd_card.c:828-832. -/
def tokenLoop (L : Line σ) (token : Nat) : Nat → Sd σ → Sd σ × Bool
  | 0, s => ((send L s FILL).1, token = (send L s FILL).2)
  | n + 1, s => if token = (send L s FILL).2 then ((send L s FILL).1, true) else tokenLoop L token n (send L s FILL).1

/-- `sd_wait_token`, pico/sd_pico/sd_card.c:822-835. -/
def waitToken (L : Line σ) (s : Sd σ) (token : Nat) : Sd σ × Bool := tokenLoop L token (L.rounds s.waits) { s with waits := s.waits + 1 }

/-- CMD55 before an application command, pico/sd_pico/sd_card.c:464-471. -/
def announce (L : Line σ) (s : Sd σ) (acmd : Bool) : Sd σ := if acmd then (waitReady L (cmdSpi L s 55 0).1).1 else s

/-- The loop at `retry`, pico/sd_pico/sd_card.c:462-479. -/
def tries (L : Line σ) (cmd arg : Nat) (acmd : Bool) : Nat → Sd σ → Nat → Sd σ × Nat
  | 0, s, r => (s, r)
  | n + 1, s, _ =>
    if (cmdSpi L (announce L s acmd) cmd arg).2 = 0xFF then tries L cmd arg acmd n (cmdSpi L (announce L s acmd) cmd arg).1 (cmdSpi L (announce L s acmd) cmd arg).2
    else cmdSpi L (announce L s acmd) cmd arg

/-- Result of a command: the driver, `status`, and `*resp`. -/
structure Ans (σ : Type) where
  sd : Sd σ
  status : Nat
  resp : Nat

/-- Status for a response R2, pico/sd_pico/sd_card.c:544-607: the statements for bits 0 to 14. -/
def r2status : List Nat → Nat → Nat → Nat
  | [], _, st => st
  | e :: es, r, st => r2status es (r / 2) (if r % 2 = 1 then e else st)

/-- The errors of these bits. -/
def r2errors : List Nat := [WRITE, WRITE_PROTECTED, WRITE, WRITE, WRITE, WRITE_PROTECTED, ERASE, PARAMETER, 0, ERASE, UNSUPPORTED, CRC, ERASE, PARAMETER, PARAMETER]

/-- Status for the other bits of R1, pico/sd_pico/sd_card.c:519-525. -/
def r1status (r : Nat) : Nat :=
  if r &&& 2 ≠ 0 ∨ r &&& 16 ≠ 0 then ERASE
  else if r &&& 32 ≠ 0 ∨ r &&& 64 ≠ 0 then PARAMETER
  else 0

/-- Four bytes of a response R3 or R7, pico/sd_pico/sd_card.c:533-536. -/
def word : List Nat → Nat
  | [a, b, c, d] => (a <<< 24) ||| (b <<< 16) ||| (c <<< 8) ||| d
  | _ => 0

/-- The rest of the response, pico/sd_pico/sd_card.c:527-619. -/
def rest (L : Line σ) (cmd : Nat) (s : Sd σ) (r : Nat) : Ans σ :=
  if cmd = 8 ∨ cmd = 58 then
    let q := sendAll L (if cmd = 8 then { s with type := V2 } else s) [FILL, FILL, FILL, FILL]
    ⟨q.1, r1status r, word q.2⟩
  else if cmd = 12 ∨ cmd = 38 then ⟨(waitReady L s).1, r1status r, r⟩
  else if cmd = 13 then
    let q := send L s FILL
    let r2 := (r <<< 8) ||| q.2
    ⟨q.1, if r2 = 0 then r1status r else r2status r2errors r2 (r1status r), r2⟩
  else ⟨s, r1status r, r⟩

/-- Response R1, pico/sd_pico/sd_card.c:503-516, if there is one. -/
def checked (L : Line σ) (cmd : Nat) (s : Sd σ) (r : Nat) : Ans σ :=
  if r &&& 8 ≠ 0 ∧ cmd ≠ 23 then ⟨s, CRC, r⟩
  else if r &&& 4 ≠ 0 then ⟨if cmd = 8 then { s with type := UNKNOWN } else s, UNSUPPORTED, r⟩
  else rest L cmd s r

/-- Waiting before a command, pico/sd_pico/sd_card.c:455-460. -/
def settled (L : Line σ) (s : Sd σ) (cmd : Nat) : Sd σ := if cmd ≠ 12 then (waitReady L s).1 else s

/-- `sd_cmd` while the card is initialised again, pico/sd_pico/sd_card.c:448-619 with `doing_reinit`. -/
def cmdPlain (L : Line σ) (s : Sd σ) (cmd arg : Nat) (acmd : Bool) : Option (Ans σ) :=
  let q := tries L cmd arg acmd 3 (settled L s cmd) 0
  some (if q.2 = 0xFF then ⟨q.1, NO_DEVICE, q.2⟩ else checked L cmd q.1 q.2)

/-- What the initialisation uses to send a command. -/
abbrev Send (σ : Type) := Sd σ → Nat → Nat → Bool → Option (Ans σ)

/-- The loop of `sd_go_idle_state`, pico/sd_pico/sd_card.c:656-664. -/
def idleLoop (L : Line σ) (C : Send σ) : Nat → Sd σ → Nat → Option (Sd σ × Nat)
  | 0, s, r => some (s, r)
  | n + 1, s, _ => (C s 0 0 false).bind fun a => if a.resp = 1 then some (a.sd, 1) else idleLoop L C n (pulse L a.sd) a.resp

/-- The check of the pattern in `sd_cmd8`, pico/sd_pico/sd_card.c:671-690. -/
def pattern (a : Ans σ) : Ans σ :=
  if a.status = 0 ∧ a.sd.type = V2 ∧ a.resp &&& 0xFFF ≠ 0x1AA then { a with sd := { a.sd with type := UNKNOWN }, status := UNUSABLE } else a

/-- The loop with ACMD41, pico/sd_pico/sd_card.c:1151-1155, repeated at most `n` times. -/
def opLoop (C : Send σ) (arg : Nat) : Nat → Sd σ → Option (Ans σ)
  | 0, s => C s 41 arg true
  | n + 1, s => (C s 41 arg true).bind fun a => if a.resp &&& 1 ≠ 0 then opLoop C arg n a.sd else some a

/-- Type of the card, pico/sd_pico/sd_card.c:1164-1179. -/
def typed (C : Send σ) (s : Sd σ) : Option (Sd σ × Nat) :=
  if s.type = V2 then
    (C s 58 0 false).bind fun a => some (if a.status = 0 ∧ a.resp &&& 2 ^ 30 ≠ 0 then { a.sd with type := V2HC } else a.sd, a.status)
  else some ({ s with type := V1 }, 0)

/-- Initialisation by ACMD41, pico/sd_pico/sd_card.c:1140-1190. -/
def operate (L : Line σ) (C : Send σ) (s : Sd σ) : Option (Sd σ × Nat) :=
  (opLoop C (if s.type = V2 then 2 ^ 30 else 0) (L.rounds s.waits) { s with waits := s.waits + 1 }).bind fun a =>
    if a.status ≠ 0 ∨ a.resp ≠ 0 then some ({ a.sd with type := UNKNOWN }, a.status) else typed C a.sd

/-- CRC and voltage, pico/sd_pico/sd_card.c:1119-1138. -/
def voltage (L : Line σ) (C : Send σ) (s : Sd σ) : Option (Sd σ × Nat) :=
  (C s 59 1 false).bind fun a => (C a.sd 58 0 false).bind fun b =>
    if b.status ≠ 0 then some (b.sd, b.status)
    else if b.resp &&& 2 ^ 20 = 0 then some ({ b.sd with type := UNKNOWN }, UNUSABLE)
    else operate L C b.sd

/-- `sd_spi_send_initializing_sequence`, pico/sd_pico/sd_spi.c:127-139. -/
def clocks (L : Line σ) (s : Sd σ) : Sd σ := away L { s with waits := s.waits + 1 } (List.replicate (10 * (L.rounds s.waits + 1)) 0xFF)

/-- `sd_init_medium`, pico/sd_pico/sd_card.c:1089-1190: the driver and the status. -/
def initMedium (L : Line σ) (C : Send σ) (s : Sd σ) : Option (Sd σ × Nat) :=
  (idleLoop L C 4 (clocks L s) 0).bind fun q =>
    if q.2 ≠ 1 then some (q.1, NO_DEVICE)
    else (C q.1 8 0x1AA false).bind fun a =>
      if (pattern a).status ≠ 0 ∧ (pattern a).status ≠ UNSUPPORTED then some ((pattern a).sd, (pattern a).status)
      else voltage L C (pattern a).sd

/-- `ext_bits`, pico/sd_pico/sd_card.c:692-704: the bits `lsb + i` from the last one down; `i` is the
number of bits taken.  The array has 16 bytes. -/
def extLoop (data : List Nat) (lsb : Nat) : Nat → Nat
  | 0 => 0
  | i + 1 => extLoop data lsb i ||| (((data.getD (15 - ((lsb + i) >>> 3)) 0 >>> ((lsb + i) &&& 7)) &&& 1) <<< i) % 2 ^ 32

/-- The call of `ext_bits` with its bounds, pico/sd_pico/sd_card.c:692-704. -/
def extBits (data : List Nat) (msb lsb : Nat) : Nat := extLoop data lsb (1 + msb - lsb)

/-- `sd_read_bytes` and `sd_read_block`, pico/sd_pico/sd_card.c:839-871, 873-905: the driver, the error, and what
is in the buffer. -/
def readBytes (L : Line σ) (s : Sd σ) (length : Nat) : Sd σ × Nat × List Nat :=
  let q := waitToken L s 0xFE
  if q.2 then
    let d := sendAll L q.1 (List.replicate length FILL)
    let h := send L d.1 FILL
    let l := send L h.1 FILL
    (l.1, if crc16 d.2 ≠ (h.2 <<< 8) ||| l.2 then CRC else 0, d.2)
  else (q.1, NO_RESPONSE, [])

/-- The number of blocks from the register CSD, pico/sd_pico/sd_card.c:725-757. -/
def csdBlocks (csd : List Nat) : Nat :=
  if extBits csd 127 126 = 0 then
    let block_len := (1 <<< extBits csd 83 80) % 2 ^ 32
    let mult := (1 <<< (extBits csd 49 47 + 2)) % 2 ^ 32
    let blocknr := ((extBits csd 73 62 + 1) * mult) % 2 ^ 32
    (blocknr * block_len) / 512
  else if extBits csd 127 126 = 1 then ((extBits csd 69 48 + 1) <<< 10) % 2 ^ 32
  else 0

/-- `sd_sectors_nolock`, pico/sd_pico/sd_card.c:708-758. -/
def sectorsNolock (L : Line σ) (C : Send σ) (s : Sd σ) : Option (Sd σ × Nat) :=
  (C s 9 0 false).bind fun a =>
    if a.status ≠ 0 then some (a.sd, 0)
    else
      let q := readBytes L a.sd 16
      some (q.1, if q.2.1 ≠ 0 then 0 else csdBlocks q.2.2)

/-- The fields of the register CID, pico/sd_pico/sd_card.c:806-813. -/
def identified (s : Sd σ) (cid : List Nat) : Sd σ :=
  { s with
    oem := [extBits cid 119 112, extBits cid 111 104, 0]
    product := [extBits cid 103 96, extBits cid 95 88, extBits cid 87 80, extBits cid 79 72, extBits cid 71 64, 0]
    serial := extBits cid 55 24 }

/-- `sd_identification_nolock`, pico/sd_pico/sd_card.c:771-817. -/
def identify (L : Line σ) (C : Send σ) (s : Sd σ) : Option (Sd σ) :=
  (C { s with oem := [0, 0, 0], product := [0, 0, 0, 0, 0, 0], serial := 0 } 10 0 false).bind fun a =>
    if a.status ≠ 0 then some a.sd
    else
      let q := readBytes L a.sd 16
      some (if q.2.1 ≠ 0 then q.1 else identified q.1 q.2.2)

/-- The end of `sd_init_nolock`, pico/sd_pico/sd_card.c:1229-1238. -/
def blocklen (C : Send σ) (s : Sd σ) : Option (Sd σ) :=
  (C s 16 512 false).bind fun a => some (if a.status ≠ 0 then a.sd else { a.sd with noinit := false })

/-- `sd_init_nolock`, pico/sd_pico/sd_card.c:1212-1239. -/
def initNolock (L : Line σ) (C : Send σ) (s : Sd σ) : Option (Sd σ) :=
  (initMedium L C { s with type := 0 }).bind fun q =>
    if q.2 ≠ 0 then some q.1
    else (sectorsNolock L C q.1).bind fun p =>
      if p.2 = 0 then some { p.1 with sectors := 0 }
      else (identify L C { p.1 with sectors := p.2 }).bind (blocklen C)

/-- `sd_cmd` from `retry` on, pico/sd_pico/sd_card.c:461-619, without `doing_reinit`; `sd_card_detect` finds a card.  The card may be initialised again any number of times; `none`:
more than `k` times. -/
def cmdLoop (L : Line σ) (cmd arg : Nat) (acmd : Bool) : Nat → Sd σ → Option (Ans σ)
  | 0, _ => none
  | k + 1, s =>
    let q := tries L cmd arg acmd 3 s 0
    if q.2 = 0xFF then
      (initNolock L (cmdPlain L) { q.1 with noinit := true, nodisk := false }).bind fun s' =>
        if s'.noinit then some ⟨s', NO_DEVICE, q.2⟩ else cmdLoop L cmd arg acmd k s'
    else some (checked L cmd q.1 q.2)

/-- `sd_cmd`, pico/sd_pico/sd_card.c:448-619. -/
def sdCmd (L : Line σ) (k : Nat) (s : Sd σ) (cmd arg : Nat) (acmd : Bool) : Option (Ans σ) := cmdLoop L cmd arg acmd k (settled L s cmd)

/-- `sd_init`, pico/sd_pico/sd_card.c:1241-1265; the byte of `sd_spi_select` and that of `sd_spi_deselect`. -/
def sdInit (L : Line σ) (k : Nat) (s : Sd σ) : Option (Sd σ) :=
  if ({ s with nodisk := false } : Sd σ).noinit then (initNolock L (sdCmd L k) (send L { s with nodisk := false } FILL).1).map fun s => away L s [FILL]
  else some { s with nodisk := false }

/-- The loop of reading, pico/sd_pico/sd_card.c:936-945: the driver, `rd_status`, what is in the buffer. -/
def readLoop (L : Line σ) : Nat → Sd σ → Sd σ × Nat × List Nat
  | 0, s => (s, 0, [])
  | n + 1, s =>
    let q := readBytes L s 512
    if q.2.1 ≠ 0 then (q.1, NO_RESPONSE, q.2.2)
    else ((readLoop L n q.1).1, (readLoop L n q.1).2.1, q.2.2 ++ (readLoop L n q.1).2.2)

/-- Address of a block in a command, pico/sd_pico/sd_card.c:919-926, 1020-1028; the argument has 32 bits. -/
def address (s : Sd σ) (sector : Nat) : Nat := (if s.type = V2HC then sector else sector * 512) % 2 ^ 32

/-- `in_sd_read_blocks`, pico/sd_pico/sd_card.c:907-951: the driver, the result, and what is in the buffer. -/
def readIn (L : Line σ) (k : Nat) (s : Sd σ) (sector count : Nat) : Option (Sd σ × Nat × List Nat) :=
  if sector + count > s.sectors then some (s, PARAMETER, [])
  else if s.noinit || s.nodisk then some (s, PARAMETER, [])
  else
    (sdCmd L k s (if count > 1 then 18 else 17) (address s sector) false).bind fun a =>
      if a.status ≠ 0 then some (a.sd, a.status, [])
      else
        let q := readLoop L count a.sd
        if count > 1 then (sdCmd L k q.1 12 0 false).bind fun b => some (b.sd, if q.2.1 ≠ 0 then q.2.1 else b.status, q.2.2)
        else some q

/-- `sd_read_blocks`, pico/sd_pico/sd_card.c:953-960, with the bytes of `sd_spi_select` and `sd_spi_deselect`. -/
def readBlocks (L : Line σ) (k : Nat) (s : Sd σ) (sector count : Nat) : Option (Sd σ × Nat × List Nat) :=
  (readIn L k (send L s FILL).1 sector count).map fun q => (away L q.1 [FILL], q.2.1, q.2.2)

/-- `sd_write_block`, pico/sd_pico/sd_card.c:962-993. -/
def writeBlock (L : Line σ) (s : Sd σ) (token : Nat) (data : List Nat) : Sd σ × Nat :=
  let q := send L (sendAll L (send L s token).1 (data ++ [crc16 data >>> 8, crc16 data % 256])).1 FILL
  ((waitReady L q.1).1, q.2 &&& 0x1F)

/-- The loop of writing, pico/sd_pico/sd_card.c:1057-1065, with `n + 1` blocks to go; the status set there is lost. -/
def writeLoop (L : Line σ) : Nat → Sd σ → List Nat → Sd σ
  | 0, s, buffer => (writeBlock L s 0xFC (buffer.take 512)).1
  | n + 1, s, buffer => if (writeBlock L s 0xFC (buffer.take 512)).2 ≠ 5 then (writeBlock L s 0xFC (buffer.take 512)).1 else writeLoop L n (writeBlock L s 0xFC (buffer.take 512)).1 (buffer.drop 512)

/-- The status after writing, pico/sd_pico/sd_card.c:1072-1076. -/
def final (L : Line σ) (k : Nat) (s : Sd σ) : Option (Sd σ × Nat) := (sdCmd L k (pulse L s) 13 0 false).bind fun a => some (a.sd, a.status)

/-- Writing several blocks, pico/sd_pico/sd_card.c:1056-1071 and the rest; `count` 0 is 2^32. -/
def writeMany (L : Line σ) (k : Nat) (s : Sd σ) (count : Nat) (buffer : List Nat) : Option (Sd σ × Nat) :=
  final L k (send L (writeLoop L (if count = 0 then 2 ^ 32 - 1 else count - 1) s buffer) 0xFD).1

/-- `in_sd_write_blocks`, pico/sd_pico/sd_card.c:1010-1077. -/
def writeIn (L : Line σ) (k : Nat) (s : Sd σ) (sector count : Nat) (buffer : List Nat) : Option (Sd σ × Nat) :=
  if sector + count > s.sectors then some (s, PARAMETER)
  else if s.noinit || s.nodisk then some (s, PARAMETER)
  else if count = 1 then
    (sdCmd L k s 24 (address s sector) false).bind fun a =>
      if a.status ≠ 0 then some (a.sd, a.status) else final L k (writeBlock L a.sd 0xFE (buffer.take 512)).1
  else
    (sdCmd L k s 23 count true).bind fun b => (sdCmd L k (pulse L b.sd) 25 (address s sector) false).bind fun a =>
      if a.status ≠ 0 then some (a.sd, a.status) else writeMany L k a.sd count buffer

/-- `sd_write_blocks`, pico/sd_pico/sd_card.c:1079-1087. -/
def writeBlocks (L : Line σ) (k : Nat) (s : Sd σ) (sector count : Nat) (buffer : List Nat) : Option (Sd σ × Nat) :=
  (writeIn L k (send L s FILL).1 sector count buffer).map fun q => (away L q.1 [FILL], q.2)

end Fpm.Sd
