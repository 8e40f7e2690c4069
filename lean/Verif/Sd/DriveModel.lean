import Verif.Sd.Model
/-!
# Drive 1 of the Pico: pico/diskio.c with the slots for cards

Each slot has its wires and possibly a switch for card detection.  The setup of pins is left out; a
switch does not change while a function runs, nor after a card has been found in its slot.
-/
namespace Fpm.Sd

/-- An element of `sd_cards`, pico/diskio.c:123-165; `switch`: whether `sd_card_detect` finds a card, if there is a switch. -/
structure Slot : Type 1 where
  σ : Type
  line : Line σ
  sd : Sd σ
  switch : Option Bool

/-- `sd_card_detect`, pico/sd_pico/sd_card.c:622-642. -/
def detect (s : Slot) : Slot × Bool :=
  if s.switch = some false then ({ s with sd := { s.sd with nodisk := true, noinit := true, type := 0 } }, false)
  else ({ s with sd := { s.sd with nodisk := false } }, true)

/-- `sd_probe`, pico/sd_pico/sd_card.c:1195-1204. -/
def probe {σ : Type} (L : Line σ) (k : Nat) (s : Sd σ) : Option (Sd σ × Bool) :=
  (idleLoop L (sdCmd L k) 4 (clocks L (send L s FILL).1) 0).map fun q => (away L q.1 [FILL], q.2 = 1)

/-- `sd_init` with the switch, pico/sd_pico/sd_card.c:1241-1265. -/
def slotInit (k : Nat) (s : Slot) : Option Slot :=
  if (detect s).2 then (sdInit s.line k s.sd).map fun sd => { s with sd := sd } else some (detect s).1

/-- The flags set before a full detection, pico/sd_pico/sd_card.c:1334-1335, pico/diskio.c:398-399. -/
def reset (s : Slot) : Slot := { s with sd := { s.sd with nodisk := true, noinit := true, type := 0 } }

/-- One round of the loop of `sd_configure`, pico/sd_pico/sd_card.c:1309-1344: the slot, and whether it is valid. -/
def attempt (k : Nat) (s : Slot) : Option (Slot × Bool) :=
  let s0 : Slot := { s with sd := { s.sd with noinit := true, nodisk := false } }
  if (detect s0).2 then
    (probe s.line k s0.sd).bind fun p =>
      if p.2 then (slotInit k (reset { s with sd := p.1 })).map fun s' => (s', !(s'.sd.noinit || s'.sd.nodisk))
      else some ({ s with sd := p.1 }, false)
  else some ((detect s0).1, false)

/-- The slots, and which one is `already_configured`, pico/sd_pico/sd_card.c:1302. -/
inductive Disk where
  | idle (slots : List Slot)
  | found (before : List Slot) (card : Slot) (after : List Slot)

/-- The loop of `sd_configure`, pico/sd_pico/sd_card.c:1308-1348. -/
def configure (k : Nat) : List Slot → List Slot → Option Disk
  | done, [] => some (.idle done)
  | done, s :: ss => (attempt k s).bind fun p => if p.2 then some (.found done p.1 ss) else configure k (done ++ [p.1]) ss

/-- `sd_configure`, pico/sd_pico/sd_card.c:1300-1349. -/
def ready (k : Nat) : Disk → Option Disk
  | .idle ss => configure k [] ss
  | d => some d

/-- Calls for drive 1: `disk_status`, `disk_initialize`, `disk_read`, `disk_write`, `disk_ioctl` (number of sectors, their
size, erase blocks, sync, others), `disk_identify`. -/
inductive Call where
  | status
  | initialize
  | read (sector count : Nat)
  | write (sector count : Nat) (data : List Nat)
  | sectors
  | size
  | erase
  | sync
  | other
  | identify

/-- What is returned: the status of a medium; DISK_OK and what is in the buffer; another result (the buffer is left out then); what `disk_identify` tells. -/
inductive Ret where
  | media (flags : Nat)
  | ok (data : List Nat)
  | err (result : Nat)
  | info (bytes serial : Nat) (name : List Nat)
  deriving DecidableEq

/-- `m_Status`, include/fpm/diskio.h:29-45. -/
def flags {σ : Type} (s : Sd σ) : Nat := (if s.noinit then 1 else 0) + (if s.nodisk then 2 else 0)

/-- `sdrc2dresult`, pico/diskio.c:216-242. -/
def result (rc : Nat) : Nat :=
  if rc = 0 then 0
  else if rc = UNUSABLE ∨ rc = NO_RESPONSE ∨ rc = 5004 ∨ rc = NO_DEVICE then 3
  else if rc = PARAMETER ∨ rc = UNSUPPORTED then 4
  else if rc = WRITE_PROTECTED then 2
  else 1

/-- The result with the buffer. -/
def given (rc : Nat) (data : List Nat) : Ret := if result rc = 0 then .ok data else .err (result rc)

/-- `sd_sectors`, pico/sd_pico/sd_card.c:759-765, and pico/diskio.c:326-331; the number is cut to 32 bits. -/
def slotSectors (k : Nat) (s : Slot) : Option (Slot × Ret) :=
  (sectorsNolock s.line (sdCmd s.line k) (send s.line s.sd FILL).1).map fun q => ({ s with sd := away s.line q.1 [FILL] }, if q.2 % 2 ^ 32 = 0 then .err 1 else .ok [q.2 % 2 ^ 32])

/-- The product name, pico/diskio.c:411-420. -/
def named {σ : Type} (s : Sd σ) : List Nat := [s.oem.getD 0 0, s.oem.getD 1 0, 32, s.product.getD 0 0, s.product.getD 1 0, s.product.getD 2 0, s.product.getD 3 0, s.product.getD 4 0, 0]

/-- `disk_identify` with a slot, pico/diskio.c:392-421. -/
def slotIdentify (k : Nat) (s : Slot) : Option (Slot × Ret) :=
  if (detect s).2 then
    (slotInit k (reset (detect s).1)).map fun s' => (s', if s'.sd.noinit || s'.sd.nodisk then .err 3 else .info (s'.sd.sectors * 512) s'.sd.serial (named s'.sd))
  else some ((detect s).1, .err 3)

/-- The calls with a slot: pico/diskio.c:191-193, 212, 263-264, 289-290, 326-331, 392-421. -/
def slotCall (k : Nat) (s : Slot) : Call → Option (Slot × Ret)
  | .status => some ((detect s).1, .media (flags (detect s).1.sd))
  | .initialize => (slotInit k s).map fun s' => (s', .media (flags s'.sd))
  | .read sector count => (readBlocks s.line k s.sd sector count).map fun q => ({ s with sd := q.1 }, given q.2.1 q.2.2)
  | .write sector count data => (writeBlocks s.line k s.sd sector count data).map fun q => ({ s with sd := q.1 }, given q.2 [])
  | .sectors => slotSectors k s
  | .identify => slotIdentify k s
  | _ => some (s, .err 4)

/-- Without a slot: pico/diskio.c:188-189, 209-210, 260-261, 286-287, 323-324, 389-390. -/
def absent : Call → Ret
  | .status => .media 1
  | .initialize => .media 1
  | _ => .err 3

/-- A call for drive 1, pico/diskio.c:179-423. -/
def call (k : Nat) (d : Disk) : Call → Option (Disk × Ret)
  | .size => some (d, .ok [512])
  | .erase => some (d, .ok [1])
  | .sync => some (d, .ok [])
  | .other => some (d, .err 4)
  | c => (ready k d).bind fun d' =>
    match d' with
    | .idle ss => some (.idle ss, absent c)
    | .found a s b => (slotCall k s c).map fun q => (.found a q.1 b, q.2)

/-- Several calls. -/
def calls (k : Nat) : Disk → List Call → Option (Disk × List Ret)
  | d, [] => some (d, [])
  | d, c :: cs => (call k d c).bind fun q => (calls k q.1 cs).map fun r => (r.1, q.2 :: r.2)

end Fpm.Sd
