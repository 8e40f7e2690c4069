import Verif.Crc.Model
/-!
# ZMODEM receiver, apps/rz

Input is the list of bytes that will arrive on the console.  A function that needs more input than
there is waits (`Out.wait`).  Debug output (macros DEBUGF, TRACEF) and the texts printed for the user
are not modelled, neither are delays.
-/
namespace Fpm.Zmodem
open Fpm.Crc

/-- What differs between targets: whether plain `char`, the type returned by `fpm_getchar`, is signed,
and whether control-C kills the program (pico/fpm_pico.c:14-38, unix/fpm_unix.c:17-31).  `char` is
unsigned for ARM and RISC-V, signed for x86-64. -/
structure Target where
  signedChar : Bool
  breakOn3 : Bool
deriving Repr

/-- Outcome of reading: a value and the input not yet read; more input is needed; the program was
killed by control-C; undefined behaviour. -/
inductive Out (α : Type) where
  | ok (a : α) (rest : List Nat)
  | wait
  | killed
  | ub
deriving Repr, DecidableEq

/-- Sequencing. -/
def Out.then {α β : Type} : Out α → (α → List Nat → Out β) → Out β
  | .ok a r, f => f a r
  | .wait, _ => .wait
  | .killed, _ => .killed
  | .ub, _ => .ub

/-- Codes, apps/rz/ztypes.h:34-114. -/
def OK := 0x0100
@[inherit_doc OK] def FIN := 0x0200
@[inherit_doc OK] def BAD_DIGIT := 0x1000
@[inherit_doc OK] def CLOSED := 0x2000
@[inherit_doc OK] def BAD_FRAME_TYPE := 0x4000
@[inherit_doc OK] def CORRUPTED := 0x5000
@[inherit_doc OK] def BAD_CRC := 0x6000
@[inherit_doc OK] def OUT_OF_RANGE := 0x7000
@[inherit_doc OK] def OUT_OF_SPACE := 0x8000
@[inherit_doc OK] def CANCELLED := 0x9000
@[inherit_doc OK] def BAD_ESCAPE := 0xa000
@[inherit_doc OK] def XON := 0x11
@[inherit_doc OK] def XOFF := 0x13
@[inherit_doc OK] def ZDLE := 0x18
@[inherit_doc OK] def ZPAD := 42

/-- `IS_ERROR`, apps/rz/ztypes.h:115-116. -/
def isError (x : Nat) : Bool := x &&& 0xf000 != 0

/-- `IS_FIN`, apps/rz/ztypes.h:117. -/
def isFin (x : Nat) : Bool := x &&& FIN == FIN

/-- `ZVALUE`, apps/rz/ztypes.h:118. -/
def zvalue (x : Nat) : Nat := x &&& 0xff

/-- `NONCONTROL`, apps/rz/zserial.h:35. -/
def noncontrol (x : Nat) : Bool := x &&& 0xe0 != 0

/-- Value of `zm_recv` for a byte, apps/rz/rz.c:38-42: the `char` becomes an unsigned 16-bit
number.  `none`: killed. -/
def recv1 (t : Target) (b : Nat) : Option Nat :=
  if t.breakOn3 ∧ b = 3 then none
  else some (if t.signedChar ∧ b ≥ 128 then 0xff00 + b else b)

/-- `zm_recv`, apps/rz/rz.c:38-42. -/
def recv (t : Target) : List Nat → Out Nat
  | [] => .wait
  | b :: r => match recv1 t b with
    | none => .killed
    | some c => .ok c r

/-- The last `switch` of `zm_read_escaped`, apps/rz/zserial.c:165-195. -/
def escValue (c : Nat) : Nat :=
  if c = ZDLE then CANCELLED
  else if c = 104 ∨ c = 105 ∨ c = 106 ∨ c = 107 then FIN ||| c
  else if c = 108 then 0x7f
  else if c = 109 then 0xff
  else if c &&& 0x60 = 0x40 then c ^^^ 0x40
  else BAD_ESCAPE

/-- Three tests for CAN, apps/rz/zserial.c:158-163, `k` of them left; then the `switch`. -/
def cans (t : Target) : Nat → Nat → List Nat → Out Nat
  | 0, c, r => .ok (escValue c) r
  | k + 1, c, r =>
    if c = ZDLE then (recv t r).then fun c r => if isError c then .ok c r else cans t k c r
    else .ok (escValue c) r

/-- After ZDLE, apps/rz/zserial.c:156-195. -/
def gotZdle (t : Target) (s : List Nat) : Out Nat :=
  (recv t s).then fun c r => if isError c then .ok c r else cans t 3 c r

/-- `zm_read_escaped`, apps/rz/zserial.c:74-196. -/
def readEscaped (t : Target) : List Nat → Out Nat
  | [] => .wait
  | b :: r => match recv1 t b with
    | none => .killed
    | some c =>
      if noncontrol c || isError c then .ok c r
      else if c = XON ∨ c = XON ||| 0x80 ∨ c = XOFF ∨ c = XOFF ||| 0x80 then readEscaped t r
      else if c = ZDLE then gotZdle t r
      else .ok c r

/-- `zm_read_crlf`, apps/rz/zserial.c:28-56. -/
def readCrlf (t : Target) (s : List Nat) : Out Nat :=
  (readEscaped t s).then fun c r =>
    if isError c then .ok c r
    else if c = 10 ∨ c = 10 ||| 0x80 then .ok OK r
    else if c = 13 ∨ c = 13 ||| 0x80 then
      (readEscaped t r).then fun c r =>
        if isError c then .ok c r
        else if c = 10 ∨ c = 10 ||| 0x80 then .ok OK r
        else .ok CORRUPTED r
    else .ok CORRUPTED r

/-- Assignment to an element of an array of bytes; `none`: outside. -/
def store (buf : List Nat) (i v : Nat) : Option (List Nat) := if i < buf.length then some (buf.set i v) else none

/-- `recv_data_block`, apps/rz/zserial.c:199-221: `k` bytes may still be stored, `len` have been.
Result: code, buffer, number of bytes. -/
def recvLoop (t : Target) : Nat → List Nat → Nat → List Nat → Out (Nat × List Nat × Nat)
  | 0, buf, len, s => .ok (OUT_OF_SPACE, buf, len) s
  | k + 1, buf, len, s =>
    (readEscaped t s).then fun c r =>
      if isError c then .ok (c, buf, len) r
      else match store buf len (zvalue c) with
        | none => .ub
        | some buf => if isFin c then .ok (c, buf, len + 1) r else recvLoop t k buf (len + 1) r

/-- `zm_calc_data_crc`, apps/rz/zheaders.c:42-50. -/
def dataCrc16 (buf : List Nat) (len : Nat) : Nat := updateCcitt 0 (buf.take len)

/-- `CRC`, apps/rz/ztypes.h:127 and 139. -/
def crcOf2 (b1 b2 : Nat) : Nat := b1 <<< 8 ||| b2

/-- `CRC32`, apps/rz/ztypes.h:132 and 144.  Simplified: shifting a byte of 128 or more by 24 bits is
signed overflow in standard C; the compilers used give the value taken here. -/
def crcOf4 (b1 b2 b3 b4 : Nat) : Nat := b4 <<< 24 ||| b3 <<< 16 ||| b2 <<< 8 ||| b1

/-- Reading one byte in `zm_read_data_block`, apps/rz/zserial.c:235-257; an error ends the function. -/
def crcByte (t : Target) (buf : List Nat) (len : Nat) (s : List Nat) (f : Nat → List Nat → Out (Nat × List Nat × Nat)) :
    Out (Nat × List Nat × Nat) :=
  (readEscaped t s).then fun c r => if isError c then .ok (c, buf, len) r else f (zvalue c) r

/-- `zm_read_data_block`, apps/rz/zserial.c:223-288, with `max` for `*len` on entry.  Result: code,
buffer, number of bytes. -/
def readDataBlock (t : Target) (in32 : Bool) (buf : List Nat) (max : Nat) (s : List Nat) : Out (Nat × List Nat × Nat) :=
  (recvLoop t max buf 0 s).then fun (result, buf, len) r =>
    if isError result then .ok (result, buf, len) r
    else crcByte t buf len r fun c1 r => crcByte t buf len r fun c2 r =>
      if in32 then crcByte t buf len r fun c3 r => crcByte t buf len r fun c4 r =>
        .ok (if crcOf4 c1 c2 c3 c4 = dataCrc32 buf len then result else BAD_CRC, buf, len) r
      else .ok (if crcOf2 c1 c2 = dataCrc16 buf len then result else BAD_CRC, buf, len) r

/-- `zm_await_zdle`, apps/rz/zserial.c:290-324: everything but an error and ZDLE is skipped. -/
def awaitZdle (t : Target) : List Nat → Out Nat
  | [] => .wait
  | b :: r => match recv1 t b with
    | none => .killed
    | some c => if isError c then .ok c r else if c = ZDLE then .ok OK r else awaitZdle t r

/-- `zm_hex_to_nybble`, apps/rz/znumbers.c:29-67. -/
def hexToNybble (c : Nat) : Nat :=
  if 48 ≤ c ∧ c ≤ 57 then c - 48 else if 97 ≤ c ∧ c ≤ 102 then c - 87 else BAD_DIGIT

/-- `zm_hex_to_byte`, apps/rz/znumbers.c:129-142; the parameters are of type `unsigned char`. -/
def hexToByte (c1 c2 : Nat) : Nat :=
  if hexToNybble (c1 % 256) = BAD_DIGIT ∨ hexToNybble (c2 % 256) = BAD_DIGIT then BAD_DIGIT
  else hexToNybble (c1 % 256) <<< 4 ||| hexToNybble (c2 % 256)

/-- Reading a digit in `zm_read_hex_header`, apps/rz/zserial.c:338-356; ends the function on an error
or on the character 0x0b. -/
def hexDigit (t : Target) (hdr : List Nat) (s : List Nat) (f : Nat → List Nat → Out (Nat × List Nat)) : Out (Nat × List Nat) :=
  (recv t s).then fun c r =>
    if isError c then .ok (c, hdr) r
    else if c &&& 0xff = 0x0b then .ok (CLOSED, hdr) r
    else f c r

/-- `zm_check_header_crc16`, apps/rz/zheaders.c:100-107; the header is given by its bytes in memory:
type, f3, f2, f1, f0 (or position, lowest byte first), crc1 to crc4, padding. -/
def checkCrc16 (hdr : List Nat) (crc : Nat) : Nat := if crcOf2 (hdr.getD 5 0) (hdr.getD 6 0) = crc then OK else BAD_CRC

/-- `zm_check_header_crc32`, apps/rz/zheaders.c:109-116. -/
def checkCrc32 (hdr : List Nat) (crc : Nat) : Nat :=
  if crcOf4 (hdr.getD 5 0) (hdr.getD 6 0) (hdr.getD 7 0) (hdr.getD 8 0) = crc then OK else BAD_CRC

/-- Loop of `zm_read_hex_header`, apps/rz/zserial.c:337-388: `k` bytes to read, `i` have been. -/
def hexLoop (t : Target) : Nat → Nat → List Nat → Nat → List Nat → Out (Nat × List Nat)
  | 0, _, hdr, crc, s => .ok (checkCrc16 hdr crc, hdr) s
  | k + 1, i, hdr, crc, s =>
    hexDigit t hdr s fun c1 r => hexDigit t hdr r fun c2 r =>
      if isError (hexToByte c1 c2) then .ok (hexToByte c1 c2, hdr) r
      else match store hdr i (hexToByte c1 c2 % 256) with
        | none => .ub
        | some hdr => hexLoop t k (i + 1) hdr (if i < 9 - 4 then stepCcitt (hexToByte c1 c2 % 256) crc else crc) r

/-- Loop of `zm_read_binary16_header`, apps/rz/zserial.c:399-425. -/
def bin16Loop (t : Target) : Nat → Nat → List Nat → Nat → List Nat → Out (Nat × List Nat)
  | 0, _, hdr, crc, s => .ok (checkCrc16 hdr crc, hdr) s
  | k + 1, i, hdr, crc, s =>
    (readEscaped t s).then fun b r =>
      if isError b then .ok (b, hdr) r
      else match store hdr i (b % 256) with
        | none => .ub
        | some hdr => bin16Loop t k (i + 1) hdr (if i < 9 - 4 then stepCcitt (b % 256) crc else crc) r

/-- Loop of `zm_read_binary32_header`, apps/rz/zserial.c:437-467. -/
def bin32Loop (t : Target) : Nat → Nat → List Nat → Nat → List Nat → Out (Nat × List Nat)
  | 0, _, hdr, crc, s => .ok (checkCrc32 hdr (not32 crc), hdr) s
  | k + 1, i, hdr, crc, s =>
    (readEscaped t s).then fun b r =>
      if isError b then .ok (b, hdr) r
      else match store hdr i (b % 256) with
        | none => .ub
        | some hdr => bin32Loop t k (i + 1) hdr (if i < 9 - 4 then step32 (b % 256) crc else crc) r

/-- `memset(hdr, 0xc0, sizeof(ZHDR))`, apps/rz/zserial.c:329, 393, 431. -/
def blankHdr : List Nat := List.replicate 10 0xc0

/-- `zm_read_hex_header`, apps/rz/zserial.c:326-388. -/
def readHexHeader (t : Target) (s : List Nat) : Out (Nat × List Nat) := hexLoop t 7 0 blankHdr 0 s

/-- `zm_read_binary16_header`, apps/rz/zserial.c:390-426. -/
def readBin16Header (t : Target) (s : List Nat) : Out (Nat × List Nat) := bin16Loop t 7 0 blankHdr 0 s

/-- `zm_read_binary32_header`, apps/rz/zserial.c:428-468. -/
def readBin32Header (t : Target) (s : List Nat) : Out (Nat × List Nat) := bin32Loop t 9 0 blankHdr (2 ^ 32 - 1) s

/-- What `zm_await_header` leaves behind: result, header, `in_32bit_block`. -/
structure Hdr where
  result : Nat
  hdr : List Nat
  in32 : Bool
deriving Repr, DecidableEq

/-- The `switch` of `zm_await_header`, apps/rz/zserial.c:488-524. -/
def readHeader (t : Target) (frameType : Nat) (h : Hdr) (s : List Nat) : Out Hdr :=
  if zvalue frameType = 66 then
    (readHexHeader t s).then fun (res, hdr) r =>
      if res = OK then (readCrlf t r).then fun c r => .ok ⟨c, hdr, false⟩ r
      else .ok ⟨res, hdr, false⟩ r
  else if zvalue frameType = 65 then (readBin16Header t s).then fun (res, hdr) r => .ok ⟨res, hdr, false⟩ r
  else if zvalue frameType = 67 then (readBin32Header t s).then fun (res, hdr) r => .ok ⟨res, hdr, true⟩ r
  else .ok ⟨BAD_FRAME_TYPE, h.hdr, h.in32⟩ s

/-- One pass of the loop of `zm_await_header`, apps/rz/zserial.c:474-528; `none`: `continue`. -/
def awaitPass (t : Target) (h : Hdr) (s : List Nat) : Out (Option Hdr) :=
  (awaitZdle t s).then fun c r =>
    if c = OK then
      (readEscaped t r).then fun f r =>
        if f = CANCELLED then .ok (some { h with result := CANCELLED }) r
        else if isError f then .ok none r
        else (readHeader t f h r).then fun h r => .ok (some h) r
    else .ok (some { h with result := CLOSED }) r

/-- `zm_await_header`, apps/rz/zserial.c:470-529, at most `fuel` passes (waiting if there are more);
every pass reads at least one byte. -/
def awaitLoop (t : Target) (h : Hdr) : Nat → List Nat → Out Hdr
  | 0, _ => .wait
  | n + 1, s => (awaitPass t h s).then fun x r => match x with
    | some h => .ok h r
    | none => awaitLoop t h n r

/-- `zm_await_header`, apps/rz/zserial.c:470-529. -/
def awaitHeader (t : Target) (h : Hdr) (s : List Nat) : Out Hdr := awaitLoop t h (s.length + 1) s

/-! ## Sending -/

/-- `zm_nybble_to_hex`, apps/rz/znumbers.c:69-107. -/
def nybbleToHex (n : Nat) : Nat := if n < 10 then 48 + n else if n < 16 then 87 + n else OUT_OF_RANGE

/-- `zm_byte_to_hex`, apps/rz/znumbers.c:109-127: the two characters stored; nothing is stored on an
error. -/
def byteToHex (b : Nat) : List Nat :=
  if isError (nybbleToHex ((b &&& 0xf0) >>> 4)) ∨ isError (nybbleToHex (b &&& 0x0f)) then []
  else [nybbleToHex ((b &&& 0xf0) >>> 4) % 256, nybbleToHex (b &&& 0x0f) % 256]

/-- `zm_calc_hdr_crc`, apps/rz/zheaders.c:30-40: type, the four bytes after it, crc1, crc2. -/
def hdrCrc (ty a b c d : Nat) : List Nat :=
  let crc := stepCcitt d (stepCcitt c (stepCcitt b (stepCcitt a (stepCcitt ty 0))))
  [ty, a, b, c, d, (crc &&& 0xff00) >>> 8, crc &&& 0x00ff]

/-- `zm_to_hex_header`, apps/rz/zheaders.c:72-98: the characters stored in the buffer of
`HEX_HDR_STR_LEN` = 17 bytes. -/
def toHexHeader (bytes : List Nat) : List Nat := 66 :: bytes.flatMap byteToHex ++ [13, 10 ||| 0x80]

/-- `zm_send_sz`, apps/rz/zserial.c:531-544: the bytes sent; `none`: no zero byte in the memory the
pointer may be used for. -/
def sendSz : List Nat → Option (List Nat)
  | [] => none
  | c :: r => if c = 0 then some [] else (sendSz r).map (c :: ·)

/-- `just_send_hex_hdr` and `zm_send_hex_hdr`, apps/rz/zserial.c:546-574.  `beyond` is the memory behind the
array `buf` of `zm_send_hex_hdr` that the function is allowed to read; standard C allows none. -/
def sendHexHdr (beyond : List Nat) (ty a b c d : Nat) : Option (List Nat) :=
  (sendSz (toHexHeader (hdrCrc ty a b c d) ++ beyond)).map fun s => [ZPAD, ZPAD, ZDLE] ++ s ++ [XON]

/-- `zm_send_pos_hdr`, apps/rz/zserial.c:576-601 (little-endian). -/
def sendPosHdr (beyond : List Nat) (ty pos : Nat) : Option (List Nat) :=
  sendHexHdr beyond ty (pos &&& 0xff) (pos >>> 8 &&& 0xff) (pos >>> 16 &&& 0xff) (pos >>> 24 &&& 0xff)

/-- `zm_send_flags_hdr`, apps/rz/zserial.c:603-621: the flags are stored f3 first. -/
def sendFlagsHdr (beyond : List Nat) (ty f0 f1 f2 f3 : Nat) : Option (List Nat) := sendHexHdr beyond ty f3 f2 f1 f0

/-! ## The receiver -/

/-- Calls with an effect outside: bytes sent, `f_open`, `f_write`, `f_close`. -/
inductive Op where
  | send (bytes : List Nat)
  | open (name : List Nat)
  | write (data : List Nat)
  | close
deriving Repr, DecidableEq

/-- The file system as seen by `rz`: status of `f_open`, status and byte count of `f_write`, given all
calls so far including the one in question. -/
structure Fs where
  openRes : List Op → Nat
  writeRes : List Op → Nat × Nat

/-- Local variables of `rz`, apps/rz/rz.c:58-64; `log` are the calls so far. -/
structure Rz where
  h : Hdr
  dataBuf : List Nat
  received : Nat
  fsStatus : Nat
  log : List Op

/-- Where the program is: at `startframe` (or `continue` of the outer loop), at the top of the inner
loop, after `cleanup`. -/
inductive Mode where
  | start
  | data
  | done
deriving Repr, DecidableEq

/-- `cleanup`, apps/rz/rz.c:328-331. -/
def cleanup (z : Rz) : Rz := if z.fsStatus = 0 then { z with log := z.log ++ [.close] } else z

/-- Send a reply (`none`: undefined behaviour) and go on.  `zm_send` always returns OK (apps/rz/rz.c:47-51), so
the branches for other results of sending are never taken. -/
def reply (bytes : Option (List Nat)) (m : Mode) (z : Rz) (s : List Nat) : Out (Mode × Rz) :=
  match bytes with
  | none => .ub
  | some b => .ok (m, { z with log := z.log ++ [.send b] }) s

/-- Reading a C string in an array. -/
def cString : List Nat → Option (List Nat)
  | [] => none
  | c :: r => if c = 0 then some [] else (cString r).map (c :: ·)

/-- Size of `data_buf`, apps/rz/rz.c:33. -/
def DATA_BUF_LEN := 2048

/-- The file is opened, apps/rz/rz.c:149-172 (FR_OK is 0). -/
def openFile (fs : Fs) (beyond : List Nat) (z : Rz) (s : List Nat) : Out (Mode × Rz) :=
  match cString z.dataBuf with
  | none => .ub
  | some name =>
    let log := z.log ++ [.open name]
    let z := { z with fsStatus := fs.openRes log, log := log }
    if z.fsStatus ≠ 0 then .ok (.done, cleanup z) s
    else reply (sendPosHdr beyond 9 z.received) .start z s

/-- Case ZFILE, apps/rz/rz.c:122-175 (the flags have no effect). -/
def onFile (t : Target) (fs : Fs) (beyond : List Nat) (z : Rz) (s : List Nat) : Out (Mode × Rz) :=
  (readDataBlock t z.h.in32 z.dataBuf DATA_BUF_LEN s).then fun (result, buf, _) r =>
    let z := { z with dataBuf := buf }
    if result = CANCELLED then .ok (.done, cleanup z) r
    else if isError result then .ok (.start, z) r
    else openFile fs beyond z r

/-- Rest of the inner loop after a good block has been written, apps/rz/rz.c:214-260. -/
def afterWrite (beyond : List Nat) (result : Nat) (z : Rz) (s : List Nat) : Out (Mode × Rz) :=
  if result = FIN ||| 104 then .ok (.start, z) s
  else if result = FIN ||| 105 then .ok (.data, z) s
  else if result = FIN ||| 106 then reply (sendPosHdr beyond 3 z.received) .data z s
  else if result = FIN ||| 107 then reply (sendPosHdr beyond 3 z.received) .start z s
  else .ok (.data, z) s

/-- Writing a good block of `count` bytes, apps/rz/rz.c:196-212; `count` counts the frame end. -/
def writeBlock (fs : Fs) (beyond : List Nat) (result count : Nat) (z : Rz) (s : List Nat) : Out (Mode × Rz) :=
  let log := z.log ++ [.write (z.dataBuf.take (count - 1))]
  let w := fs.writeRes log
  let z := { z with fsStatus := w.1, log := log }
  if w.1 ≠ 0 then .ok (.done, cleanup z) s
  else if w.2 ≠ count - 1 then .ok (.done, cleanup z) s
  else afterWrite beyond result { z with received := (z.received + (count - 1)) % 2 ^ 32 } s

/-- One pass of the inner loop, apps/rz/rz.c:180-280. -/
def onData (t : Target) (fs : Fs) (beyond : List Nat) (z : Rz) (s : List Nat) : Out (Mode × Rz) :=
  (readDataBlock t z.h.in32 z.dataBuf DATA_BUF_LEN s).then fun (result, buf, count) r =>
    let z := { z with dataBuf := buf }
    if z.fsStatus ≠ 0 then .ok (.done, cleanup z) r
    else if result = CANCELLED then .ok (.done, cleanup z) r
    else if isError result then reply (sendPosHdr beyond 9 z.received) .start z r
    else writeBlock fs beyond result count z r

/-- The `switch` on the header type, apps/rz/rz.c:81-287. -/
def onHeader (t : Target) (fs : Fs) (beyond : List Nat) (z : Rz) (s : List Nat) : Out (Mode × Rz) :=
  let ty := z.h.hdr.getD 0 0
  if ty = 0x00 ∨ ty = 0x0b then reply (sendFlagsHdr beyond 1 (0x02 ||| 0x20) 0 0 0) .start z s
  else if ty = 0x08 then
    (reply (sendPosHdr beyond 8 0) .done z s).then fun (m, z) s => .ok (m, cleanup z) s
  else if ty = 0x04 then onFile t fs beyond z s
  else if ty = 0x0a then .ok (.data, z) s
  else .ok (.start, z) s

/-- The `switch` on the result of `zm_await_header`, apps/rz/rz.c:73-325. -/
def onResult (t : Target) (fs : Fs) (beyond : List Nat) (z : Rz) (s : List Nat) : Out (Mode × Rz) :=
  if z.h.result = CANCELLED then .ok (.done, cleanup z) s
  else if z.h.result = OK then onHeader t fs beyond z s
  else reply (sendPosHdr beyond 6 z.received) .start z s

/-- One pass of the outer or the inner loop of `rz`, apps/rz/rz.c:69-326. -/
def step (t : Target) (fs : Fs) (beyond : List Nat) : Mode × Rz → List Nat → Out (Mode × Rz)
  | (.start, z), s => (awaitHeader t z.h s).then fun h r => onResult t fs beyond { z with h := h } r
  | (.data, z), s => onData t fs beyond z s
  | (.done, z), s => .ok (.done, z) s

/-- `rz`, apps/rz/rz.c:56-332: `n` passes. -/
def run (t : Target) (fs : Fs) (beyond : List Nat) : Nat → Mode × Rz → List Nat → Out (Mode × Rz)
  | 0, m, s => .ok m s
  | n + 1, m, s => (step t fs beyond m s).then (run t fs beyond n)

/-- Variables at the start, apps/rz/rz.c:58-64 (FR_NO_FILE is 4): `buf` and `hdr` are indeterminate. -/
def init (buf hdr : List Nat) : Mode × Rz := (.start, ⟨⟨0, hdr, false⟩, buf, 0, 4, []⟩)

end Fpm.Zmodem
