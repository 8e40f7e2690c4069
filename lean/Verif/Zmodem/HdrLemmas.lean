import Verif.Zmodem.Lemmas
/-!
# Lemmas about data blocks and headers
-/
namespace Fpm.Zmodem
open Fpm.Zmodem.Spec Fpm.Crc

theorem crcByte_ok {t : Target} {s r : List Nat} {c : Nat} (hc : c < 256) (h : readEscaped t s = .ok c r) (buf : List Nat) (len : Nat)
    (f : Nat → List Nat → Out (Nat × List Nat × Nat)) : crcByte t buf len s f = f c r := by
  obtain ⟨h1, _, h3⟩ := byte_ok c hc
  rw [crcByte, h, then_ok, if_neg (by simp [h1]), h3]

theorem readEscaped_tail {t : Target} {w : List Nat} (h : Wire [] w) (hc : Clean t w) (r : List Nat) :
    readEscaped t (w ++ r) = readEscaped t r := h.rest hc r

/-- Input that begins with flow control characters only. -/
def Quiet (t : Target) (q : List Nat) : Prop := Wire [] q ∧ Clean t q

open Classical in
/-- A data subpacket as a whole.  Flow control characters after the last check byte stay in the
input. -/
theorem readDataBlock_sub {t : Target} {in32 : Bool} {p check w : List Nat} {e : Nat} (hs : Sub p e check w) (hc : Clean t w)
    (hlen : check.length = checkLen in32) {buf : List Nat} {max : Nat} (hmax : p.length < max) (hbuf : max ≤ buf.length) :
    ∃ q, Quiet t q ∧ ∀ r, readDataBlock t in32 buf max (w ++ r) =
      .ok (if Check in32 (p ++ [e]) check then 512 + e else BAD_CRC, put buf 0 (p ++ [e]), p.length + 1) (q ++ r) := by
  obtain ⟨he, w1, w2, hw1, hw2, rfl⟩ := hs
  have hpe : ∀ b ∈ p ++ [e], b < 256 := by
    intro b hb
    rcases List.mem_append.mp hb with h | h
    · exact hw1.bytes b h
    · simp at h; unfold FrameEnd at he; omega
  have hf := fin_ok e he.1 he.2
  have htk : (put buf 0 (p ++ [e])).take (p.length + 1) = p ++ [e] := put_take _ (by simp)
  cases in32 with
  | false =>
    rw [checkLen, if_neg (by simp)] at hlen
    obtain ⟨c1, c2, rfl⟩ : ∃ c1 c2, check = [c1, c2] := by
      match check, hlen with
      | [c1, c2], _ => exact ⟨c1, c2, rfl⟩
    obtain ⟨b1, v1, u1, rfl, g1, k1, _, f1⟩ := hw2.uncons hc.right
    obtain ⟨b2, v2, u2, rfl, g2, k2, _, f2⟩ := g1.uncons k1
    refine ⟨u2, ⟨g2, k2⟩, fun r => ?_⟩
    rw [readDataBlock, List.append_assoc, recvLoop_end hw1 he hc.left hmax hbuf, then_ok]
    simp only
    rw [if_neg (by simp [hf.1]), List.append_assoc, crcByte_ok b1 (f1 _), List.append_assoc, crcByte_ok b2 (f2 _), if_neg (by simp),
      dataCrc16, htk]
    simp only [(check_iff (p ++ [e]) hpe b1 b2 (show (0 : Nat) < 256 by decide) (show (0 : Nat) < 256 by decide)).1]
  | true =>
    rw [checkLen, if_pos rfl] at hlen
    obtain ⟨c1, c2, c3, c4, rfl⟩ : ∃ c1 c2 c3 c4, check = [c1, c2, c3, c4] := by
      match check, hlen with
      | [c1, c2, c3, c4], _ => exact ⟨c1, c2, c3, c4, rfl⟩
    obtain ⟨b1, v1, u1, rfl, g1, k1, _, f1⟩ := hw2.uncons hc.right
    obtain ⟨b2, v2, u2, rfl, g2, k2, _, f2⟩ := g1.uncons k1
    obtain ⟨b3, v3, u3, rfl, g3, k3, _, f3⟩ := g2.uncons k2
    obtain ⟨b4, v4, u4, rfl, g4, k4, _, f4⟩ := g3.uncons k3
    refine ⟨u4, ⟨g4, k4⟩, fun r => ?_⟩
    rw [readDataBlock, List.append_assoc, recvLoop_end hw1 he hc.left hmax hbuf, then_ok]
    simp only
    rw [if_neg (by simp [hf.1]), List.append_assoc, crcByte_ok b1 (f1 _), List.append_assoc, crcByte_ok b2 (f2 _), if_pos trivial,
      List.append_assoc, crcByte_ok b3 (f3 _), List.append_assoc, crcByte_ok b4 (f4 _), dataCrc32, if_neg (Nat.succ_ne_zero p.length), htk]
    simp only [(check_iff (p ++ [e]) hpe b1 b2 b3 b4).2]

/-! ## Headers -/

theorem digit_ok : ∀ b < 256, hexToByte (digit (b / 16)) (digit (b % 16)) = b ∧
    (digit (b / 16) < 128 ∧ digit (b / 16) ≠ 3 ∧ digit (b / 16) ≠ 11) ∧ (digit (b % 16) < 128 ∧ digit (b % 16) ≠ 3 ∧ digit (b % 16) ≠ 11) := by
  decide +kernel

theorem hexDigit_ok {t : Target} {d : Nat} (h1 : d < 128) (h2 : d ≠ 3) (h3 : d ≠ 11) (hdr r : List Nat) (f : Nat → List Nat → Out (Nat × List Nat)) :
    hexDigit t hdr (d :: r) f = f d r := by
  have hc : Clean t [d] := by intro b hb; simp at hb; omega
  have := byte_ok d (by omega)
  rw [hexDigit, recv_clean r hc, then_ok, if_neg (by simp [this.1]), and_byte (by omega), if_neg h3]

/-- The part of the bytes that goes into the header checksum. -/
theorem take_step (b i : Nat) (bs : List Nat) (f : Nat → Nat → Nat) (crc : Nat) :
    ((b :: bs).take (5 - i)).foldl f crc = (bs.take (5 - (i + 1))).foldl f (if i < 9 - 4 then f crc b else crc) := by
  by_cases h : i < 5
  · rw [if_pos (by omega), show 5 - i = 5 - (i + 1) + 1 by omega, List.take_succ_cons, List.foldl_cons]
  · rw [if_neg (by omega), show 5 - i = 0 by omega, show 5 - (i + 1) = 0 by omega, List.take_zero, List.take_zero]

theorem hexLoop_ok (t : Target) (bs : List Nat) (hb : ∀ b ∈ bs, b < 256) (i crc : Nat) (hdr r : List Nat) (hl : i + bs.length ≤ hdr.length) :
    hexLoop t bs.length i hdr crc (bs.flatMap hex2 ++ r) =
      .ok (checkCrc16 (put hdr i bs) (updateCcitt crc (bs.take (5 - i))), put hdr i bs) r := by
  induction bs generalizing i crc hdr with
  | nil => simp [hexLoop, put_nil, updateCcitt]
  | cons b bs ih =>
    have h256 : b < 256 := hb b (by simp)
    obtain ⟨e0, ⟨a1, a2, a3⟩, b1, b2, b3⟩ := digit_ok b h256
    have hl' : i + 1 + bs.length ≤ hdr.length := by simpa [Nat.add_comm, Nat.add_left_comm, Nat.add_assoc] using hl
    rw [List.length_cons, hexLoop, List.flatMap_cons, hex2, show ∀ x y, [x, y] ++ bs.flatMap hex2 ++ r = x :: y :: (bs.flatMap hex2 ++ r) by simp,
      hexDigit_ok a1 a2 a3, hexDigit_ok b1 b2 b3, e0, if_neg (by simp [(byte_ok b h256).1]), store_ok (by omega)]
    simp only
    rw [Nat.mod_eq_of_lt h256, ih (fun x hx => hb x (by simp [hx])) (i + 1) _ (hdr.set i b) (by simpa using hl'), put_cons (by omega), updateCcitt, updateCcitt,
      take_step]

theorem bin16Loop_ok {t : Target} (bs w : List Nat) (hw : Wire bs w) (hc : Clean t w) (i crc : Nat) (hdr : List Nat) (hl : i + bs.length ≤ hdr.length) :
    ∃ q, Quiet t q ∧ ∀ r, bin16Loop t bs.length i hdr crc (w ++ r) =
      .ok (checkCrc16 (put hdr i bs) (updateCcitt crc (bs.take (5 - i))), put hdr i bs) (q ++ r) := by
  induction bs generalizing w i crc hdr with
  | nil => exact ⟨w, ⟨hw, hc⟩, fun r => by simp [bin16Loop, put_nil, updateCcitt]⟩
  | cons b bs ih =>
    obtain ⟨hb, w1, w2, rfl, h1, h2, _, h4⟩ := hw.uncons hc
    simp only [List.length_cons] at hl
    obtain ⟨q, hq, h⟩ := ih w2 h1 h2 (i + 1) (if i < 9 - 4 then stepCcitt b crc else crc) (hdr.set i b) (by simp; omega)
    refine ⟨q, hq, fun r => ?_⟩
    rw [List.length_cons, bin16Loop, List.append_assoc, h4, then_ok, if_neg (by simp [(byte_ok b hb).1]), store_ok (by omega)]
    simp only
    rw [Nat.mod_eq_of_lt hb, h, put_cons (by omega), updateCcitt, updateCcitt, take_step]

theorem bin32Loop_ok {t : Target} (bs w : List Nat) (hw : Wire bs w) (hc : Clean t w) (i crc : Nat) (hdr : List Nat) (hl : i + bs.length ≤ hdr.length) :
    ∃ q, Quiet t q ∧ ∀ r, bin32Loop t bs.length i hdr crc (w ++ r) =
      .ok (checkCrc32 (put hdr i bs) (not32 (update32 crc (bs.take (5 - i)))), put hdr i bs) (q ++ r) := by
  induction bs generalizing w i crc hdr with
  | nil => exact ⟨w, ⟨hw, hc⟩, fun r => by simp [bin32Loop, put_nil, update32]⟩
  | cons b bs ih =>
    obtain ⟨hb, w1, w2, rfl, h1, h2, _, h4⟩ := hw.uncons hc
    simp only [List.length_cons] at hl
    obtain ⟨q, hq, h⟩ := ih w2 h1 h2 (i + 1) (if i < 9 - 4 then step32 b crc else crc) (hdr.set i b) (by simp; omega)
    refine ⟨q, hq, fun r => ?_⟩
    rw [List.length_cons, bin32Loop, List.append_assoc, h4, then_ok, if_neg (by simp [(byte_ok b hb).1]), store_ok (by omega)]
    simp only
    rw [Nat.mod_eq_of_lt hb, h, put_cons (by omega), update32, update32, take_step]

theorem five_eq {five : List Nat} (h : five.length = 5) : ∃ a b c d e, five = [a, b, c, d, e] := by
  match five, h with
  | [a, b, c, d, e], _ => exact ⟨a, b, c, d, e, rfl⟩

/-- The header in memory after seven or nine bytes have been read. -/
def hdrOf (bytes : List Nat) : List Nat := bytes ++ List.replicate (10 - bytes.length) 0xc0

theorem put_blank (bytes : List Nat) (_h : bytes.length ≤ 10) : put blankHdr 0 bytes = hdrOf bytes := by
  rw [put, blankHdr, hdrOf, List.drop_replicate]; simp

theorem awaitZdle_junk {t : Target} {junk : List Nat} (hc : Clean t (junk ++ [24])) (hj : ∀ b ∈ junk, b ≠ 24) (r : List Nat) :
    awaitZdle t (junk ++ 24 :: r) = .ok OK r := by
  induction junk with
  | nil =>
    have h2 : Clean t (24 :: []) := hc
    rw [List.nil_append, awaitZdle, recv1_clean h2]; rfl
  | cons b junk ih =>
    rw [List.cons_append] at hc
    rw [List.cons_append, awaitZdle, recv1_clean hc]
    simp only
    rw [if_neg (by simp [(byte_ok b hc.head.1).1]), if_neg (by simpa [ZDLE] using hj b (by simp)), ih hc.tail (fun x hx => hj x (by simp [hx]))]

/-- A pass that finds a header. -/
theorem awaitHeader_pass {t : Target} {h h' : Hdr} {s r : List Nat} (hp : awaitPass t h s = .ok (some h') r) : awaitHeader t h s = .ok h' r := by
  rw [awaitHeader, awaitLoop, hp]; rfl

theorem awaitPass_frame {t : Target} {junk : List Nat} {f : Nat} (hc : Clean t (junk ++ [24, f])) (hj : ∀ b ∈ junk, b ≠ 24)
    (hf : f = 65 ∨ f = 66 ∨ f = 67) (h : Hdr) (r : List Nat) :
    awaitPass t h (junk ++ 24 :: f :: r) = (readHeader t f h r).then fun h r => .ok (some h) r := by
  have hc1 : Clean t (junk ++ [24]) := by
    have : Clean t ((junk ++ [24]) ++ [f]) := by simpa using hc
    exact this.left
  have hc2 : Clean t (f :: []) := hc.right.tail
  rw [awaitPass, awaitZdle_junk hc1 hj, then_ok, if_pos rfl, readEscaped_plain hc2 (by omega) (by omega) (by omega), then_ok,
    if_neg (by rcases hf with rfl | rfl | rfl <;> decide), if_neg (by rcases hf with rfl | rfl | rfl <;> decide)]

theorem readCrlf_ok {t : Target} (hc : Clean t [13, 138]) (r : List Nat) : readCrlf t (13 :: 138 :: r) = .ok OK r := by
  have h1 : Clean t (13 :: [138]) := hc
  rw [readCrlf, readEscaped_plain h1 (by decide) (by decide) (by decide), then_ok, if_neg (by decide), if_neg (by decide), if_pos (by decide),
    readEscaped_plain h1.tail (by decide) (by decide) (by decide), then_ok, if_neg (by decide), if_pos (by decide)]

theorem two_eq {l : List Nat} (h : l.length = 2) : ∃ a b, l = [a, b] := by
  match l, h with
  | [a, b], _ => exact ⟨a, b, rfl⟩

theorem four_eq {l : List Nat} (h : l.length = 4) : ∃ a b c d, l = [a, b, c, d] := by
  match l, h with
  | [a, b, c, d], _ => exact ⟨a, b, c, d, rfl⟩

open Classical in
theorem check16 (five : List Nat) (h5 : five.length = 5) (hb : ∀ b ∈ five, b < 256) (c1 c2 : Nat) (h1 : c1 < 256) (h2 : c2 < 256) :
    checkCrc16 (hdrOf (five ++ [c1, c2])) (updateCcitt 0 ((five ++ [c1, c2]).take (5 - 0))) = if Check false five [c1, c2] then OK else BAD_CRC := by
  have h := (check_iff five hb h1 h2 (show (0 : Nat) < 256 by decide) (show (0 : Nat) < 256 by decide)).1
  simp only [h]
  rw [show 5 - 0 = five.length by omega, List.take_left, checkCrc16]
  obtain ⟨a, b, c, d, e, rfl⟩ := five_eq h5
  rfl

open Classical in
theorem check32 (five : List Nat) (h5 : five.length = 5) (hb : ∀ b ∈ five, b < 256) (c1 c2 c3 c4 : Nat) (h1 : c1 < 256) (h2 : c2 < 256) (h3 : c3 < 256) (h4 : c4 < 256) :
    checkCrc32 (hdrOf (five ++ [c1, c2, c3, c4])) (not32 (update32 (2 ^ 32 - 1) ((five ++ [c1, c2, c3, c4]).take (5 - 0)))) =
      if Check true five [c1, c2, c3, c4] then OK else BAD_CRC := by
  have h := (check_iff five hb h1 h2 h3 h4).2
  simp only [h]
  rw [show 5 - 0 = five.length by omega, List.take_left, checkCrc32]
  generalize not32 _ = n
  obtain ⟨a, b, c, d, e, rfl⟩ := five_eq h5
  rfl

open Classical in
/-- Reading seven bytes in hexadecimal. -/
theorem readHexHeader_ok (t : Target) (five : List Nat) (h5 : five.length = 5) (hb : ∀ b ∈ five, b < 256) (c1 c2 : Nat) (h1 : c1 < 256) (h2 : c2 < 256)
    (r : List Nat) : readHexHeader t ((five ++ [c1, c2]).flatMap hex2 ++ r) =
      .ok (if Check false five [c1, c2] then OK else BAD_CRC, hdrOf (five ++ [c1, c2])) r := by
  have hl : (five ++ [c1, c2]).length = 7 := by simp [h5]
  have hb' : ∀ b ∈ five ++ [c1, c2], b < 256 := by
    intro b h; simp at h; rcases h with h | h | h
    · exact hb b h
    · omega
    · omega
  have := hexLoop_ok t (five ++ [c1, c2]) hb' 0 0 blankHdr r (by rw [hl]; decide)
  rw [hl] at this
  rw [readHexHeader, this, put_blank _ (by omega), check16 five h5 hb c1 c2 h1 h2]

theorem check_len {in32 : Bool} {m cs : List Nat} (h : Check in32 m cs) : cs.length = checkLen in32 ∧ ∀ b ∈ cs, b < 256 := by
  cases in32 with
  | false =>
    rw [Check, if_neg (by simp)] at h
    obtain ⟨c, ⟨h, _⟩, rfl⟩ := h
    refine ⟨rfl, fun b hb => ?_⟩
    simp at hb; omega
  | true =>
    rw [Check, if_pos rfl] at h
    obtain ⟨c, ⟨h, _⟩, rfl⟩ := h
    refine ⟨rfl, fun b hb => ?_⟩
    simp at hb; omega

theorem clean_append {t : Target} {a b : List Nat} (ha : Clean t a) (hb : Clean t b) : Clean t (a ++ b) := by
  intro x hx
  rcases List.mem_append.mp hx with h | h
  · exact ha x h
  · exact hb x h

theorem nojunk {junk pre : List Nat} (hj : ∀ b ∈ junk, b ≠ 24) (hp : ∀ b ∈ pre, b ≠ 24) : ∀ b ∈ junk ++ pre, b ≠ 24 := by
  intro b hb
  rcases List.mem_append.mp hb with h | h
  · exact hj b h
  · exact hp b h

theorem awaitHeader_bin16 {t : Target} {junk five w : List Nat} (hj : ∀ b ∈ junk, b ≠ 24) (hw : BinHdr false five w) (hc : Clean t (junk ++ w)) (h : Hdr) :
    ∃ cs q, Check false five cs ∧ Quiet t q ∧ ∀ r, awaitHeader t h (junk ++ w ++ r) = .ok ⟨OK, hdrOf (five ++ cs), false⟩ (q ++ r) := by
  obtain ⟨h5, hb, cs, w2, hcs, hw2, rfl⟩ := hw
  have hcl := check_len hcs
  obtain ⟨c1, c2, rfl⟩ := two_eq hcl.1
  have hw2c : Clean t w2 := hc.right.right
  have hl : (five ++ [c1, c2]).length = 7 := by simp [h5]
  obtain ⟨q, hq, hr⟩ := bin16Loop_ok (five ++ [c1, c2]) w2 hw2 hw2c 0 0 blankHdr (by rw [hl]; decide)
  refine ⟨[c1, c2], q, hcs, hq, fun r => awaitHeader_pass ?_⟩
  have hcl2 : Clean t ((junk ++ [42]) ++ [24, 65]) := by
    rw [List.append_assoc]; exact clean_append hc.left hc.right.left
  rw [if_neg (by simp), show junk ++ ([42, 24, 65] ++ w2) ++ r = (junk ++ [42]) ++ 24 :: 65 :: (w2 ++ r) by simp,
    awaitPass_frame hcl2 (nojunk hj (by simp)) (by simp), readHeader, if_neg (by decide), if_pos (by decide), readBin16Header]
  rw [hl] at hr
  rw [hr, then_ok, put_blank _ (by omega), check16 five h5 hb c1 c2 (hcl.2 c1 (by simp)) (hcl.2 c2 (by simp)), if_pos hcs]
  rfl

theorem awaitHeader_bin32 {t : Target} {junk five w : List Nat} (hj : ∀ b ∈ junk, b ≠ 24) (hw : BinHdr true five w) (hc : Clean t (junk ++ w)) (h : Hdr) :
    ∃ cs q, Check true five cs ∧ Quiet t q ∧ ∀ r, awaitHeader t h (junk ++ w ++ r) = .ok ⟨OK, hdrOf (five ++ cs), true⟩ (q ++ r) := by
  obtain ⟨h5, hb, cs, w2, hcs, hw2, rfl⟩ := hw
  have hcl := check_len hcs
  obtain ⟨c1, c2, c3, c4, rfl⟩ := four_eq hcl.1
  have hw2c : Clean t w2 := hc.right.right
  have hl : (five ++ [c1, c2, c3, c4]).length = 9 := by simp [h5]
  obtain ⟨q, hq, hr⟩ := bin32Loop_ok (five ++ [c1, c2, c3, c4]) w2 hw2 hw2c 0 (2 ^ 32 - 1) blankHdr (by rw [hl]; decide)
  refine ⟨[c1, c2, c3, c4], q, hcs, hq, fun r => awaitHeader_pass ?_⟩
  have hcl2 : Clean t ((junk ++ [42]) ++ [24, 67]) := by
    rw [List.append_assoc]; exact clean_append hc.left hc.right.left
  rw [if_pos rfl, show junk ++ ([42, 24, 67] ++ w2) ++ r = (junk ++ [42]) ++ 24 :: 67 :: (w2 ++ r) by simp,
    awaitPass_frame hcl2 (nojunk hj (by simp)) (by simp), readHeader, if_neg (by decide), if_neg (by decide), if_pos (by decide), readBin32Header]
  rw [hl] at hr
  rw [hr, then_ok, put_blank _ (by omega), check32 five h5 hb c1 c2 c3 c4 (hcl.2 c1 (by simp)) (hcl.2 c2 (by simp)) (hcl.2 c3 (by simp)) (hcl.2 c4 (by simp)),
    if_pos hcs]
  rfl

theorem awaitHeader_hex {t : Target} {junk five w : List Nat} (hj : ∀ b ∈ junk, b ≠ 24) (hw : HexHdr five w) (hc : Clean t (junk ++ w)) (h : Hdr) :
    ∃ cs, Check false five cs ∧ ∀ r, awaitHeader t h (junk ++ w ++ r) = .ok ⟨OK, hdrOf (five ++ cs), false⟩ r := by
  obtain ⟨h5, hb, cs, hcs, rfl⟩ := hw
  have hcl := check_len hcs
  obtain ⟨c1, c2, rfl⟩ := two_eq hcl.1
  refine ⟨[c1, c2], hcs, fun r => awaitHeader_pass ?_⟩
  have hcl2 : Clean t ((junk ++ [42, 42]) ++ [24, 66]) := by
    rw [List.append_assoc]; exact clean_append hc.left hc.right.left.left
  rw [show junk ++ ([42, 42, 24, 66] ++ (five ++ [c1, c2]).flatMap hex2 ++ [13, 138]) ++ r =
    (junk ++ [42, 42]) ++ 24 :: 66 :: ((five ++ [c1, c2]).flatMap hex2 ++ (13 :: 138 :: r)) by simp,
    awaitPass_frame hcl2 (nojunk hj (by simp)) (by simp), readHeader, if_pos (by decide),
    readHexHeader_ok t five h5 hb c1 c2 (hcl.2 c1 (by simp)) (hcl.2 c2 (by simp)), then_ok]
  simp only
  rw [if_pos hcs, if_pos rfl, readCrlf_ok hc.right.right]
  rfl

/-- **Any header** of a conforming sender is read. -/
theorem awaitHeader_ok {t : Target} {in32 : Bool} {five w : List Nat} (hw : Header in32 five w) (hc : Clean t w) (h : Hdr) :
    ∃ cs q, Check in32 five cs ∧ Quiet t q ∧ ∀ r, awaitHeader t h (w ++ r) = .ok ⟨OK, hdrOf (five ++ cs), in32⟩ (q ++ r) := by
  obtain ⟨junk, w1, hj, rfl, hw⟩ := hw
  rcases hw with hw | ⟨rfl, hw⟩
  · cases in32 with
    | false => exact awaitHeader_bin16 hj hw hc h
    | true => exact awaitHeader_bin32 hj hw hc h
  · obtain ⟨cs, h1, h2⟩ := awaitHeader_hex hj hw hc h
    exact ⟨cs, [], h1, ⟨.nil, by intro b hb; cases hb⟩, h2⟩

end Fpm.Zmodem
