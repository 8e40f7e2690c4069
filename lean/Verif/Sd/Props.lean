import Verif.Sd.InitLemmas
/-!
# C102 - C105: SD cards
-/
namespace Fpm.Sd
open Fpm.Crc Fpm.Crc.Spec Fpm.Sd.Spec

/-! ## C102: registers -/

/-- The bits of a register that the driver takes are those of the 128-bit number. -/
theorem C102_bits (reg : List Nat) (hl : reg.length = 16) (hb : Bytes reg) (msb lsb : Nat) (h1 : msb < 128) (h2 : lsb ≤ msb) (h3 : msb < lsb + 32) : extBits reg msb lsb = field reg msb lsb := ext_bits hb hl h1 h2 h3

example : extBits [0x40, 0x0e, 0, 0x32, 0x5b, 0x59, 0, 0, 0x1d, 0x69, 0x7f, 0x80, 0x0a, 0x40, 0, 0x13] 69 48 = 7529 ∧ field [0x40, 0x0e, 0, 0x32, 0x5b, 0x59, 0, 0, 0x1d, 0x69, 0x7f, 0x80, 0x0a, 0x40, 0, 0x13] 69 48 = 7529 := by decide +kernel

/-- The capacity is that of the register CSD, if it is of version 1.0 or 2.0. -/
theorem C102_capacity (csd : List Nat) (hl : csd.length = 16) (hb : Bytes csd) (n : Nat) (hc : Capacity csd n) (hn : n < 2 ^ 32) : csdBlocks csd = n := csd_blocks hb hl hc hn

/-- Other cards are not used. -/
theorem C102_other (csd : List Nat) (hl : csd.length = 16) (hb : Bytes csd) (h : field csd 127 126 = 2 ∨ field csd 127 126 = 3) : csdBlocks csd = 0 := by
  unfold csdBlocks
  rw [ext_bits hb hl (by decide) (by decide) (by decide)]
  rcases h with h | h <;> rw [h] <;> rfl

/-- Maker, name and serial number are those of the register CID. -/
theorem C102_identity {σ : Type} (s : Sd σ) (cid : List Nat) (hl : cid.length = 16) (hb : Bytes cid) :
    (identified s cid).oem = [cid.getD 1 0, cid.getD 2 0, 0] ∧ (identified s cid).product = [cid.getD 3 0, cid.getD 4 0, cid.getD 5 0, cid.getD 6 0, cid.getD 7 0, 0] ∧ (identified s cid).serial = number ((cid.drop 9).take 4) := by
  have byte : ∀ k < 16, extBits cid (8 * k + 7) (8 * k) = cid.getD (15 - k) 0 := by
    intro k hk
    rw [ext_bits hb hl (by omega) (by omega) (by omega)]
    unfold field
    have := number_byte cid hb k (by omega)
    rw [hl] at this
    rw [show 8 * k + 7 + 1 - 8 * k = 8 by omega, Nat.pow_mul]
    exact this
  refine ⟨?_, ?_, ?_⟩
  · show [extBits cid (8 * 14 + 7) (8 * 14), extBits cid (8 * 13 + 7) (8 * 13), 0] = _
    rw [byte 14 (by decide), byte 13 (by decide)]
  · show [extBits cid (8 * 12 + 7) (8 * 12), extBits cid (8 * 11 + 7) (8 * 11), extBits cid (8 * 10 + 7) (8 * 10), extBits cid (8 * 9 + 7) (8 * 9), extBits cid (8 * 8 + 7) (8 * 8), 0] = _
    rw [byte 12 (by decide), byte 11 (by decide), byte 10 (by decide), byte 9 (by decide), byte 8 (by decide)]
  · show extBits cid 55 24 = _
    rw [ext_bits hb hl (by decide) (by decide) (by decide)]
    unfold field
    have b3 := number_byte cid hb 3 (by omega)
    have b4 := number_byte cid hb 4 (by omega)
    have b5 := number_byte cid hb 5 (by omega)
    have b6 := number_byte cid hb 6 (by omega)
    rw [hl] at b3 b4 b5 b6
    match cid, hl with
    | [x0, x1, x2, x3, x4, x5, x6, x7, x8, x9, x10, x11, x12, x13, x14, x15], _ =>
      have b3 : _ = x12 := b3
      have b4 : _ = x11 := b4
      have b5 : _ = x10 := b5
      have b6 : _ = x9 := b6
      show _ = 256 * (256 * (256 * (256 * 0 + x9) + x10) + x11) + x12
      generalize number [x0, x1, x2, x3, x4, x5, x6, x7, x8, x9, x10, x11, x12, x13, x14, x15] = y at *
      omega

/-- A card of 3.7 GB. -/
def csd4 : List Nat := [0x40, 0x0e, 0, 0x32, 0x5b, 0x59, 0, 0, 0x1d, 0x69, 0x7f, 0x80, 0x0a, 0x40, 0, 0x13]

example : csd4.length = 16 ∧ Bytes csd4 ∧ Capacity csd4 7710720 := by
  refine ⟨rfl, ?_, ?_⟩
  · unfold Bytes csd4; decide
  · unfold Capacity; decide +kernel

/-! ## C103: an array of blocks -/

theorem blocks_listed (mem : Nat → List Nat) : ∀ (count sector : Nat), blocksOf mem sector count = listed mem sector count
  | 0, _ => rfl
  | k + 1, sector => by
    show mem sector ++ blocksOf mem (sector + 1) k = _
    rw [blocks_listed mem k (sector + 1)]
    unfold listed
    rw [List.range_succ_eq_map, List.flatMap_cons, List.flatMap_map, Nat.add_zero]
    congr 1
    apply congrArg (fun f => List.flatMap f (List.range k))
    funext i
    rw [show sector + 1 + i = sector + i.succ by omega]

/-- The request as the functions of the driver take it. -/
def ask (L : Line Card) (k : Nat) (s : Sd Card) : Req → Option (Sd Card × Option (List Nat))
  | .read sector count => (readBlocks L k s sector count).map fun q => (q.1, if q.2.1 = 0 then some q.2.2 else none)
  | .write sector count data => (writeBlocks L k s sector count data).map fun q => (q.1, if q.2 = 0 then some [] else none)

def asks (L : Line Card) (k : Nat) : Sd Card → List Req → Option (Sd Card × List (Option (List Nat)))
  | s, [] => some (s, [])
  | s, q :: qs => (ask L k s q).bind fun a => (asks L k a.1 qs).map fun b => (b.1, a.2 :: b.2)

/-- It is the same card. -/
def Same (c c' : Card) : Prop := c'.kind = c.kind ∧ c'.blocks = c.blocks ∧ c'.csd = c.csd ∧ c'.cid = c.cid

theorem up_put {s : Sd Card} (hu : Up s) (t clk w : Nat) {mem' : Nat → List Nat} (hm : ∀ n < s.bus.blocks, (mem' n).length = 512 ∧ Bytes (mem' n)) : Up (put s { s.bus with t := t, clk := clk, mem := mem' } w) :=
  ⟨⟨hm, hu.sane.addr⟩, ⟨hu.rest.spi, hu.rest.ready, hu.rest.crc, hu.rest.app, hu.rest.inp, hu.rest.out, hu.rest.next⟩, ⟨hu.knows.noinit, hu.knows.nodisk, hu.knows.sectors, hu.knows.type⟩⟩

theorem first_byte {m : Make} {rd : Nat → Nat} {s : Sd Card} (hu : Up s) : (send (line m rd) s FILL).1 = s := by
  show (send (line m rd) s 0xFF).1 = s
  rw [send_still hu.rest.out hu.rest.next (.inl hu.rest.inp)]

/-- One request: as C103_request, and the card keeps its counter. -/
theorem request_left {m : Make} {rd : Nat → Nat} (h : Sums m) (hq : Quick m rd) (hm : Able m) (k : Nat) (s : Sd Card) (hu : Up s) (q : Req) (hf : q.Fine) :
    ∃ s', ask (line m rd) (k + 1) s q = some (s', (serve s.bus.blocks s.bus.mem q).2) ∧ Up s' ∧ s'.bus.mem = (serve s.bus.blocks s.bus.mem q).1 ∧ Same s.bus s'.bus ∧ s'.bus.left = s.bus.left := by
  cases q with
  | read sector count =>
    show ∃ s', ((readIn (line m rd) (k + 1) (send (line m rd) s FILL).1 sector count).map fun q => (away (line m rd) q.1 [FILL], q.2.1, q.2.2)).map _ = some (s', if sector + count ≤ s.bus.blocks then some (listed s.bus.mem sector count) else none) ∧ Up s' ∧ s'.bus.mem = s.bus.mem ∧ _
    rw [first_byte hu]
    by_cases hr : sector + count ≤ s.bus.blocks
    · obtain ⟨t, w, h1⟩ := read_in (rd := rd) h hq hm hu hf hr k
      refine ⟨put s { s.bus with t := t, clk := s.bus.clk + 8 } w, ?_, up_put hu t (s.bus.clk + 8) w hu.sane.mem, rfl, ⟨rfl, rfl, rfl, rfl⟩, rfl⟩
      rw [h1, if_pos hr, blocks_listed]
      rfl
    · refine ⟨put s { s.bus with clk := s.bus.clk + 8 } s.waits, ?_, up_put hu s.bus.t (s.bus.clk + 8) s.waits hu.sane.mem, rfl, ⟨rfl, rfl, rfl, rfl⟩, rfl⟩
      unfold readIn
      rw [if_pos (by rw [hu.knows.sectors]; omega), if_neg hr]
      rfl
  | write sector count data =>
    obtain ⟨f1, f2, f3, f4⟩ := hf
    show ∃ s', ((writeIn (line m rd) (k + 1) (send (line m rd) s FILL).1 sector count data).map fun q => (away (line m rd) q.1 [FILL], q.2)).map _ = some (s', (serve s.bus.blocks s.bus.mem (.write sector count data)).2) ∧ _
    rw [first_byte hu]
    by_cases hr : sector + count ≤ s.bus.blocks
    · obtain ⟨t, w, clk, mem', h1, h2⟩ := write_in (rd := rd) h hq hm hu (buffer := data) f1 f2 hr (by omega) f4 k
      have he : mem' = fun n => if sector ≤ n ∧ n < sector + count then (data.drop (512 * (n - sector))).take 512 else s.bus.mem n := funext h2
      have hs : serve s.bus.blocks s.bus.mem (.write sector count data) = (mem', some []) := by
        rw [he]
        exact if_pos hr
      rw [hs]
      refine ⟨put s { s.bus with t := t, clk := clk + 8, mem := mem' } w, ?_, up_put hu t (clk + 8) w ?_, rfl, ⟨rfl, rfl, rfl, rfl⟩, rfl⟩
      · rw [h1]
        rfl
      · intro n hn
        rw [he]
        dsimp only
        split
        · rename_i hin
          refine ⟨?_, fun b hb => f4 b (List.mem_of_mem_drop (List.mem_of_mem_take hb))⟩
          rw [List.length_take, List.length_drop, f3]
          have : 512 * (n - sector) + 512 ≤ 512 * count := by omega
          omega
        · exact hu.sane.mem n hn
    · have hs : serve s.bus.blocks s.bus.mem (.write sector count data) = (s.bus.mem, none) := if_neg hr
      rw [hs]
      refine ⟨put s { s.bus with clk := s.bus.clk + 8 } s.waits, ?_, up_put hu s.bus.t (s.bus.clk + 8) s.waits hu.sane.mem, rfl, ⟨rfl, rfl, rfl, rfl⟩, rfl⟩
      unfold writeIn
      rw [if_pos (by rw [hu.knows.sectors]; omega)]
      rfl

/-- One request: the answer is that of an array of blocks, and so is the new contents. -/
theorem C103_request {m : Make} {rd : Nat → Nat} (h : Sums m) (hq : Quick m rd) (hm : Able m) (k : Nat) (s : Sd Card) (hu : Up s) (q : Req) (hf : q.Fine) :
    ∃ s', ask (line m rd) (k + 1) s q = some (s', (serve s.bus.blocks s.bus.mem q).2) ∧ Up s' ∧ s'.bus.mem = (serve s.bus.blocks s.bus.mem q).1 ∧ Same s.bus s'.bus :=
  (request_left h hq hm k s hu q hf).imp fun _ p => ⟨p.1, p.2.1, p.2.2.1, p.2.2.2.1⟩

/-- Any sequence of requests is answered as by an array of blocks. -/
theorem C103_requests {m : Make} {rd : Nat → Nat} (h : Sums m) (hq : Quick m rd) (hm : Able m) (k : Nat) : ∀ (qs : List Req) (s : Sd Card), Up s → (∀ q ∈ qs, q.Fine) →
    ∃ s', asks (line m rd) (k + 1) s qs = some (s', (serves s.bus.blocks s.bus.mem qs).2) ∧ Up s' ∧ s'.bus.mem = (serves s.bus.blocks s.bus.mem qs).1 ∧ Same s.bus s'.bus
  | [], s, hu, _ => ⟨s, rfl, hu, rfl, rfl, rfl, rfl, rfl⟩
  | q :: qs, s, hu, hf => by
    obtain ⟨s1, h1, u1, m1, k1, b1, c1, d1⟩ := C103_request h hq hm k s hu q (hf q (by simp))
    obtain ⟨s2, h2, u2, m2, k2, b2, c2, d2⟩ := C103_requests h hq hm k qs s1 u1 (fun q hq => hf q (by simp [hq]))
    rw [b1, m1] at h2 m2
    refine ⟨s2, ?_, u2, m2, k2.trans k1, b2.trans b1, c2.trans c1, d2.trans d1⟩
    show (ask (line m rd) (k + 1) s q).bind _ = _
    rw [h1, Option.bind_some, h2]
    rfl

/-! ## C104: initialisation -/

/-- As C104_init, and the card has given all its answers. -/
theorem init_left {m : Make} {rd : Nat → Nat} (h : Sums m) (hq : Quick m rd) (hm : Able m) (k : Nat) (s : Sd Card) (hs : Sane s.bus) (hr : Registers s.bus) (hf : Fresh s.bus) (hl : ∀ n, s.bus.left ≤ rd n) (hn : s.noinit = true) :
    ∃ s', sdInit (line m rd) (k + 1) s = some s' ∧ Up s' ∧ s'.bus.mem = s.bus.mem ∧ Same s.bus s'.bus ∧
      s'.oem = [s.bus.cid.getD 1 0, s.bus.cid.getD 2 0, 0] ∧ s'.product = [s.bus.cid.getD 3 0, s.bus.cid.getD 4 0, s.bus.cid.getD 5 0, s.bus.cid.getD 6 0, s.bus.cid.getD 7 0, 0] ∧ s'.serial = number ((s.bus.cid.drop 9).take 4) ∧ s'.bus.left = 0 := by
  have h0 : (send (line m rd) { s with nodisk := false } FILL).1 = { s with nodisk := false } := by
    show (send (line m rd) { s with nodisk := false } 0xFF).1 = _
    rw [send_still (s := { s with nodisk := false }) hf.out hf.next (.inl hf.inp)]
  obtain ⟨c', w, h1, a, -⟩ := init_nolock (rd := rd) h hq (fun i _ => hm i) (sd_answers _ k) (s := { s with nodisk := false }) hr hf.inp hf.out hf.next hl
  obtain ⟨i1, i2, i3⟩ := C102_identity (put { s with type := typeOf s.bus.kind, sectors := s.bus.blocks } { c' with clk := c'.clk + 8 } w) s.bus.cid hr.cid.1 hr.cid.2
  refine ⟨{ identified (put { s with nodisk := false, type := typeOf s.bus.kind, sectors := s.bus.blocks } { c' with clk := c'.clk + 8 } w) s.bus.cid with noinit := false }, ?_, ⟨⟨?_, ?_⟩, ⟨a.spi, a.ready, a.crc, a.app, a.inp, a.out, a.next⟩, ⟨rfl, rfl, a.blocks.symm, ?_⟩⟩, a.mem, ⟨a.kind, a.blocks, a.csd, a.cid⟩, i1, i2, i3, a.left⟩
  · unfold sdInit
    rw [if_pos hn, h0, h1]
    rfl
  · intro n hx
    have hx : n < c'.blocks := hx
    show (c'.mem n).length = 512 ∧ Bytes (c'.mem n)
    rw [a.mem]
    exact hs.mem n (by rw [a.blocks] at hx; exact hx)
  · show (if c'.kind = .hc then c'.blocks else c'.blocks * 512) ≤ 2 ^ 32
    rw [a.kind, a.blocks]
    exact hs.addr
  · show typeOf s.bus.kind = V2HC ↔ c'.kind = .hc
    rw [a.kind]
    show typeOf s.bus.kind = V2HC ↔ s.bus.kind = .hc
    cases s.bus.kind <;> decide

/-- Any card as in the standard is recognised: afterwards it serves requests. -/
theorem C104_init {m : Make} {rd : Nat → Nat} (h : Sums m) (hq : Quick m rd) (hm : Able m) (k : Nat) (s : Sd Card) (hs : Sane s.bus) (hr : Registers s.bus) (hf : Fresh s.bus) (hl : ∀ n, s.bus.left ≤ rd n) (hn : s.noinit = true) :
    ∃ s', sdInit (line m rd) (k + 1) s = some s' ∧ Up s' ∧ s'.bus.mem = s.bus.mem ∧ Same s.bus s'.bus ∧
      s'.oem = [s.bus.cid.getD 1 0, s.bus.cid.getD 2 0, 0] ∧ s'.product = [s.bus.cid.getD 3 0, s.bus.cid.getD 4 0, s.bus.cid.getD 5 0, s.bus.cid.getD 6 0, s.bus.cid.getD 7 0, 0] ∧ s'.serial = number ((s.bus.cid.drop 9).take 4) :=
  (init_left h hq hm k s hs hr hf hl hn).imp fun _ p => ⟨p.1, p.2.1, p.2.2.1, p.2.2.2.1, p.2.2.2.2.1, p.2.2.2.2.2.1, p.2.2.2.2.2.2.1⟩

/-- The first initialisation and any sequence of requests after it. -/
theorem C104_session {m : Make} {rd : Nat → Nat} (h : Sums m) (hq : Quick m rd) (hm : Able m) (k : Nat) (s : Sd Card) (hs : Sane s.bus) (hr : Registers s.bus) (hf : Fresh s.bus) (hl : ∀ n, s.bus.left ≤ rd n) (hn : s.noinit = true) (qs : List Req) (hg : ∀ q ∈ qs, q.Fine) :
    ∃ s' s'', sdInit (line m rd) (k + 1) s = some s' ∧ asks (line m rd) (k + 1) s' qs = some (s'', (serves s.bus.blocks s.bus.mem qs).2) ∧ s''.bus.mem = (serves s.bus.blocks s.bus.mem qs).1 := by
  obtain ⟨s', h1, u1, m1, ⟨-, b1, -, -⟩, -⟩ := C104_init h hq hm k s hs hr hf hl hn
  obtain ⟨s'', h2, -, m2, -⟩ := C103_requests h hq hm k qs s' u1 hg
  rw [b1, m1] at h2 m2
  exact ⟨s', s'', h1, h2, m2⟩

/-! ## Examples -/

/-- A make with responses after one or two bytes and some time busy. -/
def make : Make := ⟨fun t => 1 + t % 2, fun t => t % 5, fun t => t % 7, fun t => t, fun l => (crc7 l).getD 0, fun l => crc16 l, fun _ => false⟩

theorem make_sums : Sums make := by
  refine ⟨fun l hl => ?_, fun l hl => C42_crc16 l hl⟩
  obtain ⟨r, h1, h2, h3⟩ := C42_crc7 l hl
  have e : make.c7 l = r := by show (crc7 l).getD 0 = r; rw [h1]; rfl
  rw [e]
  exact ⟨h2, h3⟩

theorem make_quick : Quick make (fun _ => 10) := by
  refine ⟨fun t => ?_, fun t _ => ?_, fun t _ => ?_⟩
  · show 1 + t % 2 ≤ 8; omega
  · show t % 5 ≤ 10; omega
  · show t % 7 ≤ 10; omega

/-- A card that has just got power. -/
def card4 : Card := ⟨.hc, 7710720, fun n => List.replicate 512 (n % 256), csd4, List.range 16, 0, false, false, false, false, 3, .cmd [], [], none, 0⟩

def start4 : Sd Card := ⟨card4, 0, true, true, 0, 0, [], [], 0⟩

theorem start4_sane : Sane start4.bus := by
  refine ⟨fun n _ => ⟨List.length_replicate, fun b hb => ?_⟩, by decide⟩
  rw [List.eq_of_mem_replicate hb]; exact Nat.mod_lt _ (by decide)

theorem start4_registers : Registers start4.bus := by
  refine ⟨⟨rfl, ?_⟩, ⟨rfl, ?_⟩, ?_, by decide, by decide⟩
  · unfold Bytes start4 card4 csd4; decide
  · unfold Bytes start4 card4; decide
  · show Capacity csd4 7710720
    unfold Capacity; decide +kernel

example : Able make := fun _ => rfl

example : Sane start4.bus ∧ Registers start4.bus ∧ Fresh start4.bus ∧ (∀ n : Nat, start4.bus.left ≤ (fun _ : Nat => 10) n) ∧ start4.noinit = true ∧ (∀ q ∈ [Req.write 5 2 (List.replicate 1024 7), .read 4 3, .read 7710719 2], q.Fine) := by
  refine ⟨⟨fun n _ => ⟨List.length_replicate, fun b hb => ?_⟩, by decide⟩, ⟨⟨rfl, ?_⟩, ⟨rfl, ?_⟩, ?_, by decide, by decide⟩, ⟨rfl, rfl, rfl⟩, fun _ => (show 3 ≤ 10 by decide), rfl, ?_⟩
  · rw [List.eq_of_mem_replicate hb]; exact Nat.mod_lt _ (by decide)
  · unfold Bytes start4 card4 csd4; decide
  · unfold Bytes start4 card4; decide
  · show Capacity csd4 7710720
    unfold Capacity; decide +kernel
  · intro q hq
    simp only [List.mem_cons, List.not_mem_nil, or_false] at hq
    rcases hq with rfl | rfl | rfl
    · refine ⟨by decide, by decide, List.length_replicate, fun b hb => ?_⟩
      rw [List.eq_of_mem_replicate hb]; decide
    · show 1 ≤ 3; decide
    · show 1 ≤ 2; decide

end Fpm.Sd
