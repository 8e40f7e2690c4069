import Verif.Sd.BlockLemmas
/-!
# Lemmas: registers and initialisation of an SD card
-/
namespace Fpm.Sd
open Fpm.Crc Fpm.Crc.Spec Fpm.Sd.Spec

/-! ## Registers -/

theorem number_append (l : List Nat) (b : Nat) : number (l ++ [b]) = 256 * number l + b := by simp [number]

theorem number_byte (l : List Nat) : Bytes l → ∀ j < l.length, number l / 256 ^ j % 256 = l.getD (l.length - 1 - j) 0 := by
  induction l using List.reverseRecOn with
  | nil => intro _ j hj; cases hj
  | append_singleton l b ih =>
    intro hb j hj
    have hb0 : b < 256 := hb b (by simp)
    have hb1 : Bytes l := fun x hx => hb x (by simp [hx])
    rw [number_append]
    simp only [List.length_append, List.length_singleton] at hj ⊢
    cases j with
    | zero =>
      rw [show l.length + 1 - 1 - 0 = l.length by omega, List.getD_append_right _ _ _ _ (by omega)]
      simp
      omega
    | succ j =>
      have h1 := ih hb1 j (by omega)
      rw [List.getD_append _ _ _ _ (by omega), show l.length + 1 - 1 - (j + 1) = l.length - 1 - j by omega, ← h1, Nat.pow_succ, Nat.mul_comm (256 ^ j), ← Nat.div_div_eq_div_mul]
      congr 2
      omega

theorem number_bit {l : List Nat} (hb : Bytes l) (hl : l.length = 16) {p : Nat} (hp : p < 128) : (l.getD (15 - (p >>> 3)) 0 >>> (p &&& 7)) &&& 1 = number l / 2 ^ p % 2 := by
  have h1 := number_byte l hb (p / 8) (by omega)
  rw [hl, show 16 - 1 - p / 8 = 15 - p / 8 by omega] at h1
  rw [Nat.shiftRight_eq_div_pow p 3, show (2 : Nat) ^ 3 = 8 from rfl, ← h1, show p &&& 7 = p % 8 from Nat.and_two_pow_sub_one_eq_mod p 3, Nat.and_one_is_mod, Nat.shiftRight_eq_div_pow]
  have e : p = 8 * (p / 8) + p % 8 := by omega
  have h2 : number l / 2 ^ p = number l / 256 ^ (p / 8) / 2 ^ (p % 8) := by
    conv_lhs => rw [e]
    rw [Nat.pow_add, Nat.pow_mul, ← Nat.div_div_eq_div_mul]
  rw [h2]
  generalize number l / 256 ^ (p / 8) = x
  have h3 : p % 8 < 8 := by omega
  generalize p % 8 = q at h3
  have : ∀ q < 8, x % 256 / 2 ^ q % 2 = x / 2 ^ q % 2 := by
    intro q hq
    match q, hq with
    | 0, _ => omega
    | 1, _ => omega
    | 2, _ => omega
    | 3, _ => omega
    | 4, _ => omega
    | 5, _ => omega
    | 6, _ => omega
    | 7, _ => omega
  exact this q h3

theorem ext_loop {l : List Nat} (hb : Bytes l) (hl : l.length = 16) {lsb : Nat} : ∀ i, i ≤ 32 → lsb + i ≤ 128 → extLoop l lsb i = number l / 2 ^ lsb % 2 ^ i
  | 0, _, _ => by simp [extLoop, Nat.mod_one]
  | i + 1, h1, h2 => by
    unfold extLoop
    rw [ext_loop hb hl i (by omega) (by omega), number_bit hb hl (by omega), Nat.pow_add, ← Nat.div_div_eq_div_mul]
    generalize number l / 2 ^ lsb = x
    have hlt : x / 2 ^ i % 2 < 2 := Nat.mod_lt _ (by decide)
    have hs : (x / 2 ^ i % 2) <<< i < 2 ^ 32 := by
      rw [Nat.shiftLeft_eq]
      have : 2 ^ i ≤ 2 ^ 31 := Nat.pow_le_pow_right (by decide) (by omega)
      have : x / 2 ^ i % 2 * 2 ^ i ≤ 1 * 2 ^ 31 := Nat.mul_le_mul (by omega) this
      omega
    rw [Nat.mod_eq_of_lt hs, Nat.or_comm, ← Nat.shiftLeft_add_eq_or_of_lt (Nat.mod_lt _ (Nat.two_pow_pos i)), Nat.shiftLeft_eq, Nat.pow_succ, Nat.mod_mul]
    rw [Nat.mul_comm, Nat.add_comm]

theorem ext_bits {l : List Nat} (hb : Bytes l) (hl : l.length = 16) {msb lsb : Nat} (h1 : msb < 128) (h2 : lsb ≤ msb) (h3 : msb < lsb + 32) : extBits l msb lsb = field l msb lsb := by
  unfold extBits field
  rw [show 1 + msb - lsb = msb + 1 - lsb by omega]
  exact ext_loop hb hl _ (by omega) (by omega)

theorem field_lt (l : List Nat) (msb lsb : Nat) : field l msb lsb < 2 ^ (msb + 1 - lsb) := Nat.mod_lt _ (Nat.two_pow_pos _)

theorem one_shift {k : Nat} (hk : k < 32) : (1 <<< k) % 2 ^ 32 = 2 ^ k := by
  rw [Nat.one_shiftLeft, Nat.mod_eq_of_lt (Nat.pow_lt_pow_right (by decide) hk)]

theorem small_blocks {x y n : Nat} (h : n * 512 = x * y) (hx : x < 2 ^ 32) : x % 2 ^ 32 * y / 512 = n := by
  rw [Nat.mod_eq_of_lt hx, ← h]
  omega

theorem large_blocks {x n : Nat} (h : n * 512 = (x + 1) * 512 * 1024) (hn : n < 2 ^ 32) : (x + 1) * 2 ^ 10 % 2 ^ 32 = n := by omega

theorem csd_blocks {csd : List Nat} (hb : Bytes csd) (hl : csd.length = 16) {n : Nat} (hc : Capacity csd n) (hn : n < 2 ^ 32) : csdBlocks csd = n := by
  unfold csdBlocks
  rw [ext_bits hb hl (by decide) (by decide) (by decide)]
  rcases hc with ⟨h0, h1⟩ | ⟨h0, h1⟩
  · rw [if_pos h0, ext_bits hb hl (by decide) (by decide) (by decide), ext_bits hb hl (by decide) (by decide) (by decide), ext_bits hb hl (by decide) (by decide) (by decide)]
    have a1 : field csd 83 80 < 2 ^ 4 := field_lt _ _ _
    have a2 : field csd 49 47 < 2 ^ 3 := field_lt _ _ _
    have a3 : field csd 73 62 < 2 ^ 12 := field_lt _ _ _
    rw [one_shift (by omega), one_shift (by omega)]
    have : 2 ^ (field csd 49 47 + 2) ≤ 2 ^ 9 := Nat.pow_le_pow_right (by decide) (by omega)
    have h9 : (field csd 73 62 + 1) * 2 ^ (field csd 49 47 + 2) ≤ 2 ^ 12 * 2 ^ 9 := Nat.mul_le_mul (by omega) this
    have h8 : (field csd 73 62 + 1) * 2 ^ (field csd 49 47 + 2) < 2 ^ 32 := Nat.lt_of_le_of_lt h9 (by norm_num)
    dsimp only
    rw [small_blocks h1 h8]
  · rw [if_neg (by rw [h0]; decide), if_pos h0, ext_bits hb hl (by decide) (by decide) (by decide), Nat.shiftLeft_eq]
    exact large_blocks h1 hn

/-! ## Initialisation -/

/-- The card after a response; `more` is still to be sent. -/
def after (c : Card) (more : List Nat) : Card := { c with inp := .cmd [], app := false, next := none, out := more, t := c.t + 1 }

theorem cmd_reply {m : Make} {rd : Nat → Nat} (h : Sums m) (hq : Quick m rd) {C : Send Card} (hC : Answers (line m rd) C) {s : Sd Card} (hw : Waits s.bus) {i arg : Nat} (hm : m.mute i = false) (hi : i < 64) (h12 : i ≠ 12) (ha : arg < 2 ^ 32) {c' : Card} {r : Nat} {more : List Nat}
    (ho : exec m s.bus i arg = reply m c' r more) (hr : r < 128) :
    C s i arg false = some (checked (line m rd) i (put s (after c' more) (s.waits + 1)) r) := by
  have := cmd_plain (rd := rd) h hw hm hi h12 ha (k := m.ncr c'.t) (r := r) (more := more) (by rw [ho]; rfl) (hq.ncr _) hr (by rw [ho]; exact .inl rfl) hC
  rw [this, ho]
  rfl

/-- The card `c` in the course of the initialisation. -/
structure At (c c' : Card) (ready crc : Bool) (left : Nat) : Prop where
  kind : c'.kind = c.kind
  blocks : c'.blocks = c.blocks
  mem : c'.mem = c.mem
  csd : c'.csd = c.csd
  cid : c'.cid = c.cid
  spi : c'.spi = true
  ready : c'.ready = ready
  crc : c'.crc = crc
  app : c'.app = false
  left : c'.left = left
  inp : c'.inp = .cmd []
  out : c'.out = []
  next : c'.next = none

theorem At.waits {c c' : Card} {r k : Bool} {l : Nat} (h : At c c' r k l) : Waits c' := ⟨h.spi, h.inp, h.out, h.next⟩

theorem At.after {c c' : Card} {r k : Bool} {l : Nat} (h : At c c' r k l) : At c (after c' []) r k l := ⟨h.kind, h.blocks, h.mem, h.csd, h.cid, h.spi, h.ready, h.crc, rfl, h.left, rfl, rfl, rfl⟩

theorem At.out_nil {c c' : Card} {r k : Bool} {l : Nat} (h : At c c' r k l) (more : List Nat) : At c { Sd.after c' more with out := [] } r k l := h.after

theorem idle_false {c : Card} (h : c.ready = false) : idle c = 1 := by unfold idle; rw [h]; rfl

theorem idle_true {c : Card} (h : c.ready = true) : idle c = 0 := by unfold idle; rw [h]; rfl

/-- CMD0, in native mode and in SPI mode. -/
theorem cmd_zero {m : Make} {rd : Nat → Nat} (h : Sums m) (hq : Quick m rd) (hm : ∀ i, i ≠ 17 → m.mute i = false) {C : Send Card} (hC : Answers (line m rd) C) {s : Sd Card} (hi : s.bus.inp = .cmd []) (ho : s.bus.out = []) (hn : s.bus.next = none) (hc : s.bus.spi = true ∨ 74 ≤ s.bus.clk) :
    ∃ c', C s 0 0 false = some ⟨put s c' (s.waits + 1), 0, 1⟩ ∧ At s.bus c' false false s.bus.left := by
  obtain ⟨p, h1, h2, h3, h4⟩ := packet_spec h (i := 0) (arg := 0) (by decide) (by decide)
  have h1' := h1
  have hx : ∀ q, command m { s.bus with inp := .cmd q } (packet 0 0) = reply m { s.bus with spi := true, ready := false, crc := false } 1 [] := by
    intro q
    by_cases hs : s.bus.spi = true
    · rw [command_spec h (c := { s.bus with inp := .cmd q }) hs (hm _ (by decide)) (by decide) (by decide)]
      show reply m { s.bus with inp := .cmd q, ready := false, crc := false } 1 [] = _
      rw [show ({ s.bus with inp := .cmd q, ready := false, crc := false } : Card) = { s.bus with inp := .cmd q, spi := true, ready := false, crc := false } by rw [← hs]]
      rfl
    · obtain ⟨a, b, c1, d, e, rfl⟩ : ∃ a b c1 d e, p = [a, b, c1, d, e] := by
        match p, h2 with
        | [a, b, c1, d, e], _ => exact ⟨a, b, c1, d, e, rfl⟩
      have h3 : a = 64 := h3
      unfold command
      rw [h1, if_neg (show ¬ s.bus.spi = true from hs), if_pos ⟨hc.resolve_left hs, by show a % 64 = 0; rw [h3], rfl⟩]
      rfl
  obtain ⟨c', k1, -, k3⟩ := send_command (m := m) (rd := rd) (s := put s s.bus (s.waits + 1)) hi (p := p) (b := 2 * m.c7 p + 1) h2 (by rw [h3])
  have k3 := k3 ho hn
  subst k3
  rw [← h1] at k1
  have k2 : (sendAll (line m rd) (put s s.bus (s.waits + 1)) (packet 0 0)).1 = put s (reply m { s.bus with spi := true, ready := false, crc := false } 1 []) (s.waits + 1) := k1.trans (by rw [← hx p]; rfl)
  have k4 : cmdSpi (line m rd) (put s s.bus (s.waits + 1)) 0 0 = (put s (after { s.bus with spi := true, ready := false, crc := false } []) (s.waits + 1), 1) := by
    unfold cmdSpi
    rw [if_neg (by decide), k2]
    exact resp_loop (by decide) (m.ncr s.bus.t) 16 (put s (reply m { s.bus with spi := true, ready := false, crc := false } 1 []) (s.waits + 1)) FILL (by have := hq.ncr s.bus.t; omega) rfl (.inl rfl)
  have k5 : settled (line m rd) s 0 = put s s.bus (s.waits + 1) := by
    unfold settled
    rw [if_pos (by decide), wait_ready (k := 0) (fun _ => Nat.zero_le _) ho hn (.inl hi)]
    show put s { s.bus with out := [] } (s.waits + 1) = _
    rw [← ho]
  refine ⟨after { s.bus with spi := true, ready := false, crc := false } [], ?_, ⟨rfl, rfl, rfl, rfl, rfl, rfl, rfl, rfl, rfl, rfl, rfl, rfl, rfl⟩⟩
  have h2 : tries (line m rd) 0 0 false 3 (put s s.bus (s.waits + 1)) 0 = (put s (after { s.bus with spi := true, ready := false, crc := false } []) (s.waits + 1), 1) := by
    show (if (cmdSpi (line m rd) (put s s.bus (s.waits + 1)) 0 0).2 = 0xFF then _ else cmdSpi (line m rd) (put s s.bus (s.waits + 1)) 0 0) = _
    rw [k4, if_neg (show ¬ (1 = 0xFF) by decide)]
  rw [← k5] at h2
  rw [hC s 0 0 false (by rw [h2]; show (1 : Nat) ≠ 0xFF; decide), h2]
  show some (checked (line m rd) 0 (put s (after { s.bus with spi := true, ready := false, crc := false } []) (s.waits + 1)) 1) = _
  rw [checked_one, rest_one _ _ (.inr rfl) (by decide) (by decide) (by decide) (by decide) (by decide)]

/-- Type of the card for the driver after CMD8. -/
def cmd8type (k : Kind) : Nat := if k = .v1 then UNKNOWN else V2

theorem cmd_eight {m : Make} {rd : Nat → Nat} (h : Sums m) (hq : Quick m rd) (hm : ∀ i, i ≠ 17 → m.mute i = false) {C : Send Card} (hC : Answers (line m rd) C) {c : Card} {l : Nat} {s : Sd Card} (ha : At c s.bus false false l) :
    ∃ a c', C s 8 0x1AA false = some a ∧ (pattern a).sd = put { s with type := cmd8type c.kind } c' (s.waits + 1) ∧ ((pattern a).status = 0 ∨ (pattern a).status = UNSUPPORTED) ∧ At c c' false false l := by
  by_cases hk : c.kind = .v1
  · have hx : exec m s.bus 8 0x1AA = reply m s.bus 5 [] := by
      have e1 : early m s.bus 8 0x1AA = none := by
        unfold early
        rw [if_neg (by decide), if_neg (by rw [ha.kind, hk]; simp)]
        rfl
      unfold exec
      rw [e1, ha.ready, idle_false ha.ready]
      rfl
    have h1 := cmd_reply (rd := rd) h hq hC ha.waits (i := 8) (hm _ (by omega)) (by decide) (by decide) (by decide) hx (by decide)
    refine ⟨_, after s.bus [], h1, ?_, .inr rfl, ha.after⟩
    rw [hk]
    rfl
  · have hx : exec m s.bus 8 0x1AA = reply m s.bus 1 [0, 0, 1, 0xAA] := by
      have e1 : early m s.bus 8 0x1AA = some (reply m s.bus 1 [0, 0, 1, 0xAA]) := by
        unfold early
        rw [if_neg (by decide), if_pos ⟨rfl, by rw [ha.kind]; exact hk⟩, idle_false ha.ready]
      unfold exec
      rw [e1]
      rfl
    have h1 := cmd_reply (rd := rd) h hq hC ha.waits (i := 8) (hm _ (by omega)) (by decide) (by decide) (by decide) hx (by decide)
    have h2 := all_pop (m := m) (rd := rd) [0, 0, 1, 0xAA] (s := { put s (after s.bus [0, 0, 1, 0xAA]) (s.waits + 1) with type := V2 }) (bs := []) rfl (.inl rfl)
    have h3 : checked (line m rd) 8 (put s (after s.bus [0, 0, 1, 0xAA]) (s.waits + 1)) 1 = ⟨put { s with type := V2 } (after s.bus []) (s.waits + 1), 0, 0x1AA⟩ := by
      show (⟨(sendAll (line m rd) { put s (after s.bus [0, 0, 1, 0xAA]) (s.waits + 1) with type := V2 } (List.replicate 4 0xFF)).1, 0, word (sendAll (line m rd) { put s (after s.bus [0, 0, 1, 0xAA]) (s.waits + 1) with type := V2 } (List.replicate 4 0xFF)).2⟩ : Ans Card) = _
      rw [show (4 : Nat) = [0, 0, 1, 0xAA].length from rfl, h2]
      rfl
    rw [h3] at h1
    have h4 : pattern (⟨put { s with type := V2 } (after s.bus []) (s.waits + 1), 0, 0x1AA⟩ : Ans Card) = ⟨put { s with type := V2 } (after s.bus []) (s.waits + 1), 0, 0x1AA⟩ := if_neg (fun hx => hx.2.2 (show 0x1AA &&& 0xFFF = 0x1AA by decide))
    refine ⟨_, after s.bus [], h1, ?_, .inl (by rw [h4]), ha.after⟩
    rw [h4]
    unfold cmd8type
    rw [if_neg hk]

theorem cmd_ocr {m : Make} {rd : Nat → Nat} (h : Sums m) (hq : Quick m rd) (hm : ∀ i, i ≠ 17 → m.mute i = false) {C : Send Card} (hC : Answers (line m rd) C) {c : Card} {l : Nat} {r k : Bool} {s : Sd Card} (ha : At c s.bus r k l) :
    ∃ c', C s 58 0 false = some ⟨put s c' (s.waits + 1), 0, word (ocr s.bus)⟩ ∧ At c c' r k l := by
  have hx : exec m s.bus 58 0 = reply m s.bus (idle s.bus) (ocr s.bus) := rfl
  have hi : idle s.bus = 0 ∨ idle s.bus = 1 := by unfold idle; split <;> simp
  have h1 := cmd_reply (rd := rd) h hq hC ha.waits (i := 58) (hm _ (by omega)) (by decide) (by decide) (by decide) hx (by omega)
  have h2 := all_pop (m := m) (rd := rd) (ocr s.bus) (s := put s (after s.bus (ocr s.bus)) (s.waits + 1)) (bs := []) (by rw [List.append_nil]; rfl) (.inl rfl)
  refine ⟨after s.bus [], ?_, ha.after⟩
  rw [h1]
  have h3 : checked (line m rd) 58 (put s (after s.bus (ocr s.bus)) (s.waits + 1)) (idle s.bus) = ⟨(sendAll (line m rd) (put s (after s.bus (ocr s.bus)) (s.waits + 1)) (List.replicate 4 0xFF)).1, 0, word (sendAll (line m rd) (put s (after s.bus (ocr s.bus)) (s.waits + 1)) (List.replicate 4 0xFF)).2⟩ := by
    rcases hi with e | e <;> rw [e] <;> rfl
  rw [h3, show (4 : Nat) = (ocr s.bus).length from rfl, h2]
  rfl

theorem cmd_crc {m : Make} {rd : Nat → Nat} (h : Sums m) (hq : Quick m rd) (hm : ∀ i, i ≠ 17 → m.mute i = false) {C : Send Card} (hC : Answers (line m rd) C) {c : Card} {l : Nat} {k : Bool} {s : Sd Card} (ha : At c s.bus false k l) :
    ∃ a c', C s 59 1 false = some a ∧ a.sd = put s c' (s.waits + 1) ∧ At c c' false true l := by
  have hx : exec m s.bus 59 1 = reply m { s.bus with crc := true } 1 [] := by
    show reply m { s.bus with crc := true } (idle s.bus) [] = _
    rw [idle_false ha.ready]
  have h1 := cmd_reply (rd := rd) h hq hC ha.waits (i := 59) (hm _ (by omega)) (by decide) (by decide) (by decide) hx (by decide)
  exact ⟨_, after { s.bus with crc := true } [], h1, rfl, ⟨ha.kind, ha.blocks, ha.mem, ha.csd, ha.cid, ha.spi, ha.ready, rfl, rfl, ha.left, rfl, rfl, rfl⟩⟩

/-- ACMD41 until the card is ready. -/
theorem op_loop {m : Make} {rd : Nat → Nat} (h : Sums m) (hq : Quick m rd) (hm : ∀ i, i ≠ 17 → m.mute i = false) {C : Send Card} (hC : Answers (line m rd) C) {c : Card} {arg : Nat} (harg : arg < 2 ^ 32) (hhc : c.kind = .hc → (arg / 2 ^ 30) % 2 = 1) : ∀ (n l : Nat) {s : Sd Card}, l ≤ n → At c s.bus false true l →
    ∃ c' w, opLoop (C) arg n s = some ⟨put s c' w, 0, 0⟩ ∧ At c c' true true 0 := by
  have first : ∀ {s : Sd Card}, At c s.bus false true 0 → ∃ c', C s 41 arg true = some ⟨put s c' (s.waits + 2), 0, 0⟩ ∧ At c c' true true 0 := by
    intro s ha
    have hx : exec m (apped m s.bus) 41 arg = reply m { apped m s.bus with ready := true } 0 [] := by
      show (some (Spec.operate m (apped m s.bus) arg)).getD _ = _
      show Spec.operate m (apped m s.bus) arg = _
      unfold Spec.operate
      rw [if_neg, if_pos (show (apped m s.bus).left = 0 from ha.left)]
      rintro ⟨e1, e2⟩
      have := hhc (ha.kind ▸ e1)
      omega
    have h1 := cmd_app (rd := rd) h hq ha.waits (i := 41) (hm _ (by decide)) (hm _ (by decide)) (by decide) (by decide) harg (k := m.ncr (s.bus.t + 1)) (r := 0) (more := []) (by rw [hx]; rfl) (hq.ncr _) (by decide) (by rw [hx]; exact .inl rfl) hC
    refine ⟨after { apped m s.bus with ready := true } [], ?_, ⟨ha.kind, ha.blocks, ha.mem, ha.csd, ha.cid, ha.spi, rfl, ha.crc, rfl, ha.left, rfl, rfl, rfl⟩⟩
    rw [h1, hx]
    rfl
  have again : ∀ {s : Sd Card} (l : Nat), At c s.bus false true (l + 1) → ∃ c', C s 41 arg true = some ⟨put s c' (s.waits + 2), 0, 1⟩ ∧ At c c' false true l := by
    intro s l ha
    have hx : exec m (apped m s.bus) 41 arg = reply m { apped m s.bus with left := l } 1 [] := by
      show Spec.operate m (apped m s.bus) arg = _
      unfold Spec.operate
      rw [if_neg, if_neg (show ¬ (apped m s.bus).left = 0 by show ¬ s.bus.left = 0; rw [ha.left]; omega)]
      · show reply m { apped m s.bus with left := s.bus.left - 1 } (idle s.bus) [] = _
        rw [idle_false ha.ready, ha.left]
        rfl
      · rintro ⟨e1, e2⟩
        have := hhc (ha.kind ▸ e1)
        omega
    have h1 := cmd_app (rd := rd) h hq ha.waits (i := 41) (hm _ (by decide)) (hm _ (by decide)) (by decide) (by decide) harg (k := m.ncr (s.bus.t + 1)) (r := 1) (more := []) (by rw [hx]; rfl) (hq.ncr _) (by decide) (by rw [hx]; exact .inl rfl) hC
    refine ⟨after { apped m s.bus with left := l } [], ?_, ⟨ha.kind, ha.blocks, ha.mem, ha.csd, ha.cid, ha.spi, ha.ready, ha.crc, rfl, rfl, rfl, rfl, rfl⟩⟩
    rw [h1, hx]
    rfl
  intro n
  induction n with
  | zero =>
    intro l s hl ha
    obtain rfl : l = 0 := by omega
    obtain ⟨c', h1, h2⟩ := first ha
    exact ⟨c', _, h1, h2⟩
  | succ n ih =>
    intro l s hl ha
    cases l with
    | zero =>
      obtain ⟨c', h1, h2⟩ := first ha
      refine ⟨c', s.waits + 2, ?_, h2⟩
      show (C s 41 arg true).bind _ = _
      rw [h1]
      exact if_neg (show ¬ ((0 : Nat) &&& 1 ≠ 0) by decide)
    | succ l =>
      obtain ⟨c', h1, h2⟩ := again l ha
      obtain ⟨c2, w, k1, k2⟩ := ih l (s := put s c' (s.waits + 2)) (by omega) h2
      refine ⟨c2, w, ?_, k2⟩
      show (C s 41 arg true).bind _ = _
      rw [h1, Option.bind_some, if_pos (show (1 : Nat) &&& 1 ≠ 0 by decide)]
      rw [k1]
      rfl

/-- Type of the card for the driver. -/
def typeOf : Kind → Nat
  | .v1 => V1
  | .v2 => V2
  | .hc => V2HC

theorem operate_spec {m : Make} {rd : Nat → Nat} (h : Sums m) (hq : Quick m rd) (hm : ∀ i, i ≠ 17 → m.mute i = false) {C : Send Card} (hC : Answers (line m rd) C) {c : Card} {l : Nat} (hl : ∀ n, l ≤ rd n) {s : Sd Card} (ha : At c s.bus false true l) (ht : s.type = cmd8type c.kind) :
    ∃ c' w, operate (line m rd) (C) s = some (put { s with type := typeOf c.kind } c' w, 0) ∧ At c c' true true 0 := by
  have harg : (if s.type = V2 then 2 ^ 30 else 0) < 2 ^ 32 := by split <;> decide
  obtain ⟨c', w, h1, h2⟩ := op_loop (rd := rd) h hq hm hC (c := c) (arg := if s.type = V2 then 2 ^ 30 else 0) harg (by intro e; rw [ht, e]; decide) (rd s.waits) l (s := { s with waits := s.waits + 1 }) (hl _) ha
  have h3 : operate (line m rd) (C) s = typed (C) (put s c' w) := by
    show (opLoop _ _ (rd s.waits) _).bind _ = _
    rw [h1]
    rfl
  rw [h3]
  by_cases hk : c.kind = .v1
  · refine ⟨c', w, ?_, h2⟩
    unfold typed
    rw [if_neg (by show ¬ s.type = V2; rw [ht, hk]; decide), hk]
    rfl
  · obtain ⟨c2, k1, k2⟩ := cmd_ocr (rd := rd) h hq hm hC (s := put s c' w) h2
    refine ⟨c2, w + 1, ?_, k2⟩
    unfold typed
    have ht2 : s.type = V2 := by rw [ht]; unfold cmd8type; rw [if_neg hk]
    rw [if_pos (show (put s c' w).type = V2 from ht2), k1, Option.bind_some]
    have e1 : ocr (put s c' w).bus = [(if c.kind = .hc then 0xC0 else 0x80), 0xFF, 0x80, 0] := by
      show ocr c' = _
      unfold ocr
      rw [h2.ready, h2.kind]
      rfl
    rw [e1]
    cases hkk : c.kind with
    | v1 => exact absurd hkk hk
    | v2 =>
      rw [if_neg (show ¬ ((0 : Nat) = 0 ∧ word [(if Kind.v2 = .hc then 0xC0 else 0x80), 0xFF, 0x80, 0] &&& 2 ^ 30 ≠ 0) by decide)]
      show some (put s c2 (w + 1), 0) = some (put { s with type := V2 } c2 (w + 1), 0)
      rw [← ht2]
    | hc =>
      rw [if_pos (show (0 : Nat) = 0 ∧ word [(if Kind.hc = .hc then 0xC0 else 0x80), 0xFF, 0x80, 0] &&& 2 ^ 30 ≠ 0 by decide)]
      rfl

theorem clocks_away (m : Make) (rd : Nat → Nat) : ∀ (n : Nat) (s : Sd Card), away (line m rd) s (List.replicate n 0xFF) = put s { s.bus with clk := s.bus.clk + 8 * n } s.waits
  | 0, _ => rfl
  | n + 1, s => by
    show away (line m rd) (put s { s.bus with clk := s.bus.clk + 8 } s.waits) (List.replicate n 0xFF) = _
    rw [clocks_away m rd n]
    show put s { s.bus with clk := s.bus.clk + 8 + 8 * n } s.waits = _
    rw [show s.bus.clk + 8 + 8 * n = s.bus.clk + 8 * (n + 1) by omega]

theorem init_medium {m : Make} {rd : Nat → Nat} (h : Sums m) (hq : Quick m rd) (hm : ∀ i, i ≠ 17 → m.mute i = false) {C : Send Card} (hC : Answers (line m rd) C) {s : Sd Card} (hi : s.bus.inp = .cmd []) (ho : s.bus.out = []) (hn : s.bus.next = none) (hl : ∀ n, s.bus.left ≤ rd n) :
    ∃ c' w, initMedium (line m rd) (C) s = some (put { s with type := typeOf s.bus.kind } c' w, 0) ∧ At s.bus c' true true 0 := by
  have h0 : clocks (line m rd) s = put s { s.bus with clk := s.bus.clk + 8 * (10 * (rd s.waits + 1)) } (s.waits + 1) := clocks_away m rd (10 * (rd s.waits + 1)) { s with waits := s.waits + 1 }
  obtain ⟨c1, h1, a1⟩ := cmd_zero (rd := rd) h hq hm hC (s := put s { s.bus with clk := s.bus.clk + 8 * (10 * (rd s.waits + 1)) } (s.waits + 1)) hi ho hn (.inr (by show 74 ≤ s.bus.clk + 8 * (10 * (rd s.waits + 1)); omega))
  have a1 : At s.bus c1 false false s.bus.left := ⟨a1.kind, a1.blocks, a1.mem, a1.csd, a1.cid, a1.spi, a1.ready, a1.crc, a1.app, a1.left, a1.inp, a1.out, a1.next⟩
  have k1 : idleLoop (line m rd) (C) 4 (clocks (line m rd) s) 0 = some (put s c1 (s.waits + 2), 1) := by
    rw [h0]
    show (C _ 0 0 false).bind _ = _
    rw [h1]
    rfl
  obtain ⟨a, c2, h2, p2, q2, a2⟩ := cmd_eight (rd := rd) h hq hm hC (s := put s c1 (s.waits + 2)) a1
  obtain ⟨b, c3, h3, p3, a3⟩ := cmd_crc (rd := rd) h hq hm hC (s := (pattern a).sd) (c := s.bus) (by rw [p2]; exact a2)
  obtain ⟨c4, h4, a4⟩ := cmd_ocr (rd := rd) h hq hm hC (s := b.sd) (c := s.bus) (by rw [p3]; exact a3)
  obtain ⟨c5, w, h5, a5⟩ := operate_spec (rd := rd) h hq hm hC (c := s.bus) hl (s := put b.sd c4 (b.sd.waits + 1)) a4 (by rw [p3]; show (pattern a).sd.type = _; rw [p2]; rfl)
  refine ⟨c5, w, ?_, a5⟩
  unfold initMedium
  rw [k1, Option.bind_some, if_neg (fun hx => hx rfl), h2, Option.bind_some, if_neg (fun hx => q2.elim hx.1 hx.2)]
  unfold voltage
  rw [h3]
  show (C b.sd 58 0 false).bind _ = _
  rw [h4]
  have e1 : ocr b.sd.bus = [0, 0xFF, 0x80, 0] := by
    rw [p3]
    show ocr c3 = _
    unfold ocr
    rw [a3.ready]
    rfl
  rw [Option.bind_some, if_neg (fun hx => hx rfl), e1, if_neg (show ¬ (word [0, 0xFF, 0x80, 0] &&& 2 ^ 20 = 0) by decide), h5, p3, p2]
  rfl

/-- A register is read. -/
theorem register_spec {m : Make} {rd : Nat → Nat} (h : Sums m) (hq : Quick m rd) (hm : ∀ i, i ≠ 17 → m.mute i = false) {C : Send Card} (hC : Answers (line m rd) C) {c : Card} {l : Nat} {s : Sd Card} (ha : At c s.bus true true l) {i : Nat} {d : List Nat} (hi : i = 9 ∧ d = s.bus.csd ∨ i = 10 ∧ d = s.bus.cid) (hd : Bytes d) (hl : d.length = 16) :
    ∃ a c', C s i 0 false = some a ∧ a.status = 0 ∧ readBytes (line m rd) a.sd 16 = (put s c' (s.waits + 2), 0, d) ∧ At c c' true true l := by
  have hx : exec m s.bus i 0 = reply m s.bus 0 (packed m d s.bus.t) := by
    rcases hi with ⟨rfl, rfl⟩ | ⟨rfl, rfl⟩
    · exact exec_late ha.ready rfl rfl
    · exact exec_late ha.ready rfl rfl
  have h1 := cmd_reply (rd := rd) h hq hC ha.waits (i := i) (hm _ (by omega)) (by omega) (by omega) (by decide) hx (by decide)
  have h2 := read_bytes (rd := rd) h hq (s := put s (after s.bus (packed m d s.bus.t)) (s.waits + 1)) (bs := []) hd (t := s.bus.t) (by rw [List.append_nil]; rfl) (.inl rfl)
  rw [hl] at h2
  have h3 : checked (line m rd) i (put s (after s.bus (packed m d s.bus.t)) (s.waits + 1)) 0 = ⟨put s (after s.bus (packed m d s.bus.t)) (s.waits + 1), 0, 0⟩ := by
    rw [checked_zero]
    rcases hi with ⟨rfl, -⟩ | ⟨rfl, -⟩ <;> rfl
  rw [h3] at h1
  exact ⟨_, _, h1, rfl, h2, ha.after⟩

theorem init_nolock {m : Make} {rd : Nat → Nat} (h : Sums m) (hq : Quick m rd) (hm : ∀ i, i ≠ 17 → m.mute i = false) {C : Send Card} (hC : Answers (line m rd) C) {s : Sd Card} (hr : Registers s.bus) (hi : s.bus.inp = .cmd []) (ho : s.bus.out = []) (hn : s.bus.next = none) (hl : ∀ n, s.bus.left ≤ rd n) :
    ∃ c' w, initNolock (line m rd) (C) s = some { identified (put { s with type := typeOf s.bus.kind, sectors := s.bus.blocks } c' w) s.bus.cid with noinit := false } ∧ At s.bus c' true true 0 ∧ 0 < w := by
  obtain ⟨c1, w1, h1, a1⟩ := init_medium (rd := rd) h hq hm hC (s := { s with type := 0 }) hi ho hn hl
  have a1 : At s.bus c1 true true 0 := a1
  obtain ⟨a, c2, h2, s2, r2, a2⟩ := register_spec (rd := rd) h hq hm hC (s := put { s with type := typeOf s.bus.kind } c1 w1) a1 (i := 9) (d := s.bus.csd) (.inl ⟨rfl, a1.csd.symm⟩) hr.csd.2 hr.csd.1
  have k2 : sectorsNolock (line m rd) (C) (put { s with type := typeOf s.bus.kind } c1 w1) = some (put { s with type := typeOf s.bus.kind } c2 (w1 + 2), s.bus.blocks) := by
    unfold sectorsNolock
    rw [h2]
    show (if a.status ≠ 0 then _ else some ((readBytes (line m rd) a.sd 16).1, (if (readBytes (line m rd) a.sd 16).2.1 ≠ 0 then 0 else csdBlocks (readBytes (line m rd) a.sd 16).2.2))) = _
    rw [s2, if_neg (fun hx => hx rfl), r2, if_neg (fun hx => hx rfl)]
    show some (_, csdBlocks s.bus.csd) = _
    rw [csd_blocks hr.csd.2 hr.csd.1 hr.capacity hr.width]
    rfl
  obtain ⟨b, c3, h3, s3, r3, a3⟩ := register_spec (rd := rd) h hq hm hC (s := { put { s with type := typeOf s.bus.kind, sectors := s.bus.blocks } c2 (w1 + 2) with oem := [0, 0, 0], product := [0, 0, 0, 0, 0, 0], serial := 0 }) a2 (i := 10) (d := s.bus.cid) (.inr ⟨rfl, a2.cid.symm⟩) hr.cid.2 hr.cid.1
  have k3 : identify (line m rd) (C) (put { s with type := typeOf s.bus.kind, sectors := s.bus.blocks } c2 (w1 + 2)) = some (identified (put { s with type := typeOf s.bus.kind, sectors := s.bus.blocks } c3 (w1 + 4)) s.bus.cid) := by
    unfold identify
    rw [h3]
    show (if b.status ≠ 0 then _ else some (if (readBytes (line m rd) b.sd 16).2.1 ≠ 0 then (readBytes (line m rd) b.sd 16).1 else identified (readBytes (line m rd) b.sd 16).1 (readBytes (line m rd) b.sd 16).2.2)) = _
    rw [s3, if_neg (fun hx => hx rfl), r3, if_neg (fun hx => hx rfl)]
    rfl
  have hx : exec m c3 16 512 = reply m c3 0 [] := exec_late a3.ready rfl rfl
  have h4 := cmd_reply (rd := rd) h hq hC (s := identified (put { s with type := typeOf s.bus.kind, sectors := s.bus.blocks } c3 (w1 + 4)) s.bus.cid) a3.waits (i := 16) (arg := 512) (hm _ (by omega)) (by decide) (by decide) (by decide) hx (by decide)
  refine ⟨after c3 [], w1 + 5, ?_, a3.after, by omega⟩
  unfold initNolock
  rw [h1]
  show (sectorsNolock (line m rd) (C) (put { s with type := typeOf s.bus.kind } c1 w1)).bind _ = _
  rw [k2]
  show (if s.bus.blocks = 0 then _ else (identify (line m rd) (C) (put { s with type := typeOf s.bus.kind, sectors := s.bus.blocks } c2 (w1 + 2))).bind (blocklen (C))) = _
  rw [if_neg (Nat.ne_of_gt hr.some), k3]
  show (C _ 16 512 false).bind _ = _
  rw [h4, checked_zero]
  rfl

end Fpm.Sd
