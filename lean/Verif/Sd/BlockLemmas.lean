import Verif.Sd.Lemmas
/-!
# Lemmas: reading and writing blocks of an SD card
-/
namespace Fpm.Sd
open Fpm.Crc Fpm.Crc.Spec Fpm.Sd.Spec

theorem exec_late {m : Make} {c : Card} (hr : c.ready = true) {i arg : Nat} {c' : Card} (he : early m c i arg = none) (hl : late m c i arg = some c') : exec m c i arg = c' := by
  unfold exec
  rw [he, if_pos hr, hl]
  rfl

/-- The card waits for commands, whatever it is sending. -/
structure Alert (c : Card) : Prop where
  spi : c.spi = true
  ready : c.ready = true
  crc : c.crc = true
  app : c.app = false

theorem Rest.waits {c : Card} (h : Rest c) : Waits c := ⟨h.spi, h.inp, h.out, h.next⟩

theorem place_spec {s : Sd Card} (hs : Sane s.bus) (hk : s.type = V2HC ↔ s.bus.kind = .hc) {n : Nat} (hn : n < s.bus.blocks) : place s.bus (address s n) = some n ∧ address s n < 2 ^ 32 := by
  have ha := hs.addr
  unfold place address
  by_cases hh : s.bus.kind = .hc
  · rw [if_pos hh] at ha
    rw [if_pos hh, if_pos (hk.2 hh), Nat.mod_eq_of_lt (by omega), if_pos hn]
    exact ⟨rfl, by omega⟩
  · rw [if_neg hh] at ha
    rw [if_neg hh, if_neg (fun e => hh (hk.1 e)), show n * 512 % 2 ^ 32 = n * 512 by omega, if_pos (by omega), show n * 512 / 512 = n by omega]
    exact ⟨rfl, by omega⟩

/-! ## Reading -/

/-- A series of blocks, the first of which is being sent. -/
theorem read_first {m : Make} {rd : Nat → Nat} (h : Sums m) (hq : Quick m rd) (k : Nat) {s : Sd Card} {n t : Nat} (hm : ∀ n < s.bus.blocks, (s.bus.mem n).length = 512 ∧ Bytes (s.bus.mem n)) (hi : s.bus.inp = .cmd [])
    (ho : s.bus.out = packed m (s.bus.mem n) t) (hn : 0 < k → s.bus.next = some (n + 1)) (hb : n + (k + 1) ≤ s.bus.blocks) :
    ∃ nx t w, readLoop (line m rd) (k + 1) s = (put s { s.bus with out := [], next := nx, t := t } w, 0, blocksOf s.bus.mem n (k + 1)) ∧ (k = 0 → nx = s.bus.next) := by
  have h1 := read_bytes (rd := rd) h hq (s := s) (d := s.bus.mem n) (bs := []) (t := t) (hm n (by omega)).2 (by rw [List.append_nil]; exact ho) (.inl hi)
  rw [(hm n (by omega)).1] at h1
  have e : readLoop (line m rd) (k + 1) s = ((readLoop (line m rd) k (put s { s.bus with out := [] } (s.waits + 1))).1, (readLoop (line m rd) k (put s { s.bus with out := [] } (s.waits + 1))).2.1, s.bus.mem n ++ (readLoop (line m rd) k (put s { s.bus with out := [] } (s.waits + 1))).2.2) := by
    show (if (readBytes (line m rd) s 512).2.1 ≠ 0 then _ else ((readLoop (line m rd) k (readBytes (line m rd) s 512).1).1, (readLoop (line m rd) k (readBytes (line m rd) s 512).1).2.1, (readBytes (line m rd) s 512).2.2 ++ (readLoop (line m rd) k (readBytes (line m rd) s 512).1).2.2)) = _
    rw [h1, if_neg (fun hx => hx rfl)]
  cases k with
  | zero => exact ⟨s.bus.next, s.bus.t, s.waits + 1, e, fun _ => rfl⟩
  | succ k =>
    obtain ⟨nx, t, w, h2⟩ := read_series h hq (k + 1) (s := put s { s.bus with out := [] } (s.waits + 1)) (n := n + 1) hm hi rfl hn (by show n + 1 + (k + 1) ≤ s.bus.blocks; omega)
    refine ⟨nx, t, w, ?_, fun hx => by cases hx⟩
    rw [e, h2]
    rfl

/-- Between two requests. -/
theorem read_in {m : Make} {rd : Nat → Nat} (h : Sums m) (hq : Quick m rd) (hm : Able m) {s : Sd Card} (hu : Up s) {sector count : Nat} (h1 : 1 ≤ count) (h2 : sector + count ≤ s.bus.blocks) (j : Nat) :
    ∃ t w, readIn (line m rd) (j + 1) s sector count = some (put s { s.bus with t := t } w, 0, blocksOf s.bus.mem sector count) := by
  obtain ⟨hp, ha⟩ := place_spec hu.sane hu.knows.type (n := sector) (by omega)
  obtain ⟨k, rfl⟩ : ∃ k, count = k + 1 := ⟨count - 1, by omega⟩
  have hsame : ∀ t, ({ s.bus with out := [], next := none, t := t } : Card) = { s.bus with t := t } := fun t => by rw [← hu.rest.out, ← hu.rest.next]
  unfold readIn
  rw [if_neg (by rw [hu.knows.sectors]; omega), hu.knows.noinit, hu.knows.nodisk]
  rw [if_neg (show ¬ ((false || false) = true) by decide)]
  by_cases hk : k = 0
  · subst hk
    have hx : exec m s.bus 17 (address s sector) = { s.bus with out := List.replicate (m.ncr s.bus.t) 0xFF ++ 0 :: packed m (s.bus.mem sector) s.bus.t, t := s.bus.t + 1 } := by
      refine exec_late hu.rest.ready rfl ?_
      show some (reading m s.bus false (place s.bus (address s sector))) = _
      rw [hp]
      show some ({ s.bus with inp := .cmd [], app := false, next := none, out := _, t := s.bus.t + 1 } : Card) = _
      rw [← hu.rest.inp, ← hu.rest.app, ← hu.rest.next]
      rfl
    have hc := cmd_plain (rd := rd) h (s := s) (Rest.waits hu.rest) (i := 17) (hm _) (by decide) (by decide) ha (k := m.ncr s.bus.t) (r := 0) (more := packed m (s.bus.mem sector) s.bus.t) (by rw [hx]) (hq.ncr _) (by decide) (by rw [hx]; exact .inl hu.rest.inp) (sd_answers _ j)
    rw [hx, checked_zero] at hc
    obtain ⟨nx, t, w, hr, hnx⟩ := read_first (rd := rd) h hq 0 (s := put s { s.bus with out := packed m (s.bus.mem sector) s.bus.t, t := s.bus.t + 1 } (s.waits + 1)) (n := sector) hu.sane.mem hu.rest.inp rfl (fun hx => absurd hx (by decide)) h2
    have hnx : nx = none := (hnx rfl).trans hu.rest.next
    subst hnx
    refine ⟨t, w, ?_⟩
    rw [if_neg (show ¬ (0 + 1 > 1) by decide), hc]
    show some (readLoop (line m rd) (0 + 1) (put s { s.bus with out := packed m (s.bus.mem sector) s.bus.t, t := s.bus.t + 1 } (s.waits + 1))) = _
    rw [hr, ← hsame]
    rfl
  · have hx : exec m s.bus 18 (address s sector) = { s.bus with out := List.replicate (m.ncr s.bus.t) 0xFF ++ 0 :: packed m (s.bus.mem sector) s.bus.t, next := some (sector + 1), t := s.bus.t + 1 } := by
      refine exec_late hu.rest.ready rfl ?_
      show some (reading m s.bus true (place s.bus (address s sector))) = _
      rw [hp]
      show some ({ s.bus with inp := .cmd [], app := false, next := some (sector + 1), out := _, t := s.bus.t + 1 } : Card) = _
      rw [← hu.rest.inp, ← hu.rest.app]
      rfl
    have hc := cmd_plain (rd := rd) h (s := s) (Rest.waits hu.rest) (i := 18) (hm _) (by decide) (by decide) ha (k := m.ncr s.bus.t) (r := 0) (more := packed m (s.bus.mem sector) s.bus.t) (by rw [hx]) (hq.ncr _) (by decide) (by rw [hx]; exact .inl hu.rest.inp) (sd_answers _ j)
    rw [hx, checked_zero] at hc
    obtain ⟨nx, t, w, hr, -⟩ := read_first (rd := rd) h hq k (s := put s { s.bus with out := packed m (s.bus.mem sector) s.bus.t, next := some (sector + 1), t := s.bus.t + 1 } (s.waits + 1)) (n := sector) hu.sane.mem hu.rest.inp rfl (fun _ => rfl) h2
    obtain ⟨t', hs⟩ := cmd_stop (rd := rd) h hq (hm _) (s := put s { s.bus with out := [], next := nx, t := t } w) hu.rest.spi hu.rest.ready hu.rest.inp hu.rest.app j
    refine ⟨t', w + 1, ?_⟩
    rw [if_pos (by omega), hc]
    show (if k + 1 > 1 then (sdCmd (line m rd) (j + 1) (readLoop (line m rd) (k + 1) (put s { s.bus with out := packed m (s.bus.mem sector) s.bus.t, next := some (sector + 1), t := s.bus.t + 1 } (s.waits + 1))).1 12 0 false).bind fun b =>
      some (b.sd, (if (readLoop (line m rd) (k + 1) (put s { s.bus with out := packed m (s.bus.mem sector) s.bus.t, next := some (sector + 1), t := s.bus.t + 1 } (s.waits + 1))).2.1 ≠ 0 then _ else b.status), (readLoop (line m rd) (k + 1) (put s { s.bus with out := packed m (s.bus.mem sector) s.bus.t, next := some (sector + 1), t := s.bus.t + 1 } (s.waits + 1))).2.2) else _) = _
    rw [if_pos (by omega), hr]
    show (sdCmd (line m rd) (j + 1) (put s { s.bus with out := [], next := nx, t := t } w) 12 0 false).bind _ = _
    rw [hs]
    show some (put s { s.bus with out := [], next := none, t := t' } (w + 1), 0, blocksOf s.bus.mem sector (k + 1)) = _
    rw [hsame]

/-! ## Writing -/

/-- Bytes of a block but the last one. -/
theorem data_steps {m : Make} {rd : Nat → Nat} {multi : Bool} {n : Nat} : ∀ (d got : List Nat) {s : Sd Card}, s.bus.inp = .data multi n got → s.bus.out = [] → s.bus.next = none → got.length + d.length < 514 →
    (sendAll (line m rd) s d).1 = put s { s.bus with inp := .data multi n (got ++ d) } s.waits
  | [], got, s, hi, _, _, _ => by
    show s = _
    rw [List.append_nil, ← hi]
    rfl
  | b :: d, got, s, hi, ho, hn, hl => by
    simp only [List.length_cons] at hl
    have h1 : (send (line m rd) s b).1 = put s { s.bus with inp := .data multi n (got ++ [b]) } s.waits := by
      have he : emit m s.bus = (s.bus, 0xFF) := by unfold emit; rw [ho, hn]
      show ({ s with bus := receive m (emit m s.bus).1 b } : Sd Card) = _
      rw [he]
      have : receive m s.bus b = { s.bus with inp := .data multi n (got ++ [b]) } := by
        unfold receive
        rw [hi]
        exact if_pos (by omega)
      rw [this]
      rfl
    show (sendAll (line m rd) (send (line m rd) s b).1 d).1 = _
    rw [h1, data_steps d (got ++ [b]) (s := put s { s.bus with inp := .data multi n (got ++ [b]) } s.waits) rfl ho hn (by simp; omega)]
    simp [put]

theorem low5 (x : Nat) : (32 * (x % 8) + 5) &&& 0x1F = 5 := by
  have : ∀ y < 8, (32 * y + 5) &&& 0x1F = 5 := by decide
  exact this _ (Nat.mod_lt _ (by decide))

/-- A block is written. -/
theorem write_block {m : Make} {rd : Nat → Nat} (h : Sums m) (hq : Quick m rd) {s : Sd Card} {multi : Bool} {n : Nat} {d : List Nat} (hi : s.bus.inp = .token multi n) (ho : s.bus.out = []) (hn : s.bus.next = none) (hb : n < s.bus.blocks) (hl : d.length = 512) (hd : Bytes d) :
    ∃ t w, writeBlock (line m rd) s (if multi then 0xFC else 0xFE) d = (put s { s.bus with inp := if multi then .token true (n + 1) else .cmd [], mem := fun k => if k = n then d else s.bus.mem k, t := t } w, 5) := by
  have h1 : (send (line m rd) s (if multi then 0xFC else 0xFE)).1 = put s { s.bus with inp := .data multi n [] } s.waits := by
    have he : emit m s.bus = (s.bus, 0xFF) := by unfold emit; rw [ho, hn]
    show ({ s with bus := receive m (emit m s.bus).1 _ } : Sd Card) = _
    rw [he]
    have : receive m s.bus (if multi then 0xFC else 0xFE) = { s.bus with inp := .data multi n [] } := by
      unfold receive
      rw [hi]
      exact if_pos rfl
    rw [this]
    rfl
  have h2 := data_steps (m := m) (rd := rd) (multi := multi) (n := n) (d ++ [crc16 d >>> 8]) [] (s := put s { s.bus with inp := .data multi n [] } s.waits) rfl ho hn (by simp; omega)
  have h3 : (sendAll (line m rd) (send (line m rd) s (if multi then 0xFC else 0xFE)).1 (d ++ [crc16 d >>> 8, crc16 d % 256])).1 =
      put s { s.bus with inp := if multi then .token true (n + 1) else .cmd [], mem := fun k => if k = n then d else s.bus.mem k, out := (32 * (m.junk s.bus.t % 8) + 5) :: List.replicate (m.busy s.bus.t) 0, t := s.bus.t + 1 } s.waits := by
    rw [h1, show d ++ [crc16 d >>> 8, crc16 d % 256] = (d ++ [crc16 d >>> 8]) ++ [crc16 d % 256] by simp, sendAll_append, h2]
    have he : emit m { s.bus with inp := .data multi n (d ++ [crc16 d >>> 8]) } = ({ s.bus with inp := .data multi n (d ++ [crc16 d >>> 8]) }, 0xFF) := by unfold emit; simp only [ho, hn]
    show put s (receive m (emit m { s.bus with inp := .data multi n ([] ++ (d ++ [crc16 d >>> 8])) }).1 (crc16 d % 256)) s.waits = _
    rw [List.nil_append, he]
    congr 1
    have e1 : receive m { s.bus with inp := .data multi n (d ++ [crc16 d >>> 8]) } (crc16 d % 256) = stored m { s.bus with inp := .data multi n (d ++ [crc16 d >>> 8]) } multi n (d ++ [crc16 d >>> 8] ++ [crc16 d % 256]) := by
      unfold receive
      exact if_neg (by simp; omega)
    rw [e1]
    have e2 : (d ++ [crc16 d >>> 8] ++ [crc16 d % 256]).take 512 = d := by rw [List.append_assoc, List.take_append_of_le_length (by omega), List.take_of_length_le (by omega)]
    have e3 : (d ++ [crc16 d >>> 8] ++ [crc16 d % 256]).drop 512 = [crc16 d >>> 8, crc16 d % 256] := by rw [List.append_assoc, ← hl, List.drop_left]; rfl
    unfold stored
    rw [e2, e3]
    rw [if_neg, if_neg (by show ¬ s.bus.blocks ≤ n; omega)]
    rintro ⟨-, hx⟩
    apply hx
    show 256 * (256 * 0 + crc16 d >>> 8) + crc16 d % 256 = _
    rw [← sums16 h hd, Nat.shiftRight_eq_div_pow]
    omega
  have hop : Open (if multi then Inp.token true (n + 1) else .cmd []) := by cases multi; exacts [.inl rfl, .inr ⟨_, _, rfl⟩]
  have h4 := send_pop (m := m) (rd := rd) (s := put s { s.bus with inp := if multi then .token true (n + 1) else .cmd [], mem := fun k => if k = n then d else s.bus.mem k, out := (32 * (m.junk s.bus.t % 8) + 5) :: List.replicate (m.busy s.bus.t) 0, t := s.bus.t + 1 } s.waits) rfl hop
  have h5 := wait_ready (m := m) (rd := rd) (s := put s { s.bus with inp := if multi then .token true (n + 1) else .cmd [], mem := fun k => if k = n then d else s.bus.mem k, out := List.replicate (m.busy s.bus.t) 0, t := s.bus.t + 1 } s.waits) (k := m.busy s.bus.t) (hq.busy _) rfl hn hop
  refine ⟨s.bus.t + 1, s.waits + 1, ?_⟩
  unfold writeBlock
  rw [h3]
  show ((waitReady (line m rd) (send (line m rd) _ 0xFF).1).1, (send (line m rd) _ 0xFF).2 &&& 0x1F) = _
  rw [h4]
  show ((waitReady (line m rd) (put s { s.bus with inp := if multi then .token true (n + 1) else .cmd [], mem := fun k => if k = n then d else s.bus.mem k, out := List.replicate (m.busy s.bus.t) 0, t := s.bus.t + 1 } s.waits)).1, (32 * (m.junk s.bus.t % 8) + 5) &&& 0x1F) = _
  rw [h5, low5]
  show (put s { s.bus with inp := if multi then .token true (n + 1) else .cmd [], mem := fun k => if k = n then d else s.bus.mem k, out := [], t := s.bus.t + 1 } (s.waits + 1), 5) = _
  rw [← ho]

/-- Memory after writing. -/
def Wrote (mem mem' : Nat → List Nat) (sector count : Nat) (buffer : List Nat) : Prop := ∀ n, mem' n = if sector ≤ n ∧ n < sector + count then (buffer.drop (512 * (n - sector))).take 512 else mem n

theorem write_loop {m : Make} {rd : Nat → Nat} (h : Sums m) (hq : Quick m rd) : ∀ (k : Nat) {s : Sd Card} {n : Nat} {buffer : List Nat}, s.bus.inp = .token true n → s.bus.out = [] → s.bus.next = none → n + (k + 1) ≤ s.bus.blocks → 512 * (k + 1) ≤ buffer.length → Bytes buffer →
    ∃ t w mem', writeLoop (line m rd) k s buffer = put s { s.bus with inp := .token true (n + (k + 1)), mem := mem', t := t } w ∧ Wrote s.bus.mem mem' n (k + 1) buffer
  | 0, s, n, buffer, hi, ho, hn, hb, hl, hd => by
    obtain ⟨t, w, h1⟩ := write_block (rd := rd) h hq (d := buffer.take 512) hi ho hn (by omega) (by rw [List.length_take]; omega) (fun b hb => hd b (List.mem_of_mem_take hb))
    refine ⟨t, w, fun k => if k = n then buffer.take 512 else s.bus.mem k, ?_, ?_⟩
    · show (writeBlock (line m rd) s 0xFC (buffer.take 512)).1 = _
      rw [show (0xFC : Nat) = if true = true then 0xFC else 0xFE from rfl, h1]
      rfl
    · intro i
      by_cases hin : i = n
      · subst hin; simp
      · rw [if_neg (by omega)]; exact if_neg hin
  | k + 1, s, n, buffer, hi, ho, hn, hb, hl, hd => by
    obtain ⟨t, w, h1⟩ := write_block (rd := rd) h hq (d := buffer.take 512) hi ho hn (by omega) (by rw [List.length_take]; omega) (fun b hb => hd b (List.mem_of_mem_take hb))
    obtain ⟨t', w', mem', h2, h3⟩ := write_loop h hq k (s := put s { s.bus with inp := .token true (n + 1), mem := fun k => if k = n then buffer.take 512 else s.bus.mem k, t := t } w) (n := n + 1) (buffer := buffer.drop 512) rfl ho hn (by show n + 1 + (k + 1) ≤ s.bus.blocks; omega) (by rw [List.length_drop]; omega) (fun b hb => hd b (List.mem_of_mem_drop hb))
    refine ⟨t', w', mem', ?_, ?_⟩
    · show (if (writeBlock (line m rd) s 0xFC (buffer.take 512)).2 ≠ 5 then _ else writeLoop (line m rd) k (writeBlock (line m rd) s 0xFC (buffer.take 512)).1 (buffer.drop 512)) = _
      rw [show (0xFC : Nat) = if true = true then 0xFC else 0xFE from rfl, h1, if_neg (fun hx => hx rfl)]
      show writeLoop (line m rd) k (put s { s.bus with inp := .token true (n + 1), mem := fun k => if k = n then buffer.take 512 else s.bus.mem k, t := t } w) (buffer.drop 512) = _
      rw [h2, show n + 1 + (k + 1) = n + (k + 1 + 1) by omega]
      rfl
    · intro i
      rw [h3 i]
      show (if _ then _ else (if i = n then buffer.take 512 else s.bus.mem i)) = _
      by_cases hin : i = n
      · subst hin
        rw [if_neg (by omega), if_pos rfl, if_pos (by omega)]
        simp
      · by_cases hr : n + 1 ≤ i ∧ i < n + 1 + (k + 1)
        · rw [if_pos hr, if_pos (by omega), List.drop_drop, show 512 + 512 * (i - (n + 1)) = 512 * (i - n) by omega]
        · rw [if_neg hr, if_neg hin, if_neg (by omega)]

/-- A command while the card is busy. -/
theorem cmd_busy {m : Make} {rd : Nat → Nat} {s : Sd Card} {k : Nat} (hk : ∀ n, k ≤ rd n) (ho : s.bus.out = List.replicate k 0) (hn : s.bus.next = none) (hi : s.bus.inp = .cmd []) {i : Nat} (h12 : i ≠ 12) (arg : Nat) (acmd : Bool) (j : Nat) :
    sdCmd (line m rd) j s i arg acmd = sdCmd (line m rd) j (put s { s.bus with out := [] } s.waits) i arg acmd := by
  have h1 : settled (line m rd) s i = settled (line m rd) (put s { s.bus with out := [] } s.waits) i := by
    unfold settled
    rw [if_pos h12, if_pos h12, wait_ready hk ho hn (.inl hi), wait_ready (k := 0) (s := put s { s.bus with out := [] } s.waits) (fun _ => Nat.zero_le _) rfl hn (.inl hi)]
    rfl
  unfold sdCmd
  rw [h1]

/-- The status after writing. -/
theorem final_spec {m : Make} {rd : Nat → Nat} (h : Sums m) (hq : Quick m rd) (hm : Able m) {s : Sd Card} (hr : Rest s.bus) (j : Nat) {o : List Nat} {k : Nat} (hk : ∀ n, k ≤ rd n) (ho : o = [] ∧ k = 0 ∨ ∃ b, o = b :: List.replicate k 0) :
    ∃ t w clk, final (line m rd) (j + 1) (put s { s.bus with out := o } s.waits) = some (put s { s.bus with t := t, clk := clk } w, 0) := by
  have h1 : pulse (line m rd) (put s { s.bus with out := o } s.waits) = put s { s.bus with out := List.replicate k 0, clk := s.bus.clk + 8 } s.waits := by
    show (send (line m rd) (put s { s.bus with out := o, clk := s.bus.clk + 8 } s.waits) 0xFF).1 = _
    rcases ho with ⟨rfl, rfl⟩ | ⟨b, rfl⟩
    · rw [send_still (s := put s { s.bus with out := [], clk := s.bus.clk + 8 } s.waits) rfl hr.next (.inl hr.inp)]
      rfl
    · rw [send_pop (s := put s { s.bus with out := b :: List.replicate k 0, clk := s.bus.clk + 8 } s.waits) rfl (.inl hr.inp)]
      rfl
  have hw : Waits (put s { s.bus with out := [], clk := s.bus.clk + 8 } s.waits).bus := ⟨hr.spi, hr.inp, rfl, hr.next⟩
  have h2 := cmd_busy (m := m) (rd := rd) (s := put s { s.bus with out := List.replicate k 0, clk := s.bus.clk + 8 } s.waits) hk rfl hr.next hr.inp (i := 13) (by decide) 0 false (j + 1)
  have hx : exec m { s.bus with out := [], clk := s.bus.clk + 8 } 13 0 = { s.bus with out := List.replicate (m.ncr s.bus.t) 0xFF ++ [0, 0], clk := s.bus.clk + 8, t := s.bus.t + 1 } := by
    refine exec_late (c := { s.bus with out := [], clk := s.bus.clk + 8 }) hr.ready rfl ?_
    show some ({ s.bus with inp := .cmd [], app := false, next := none, out := _, t := s.bus.t + 1, clk := s.bus.clk + 8 } : Card) = _
    rw [← hr.inp, ← hr.app, ← hr.next]
  have h3 := cmd_plain (rd := rd) h (s := put s { s.bus with out := [], clk := s.bus.clk + 8 } s.waits) hw (i := 13) (arg := 0) (hm _) (by decide) (by decide) (by decide) (k := m.ncr s.bus.t) (r := 0) (more := [0]) (by show (exec m { s.bus with out := [], clk := s.bus.clk + 8 } 13 0).out = _; rw [hx]) (hq.ncr _) (by decide) (by show Open (exec m { s.bus with out := [], clk := s.bus.clk + 8 } 13 0).inp; rw [hx]; exact .inl hr.inp) (sd_answers _ j)
  have h4 := send_pop (m := m) (rd := rd) (s := put s { s.bus with out := [0], clk := s.bus.clk + 8, t := s.bus.t + 1 } (s.waits + 1)) rfl (.inl hr.inp)
  refine ⟨s.bus.t + 1, s.waits + 1, s.bus.clk + 8, ?_⟩
  unfold final
  rw [h1, h2]
  show (sdCmd (line m rd) (j + 1) (put s { s.bus with out := [], clk := s.bus.clk + 8 } s.waits) 13 0 false).bind _ = _
  rw [h3, checked_zero]
  show (some (rest (line m rd) 13 (put s { exec m { s.bus with out := [], clk := s.bus.clk + 8 } 13 0 with out := [0] } (s.waits + 1)) 0)).bind _ = _
  rw [hx]
  show some ((send (line m rd) (put s { s.bus with out := [0], clk := s.bus.clk + 8, t := s.bus.t + 1 } (s.waits + 1)) 0xFF).1, (if (0 <<< 8) ||| (send (line m rd) (put s { s.bus with out := [0], clk := s.bus.clk + 8, t := s.bus.t + 1 } (s.waits + 1)) 0xFF).2 = 0 then r1status 0 else _)) = _
  rw [h4]
  rw [if_pos (show 0 <<< 8 ||| 0 = 0 by decide)]
  show some (put s { s.bus with out := [], clk := s.bus.clk + 8, t := s.bus.t + 1 } (s.waits + 1), (0 : Nat)) = _
  rw [← hr.out]

theorem write_in {m : Make} {rd : Nat → Nat} (h : Sums m) (hq : Quick m rd) (hm : Able m) {s : Sd Card} (hu : Up s) {sector count : Nat} {buffer : List Nat} (h0 : 1 ≤ count) (h1 : count < 2 ^ 32) (h2 : sector + count ≤ s.bus.blocks) (hl : 512 * count ≤ buffer.length) (hd : Bytes buffer) (j : Nat) :
    ∃ t w clk mem', writeIn (line m rd) (j + 1) s sector count buffer = some (put s { s.bus with t := t, clk := clk, mem := mem' } w, 0) ∧ Wrote s.bus.mem mem' sector count buffer := by
  obtain ⟨hp, ha⟩ := place_spec hu.sane hu.knows.type (n := sector) (by omega)
  unfold writeIn
  rw [if_neg (by rw [hu.knows.sectors]; omega), hu.knows.noinit, hu.knows.nodisk]
  rw [if_neg (show ¬ ((false || false) = true) by decide)]
  by_cases hk : count = 1
  · subst hk
    have hx : exec m s.bus 24 (address s sector) = { s.bus with inp := .token false sector, out := List.replicate (m.ncr s.bus.t) 0xFF ++ [0], t := s.bus.t + 1 } := by
      refine exec_late hu.rest.ready rfl ?_
      show some (writing m s.bus false (place s.bus (address s sector))) = _
      rw [hp]
      show some ({ s.bus with inp := .token false sector, app := false, next := none, out := _, t := s.bus.t + 1 } : Card) = _
      rw [← hu.rest.app, ← hu.rest.next]
      rfl
    have hc := cmd_plain (rd := rd) h (s := s) (Rest.waits hu.rest) (i := 24) (hm _) (by decide) (by decide) ha (k := m.ncr s.bus.t) (r := 0) (more := []) (by rw [hx]) (hq.ncr _) (by decide) (by rw [hx]; exact .inr ⟨_, _, rfl⟩) (sd_answers _ j)
    rw [hx, checked_zero] at hc
    obtain ⟨t, w, hb⟩ := write_block (rd := rd) h hq (s := put s { s.bus with inp := .token false sector, out := [], t := s.bus.t + 1 } (s.waits + 1)) (d := buffer.take 512) rfl rfl hu.rest.next (by show sector < s.bus.blocks; omega) (by rw [List.length_take]; omega) (fun b hb => hd b (List.mem_of_mem_take hb))
    obtain ⟨t', w', clk, hf⟩ := final_spec (rd := rd) h hq hm (s := put s { s.bus with mem := fun k => if k = sector then buffer.take 512 else s.bus.mem k, t := t } w) ⟨hu.rest.spi, hu.rest.ready, hu.rest.crc, hu.rest.app, hu.rest.inp, hu.rest.out, hu.rest.next⟩ j (o := []) (k := 0) (fun _ => Nat.zero_le _) (.inl ⟨rfl, rfl⟩)
    refine ⟨t', w', clk, fun k => if k = sector then buffer.take 512 else s.bus.mem k, ?_, ?_⟩
    · rw [if_pos rfl, hc]
      show final (line m rd) (j + 1) (writeBlock (line m rd) (put s { s.bus with inp := .token false sector, out := [], t := s.bus.t + 1 } (s.waits + 1)) (if false = true then 0xFC else 0xFE) (buffer.take 512)).1 = _
      rw [hb]
      show final (line m rd) (j + 1) (put s { s.bus with inp := .cmd [], out := [], mem := fun k => if k = sector then buffer.take 512 else s.bus.mem k, t := t } w) = _
      rw [← hu.rest.inp]
      exact hf
    · intro i
      by_cases hin : i = sector
      · subst hin; simp
      · rw [if_neg (by omega)]; exact if_neg hin
  · obtain ⟨k, rfl⟩ : ∃ k, count = k + 1 := ⟨count - 1, by omega⟩
    have hx : exec m (apped m s.bus) 23 (k + 1) = { s.bus with out := List.replicate (m.ncr (s.bus.t + 1)) 0xFF ++ [0], t := s.bus.t + 2 } := by
      refine exec_late (c := apped m s.bus) hu.rest.ready rfl ?_
      show some ({ s.bus with inp := .cmd [], app := false, next := none, out := _, t := s.bus.t + 2 } : Card) = _
      rw [← hu.rest.app, ← hu.rest.next, ← hu.rest.inp]
      rfl
    have hc := cmd_app (rd := rd) h hq (s := s) (Rest.waits hu.rest) (i := 23) (hm _) (hm _) (by decide) (by decide) h1 (k := m.ncr (s.bus.t + 1)) (r := 0) (more := []) (by rw [hx]) (hq.ncr _) (by decide) (by rw [hx]; exact .inl hu.rest.inp) (sd_answers _ j)
    rw [hx, checked_zero] at hc
    have hpu : pulse (line m rd) (put s { s.bus with out := [], t := s.bus.t + 2 } (s.waits + 2)) = put s { s.bus with out := [], t := s.bus.t + 2, clk := s.bus.clk + 8 } (s.waits + 2) := by
      show (send (line m rd) (put s { s.bus with out := [], t := s.bus.t + 2, clk := s.bus.clk + 8 } (s.waits + 2)) 0xFF).1 = _
      rw [send_still (s := put s { s.bus with out := [], t := s.bus.t + 2, clk := s.bus.clk + 8 } (s.waits + 2)) rfl hu.rest.next (.inl hu.rest.inp)]
    have hx2 : exec m { s.bus with out := [], t := s.bus.t + 2, clk := s.bus.clk + 8 } 25 (address s sector) = { s.bus with inp := .token true sector, out := List.replicate (m.ncr (s.bus.t + 2)) 0xFF ++ [0], t := s.bus.t + 3, clk := s.bus.clk + 8 } := by
      refine exec_late (c := { s.bus with out := [], t := s.bus.t + 2, clk := s.bus.clk + 8 }) hu.rest.ready rfl ?_
      show some (writing m { s.bus with out := [], t := s.bus.t + 2, clk := s.bus.clk + 8 } true (place s.bus (address s sector))) = _
      rw [hp]
      show some ({ s.bus with inp := .token true sector, app := false, next := none, out := _, t := s.bus.t + 3, clk := s.bus.clk + 8 } : Card) = _
      rw [← hu.rest.app, ← hu.rest.next]
      rfl
    have hc2 := cmd_plain (rd := rd) h (s := put s { s.bus with out := [], t := s.bus.t + 2, clk := s.bus.clk + 8 } (s.waits + 2)) ⟨hu.rest.spi, hu.rest.inp, rfl, hu.rest.next⟩ (i := 25) (hm _) (by decide) (by decide) ha (k := m.ncr (s.bus.t + 2)) (r := 0) (more := [])
      (by show (exec m { s.bus with out := [], t := s.bus.t + 2, clk := s.bus.clk + 8 } 25 (address s sector)).out = _; rw [hx2]) (hq.ncr _) (by decide) (by show Open (exec m { s.bus with out := [], t := s.bus.t + 2, clk := s.bus.clk + 8 } 25 (address s sector)).inp; rw [hx2]; exact .inr ⟨_, _, rfl⟩) (sd_answers _ j)
    rw [checked_zero] at hc2
    have hc3 : sdCmd (line m rd) (j + 1) (put s { s.bus with out := [], t := s.bus.t + 2, clk := s.bus.clk + 8 } (s.waits + 2)) 25 (address s sector) false = some ⟨put s { s.bus with inp := .token true sector, out := [], t := s.bus.t + 3, clk := s.bus.clk + 8 } (s.waits + 3), 0, 0⟩ := by
      rw [hc2]
      show some (rest (line m rd) 25 (put s { exec m { s.bus with out := [], t := s.bus.t + 2, clk := s.bus.clk + 8 } 25 (address s sector) with out := [] } (s.waits + 3)) 0) = _
      rw [hx2]
      rfl
    obtain ⟨t, w, mem', hw, hwr⟩ := write_loop (rd := rd) h hq k (s := put s { s.bus with inp := .token true sector, out := [], t := s.bus.t + 3, clk := s.bus.clk + 8 } (s.waits + 3)) (n := sector) (buffer := buffer) rfl rfl hu.rest.next h2 hl hd
    have hst : (send (line m rd) (put s { s.bus with inp := .token true (sector + (k + 1)), out := [], mem := mem', t := t, clk := s.bus.clk + 8 } w) 0xFD).1 = put s { s.bus with out := m.junk t :: List.replicate (m.busy t) 0, mem := mem', t := t + 1, clk := s.bus.clk + 8 } w := by
      have he : emit m { s.bus with inp := .token true (sector + (k + 1)), out := [], mem := mem', t := t, clk := s.bus.clk + 8 } = ({ s.bus with inp := .token true (sector + (k + 1)), out := [], mem := mem', t := t, clk := s.bus.clk + 8 }, 0xFF) := by unfold emit; simp only [hu.rest.next]
      show put s (receive m (emit m { s.bus with inp := .token true (sector + (k + 1)), out := [], mem := mem', t := t, clk := s.bus.clk + 8 }).1 0xFD) w = _
      rw [he]
      show put s { s.bus with inp := .cmd [], out := m.junk t :: List.replicate (m.busy t) 0, mem := mem', t := t + 1, clk := s.bus.clk + 8 } w = _
      rw [← hu.rest.inp]
    obtain ⟨t', w', clk, hf⟩ := final_spec (rd := rd) h hq hm (s := put s { s.bus with mem := mem', t := t + 1, clk := s.bus.clk + 8 } w) ⟨hu.rest.spi, hu.rest.ready, hu.rest.crc, hu.rest.app, hu.rest.inp, hu.rest.out, hu.rest.next⟩ j (o := m.junk t :: List.replicate (m.busy t) 0) (k := m.busy t) (hq.busy t) (.inr ⟨_, rfl⟩)
    refine ⟨t', w', clk, mem', ?_, hwr⟩
    rw [if_neg hk, hc]
    show (sdCmd (line m rd) (j + 1) (pulse (line m rd) (put s { s.bus with out := [], t := s.bus.t + 2 } (s.waits + 2))) 25 (address s sector) false).bind _ = _
    rw [hpu, hc3]
    show final (line m rd) (j + 1) (send (line m rd) (writeLoop (line m rd) k (put s { s.bus with inp := .token true sector, out := [], t := s.bus.t + 3, clk := s.bus.clk + 8 } (s.waits + 3)) buffer) 0xFD).1 = _
    rw [hw]
    show final (line m rd) (j + 1) (send (line m rd) (put s { s.bus with inp := .token true (sector + (k + 1)), out := [], mem := mem', t := t, clk := s.bus.clk + 8 } w) 0xFD).1 = _
    rw [hst]
    exact hf

end Fpm.Sd
