import Verif.Sd.Spec
import Verif.Crc.Props
/-!
# Lemmas on the SD card and its driver
-/
namespace Fpm.Sd
open Fpm.Crc Fpm.Crc.Spec Fpm.Sd.Spec

/-- The driver with another state of the card and another number of waiting loops. -/
def put (s : Sd Card) (c : Card) (w : Nat) : Sd Card := { s with bus := c, waits := w }

/-- The card does not care for filling bytes. -/
def Open (i : Inp) : Prop := i = .cmd [] ∨ ∃ multi n, i = .token multi n

theorem open_fill {m : Make} {c : Card} (h : Open c.inp) : receive m c 0xFF = c := by
  unfold receive
  rcases h with h | ⟨multi, n, h⟩
  · rw [h]; rfl
  · rw [h]; cases multi <;> rfl

theorem send_pop {m : Make} {rd : Nat → Nat} {s : Sd Card} {b : Nat} {bs : List Nat} (ho : s.bus.out = b :: bs) (hi : Open s.bus.inp) :
    send (line m rd) s 0xFF = (put s { s.bus with out := bs } s.waits, b) := by
  have he : emit m s.bus = ({ s.bus with out := bs }, b) := by unfold emit; rw [ho]
  show ({ s with bus := receive m (emit m s.bus).1 0xFF }, (emit m s.bus).2) = _
  rw [he]
  rw [open_fill (c := { s.bus with out := bs }) hi]
  rfl

theorem send_still {m : Make} {rd : Nat → Nat} {s : Sd Card} (ho : s.bus.out = []) (hn : s.bus.next = none) (hi : Open s.bus.inp) :
    send (line m rd) s 0xFF = (s, 0xFF) := by
  have he : emit m s.bus = (s.bus, 0xFF) := by unfold emit; rw [ho, hn]
  show ({ s with bus := receive m (emit m s.bus).1 0xFF }, (emit m s.bus).2) = _
  rw [he]
  rw [open_fill hi]

theorem all_pop {m : Make} {rd : Nat → Nat} : ∀ (d : List Nat) {s : Sd Card} {bs : List Nat}, s.bus.out = d ++ bs → Open s.bus.inp →
    sendAll (line m rd) s (List.replicate d.length 0xFF) = (put s { s.bus with out := bs } s.waits, d)
  | [], s, bs, ho, _ => by
    have : s = put s { s.bus with out := bs } s.waits := by rw [← show s.bus.out = bs from ho]; rfl
    exact congrArg (·, []) this
  | b :: d, s, bs, ho, hi => by
    have h1 := send_pop (m := m) (rd := rd) (b := b) (bs := d ++ bs) ho hi
    show ((sendAll _ (send _ s 0xFF).1 (List.replicate d.length 0xFF)).1, (send _ s 0xFF).2 :: (sendAll _ (send _ s 0xFF).1 (List.replicate d.length 0xFF)).2) = _
    rw [h1]
    rw [all_pop d (s := put s { s.bus with out := d ++ bs } s.waits) (bs := bs) rfl hi]
    rfl

theorem resp_loop {m : Make} {rd : Nat → Nat} {r : Nat} {bs : List Nat} (hr : r < 128) : ∀ (k n : Nat) (s : Sd Card) (x : Nat), k < n → s.bus.out = List.replicate k 0xFF ++ r :: bs → Open s.bus.inp →
    respLoop (line m rd) n s x = (put s { s.bus with out := bs } s.waits, r)
  | _, 0, _, _, h, _, _ => absurd h (Nat.not_lt_zero _)
  | 0, n + 1, s, x, _, ho, hi => by
    have h1 := send_pop (m := m) (rd := rd) ho hi
    show (if (send _ s 0xFF).2 &&& 0x80 = 0 then send _ s 0xFF else _) = _
    rw [h1]
    have : r &&& 0x80 = 0 := by
      have : r &&& 0x80 = 0 := by
        apply Nat.eq_of_testBit_eq
        intro j
        rw [Nat.testBit_and, Nat.zero_testBit, show (0x80 : Nat) = 2 ^ 7 from rfl, Nat.testBit_two_pow]
        by_cases hj : 7 = j
        · subst hj; rw [Nat.testBit_lt_two_pow (by omega)]; rfl
        · simp [hj]
      exact this
    exact if_pos this
  | k + 1, n + 1, s, x, hk, ho, hi => by
    have h1 := send_pop (m := m) (rd := rd) (b := 0xFF) (bs := List.replicate k 0xFF ++ r :: bs) ho hi
    show (if (send _ s 0xFF).2 &&& 0x80 = 0 then send _ s 0xFF else respLoop _ n (send _ s 0xFF).1 (send _ s 0xFF).2) = _
    rw [h1]
    rw [if_neg (show ¬ (0xFF &&& 0x80 = 0) by decide)]
    rw [resp_loop hr k n (put s { s.bus with out := List.replicate k 0xFF ++ r :: bs } s.waits) 0xFF (by omega) rfl hi]
    rfl

theorem ready_loop {m : Make} {rd : Nat → Nat} : ∀ (k n : Nat) (s : Sd Card), k ≤ n → s.bus.out = List.replicate k 0 → s.bus.next = none → Open s.bus.inp →
    readyLoop (line m rd) n s = (put s { s.bus with out := [] } s.waits, true)
  | 0, n, s, _, ho, hn, hi => by
    have h1 := send_still (m := m) (rd := rd) ho hn hi
    have e : put s { s.bus with out := [] } s.waits = s := by rw [← show s.bus.out = [] from ho]; rfl
    rw [e]
    cases n with
    | zero =>
      show ((send _ s 0xFF).1, decide ((send _ s 0xFF).2 ≠ 0)) = _
      rw [h1]; rfl
    | succ n =>
      show (if (send _ s 0xFF).2 = 0 then _ else ((send _ s 0xFF).1, true)) = _
      rw [h1]; rfl
  | k + 1, 0, _, h, _, _, _ => absurd h (by omega)
  | k + 1, n + 1, s, hk, ho, hn, hi => by
    have h1 := send_pop (m := m) (rd := rd) (b := 0) (bs := List.replicate k 0) ho hi
    show (if (send _ s 0xFF).2 = 0 then readyLoop _ n (send _ s 0xFF).1 else ((send _ s 0xFF).1, true)) = _
    rw [h1, if_pos rfl]
    rw [ready_loop k n (put s { s.bus with out := List.replicate k 0 } s.waits) (by omega) rfl hn hi]
    rfl

theorem wait_ready {m : Make} {rd : Nat → Nat} {s : Sd Card} {k : Nat} (hk : ∀ n, k ≤ rd n) (ho : s.bus.out = List.replicate k 0) (hn : s.bus.next = none) (hi : Open s.bus.inp) :
    waitReady (line m rd) s = (put s { s.bus with out := [] } (s.waits + 1), true) := by
  show readyLoop _ (rd s.waits) _ = _
  rw [ready_loop k _ { s with waits := s.waits + 1 } (hk _) ho hn hi]
  rfl

theorem token_loop {m : Make} {rd : Nat → Nat} {bs : List Nat} : ∀ (k n : Nat) (s : Sd Card), k ≤ n → s.bus.out = List.replicate k 0xFF ++ 0xFE :: bs → Open s.bus.inp →
    tokenLoop (line m rd) 0xFE n s = (put s { s.bus with out := bs } s.waits, true)
  | 0, n, s, _, ho, hi => by
    have h1 := send_pop (m := m) (rd := rd) (b := 0xFE) (bs := bs) ho hi
    cases n with
    | zero =>
      show ((send _ s 0xFF).1, decide (0xFE = (send _ s 0xFF).2)) = _
      rw [h1]; rfl
    | succ n =>
      show (if 0xFE = (send _ s 0xFF).2 then ((send _ s 0xFF).1, true) else _) = _
      rw [h1]; rfl
  | k + 1, 0, _, h, _, _ => absurd h (by omega)
  | k + 1, n + 1, s, hk, ho, hi => by
    have h1 := send_pop (m := m) (rd := rd) (b := 0xFF) (bs := List.replicate k 0xFF ++ 0xFE :: bs) ho hi
    show (if 0xFE = (send _ s 0xFF).2 then _ else tokenLoop _ 0xFE n (send _ s 0xFF).1) = _
    rw [h1, if_neg (show ¬ (0xFE = 0xFF) by decide)]
    rw [token_loop k n (put s { s.bus with out := List.replicate k 0xFF ++ 0xFE :: bs } s.waits) (by omega) rfl hi]
    rfl

theorem wait_token {m : Make} {rd : Nat → Nat} {s : Sd Card} {k : Nat} {bs : List Nat} (hk : ∀ n, k ≤ rd n) (ho : s.bus.out = List.replicate k 0xFF ++ 0xFE :: bs) (hi : Open s.bus.inp) :
    waitToken (line m rd) s 0xFE = (put s { s.bus with out := bs } (s.waits + 1), true) := by
  show tokenLoop _ 0xFE (rd s.waits) _ = _
  rw [token_loop k _ { s with waits := s.waits + 1 } (hk _) ho hi]
  rfl

/-! ## Commands -/

/-- Only what is sent has changed. -/
def Alike (c c' : Card) : Prop := ∃ o n t, c' = { c with out := o, next := n, t := t }

theorem emit_alike (m : Make) (c : Card) : Alike c (emit m c).1 ∧ (c.out = [] → c.next = none → (emit m c).1 = c) := by
  unfold emit
  split
  · rename_i b bs h
    exact ⟨⟨_, _, _, rfl⟩, fun e => by rw [h] at e; cases e⟩
  · split
    · rename_i n h
      split
      · exact ⟨⟨_, _, _, rfl⟩, fun _ e => by rw [h] at e; cases e⟩
      · exact ⟨⟨_, _, _, rfl⟩, fun _ _ => rfl⟩
    · exact ⟨⟨_, _, _, rfl⟩, fun _ _ => rfl⟩

theorem alike_trans {a b c : Card} (h1 : Alike a b) (h2 : Alike b c) : Alike a c := by
  obtain ⟨o, n, t, rfl⟩ := h1
  obtain ⟨o', n', t', rfl⟩ := h2
  exact ⟨o', n', t', rfl⟩

/-- A byte of a command that is not the last one. -/
theorem step_cmd {m : Make} {c : Card} {got : List Nat} (hi : c.inp = .cmd got) {b : Nat} (hb : got = [] → b / 64 = 1) (hl : got.length < 5) :
    ∃ c', (step m c b).1 = { c' with inp := .cmd (got ++ [b]) } ∧ Alike c c' ∧ (c.out = [] → c.next = none → c' = c) := by
  obtain ⟨h1, h2⟩ := emit_alike m c
  refine ⟨(emit m c).1, ?_, h1, h2⟩
  show receive m (emit m c).1 b = _
  have hi' : (emit m c).1.inp = .cmd got := by obtain ⟨o, n, t, e⟩ := h1; rw [e]; exact hi
  unfold receive
  rw [hi']
  cases got with
  | nil => exact if_pos (hb rfl)
  | cons a got => exact if_pos (by simp only [List.length_cons] at hl; omega)

/-- All bytes of a command but the last one. -/
theorem steps_cmd {m : Make} {rd : Nat → Nat} : ∀ (p : List Nat) {got : List Nat} {s : Sd Card}, s.bus.inp = .cmd got → (got = [] → p.headD 64 / 64 = 1) → got.length + p.length < 6 →
    ∃ c', (sendAll (line m rd) s p).1 = put s { c' with inp := .cmd (got ++ p) } s.waits ∧ Alike s.bus c' ∧ (s.bus.out = [] → s.bus.next = none → c' = s.bus)
  | [], got, s, hi, _, _ => by
    refine ⟨s.bus, ?_, ⟨_, _, _, rfl⟩, fun _ _ => rfl⟩
    show s = _
    rw [List.append_nil, ← hi]
    rfl
  | b :: p, got, s, hi, hb, hl => by
    simp only [List.length_cons] at hl
    obtain ⟨c', h1, h2, h3⟩ := step_cmd (m := m) hi (b := b) (fun e => hb e) (by omega)
    obtain ⟨c2, k1, k2, k3⟩ := steps_cmd (m := m) (rd := rd) p (got := got ++ [b]) (s := put s (step m s.bus b).1 s.waits) (by show (step m s.bus b).1.inp = _; rw [h1]) (fun e => by simp at e) (by simp; omega)
    obtain ⟨o, n, t, rfl⟩ := h2
    obtain ⟨o', n', t', rfl⟩ := k2
    refine ⟨{ s.bus with out := o', next := n', t := t' }, ?_, ⟨_, _, _, rfl⟩, ?_⟩
    · show (sendAll _ (put s (step m s.bus b).1 s.waits) p).1 = _
      rw [k1, h1]
      simp [put]
    · intro e1 e2
      have h3 := h3 e1 e2
      have k3 := k3 (by show (step m s.bus b).1.out = []; rw [h1, h3]; exact e1) (by show (step m s.bus b).1.next = none; rw [h1, h3]; exact e2)
      have k4 := congrArg Card.out k3
      have k5 := congrArg Card.next k3
      have k6 := congrArg Card.t k3
      simp only [put, h1] at k4 k5 k6
      rw [← h3]
      simp [k4, k5, k6]

theorem sendAll_append {σ : Type} (L : Line σ) : ∀ (p q : List Nat) (s : Sd σ), (sendAll L s (p ++ q)).1 = (sendAll L (sendAll L s p).1 q).1
  | [], _, _ => rfl
  | _ :: p, q, s => sendAll_append L p q _

/-- Six bytes: a command is received. -/
theorem send_command {m : Make} {rd : Nat → Nat} {s : Sd Card} (hi : s.bus.inp = .cmd []) {p : List Nat} {b : Nat} (hl : p.length = 5) (hb : p.headD 64 / 64 = 1) :
    ∃ c', (sendAll (line m rd) s (p ++ [b])).1 = put s (command m { c' with inp := .cmd p } (p ++ [b])) s.waits ∧ Alike s.bus c' ∧ (s.bus.out = [] → s.bus.next = none → c' = s.bus) := by
  obtain ⟨c', h1, h2, h3⟩ := steps_cmd (m := m) (rd := rd) p hi (fun _ => hb) (by simp; omega)
  obtain ⟨k1, k2⟩ := emit_alike m { c' with inp := .cmd p }
  obtain ⟨o, n, t, e⟩ := k1
  refine ⟨{ c' with out := o, next := n, t := t }, ?_, alike_trans h2 ⟨o, n, t, rfl⟩, ?_⟩
  · rw [sendAll_append, h1]
    show put s (receive m (emit m { c' with inp := .cmd ([] ++ p) }).1 b) s.waits = _
    rw [List.nil_append, e]
    congr 1
    unfold receive
    cases p with
    | nil => cases hl
    | cons a p =>
      have : ¬ p.length < 4 := by simp only [List.length_cons] at hl; omega
      exact if_neg this
  · intro e1 e2
    have h3 := h3 e1 e2
    subst h3
    have := k2 e1 e2
    rw [e] at this
    have k4 := congrArg Card.out this
    have k5 := congrArg Card.next this
    have k6 := congrArg Card.t this
    simp only at k4 k5 k6
    simp [k4, k5, k6]

/-! ## Packets -/

theorem sums7 {m : Make} (h : Sums m) {l : List Nat} (hl : Bytes l) : crc7 l = some (m.c7 l) := by
  obtain ⟨r, h1, h2, h3⟩ := C42_crc7 l hl
  rw [h1, poly_inj 7 r (m.c7 l) h2 (h.c7 l hl).1 (by rw [h3, (h.c7 l hl).2])]

theorem sums16 {m : Make} (h : Sums m) {l : List Nat} (hl : Bytes l) : crc16 l = m.c16 l := by
  obtain ⟨h2, h3⟩ := C42_crc16 l hl
  exact poly_inj 16 _ _ h2 (h.c16 l hl).1 (by rw [h3, (h.c16 l hl).2])

theorem packet_spec {m : Make} (h : Sums m) {i arg : Nat} (hi : i < 64) (ha : arg < 2 ^ 32) :
    ∃ p, packet i arg = p ++ [2 * m.c7 p + 1] ∧ p.length = 5 ∧ p.headD 64 = 64 + i ∧ number (p.drop 1) = arg := by
  let p := [0x40 ||| (i &&& 0x3F), (arg >>> 24) % 256, (arg >>> 16) % 256, (arg >>> 8) % 256, arg % 256]
  have h0 : 0x40 ||| (i &&& 0x3F) = 64 + i := by
    have : ∀ i < 64, 0x40 ||| (i &&& 0x3F) = 64 + i := by decide
    exact this i hi
  have hp : Bytes p := by
    intro b hb
    simp only [p, h0, List.mem_cons, List.not_mem_nil, or_false] at hb
    rcases hb with rfl | rfl | rfl | rfl | rfl <;> omega
  have hc := (h.c7 p hp).1
  refine ⟨p, ?_, rfl, h0, ?_⟩
  · show p ++ [(((crc7 p).getD 0 <<< 1) ||| 1) % 256] = _
    rw [sums7 h hp]
    have : ∀ x < 128, ((x <<< 1) ||| 1) % 256 = 2 * x + 1 := by decide
    rw [show ((some (m.c7 p)).getD 0) = m.c7 p from rfl, this _ hc]
  · show 256 * (256 * (256 * (256 * 0 + (arg >>> 24) % 256) + (arg >>> 16) % 256) + (arg >>> 8) % 256) + arg % 256 = arg
    simp only [Nat.shiftRight_eq_div_pow]
    omega

theorem exec_alike (m : Make) (c : Card) (i arg : Nat) (x : Inp) (o : List Nat) (n : Option Nat) : exec m { c with inp := x, out := o, next := n } i arg = exec m c i arg := rfl

/-- A card in SPI mode obeys a packet of the driver. -/
theorem command_spec {m : Make} (h : Sums m) {c : Card} (hc : c.spi = true) {i arg : Nat} (hm : m.mute i = false) (hi : i < 64) (ha : arg < 2 ^ 32) : command m c (packet i arg) = exec m c i arg := by
  obtain ⟨p, h1, h2, h3, h4⟩ := packet_spec h hi ha
  obtain ⟨a, b, c1, d, e, rfl⟩ : ∃ a b c1 d e, p = [a, b, c1, d, e] := by
    match p, h2 with
    | [a, b, c1, d, e], _ => exact ⟨a, b, c1, d, e, rfl⟩
  have h3 : a = 64 + i := h3
  unfold command
  have hm' : ¬ m.mute (([a, b, c1, d, e] ++ [2 * m.c7 [a, b, c1, d, e] + 1]).headD 0 % 64) = true := by
    show ¬ m.mute (a % 64) = true
    rw [show a % 64 = i by omega, hm]
    decide
  rw [h1, if_pos hc, if_neg hm', if_neg]
  · show exec m c (a % 64) (number [b, c1, d, e]) = _
    rw [show a % 64 = i by omega, show number [b, c1, d, e] = arg from h4]
  · rintro ⟨-, hx⟩
    exact hx rfl

theorem checked_one {σ : Type} (L : Line σ) (cmd : Nat) (s : Sd σ) : checked L cmd s 1 = rest L cmd s 1 := by simp [checked]

theorem rest_one {σ : Type} (L : Line σ) {cmd : Nat} (s : Sd σ) {r : Nat} (hr : r = 0 ∨ r = 1) (h1 : cmd ≠ 8) (h2 : cmd ≠ 58) (h3 : cmd ≠ 12) (h4 : cmd ≠ 38) (h5 : cmd ≠ 13) : rest L cmd s r = ⟨s, 0, r⟩ := by
  rcases hr with rfl | rfl <;> simp [rest, r1status, h1, h2, h3, h4, h5]

theorem checked_zero {σ : Type} (L : Line σ) (cmd : Nat) (s : Sd σ) : checked L cmd s 0 = rest L cmd s 0 := by simp [checked]

/-- A card that waits for a command, with nothing to send. -/
structure Waits (c : Card) : Prop where
  spi : c.spi = true
  inp : c.inp = .cmd []
  out : c.out = []
  next : c.next = none

theorem Waits.open {c : Card} (h : Waits c) : Open c.inp := .inl h.inp

theorem cmd_spi {m : Make} {rd : Nat → Nat} (h : Sums m) {s : Sd Card} (hw : Waits s.bus) {i arg : Nat} (hm : m.mute i = false) (hi : i < 64) (h12 : i ≠ 12) (ha : arg < 2 ^ 32) {k r : Nat} {more : List Nat}
    (ho : (exec m s.bus i arg).out = List.replicate k 0xFF ++ r :: more) (hk : k ≤ 8) (hr : r < 128) (hin : Open (exec m s.bus i arg).inp) :
    cmdSpi (line m rd) s i arg = (put s { exec m s.bus i arg with out := more } s.waits, r) := by
  obtain ⟨p, h1, h2, h3, -⟩ := packet_spec h hi ha
  obtain ⟨c', k1, -, k3⟩ := send_command (m := m) (rd := rd) hw.inp (p := p) (b := 2 * m.c7 p + 1) h2 (by rw [h3]; omega)
  have k3 := k3 hw.out hw.next
  subst k3
  rw [← h1, command_spec h (c := { s.bus with inp := .cmd p }) hw.spi hm hi ha] at k1
  unfold cmdSpi
  rw [if_neg h12, k1]
  exact resp_loop hr k 16 (put s (exec m s.bus i arg) s.waits) FILL (by omega) ho hin

theorem settled_spec {m : Make} {rd : Nat → Nat} {s : Sd Card} (hw : Waits s.bus) {i : Nat} (h12 : i ≠ 12) : settled (line m rd) s i = put s s.bus (s.waits + 1) := by
  unfold settled
  rw [if_pos h12, wait_ready (k := 0) (fun _ => Nat.zero_le _) hw.out hw.next hw.open]
  show put s { s.bus with out := [] } (s.waits + 1) = _
  rw [← hw.out]

theorem not_ff {r : Nat} (hr : r < 128) : ¬ r = 0xFF := by omega

/-- Commands are sent as `sd_cmd` does it. -/
def Answers (L : Line Card) (C : Send Card) : Prop := ∀ s i arg acmd, (tries L i arg acmd 3 (settled L s i) 0).2 ≠ 0xFF → C s i arg acmd = some (checked L i (tries L i arg acmd 3 (settled L s i) 0).1 (tries L i arg acmd 3 (settled L s i) 0).2)

theorem sd_answers (L : Line Card) (j : Nat) : Answers L (sdCmd L (j + 1)) := fun _ _ _ _ h => if_neg h

theorem plain_answers (L : Line Card) : Answers L (cmdPlain L) := fun _ _ _ _ h => congrArg some (if_neg h)

/-- A command, but not CMD12. -/
theorem cmd_plain {m : Make} {rd : Nat → Nat} (h : Sums m) {s : Sd Card} (hw : Waits s.bus) {i arg : Nat} (hm : m.mute i = false) (hi : i < 64) (h12 : i ≠ 12) (ha : arg < 2 ^ 32) {k r : Nat} {more : List Nat}
    (ho : (exec m s.bus i arg).out = List.replicate k 0xFF ++ r :: more) (hk : k ≤ 8) (hr : r < 128) (hin : Open (exec m s.bus i arg).inp) {C : Send Card} (hC : Answers (line m rd) C) :
    C s i arg false = some (checked (line m rd) i (put s { exec m s.bus i arg with out := more } (s.waits + 1)) r) := by
  have h1 := cmd_spi (rd := rd) h (s := put s s.bus (s.waits + 1)) hw hm hi h12 ha ho hk hr hin
  have h2 : tries (line m rd) i arg false 3 (put s s.bus (s.waits + 1)) 0 = (put s { exec m s.bus i arg with out := more } (s.waits + 1), r) := by
    show (if (cmdSpi (line m rd) (put s s.bus (s.waits + 1)) i arg).2 = 0xFF then _ else cmdSpi (line m rd) (put s s.bus (s.waits + 1)) i arg) = _
    rw [h1, if_neg (not_ff hr)]
    rfl
  rw [← settled_spec (m := m) (rd := rd) hw h12] at h2
  rw [hC s i arg false (by rw [h2]; exact not_ff hr), h2]

/-- The card after CMD55. -/
def apped (m : Make) (c : Card) : Card := { c with app := true, t := c.t + 1 }

/-- An application command. -/
theorem cmd_app {m : Make} {rd : Nat → Nat} (h : Sums m) (hq : Quick m rd) {s : Sd Card} (hw : Waits s.bus) {i arg : Nat} (hm : m.mute i = false) (hm' : m.mute 55 = false) (hi : i < 64) (h12 : i ≠ 12) (ha : arg < 2 ^ 32) {k r : Nat} {more : List Nat}
    (ho : (exec m (apped m s.bus) i arg).out = List.replicate k 0xFF ++ r :: more) (hk : k ≤ 8) (hr : r < 128) (hin : Open (exec m (apped m s.bus) i arg).inp) {C : Send Card} (hC : Answers (line m rd) C) :
    C s i arg true = some (checked (line m rd) i (put s { exec m (apped m s.bus) i arg with out := more } (s.waits + 2)) r) := by
  have h0 := cmd_spi (rd := rd) h (s := put s s.bus (s.waits + 1)) hw (i := 55) (arg := 0) hm' (by decide) (by decide) (by decide) (k := m.ncr s.bus.t) (r := idle s.bus) (more := []) rfl (hq.ncr _) (by show idle s.bus < 128; unfold idle; split <;> decide) (.inl rfl)
  have hw' : Waits (apped m s.bus) := ⟨hw.spi, hw.inp, hw.out, hw.next⟩
  have e0 : ({ exec m s.bus 55 0 with out := [] } : Card) = apped m s.bus := by
    show ({ s.bus with inp := .cmd [], app := true, next := none, out := [], t := s.bus.t + 1 } : Card) = { s.bus with app := true, t := s.bus.t + 1 }
    rw [← hw.inp, ← hw.next, ← hw.out]
  have h3 : announce (line m rd) (put s s.bus (s.waits + 1)) true = put s (apped m s.bus) (s.waits + 2) := by
    show (waitReady (line m rd) (cmdSpi (line m rd) (put s s.bus (s.waits + 1)) 55 0).1).1 = _
    rw [h0]
    show (waitReady (line m rd) (put s { exec m s.bus 55 0 with out := [] } (s.waits + 1))).1 = _
    rw [e0, wait_ready (k := 0) (s := put s (apped m s.bus) (s.waits + 1)) (fun _ => Nat.zero_le _) hw'.out hw'.next hw'.open]
    show put s { apped m s.bus with out := [] } (s.waits + 2) = _
    rw [← hw'.out]
  have h1 := cmd_spi (rd := rd) h (s := put s (apped m s.bus) (s.waits + 2)) hw' hm hi h12 ha ho hk hr hin
  have h2 : tries (line m rd) i arg true 3 (put s s.bus (s.waits + 1)) 0 = (put s { exec m (apped m s.bus) i arg with out := more } (s.waits + 2), r) := by
    show (if (cmdSpi (line m rd) (announce (line m rd) (put s s.bus (s.waits + 1)) true) i arg).2 = 0xFF then _ else cmdSpi (line m rd) (announce (line m rd) (put s s.bus (s.waits + 1)) true) i arg) = _
    rw [h3, h1, if_neg (not_ff hr)]
    rfl
  rw [← settled_spec (m := m) (rd := rd) hw h12] at h2
  rw [hC s i arg true (by rw [h2]; exact not_ff hr), h2]

/-- CMD12: the card stops sending, whatever it was sending. -/
theorem cmd_stop {m : Make} {rd : Nat → Nat} (h : Sums m) (hq : Quick m rd) (hm : m.mute 12 = false) {s : Sd Card} (hs : s.bus.spi = true) (hrd : s.bus.ready = true) (hi : s.bus.inp = .cmd []) (ha : s.bus.app = false) (j : Nat) :
    ∃ t, sdCmd (line m rd) (j + 1) s 12 0 false = some ⟨put s { s.bus with out := [], next := none, t := t } (s.waits + 1), 0, 0⟩ := by
  obtain ⟨p, h1, h2, h3, -⟩ := packet_spec h (i := 12) (arg := 0) (by decide) (by decide)
  obtain ⟨c', k1, k2, -⟩ := send_command (m := m) (rd := rd) hi (p := p) (b := 2 * m.c7 p + 1) h2 (by rw [h3])
  obtain ⟨o, n, t, rfl⟩ := k2
  rw [← h1, command_spec h (c := { s.bus with inp := .cmd p, out := o, next := n, t := t }) hs hm (by decide) (by decide)] at k1
  have e : exec m { s.bus with inp := .cmd p, out := o, next := n, t := t } 12 0 =
      { s.bus with out := m.junk t :: (List.replicate (m.ncr t) 0xFF ++ 0 :: List.replicate (m.busy t) 0), next := none, t := t + 1 } := by
    have : early m { s.bus with inp := .cmd p, out := o, next := n, t := t } 12 0 = none := rfl
    unfold exec
    rw [this, if_pos hrd]
    show ({ s.bus with inp := .cmd [], app := false, next := none, out := _, t := t + 1 } : Card) = _
    rw [← hi, ← ha]
    rfl
  rw [e] at k1
  have k4 := send_pop (m := m) (rd := rd) (s := put s { s.bus with out := m.junk t :: (List.replicate (m.ncr t) 0xFF ++ 0 :: List.replicate (m.busy t) 0), next := none, t := t + 1 } s.waits) rfl (.inl hi)
  have k5 := resp_loop (m := m) (rd := rd) (r := 0) (by decide) (m.ncr t) 16 (put s { s.bus with out := List.replicate (m.ncr t) 0xFF ++ 0 :: List.replicate (m.busy t) 0, next := none, t := t + 1 } s.waits) FILL (by have := hq.ncr t; omega) rfl (.inl hi)
  have k6 : cmdSpi (line m rd) s 12 0 = (put s { s.bus with out := List.replicate (m.busy t) 0, next := none, t := t + 1 } s.waits, 0) := by
    unfold cmdSpi
    rw [if_pos rfl, k1]
    show respLoop _ 16 (send _ _ 0xFF).1 _ = _
    rw [k4]
    exact k5
  have k7 := wait_ready (m := m) (rd := rd) (s := put s { s.bus with out := List.replicate (m.busy t) 0, next := none, t := t + 1 } s.waits) (k := m.busy t) (hq.busy t) rfl rfl (.inl hi)
  refine ⟨t + 1, ?_⟩
  have h2 : tries (line m rd) 12 0 false 3 s 0 = (put s { s.bus with out := List.replicate (m.busy t) 0, next := none, t := t + 1 } s.waits, 0) := by
    show (if (cmdSpi (line m rd) s 12 0).2 = 0xFF then _ else cmdSpi (line m rd) s 12 0) = _
    rw [k6, if_neg (show ¬ (0 = 0xFF) by decide)]
  show (if (tries (line m rd) 12 0 false 3 s 0).2 = 0xFF then _ else some (checked _ _ (tries (line m rd) 12 0 false 3 s 0).1 (tries (line m rd) 12 0 false 3 s 0).2)) = _
  rw [h2, if_neg (show ¬ (0 = 0xFF) by decide), checked_zero]
  have k8 : rest (line m rd) 12 (put s { s.bus with out := List.replicate (m.busy t) 0, next := none, t := t + 1 } s.waits) 0 = ⟨(waitReady (line m rd) (put s { s.bus with out := List.replicate (m.busy t) 0, next := none, t := t + 1 } s.waits)).1, 0, 0⟩ := rfl
  rw [k8, k7]
  rfl

/-! ## Blocks -/

theorem packed_bytes {m : Make} (h : Sums m) {d : List Nat} (hd : Bytes d) (t : Nat) : packed m d t = List.replicate (m.nac t) 0xFF ++ 0xFE :: (d ++ [crc16 d >>> 8, crc16 d % 256]) ∧ (crc16 d >>> 8) <<< 8 ||| crc16 d % 256 = crc16 d := by
  have h1 := sums16 h hd
  constructor
  · unfold packed
    rw [← h1, Nat.shiftRight_eq_div_pow]
    simp
  · rw [Nat.shiftRight_eq_div_pow, ← Nat.shiftLeft_add_eq_or_of_lt (by omega), Nat.shiftLeft_eq]
    omega

/-- A block of data that the card sends is received. -/
theorem read_bytes {m : Make} {rd : Nat → Nat} (h : Sums m) (hq : Quick m rd) {s : Sd Card} {d bs : List Nat} (hd : Bytes d) {t : Nat} (ho : s.bus.out = packed m d t ++ bs) (hi : Open s.bus.inp) :
    readBytes (line m rd) s d.length = (put s { s.bus with out := bs } (s.waits + 1), 0, d) := by
  obtain ⟨e1, e2⟩ := packed_bytes h hd t
  have h1 := wait_token (m := m) (rd := rd) (s := s) (k := m.nac t) (bs := d ++ ([crc16 d >>> 8, crc16 d % 256] ++ bs)) (hq.nac t) (by rw [ho, e1]; simp) hi
  have h2 := all_pop (m := m) (rd := rd) d (s := put s { s.bus with out := d ++ ([crc16 d >>> 8, crc16 d % 256] ++ bs) } (s.waits + 1)) (bs := [crc16 d >>> 8, crc16 d % 256] ++ bs) rfl hi
  have h3 := send_pop (m := m) (rd := rd) (s := put s { s.bus with out := [crc16 d >>> 8, crc16 d % 256] ++ bs } (s.waits + 1)) (b := crc16 d >>> 8) (bs := crc16 d % 256 :: bs) rfl hi
  have h4 := send_pop (m := m) (rd := rd) (s := put s { s.bus with out := crc16 d % 256 :: bs } (s.waits + 1)) (b := crc16 d % 256) (bs := bs) rfl hi
  unfold readBytes
  rw [h1]
  show (let d' := sendAll (line m rd) (put s { s.bus with out := d ++ ([crc16 d >>> 8, crc16 d % 256] ++ bs) } (s.waits + 1)) (List.replicate d.length 0xFF)
    let h := send (line m rd) d'.1 FILL
    let l := send (line m rd) h.1 FILL
    (l.1, (if crc16 d'.2 ≠ (h.2 <<< 8) ||| l.2 then CRC else 0), d'.2)) = _
  rw [h2]
  show (let h := send (line m rd) (put s { s.bus with out := [crc16 d >>> 8, crc16 d % 256] ++ bs } (s.waits + 1)) 0xFF
    let l := send (line m rd) h.1 0xFF
    (l.1, (if crc16 d ≠ (h.2 <<< 8) ||| l.2 then CRC else 0), d)) = _
  rw [h3]
  show (let l := send (line m rd) (put s { s.bus with out := crc16 d % 256 :: bs } (s.waits + 1)) 0xFF
    (l.1, (if crc16 d ≠ ((crc16 d >>> 8) <<< 8) ||| l.2 then CRC else 0), d)) = _
  rw [h4]
  show (_, (if crc16 d ≠ ((crc16 d >>> 8) <<< 8) ||| crc16 d % 256 then CRC else 0), d) = _
  rw [e2, if_neg (fun h => h rfl)]
  rfl

/-- The card begins with the next block of a series. -/
def filled (m : Make) (c : Card) (n : Nat) : Card := { c with out := packed m (c.mem n) c.t, next := some (n + 1), t := c.t + 1 }

theorem packed_ne (m : Make) (d : List Nat) (t : Nat) : ∃ b bs, packed m d t = b :: bs := by
  unfold packed
  cases m.nac t with
  | zero => exact ⟨_, _, rfl⟩
  | succ k => exact ⟨_, _, rfl⟩

theorem step_filled {m : Make} {c : Card} {n : Nat} (ho : c.out = []) (hn : c.next = some n) (hb : n < c.blocks) (b : Nat) : step m c b = step m (filled m c n) b := by
  obtain ⟨x, xs, e⟩ := packed_ne m (c.mem n) c.t
  have h1 : emit m c = emit m (filled m c n) := by
    unfold emit filled
    rw [ho, hn]
    simp only [e]
    rw [if_pos hb]
    rfl
  unfold step
  rw [h1]

theorem token_filled {m : Make} {rd : Nat → Nat} {s : Sd Card} {n : Nat} (ho : s.bus.out = []) (hn : s.bus.next = some n) (hb : n < s.bus.blocks) : waitToken (line m rd) s 0xFE = waitToken (line m rd) (put s (filled m s.bus n) s.waits) 0xFE := by
  unfold waitToken
  show tokenLoop _ 0xFE (rd s.waits) _ = tokenLoop _ 0xFE (rd s.waits) _
  have h1 : send (line m rd) { s with waits := s.waits + 1 } FILL = send (line m rd) { put s (filled m s.bus n) s.waits with waits := s.waits + 1 } FILL := by
    show (({ s with bus := (step m s.bus FILL).1, waits := s.waits + 1 } : Sd Card), (step m s.bus FILL).2) = _
    rw [step_filled ho hn hb]
    rfl
  cases rd s.waits with
  | zero => unfold tokenLoop; rw [h1]; rfl
  | succ k => unfold tokenLoop; rw [h1]; rfl

theorem read_filled {m : Make} {rd : Nat → Nat} {s : Sd Card} {n : Nat} (ho : s.bus.out = []) (hn : s.bus.next = some n) (hb : n < s.bus.blocks) (l : Nat) : readBytes (line m rd) s l = readBytes (line m rd) (put s (filled m s.bus n) s.waits) l := by
  unfold readBytes
  rw [token_filled ho hn hb]

/-- Blocks `n` to `n + k`. -/
def blocksOf (mem : Nat → List Nat) (n : Nat) : Nat → List Nat
  | 0 => []
  | k + 1 => mem n ++ blocksOf mem (n + 1) k

/-- A series of blocks: the first one is to be sent or being sent. -/
theorem read_series {m : Make} {rd : Nat → Nat} (h : Sums m) (hq : Quick m rd) : ∀ (k : Nat) {s : Sd Card} {n : Nat}, (∀ n < s.bus.blocks, (s.bus.mem n).length = 512 ∧ Bytes (s.bus.mem n)) → s.bus.inp = .cmd [] → s.bus.out = [] → (0 < k → s.bus.next = some n) → n + k ≤ s.bus.blocks →
    ∃ nx t w, readLoop (line m rd) k s = (put s { s.bus with out := [], next := nx, t := t } w, 0, blocksOf s.bus.mem n k)
  | 0, s, n, _, _, ho, _, _ => ⟨s.bus.next, s.bus.t, s.waits, by
      have h1 : ({ s.bus with out := [], next := s.bus.next, t := s.bus.t } : Card) = s.bus := by rw [← ho]
      rw [h1]; rfl⟩
  | k + 1, s, n, hm, hi, ho, hn, hb => by
    have h1 := read_bytes (rd := rd) h hq (s := put s (filled m s.bus n) s.waits) (d := s.bus.mem n) (bs := []) (t := s.bus.t) (hm n (by omega)).2 (by rw [List.append_nil]; rfl) (.inl hi)
    rw [(hm n (by omega)).1, ← read_filled ho (hn (by omega)) (by omega)] at h1
    obtain ⟨nx, t, w, h2⟩ := read_series h hq k (s := put s { filled m s.bus n with out := [] } (s.waits + 1)) (n := n + 1) hm hi rfl (fun _ => rfl) (by show n + 1 + k ≤ s.bus.blocks; omega)
    refine ⟨nx, t, w, ?_⟩
    show (if (readBytes (line m rd) s 512).2.1 ≠ 0 then _ else ((readLoop (line m rd) k (readBytes (line m rd) s 512).1).1, (readLoop (line m rd) k (readBytes (line m rd) s 512).1).2.1, (readBytes (line m rd) s 512).2.2 ++ (readLoop (line m rd) k (readBytes (line m rd) s 512).1).2.2)) = _
    rw [h1, if_neg (fun hx => hx rfl)]
    show ((readLoop (line m rd) k (put s { filled m s.bus n with out := [] } (s.waits + 1))).1, (readLoop (line m rd) k (put s { filled m s.bus n with out := [] } (s.waits + 1))).2.1, s.bus.mem n ++ (readLoop (line m rd) k (put s { filled m s.bus n with out := [] } (s.waits + 1))).2.2) = _
    rw [h2]
    rfl

end Fpm.Sd
