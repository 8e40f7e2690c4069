import Verif.Sd.Props
/-!
# C105, C106: cards that do not respond
-/
namespace Fpm.Sd
open Fpm.Crc Fpm.Crc.Spec Fpm.Sd.Spec

theorem resp_silent {m : Make} {rd : Nat → Nat} {s : Sd Card} (hf : Fresh s.bus) : ∀ n, respLoop (line m rd) n s 0xFF = (s, 0xFF)
  | 0 => rfl
  | n + 1 => by
    show (if (send (line m rd) s 0xFF).2 &&& 0x80 = 0 then _ else respLoop (line m rd) n (send (line m rd) s 0xFF).1 (send (line m rd) s 0xFF).2) = _
    rw [send_still hf.out hf.next (.inl hf.inp), if_neg (show ¬ (0xFF &&& 0x80 = 0) by decide)]
    exact resp_silent hf n

/-- The card does not care for this command. -/
def Silent (m : Make) (c : Card) (i : Nat) : Prop := c.spi = true ∧ m.mute i = true ∨ c.spi = false ∧ i ≠ 0

theorem silent_spi {m : Make} {rd : Nat → Nat} (h : Sums m) {s : Sd Card} (hf : Fresh s.bus) {i arg : Nat} (hi : i < 64) (h12 : i ≠ 12) (ha : arg < 2 ^ 32) (hs : Silent m s.bus i) : cmdSpi (line m rd) s i arg = (s, 0xFF) := by
  obtain ⟨p, h1, h2, h3, -⟩ := packet_spec h hi ha
  obtain ⟨c', k1, -, k3⟩ := send_command (m := m) (rd := rd) hf.inp (p := p) (b := 2 * m.c7 p + 1) h2 (by rw [h3]; omega)
  have k3 := k3 hf.out hf.next
  subst k3
  have e0 : ({ s.bus with inp := .cmd [], out := [] } : Card) = s.bus := by rw [← hf.inp, ← hf.out]
  have e1 : ({ s.bus with inp := .cmd [], out := [], next := none } : Card) = s.bus := by rw [← hf.inp, ← hf.out, ← hf.next]
  have e : command m { s.bus with inp := .cmd p } (p ++ [2 * m.c7 p + 1]) = s.bus := by
    obtain ⟨a, b, c1, d, e, rfl⟩ : ∃ a b c1 d e, p = [a, b, c1, d, e] := by
      match p, h2 with
      | [a, b, c1, d, e], _ => exact ⟨a, b, c1, d, e, rfl⟩
    have h3 : a = 64 + i := h3
    have h4 : a % 64 = i := by omega
    unfold command
    rcases hs with ⟨hs, hm⟩ | ⟨hs, hm⟩
    · rw [if_pos (show ({ s.bus with inp := .cmd [a, b, c1, d, e] } : Card).spi = true from hs), if_pos (show m.mute (([a, b, c1, d, e] ++ [2 * m.c7 [a, b, c1, d, e] + 1]).headD 0 % 64) = true by show m.mute (a % 64) = true; rw [h4]; exact hm)]
      exact e1
    · rw [if_neg (show ¬ s.bus.spi = true by rw [hs]; decide), if_neg (fun hx => hm (h4 ▸ hx.2.1))]
      exact e0
  rw [e, ← h1] at k1
  unfold cmdSpi
  rw [if_neg h12, k1]
  exact resp_silent (s := put s s.bus s.waits) hf 16

/-- Three attempts without success. -/
theorem silent_tries {m : Make} {rd : Nat → Nat} (h : Sums m) {s : Sd Card} (hf : Fresh s.bus) {i arg : Nat} (hi : i < 64) (h12 : i ≠ 12) (ha : arg < 2 ^ 32) (hs : Silent m s.bus i) {acmd : Bool} (h55 : acmd = true → Silent m s.bus 55) :
    ∃ w, tries (line m rd) i arg acmd 3 s 0 = (put s s.bus w, 0xFF) := by
  have step : ∀ (n r w : Nat), ∃ w', tries (line m rd) i arg acmd (n + 1) (put s s.bus w) r = tries (line m rd) i arg acmd n (put s s.bus w') 0xFF := by
    intro n r w
    have ha' : ∃ w', announce (line m rd) (put s s.bus w) acmd = put s s.bus w' := by
      cases acmd with
      | false => exact ⟨w, rfl⟩
      | true =>
        refine ⟨w + 1, ?_⟩
        show (waitReady (line m rd) (cmdSpi (line m rd) (put s s.bus w) 55 0).1).1 = _
        rw [silent_spi h (s := put s s.bus w) hf (by decide) (by decide) (by decide) (h55 rfl), wait_ready (k := 0) (s := put s s.bus w) (fun _ => Nat.zero_le _) hf.out hf.next (.inl hf.inp)]
        show put s { s.bus with out := [] } (w + 1) = _
        rw [← hf.out]
    obtain ⟨w', hw⟩ := ha'
    refine ⟨w', ?_⟩
    show (if (cmdSpi (line m rd) (announce (line m rd) (put s s.bus w) acmd) i arg).2 = 0xFF then tries (line m rd) i arg acmd n (cmdSpi (line m rd) (announce (line m rd) (put s s.bus w) acmd) i arg).1 (cmdSpi (line m rd) (announce (line m rd) (put s s.bus w) acmd) i arg).2 else _) = _
    rw [hw, silent_spi h (s := put s s.bus w') hf hi h12 ha hs, if_pos rfl]
  obtain ⟨w1, e1⟩ := step 2 0 s.waits
  obtain ⟨w2, e2⟩ := step 1 0xFF w1
  obtain ⟨w3, e3⟩ := step 0 0xFF w2
  exact ⟨w3, by rw [show s = put s s.bus s.waits from rfl, e1, e2, e3]; rfl⟩

/-- Without a response the card is initialised again, and then the command is repeated. -/
theorem silent_loop {m : Make} {rd : Nat → Nat} (h : Sums m) (hq : Quick m rd) (hm : ∀ i, i ≠ 17 → m.mute i = false) {s : Sd Card} (hr : Registers s.bus) (hf : Fresh s.bus) (hl : ∀ n, s.bus.left ≤ rd n)
    {i arg : Nat} (hi : i < 64) (h12 : i ≠ 12) (ha : arg < 2 ^ 32) (hs : Silent m s.bus i) {acmd : Bool} (h55 : acmd = true → Silent m s.bus 55) :
    ∃ c' w, At s.bus c' true true 0 ∧ 0 < w ∧ ∀ k, cmdLoop (line m rd) i arg acmd (k + 1) s = cmdLoop (line m rd) i arg acmd k { identified (put { s with nodisk := false, type := typeOf s.bus.kind, sectors := s.bus.blocks } c' w) s.bus.cid with noinit := false } := by
  obtain ⟨w0, h1⟩ := silent_tries (rd := rd) h hf hi h12 ha hs h55
  obtain ⟨c', w, h2, a, hw⟩ := init_nolock (rd := rd) h hq hm (plain_answers _) (s := { put s s.bus w0 with noinit := true, nodisk := false }) hr hf.inp hf.out hf.next hl
  refine ⟨c', w, a, hw, fun k => ?_⟩
  show (if (tries (line m rd) i arg acmd 3 s 0).2 = 0xFF then (initNolock (line m rd) (cmdPlain (line m rd)) { (tries (line m rd) i arg acmd 3 s 0).1 with noinit := true, nodisk := false }).bind (fun s' => if s'.noinit then some ⟨s', NO_DEVICE, (tries (line m rd) i arg acmd 3 s 0).2⟩ else cmdLoop (line m rd) i arg acmd k s') else _) = _
  rw [h1, if_pos rfl, h2, Option.bind_some]
  rfl

theorem at_registers {c c' : Card} {r k : Bool} {l : Nat} (a : At c c' r k l) (hr : Registers c) : Registers c' :=
  ⟨by rw [a.csd]; exact hr.csd, by rw [a.cid]; exact hr.cid, by rw [a.csd, a.blocks]; exact hr.capacity, by rw [a.blocks]; exact hr.some, by rw [a.blocks]; exact hr.width⟩

theorem at_sane {c c' : Card} {r k : Bool} {l : Nat} (a : At c c' r k l) (hs : Sane c) : Sane c' :=
  ⟨by rw [a.mem, a.blocks]; exact hs.mem, by rw [a.kind, a.blocks]; exact hs.addr⟩

/-! ## C105: no end -/

/-- Requests come to an end, whatever the card does. -/
def C105_full : Prop := ∀ (m : Make) (rd : Nat → Nat), Sums m → Quick m rd → ∀ s, Up s → ∀ sector, sector < s.bus.blocks → ∃ k, (readBlocks (line m rd) k s sector 1).isSome

/-- A card that responds to all commands but CMD17. -/
def defect : Make := { make with mute := fun i => decide (i = 17) }

theorem endless {m : Make} {rd : Nat → Nat} (h : Sums m) (hq : Quick m rd) (hm : ∀ i, i ≠ 17 → m.mute i = false) (h17 : m.mute 17 = true) {arg : Nat} (ha : arg < 2 ^ 32) :
    ∀ (k : Nat) (s : Sd Card), Registers s.bus → Rest s.bus → (∀ n, s.bus.left ≤ rd n) → cmdLoop (line m rd) 17 arg false k s = none
  | 0, _, _, _, _ => rfl
  | k + 1, s, hr, hu, hl => by
    obtain ⟨c', w, a, -, h1⟩ := silent_loop (rd := rd) h hq hm hr ⟨hu.inp, hu.out, hu.next⟩ hl (i := 17) (arg := arg) (by decide) (by decide) ha (.inl ⟨hu.spi, h17⟩) (acmd := false) (fun h => by cases h)
    rw [h1 k]
    exact endless h hq hm h17 ha k _ (at_registers a hr) ⟨a.spi, a.ready, a.crc, a.app, a.inp, a.out, a.next⟩ (fun n => by show c'.left ≤ rd n; rw [a.left]; exact Nat.zero_le _)

/-- The card of the examples, initialised. -/
def up4 : Sd Card := ⟨{ card4 with spi := true, ready := true, crc := true, left := 0 }, 0, false, false, V2HC, 7710720, [], [], 0⟩

theorem up4_registers : Registers up4.bus := by
  refine ⟨⟨rfl, ?_⟩, ⟨rfl, ?_⟩, ?_, by decide, by decide⟩
  · unfold Bytes up4 card4 csd4; decide
  · unfold Bytes up4 card4; decide
  · show Capacity csd4 7710720
    unfold Capacity; decide +kernel

theorem up4_up : Up up4 := by
  refine ⟨⟨fun n _ => ⟨List.length_replicate, fun b hb => ?_⟩, by decide⟩, ⟨rfl, rfl, rfl, rfl, rfl, rfl, rfl⟩, ⟨rfl, rfl, rfl, by decide⟩⟩
  rw [List.eq_of_mem_replicate hb]
  exact Nat.mod_lt _ (by decide)

/-- The driver reads from a card that does not respond to CMD17, and never stops. -/
theorem C105_endless (k : Nat) : readBlocks (line defect (fun _ => 10)) k up4 0 1 = none := by
  have hs : Sums defect := ⟨make_sums.c7, make_sums.c16⟩
  have hq : Quick defect (fun _ => 10) := ⟨make_quick.ncr, make_quick.nac, make_quick.busy⟩
  unfold readBlocks
  rw [first_byte up4_up]
  have h1 : sdCmd (line defect (fun _ => 10)) k up4 17 (address up4 0) false = none := by
    unfold sdCmd
    rw [settled_spec (s := up4) ⟨rfl, rfl, rfl, rfl⟩ (by decide)]
    exact endless hs hq (fun i hi => decide_eq_false hi) rfl (place_spec up4_up.sane up4_up.knows.type (n := 0) (by decide)).2 k _ up4_registers up4_up.rest (fun _ => Nat.zero_le _)
  unfold readIn
  rw [if_neg (show ¬ (0 + 1 > up4.sectors) by decide), if_neg (show ¬ ((up4.noinit || up4.nodisk) = true) by decide), if_neg (show ¬ (1 > 1) by decide), h1]
  rfl

theorem C105_violated : ¬ C105_full := by
  intro hf
  obtain ⟨k, hk⟩ := hf defect (fun _ => 10) ⟨make_sums.c7, make_sums.c16⟩ ⟨make_quick.ncr, make_quick.nac, make_quick.busy⟩ up4 up4_up 0 (by decide)
  rw [C105_endless k] at hk
  cases hk

/-- States in each of which a command got no response, and then the card has been initialised with success. -/
inductive Again {σ : Type} (L : Line σ) (cmd arg : Nat) (acmd : Bool) : Nat → Sd σ → Prop
  | zero (s : Sd σ) : Again L cmd arg acmd 0 s
  | succ (k : Nat) (s s' : Sd σ) (h1 : (tries L cmd arg acmd 3 s 0).2 = 0xFF) (h2 : initNolock L (cmdPlain L) { (tries L cmd arg acmd 3 s 0).1 with noinit := true, nodisk := false } = some s') (h3 : s'.noinit = false) (h4 : Again L cmd arg acmd k s') : Again L cmd arg acmd (k + 1) s

theorem plain_some {σ : Type} (L : Line σ) (s : Sd σ) (i arg : Nat) (acmd : Bool) : ∃ a, cmdPlain L s i arg acmd = some a := ⟨_, rfl⟩

theorem idle_some {σ : Type} (L : Line σ) : ∀ (n : Nat) (s : Sd σ) (r : Nat), ∃ q, idleLoop L (cmdPlain L) n s r = some q
  | 0, s, r => ⟨_, rfl⟩
  | n + 1, s, _ => by
    obtain ⟨a, ha⟩ := plain_some L s 0 0 false
    unfold idleLoop
    rw [ha, Option.bind_some]
    split
    · exact ⟨_, rfl⟩
    · exact idle_some L n _ _

theorem op_some {σ : Type} (L : Line σ) (arg : Nat) : ∀ (n : Nat) (s : Sd σ), ∃ a, opLoop (cmdPlain L) arg n s = some a
  | 0, s => plain_some L s 41 arg true
  | n + 1, s => by
    obtain ⟨a, ha⟩ := plain_some L s 41 arg true
    unfold opLoop
    rw [ha, Option.bind_some]
    split
    · exact op_some L arg n _
    · exact ⟨_, rfl⟩

theorem medium_some {σ : Type} (L : Line σ) (s : Sd σ) : ∃ q, initMedium L (cmdPlain L) s = some q := by
  obtain ⟨q, hq⟩ := idle_some L 4 (clocks L s) 0
  unfold initMedium
  rw [hq, Option.bind_some]
  split
  · exact ⟨_, rfl⟩
  obtain ⟨a, ha⟩ := plain_some L q.1 8 0x1AA false
  rw [ha, Option.bind_some]
  split
  · exact ⟨_, rfl⟩
  obtain ⟨b, hb⟩ := plain_some L (pattern a).sd 59 1 false
  obtain ⟨c, hc⟩ := plain_some L b.sd 58 0 false
  unfold voltage
  rw [hb, Option.bind_some, hc, Option.bind_some]
  split
  · exact ⟨_, rfl⟩
  split
  · exact ⟨_, rfl⟩
  unfold operate
  obtain ⟨d, hd⟩ := op_some L (if c.sd.type = V2 then 2 ^ 30 else 0) (L.rounds c.sd.waits) { c.sd with waits := c.sd.waits + 1 }
  rw [hd, Option.bind_some]
  split
  · exact ⟨_, rfl⟩
  unfold typed
  split
  · obtain ⟨e, he⟩ := plain_some L d.sd 58 0 false
    rw [he]
    exact ⟨_, rfl⟩
  · exact ⟨_, rfl⟩

/-- The second initialisation always comes to an end. -/
theorem init_some {σ : Type} (L : Line σ) (s : Sd σ) : ∃ s', initNolock L (cmdPlain L) s = some s' := by
  obtain ⟨q, hq⟩ := medium_some L { s with type := 0 }
  unfold initNolock
  rw [hq, Option.bind_some]
  split
  · exact ⟨_, rfl⟩
  have h1 : ∃ p, sectorsNolock L (cmdPlain L) q.1 = some p := by
    obtain ⟨a, ha⟩ := plain_some L q.1 9 0 false
    unfold sectorsNolock
    rw [ha, Option.bind_some]
    split
    · exact ⟨_, rfl⟩
    · exact ⟨_, rfl⟩
  obtain ⟨p, hp⟩ := h1
  rw [hp, Option.bind_some]
  split
  · exact ⟨_, rfl⟩
  have h2 : ∃ s', identify L (cmdPlain L) { p.1 with sectors := p.2 } = some s' := by
    unfold identify
    generalize ({ ({ p.1 with sectors := p.2 } : Sd σ) with oem := [0, 0, 0], product := [0, 0, 0, 0, 0, 0], serial := 0 } : Sd σ) = x
    obtain ⟨a, ha⟩ := plain_some L x 10 0 false
    rw [ha, Option.bind_some]
    split
    · exact ⟨_, rfl⟩
    · exact ⟨_, rfl⟩
  obtain ⟨s', hs⟩ := h2
  rw [hs, Option.bind_some]
  unfold blocklen
  obtain ⟨a, ha⟩ := plain_some L s' 16 512 false
  rw [ha]
  exact ⟨_, rfl⟩

/-- For any machine at the other end: a command that has not come to an end after `k` rounds has met a card that was
initialised with success `k` times and yet did not respond. -/
theorem C105_ends_partial {σ : Type} (L : Line σ) (cmd arg : Nat) (acmd : Bool) : ∀ (k : Nat) (s : Sd σ), cmdLoop L cmd arg acmd k s = none → Again L cmd arg acmd k s
  | 0, s, _ => .zero s
  | k + 1, s, h => by
    have h : (if (tries L cmd arg acmd 3 s 0).2 = 0xFF then (initNolock L (cmdPlain L) { (tries L cmd arg acmd 3 s 0).1 with noinit := true, nodisk := false }).bind (fun s' => if s'.noinit then some ⟨s', NO_DEVICE, (tries L cmd arg acmd 3 s 0).2⟩ else cmdLoop L cmd arg acmd k s') else some (checked L cmd (tries L cmd arg acmd 3 s 0).1 (tries L cmd arg acmd 3 s 0).2)) = none := h
    by_cases h1 : (tries L cmd arg acmd 3 s 0).2 = 0xFF
    · rw [if_pos h1] at h
      obtain ⟨s', h2⟩ := init_some L { (tries L cmd arg acmd 3 s 0).1 with noinit := true, nodisk := false }
      rw [h2, Option.bind_some] at h
      cases h3 : s'.noinit with
      | true => rw [h3, if_pos rfl] at h; cases h
      | false =>
        rw [h3, if_neg (by decide)] at h
        exact .succ k s s' h1 h2 h3 (C105_ends_partial L cmd arg acmd k s' h)
    · rw [if_neg h1] at h; cases h

/-! ## C106: the card has been out of its slot -/

/-- A card that has just got power; the driver does not know this yet. -/
structure Off (s : Sd Card) (rd : Nat → Nat) : Prop where
  sane : Sane s.bus
  registers : Registers s.bus
  fresh : Fresh s.bus
  spi : s.bus.spi = false
  left : ∀ n, s.bus.left ≤ rd n

/-- Driver and card between two requests, but the card has lost power. -/
structure Down (s : Sd Card) (rd : Nat → Nat) : Prop where
  sane : Sane s.bus
  registers : Registers s.bus
  fresh : Fresh s.bus
  spi : s.bus.spi = false
  left : ∀ n, s.bus.left ≤ rd n
  knows : Knows s

/-- The first command after the loss is executed as if nothing had happened. -/
theorem first_command {m : Make} {rd : Nat → Nat} (h : Sums m) (hq : Quick m rd) (hm : Able m) {s : Sd Card} (hd : Off s rd) {i arg : Nat} (hi : i < 64) (h0 : i ≠ 0) (h12 : i ≠ 12) (ha : arg < 2 ^ 32) (acmd : Bool) :
    ∃ s1, Up s1 ∧ s1.type = typeOf s.bus.kind ∧ s1.bus.mem = s.bus.mem ∧ Same s.bus s1.bus ∧ ∀ k, sdCmd (line m rd) (k + 1) s i arg acmd = sdCmd (line m rd) k s1 i arg acmd := by
  have hst : settled (line m rd) s i = put s s.bus (s.waits + 1) := by
    unfold settled
    rw [if_pos h12, wait_ready (k := 0) (fun _ => Nat.zero_le _) hd.fresh.out hd.fresh.next (.inl hd.fresh.inp)]
    show put s { s.bus with out := [] } (s.waits + 1) = _
    rw [← hd.fresh.out]
  obtain ⟨c', w, a, hw, h1⟩ := silent_loop (rd := rd) h hq (fun i _ => hm i) (s := put s s.bus (s.waits + 1)) hd.registers hd.fresh hd.left hi h12 ha (.inr ⟨hd.spi, h0⟩) (acmd := acmd) (fun _ => .inr ⟨hd.spi, by decide⟩)
  have a : At s.bus c' true true 0 := a
  obtain ⟨v, rfl⟩ : ∃ v, w = v + 1 := ⟨w - 1, by omega⟩
  refine ⟨{ identified (put { s with nodisk := false, type := typeOf s.bus.kind, sectors := s.bus.blocks } c' v) s.bus.cid with noinit := false },
    ⟨at_sane a hd.sane, ⟨a.spi, a.ready, a.crc, a.app, a.inp, a.out, a.next⟩, ⟨rfl, rfl, a.blocks.symm, ?_⟩⟩, rfl, a.mem, ⟨a.kind, a.blocks, a.csd, a.cid⟩, fun k => ?_⟩
  · show typeOf s.bus.kind = V2HC ↔ c'.kind = .hc
    rw [a.kind]
    cases s.bus.kind <;> decide
  · unfold sdCmd
    rw [hst, h1 k, settled_spec (s := { identified (put { s with nodisk := false, type := typeOf s.bus.kind, sectors := s.bus.blocks } c' v) s.bus.cid with noinit := false }) a.waits h12]
    rfl

theorem more_fuel {σ : Type} (L : Line σ) (cmd arg : Nat) (acmd : Bool) : ∀ (k : Nat) (s : Sd σ) (a : Ans σ), cmdLoop L cmd arg acmd k s = some a → cmdLoop L cmd arg acmd (k + 1) s = some a
  | 0, _, _, h => by cases h
  | k + 1, s, a, h => by
    have h : (if (tries L cmd arg acmd 3 s 0).2 = 0xFF then (initNolock L (cmdPlain L) { (tries L cmd arg acmd 3 s 0).1 with noinit := true, nodisk := false }).bind (fun s' => if s'.noinit then some ⟨s', NO_DEVICE, (tries L cmd arg acmd 3 s 0).2⟩ else cmdLoop L cmd arg acmd k s') else some (checked L cmd (tries L cmd arg acmd 3 s 0).1 (tries L cmd arg acmd 3 s 0).2)) = some a := h
    show (if (tries L cmd arg acmd 3 s 0).2 = 0xFF then (initNolock L (cmdPlain L) { (tries L cmd arg acmd 3 s 0).1 with noinit := true, nodisk := false }).bind (fun s' => if s'.noinit then some ⟨s', NO_DEVICE, (tries L cmd arg acmd 3 s 0).2⟩ else cmdLoop L cmd arg acmd (k + 1) s') else some (checked L cmd (tries L cmd arg acmd 3 s 0).1 (tries L cmd arg acmd 3 s 0).2)) = some a
    by_cases h1 : (tries L cmd arg acmd 3 s 0).2 = 0xFF
    · rw [if_pos h1] at h ⊢
      obtain ⟨s', h2⟩ := init_some L { (tries L cmd arg acmd 3 s 0).1 with noinit := true, nodisk := false }
      rw [h2, Option.bind_some] at h ⊢
      split at h
      · rename_i h3; rw [if_pos h3]; exact h
      · rename_i h3; rw [if_neg h3]; exact more_fuel L cmd arg acmd k s' a h
    · rw [if_neg h1] at h ⊢; exact h

/-- The first command, if it is executed at all by a card that responds. -/
theorem first_same {m : Make} {rd : Nat → Nat} {s s1 : Sd Card} {i arg : Nat} {acmd : Bool} (h1 : ∀ k, sdCmd (line m rd) (k + 1) s i arg acmd = sdCmd (line m rd) k s1 i arg acmd) {k : Nat} {a : Ans Card} (ha : sdCmd (line m rd) (k + 1) s1 i arg acmd = some a) :
    sdCmd (line m rd) (k + 2) s i arg acmd = sdCmd (line m rd) (k + 2) s1 i arg acmd := by
  rw [h1 (k + 1), ha]
  exact (more_fuel _ _ _ _ _ _ _ ha).symm

theorem down_byte {m : Make} {rd : Nat → Nat} {s : Sd Card} (hf : Fresh s.bus) : (send (line m rd) s FILL).1 = s := by
  show (send (line m rd) s 0xFF).1 = s
  rw [send_still hf.out hf.next (.inl hf.inp)]

theorem spot_up {s : Sd Card} (hu : Up s) (n : Nat) : spot s.bus n = address s n := by
  unfold spot address
  by_cases h : s.bus.kind = .hc
  · rw [if_pos h, if_pos (hu.knows.type.2 h)]
  · rw [if_neg h, if_neg (fun x => h (hu.knows.type.1 x))]

/-- A request when the driver does not know the card in the slot: it is about the block that has this address there. -/
theorem swapped {m : Make} {rd : Nat → Nat} (h : Sums m) (hq : Quick m rd) (hm : Able m) (k : Nat) (s : Sd Card) (hd : Off s rd) (hno : s.noinit = false) (hnd : s.nodisk = false) (q : Req) (hf : q.Fine) (hs : q.sector + q.count ≤ s.sectors) (n : Nat) (hn : n + q.count ≤ s.bus.blocks) (hspot : address s q.sector = spot s.bus n) :
    ∃ s', ask (line m rd) (k + 2) s q = some (s', (serve s.bus.blocks s.bus.mem (q.at n)).2) ∧ Up s' ∧ s'.bus.mem = (serve s.bus.blocks s.bus.mem (q.at n)).1 ∧ Same s.bus s'.bus := by
  have flags : (s.noinit || s.nodisk) = false := by rw [hno, hnd]; rfl
  cases q with
  | read sector count =>
    have hr : n + count ≤ s.bus.blocks := hn
    have hs : sector + count ≤ s.sectors := hs
    have hspot : address s sector = spot s.bus n := hspot
    have hf : 1 ≤ count := hf
    have ha : address s sector < 2 ^ 32 := Nat.mod_lt _ (by decide)
    obtain ⟨s1, u1, t1, m1, ⟨k1, b1, c1, d1⟩, h1⟩ := first_command (rd := rd) h hq hm hd (i := if count > 1 then 18 else 17) (arg := address s sector) (by split <;> decide) (by split <;> decide) (by split <;> decide) ha false
    have hadr : address s sector = address s1 n := by rw [hspot, ← spot_up u1]; unfold spot; rw [k1]
    have flags1 : (s1.noinit || s1.nodisk) = false := by rw [u1.knows.noinit, u1.knows.nodisk]; rfl
    obtain ⟨t, w, h2⟩ := read_in (rd := rd) h hq hm u1 hf (by rw [b1]; exact hr) k
    obtain ⟨t', w', h3⟩ := read_in (rd := rd) h hq hm u1 hf (by rw [b1]; exact hr) (k + 1)
    have e : readIn (line m rd) (k + 2) s sector count = readIn (line m rd) (k + 2) s1 n count := by
      unfold readIn at h2 ⊢
      rw [if_neg (show ¬ (n + count > s1.sectors) by rw [u1.knows.sectors, b1]; omega), flags1, if_neg (show ¬ (false = true) by decide), ← hadr] at h2
      rw [if_neg (show ¬ (sector + count > s.sectors) by omega), flags, if_neg (show ¬ (false = true) by decide), if_neg (show ¬ (n + count > s1.sectors) by rw [u1.knows.sectors, b1]; omega), flags1, if_neg (show ¬ (false = true) by decide), ← hadr]
      cases hx : sdCmd (line m rd) (k + 1) s1 (if count > 1 then 18 else 17) (address s sector) false with
      | none => rw [hx] at h2; cases h2
      | some a => rw [first_same h1 hx]
    refine ⟨put s1 { s1.bus with t := t', clk := s1.bus.clk + 8 } w', ?_, up_put u1 t' (s1.bus.clk + 8) w' u1.sane.mem, m1, k1, b1, c1, d1⟩
    show ((readIn (line m rd) (k + 2) (send (line m rd) s FILL).1 sector count).map fun q => (away (line m rd) q.1 [FILL], q.2.1, q.2.2)).map _ = some (_, if n + count ≤ s.bus.blocks then some (listed s.bus.mem n count) else none)
    rw [down_byte hd.fresh, e, h3, if_pos hr, blocks_listed, m1]
    rfl
  | write sector count data =>
    have hr : n + count ≤ s.bus.blocks := hn
    have hs : sector + count ≤ s.sectors := hs
    have hspot : address s sector = spot s.bus n := hspot
    obtain ⟨f1, f2, f3, f4⟩ := hf
    have ha : address s sector < 2 ^ 32 := Nat.mod_lt _ (by decide)
    have main : ∃ s1, Up s1 ∧ s1.bus.mem = s.bus.mem ∧ Same s.bus s1.bus ∧ writeIn (line m rd) (k + 2) s sector count data = writeIn (line m rd) (k + 2) s1 n count data := by
      by_cases hc : count = 1
      · obtain ⟨s1, u1, t1, m1, ⟨k1, b1, c1, d1⟩, h1⟩ := first_command (rd := rd) h hq hm hd (i := 24) (arg := address s sector) (by decide) (by decide) (by decide) ha false
        refine ⟨s1, u1, m1, ⟨k1, b1, c1, d1⟩, ?_⟩
        have hadr : address s sector = address s1 n := by rw [hspot, ← spot_up u1]; unfold spot; rw [k1]
        have flags1 : (s1.noinit || s1.nodisk) = false := by rw [u1.knows.noinit, u1.knows.nodisk]; rfl
        obtain ⟨t, w, clk, mem', h2, -⟩ := write_in (rd := rd) h hq hm u1 (buffer := data) f1 f2 (by rw [b1]; exact hr) (by omega) f4 k
        unfold writeIn at h2 ⊢
        rw [if_neg (show ¬ (n + count > s1.sectors) by rw [u1.knows.sectors, b1]; omega), flags1, if_neg (show ¬ (false = true) by decide), if_pos hc, ← hadr] at h2
        rw [if_neg (show ¬ (sector + count > s.sectors) by omega), flags, if_neg (show ¬ (false = true) by decide), if_pos hc, if_neg (show ¬ (n + count > s1.sectors) by rw [u1.knows.sectors, b1]; omega), flags1, if_neg (show ¬ (false = true) by decide), if_pos hc, ← hadr]
        cases hx : sdCmd (line m rd) (k + 1) s1 24 (address s sector) false with
        | none => rw [hx] at h2; cases h2
        | some a => rw [first_same h1 hx]
      · obtain ⟨s1, u1, t1, m1, ⟨k1, b1, c1, d1⟩, h1⟩ := first_command (rd := rd) h hq hm hd (i := 23) (arg := count) (by decide) (by decide) (by decide) f2 true
        refine ⟨s1, u1, m1, ⟨k1, b1, c1, d1⟩, ?_⟩
        have hadr : address s sector = address s1 n := by rw [hspot, ← spot_up u1]; unfold spot; rw [k1]
        have flags1 : (s1.noinit || s1.nodisk) = false := by rw [u1.knows.noinit, u1.knows.nodisk]; rfl
        obtain ⟨t, w, clk, mem', h2, -⟩ := write_in (rd := rd) h hq hm u1 (buffer := data) f1 f2 (by rw [b1]; exact hr) (by omega) f4 k
        unfold writeIn at h2 ⊢
        rw [if_neg (show ¬ (n + count > s1.sectors) by rw [u1.knows.sectors, b1]; omega), flags1, if_neg (show ¬ (false = true) by decide), if_neg hc, ← hadr] at h2
        rw [if_neg (show ¬ (sector + count > s.sectors) by omega), flags, if_neg (show ¬ (false = true) by decide), if_neg hc, if_neg (show ¬ (n + count > s1.sectors) by rw [u1.knows.sectors, b1]; omega), flags1, if_neg (show ¬ (false = true) by decide), if_neg hc, ← hadr]
        cases hx : sdCmd (line m rd) (k + 1) s1 23 count true with
        | none => rw [hx] at h2; cases h2
        | some a => rw [first_same h1 hx]
    obtain ⟨s1, u1, m1, ⟨k1, b1, c1, d1⟩, e⟩ := main
    obtain ⟨s2, h3, u2, m2, ⟨k2, b2, c2, d2⟩⟩ := C103_request h hq hm (k + 1) s1 u1 (.write n count data) ⟨f1, f2, f3, f4⟩
    rw [m1, b1] at h3 m2
    refine ⟨s2, ?_, u2, m2, k2.trans k1, b2.trans b1, c2.trans c1, d2.trans d1⟩
    refine Eq.trans ?_ h3
    show ((writeIn (line m rd) (k + 2) (send (line m rd) s FILL).1 sector count data).map fun q => (away (line m rd) q.1 [FILL], q.2)).map _ = ((writeIn (line m rd) (k + 2) (send (line m rd) s1 FILL).1 n count data).map fun q => (away (line m rd) q.1 [FILL], q.2)).map _
    rw [down_byte hd.fresh, first_byte u1, e]

/-- A request to a card that has lost power: the card is initialised again, and the request is served. -/
theorem C106_request {m : Make} {rd : Nat → Nat} (h : Sums m) (hq : Quick m rd) (hm : Able m) (k : Nat) (s : Sd Card) (hd : Down s rd) (q : Req) (hf : q.Fine) (hin : (serve s.bus.blocks s.bus.mem q).2 ≠ none) :
    ∃ s', ask (line m rd) (k + 2) s q = some (s', (serve s.bus.blocks s.bus.mem q).2) ∧ Up s' ∧ s'.bus.mem = (serve s.bus.blocks s.bus.mem q).1 ∧ Same s.bus s'.bus := by
  have hr : q.sector + q.count ≤ s.bus.blocks := by
    by_contra hx
    cases q with
    | read sector count => exact hin (if_neg hx)
    | write sector count data => exact hin (congrArg Prod.snd (show serve s.bus.blocks s.bus.mem (.write sector count data) = _ from if_neg hx))
  have e : q.at q.sector = q := by cases q <;> rfl
  have := swapped h hq hm k s ⟨hd.sane, hd.registers, hd.fresh, hd.spi, hd.left⟩ hd.knows.noinit hd.knows.nodisk q hf (by rw [hd.knows.sectors]; exact hr) q.sector hr (by
    unfold spot address
    by_cases hh : s.bus.kind = .hc
    · rw [if_pos hh, if_pos (hd.knows.type.2 hh)]
    · rw [if_neg hh, if_neg (fun x => hh (hd.knows.type.1 x))])
  rw [e] at this
  exact this

/-- The card is taken out and put in again; it is going to answer "idle" `l` times. -/
def cut (s : Sd Card) (l : Nat) : Sd Card := { s with bus := { s.bus with clk := 0, spi := false, ready := false, crc := false, app := false, left := l, inp := .cmd [], out := [], next := none } }

/-- Requests, before each of which the card may have lost power. -/
def asksCut (L : Line Card) (k : Nat) : Sd Card → List (Option Nat × Req) → Option (Sd Card × List (Option (List Nat)))
  | s, [] => some (s, [])
  | s, (l, q) :: qs => (ask L k (match l with | none => s | some l => cut s l) q).bind fun a => (asksCut L k a.1 qs).map fun b => (b.1, a.2 :: b.2)

theorem C106_requests {m : Make} {rd : Nat → Nat} (h : Sums m) (hq : Quick m rd) (hm : Able m) (k : Nat) : ∀ (qs : List (Option Nat × Req)) (s : Sd Card), Up s → Registers s.bus → (∀ q ∈ qs, q.2.Fine) → (∀ q ∈ qs, ∀ l, q.1 = some l → ∀ n, l ≤ rd n) → (∀ a ∈ (serves s.bus.blocks s.bus.mem (qs.map (·.2))).2, a ≠ none) →
    ∃ s', asksCut (line m rd) (k + 2) s qs = some (s', (serves s.bus.blocks s.bus.mem (qs.map (·.2))).2) ∧ Up s' ∧ s'.bus.mem = (serves s.bus.blocks s.bus.mem (qs.map (·.2))).1 ∧ Same s.bus s'.bus
  | [], s, hu, _, _, _, _ => ⟨s, rfl, hu, rfl, rfl, rfl, rfl, rfl⟩
  | (l, q) :: qs, s, hu, hr, hf, hl, hn => by
    have one : ∃ s1, ask (line m rd) (k + 2) (match l with | none => s | some l => cut s l) q = some (s1, (serve s.bus.blocks s.bus.mem q).2) ∧ Up s1 ∧ s1.bus.mem = (serve s.bus.blocks s.bus.mem q).1 ∧ Same s.bus s1.bus := by
      cases l with
      | none => exact C103_request h hq hm (k + 1) s hu q (hf (none, q) (by simp))
      | some l =>
        refine C106_request h hq hm k (cut s l) ⟨⟨hu.sane.mem, hu.sane.addr⟩, ⟨hr.csd, hr.cid, hr.capacity, hr.some, hr.width⟩, ⟨rfl, rfl, rfl⟩, rfl, hl (some l, q) (by simp) l rfl, ⟨hu.knows.noinit, hu.knows.nodisk, hu.knows.sectors, hu.knows.type⟩⟩ q (hf (some l, q) (by simp)) ?_
        exact hn _ (by simp [serves, cut])
    obtain ⟨s1, h1, u1, m1, k1, b1, c1, d1⟩ := one
    have hr1 : Registers s1.bus := ⟨by rw [c1]; exact hr.csd, by rw [d1]; exact hr.cid, by rw [c1, b1]; exact hr.capacity, by rw [b1]; exact hr.some, by rw [b1]; exact hr.width⟩
    obtain ⟨s2, h2, u2, m2, k2, b2, c2, d2⟩ := C106_requests h hq hm k qs s1 u1 hr1 (fun q hq => hf q (by simp [hq])) (fun q hq => hl q (by simp [hq])) (by
      rw [b1, m1]
      intro a ha
      exact hn a (by simp only [List.map_cons, serves]; exact List.mem_cons_of_mem _ ha))
    rw [b1, m1] at h2 m2
    refine ⟨s2, ?_, u2, m2, k2.trans k1, b2.trans b1, c2.trans c1, d2.trans d1⟩
    show (ask (line m rd) (k + 2) _ q).bind _ = _
    rw [h1, Option.bind_some, h2]
    rfl

example : Up up4 ∧ Registers up4.bus ∧ Down (cut up4 3) (fun _ => 10) :=
  ⟨up4_up, up4_registers, ⟨⟨up4_up.sane.mem, up4_up.sane.addr⟩, ⟨up4_registers.csd, up4_registers.cid, up4_registers.capacity, up4_registers.some, up4_registers.width⟩, ⟨rfl, rfl, rfl⟩, rfl, fun _ => (show 3 ≤ 10 by decide), ⟨rfl, rfl, rfl, up4_up.knows.type⟩⟩⟩

/-! ## C109: another card has been put into the slot -/

/-- The claim: if the card has been exchanged, a request is answered by the new card as an array of blocks, as far as its
blocks exist on both cards. -/
def C109_full : Prop := ∀ (m : Make) (rd : Nat → Nat), Sums m → Quick m rd → Able m → ∀ s, Off s rd → s.noinit = false → s.nodisk = false → ∀ q : Req, q.Fine → q.sector + q.count ≤ s.sectors → q.sector + q.count ≤ s.bus.blocks →
  ∃ k s', ask (line m rd) k s q = some (s', (serve s.bus.blocks s.bus.mem q).2) ∧ s'.bus.mem = (serve s.bus.blocks s.bus.mem q).1

/-- A card with byte addresses in place of one with block addresses: a request for blocks from 512 j on reads or writes
the blocks from j on, with success. -/
theorem C109_wrong {m : Make} {rd : Nat → Nat} (h : Sums m) (hq : Quick m rd) (hm : Able m) (k : Nat) (s : Sd Card) (hd : Off s rd) (hno : s.noinit = false) (hnd : s.nodisk = false) (ht : s.type = V2HC) (hk : s.bus.kind ≠ .hc) (q : Req) (hf : q.Fine) (j : Nat) (hj : q.sector = 512 * j) (hs : q.sector + q.count ≤ s.sectors) (hb : j + q.count ≤ s.bus.blocks) :
    ∃ s', ask (line m rd) (k + 2) s q = some (s', (serve s.bus.blocks s.bus.mem (q.at j)).2) ∧ s'.bus.mem = (serve s.bus.blocks s.bus.mem (q.at j)).1 := by
  obtain ⟨s', h1, -, h2, -⟩ := swapped h hq hm k s hd hno hnd q hf hs j hb (by
    unfold spot address
    rw [if_pos ht, if_neg hk, hj, Nat.mul_comm])
  exact ⟨s', h1, h2⟩

/-- The same addresses: the new card answers, whatever its capacity. -/
theorem C109_partial {m : Make} {rd : Nat → Nat} (h : Sums m) (hq : Quick m rd) (hm : Able m) (k : Nat) (s : Sd Card) (hd : Off s rd) (hno : s.noinit = false) (hnd : s.nodisk = false) (ht : s.type = V2HC ↔ s.bus.kind = .hc) (q : Req) (hf : q.Fine) (hs : q.sector + q.count ≤ s.sectors) (hb : q.sector + q.count ≤ s.bus.blocks) :
    ∃ s', ask (line m rd) (k + 2) s q = some (s', (serve s.bus.blocks s.bus.mem q).2) ∧ Up s' ∧ s'.bus.mem = (serve s.bus.blocks s.bus.mem q).1 := by
  obtain ⟨s', h1, h2, h3, -⟩ := swapped h hq hm k s hd hno hnd q hf hs q.sector hb (by
    unfold spot address
    by_cases hh : s.bus.kind = .hc
    · rw [if_pos hh, if_pos (ht.2 hh)]
    · rw [if_neg hh, if_neg (fun x => hh (ht.1 x))])
  have e : q.at q.sector = q := by cases q <;> rfl
  rw [e] at h1 h3
  exact ⟨s', h1, h2, h3⟩

/-- A card of 1 MB: C_SIZE 511, C_SIZE_MULT 0, READ_BL_LEN 9. -/
def csd1 : List Nat := [0, 0x0e, 0, 0x32, 0x5b, 0x59, 0, 0x7f, 0xc0, 0, 0, 0, 0, 0, 0, 0]

def card1 : Card := ⟨.v2, 2048, fun n => List.replicate 512 (n / 8), csd1, List.range 16, 0, false, false, false, false, 3, .cmd [], [], none, 0⟩

/-- The driver knows the card of 3.7 GB, and this one has been put in. -/
def other : Sd Card := { up4 with bus := card1 }

theorem other_off : Off other (fun _ => 10) := by
  refine ⟨⟨fun n hn => ⟨List.length_replicate, fun b hb => ?_⟩, by decide⟩, ⟨⟨rfl, ?_⟩, ⟨rfl, ?_⟩, ?_, by decide, by decide⟩, ⟨rfl, rfl, rfl⟩, rfl, fun _ => (show 3 ≤ 10 by decide)⟩
  · have hn : n < 2048 := hn
    rw [List.eq_of_mem_replicate hb]; omega
  · unfold Bytes other card1 csd1; decide
  · unfold Bytes other card1; decide
  · show Capacity csd1 2048
    unfold Capacity; decide +kernel

theorem read_fuel {σ : Type} (L : Line σ) (k : Nat) (s : Sd σ) (sector : Nat) {r : Sd σ × Nat × List Nat} (h : readBlocks L k s sector 1 = some r) : readBlocks L (k + 1) s sector 1 = some r := by
  unfold readBlocks readIn sdCmd at h ⊢
  split at h
  · rename_i h1; rw [if_pos h1]; exact h
  · rename_i h1
    rw [if_neg h1]
    split at h
    · rename_i h2; rw [if_pos h2]; exact h
    · rename_i h2
      rw [if_neg h2]
      cases hx : cmdLoop L (if 1 > 1 then 18 else 17) (address (send L s FILL).1 sector) false k (settled L (send L s FILL).1 (if 1 > 1 then 18 else 17)) with
      | none => rw [hx] at h; cases h
      | some a =>
        rw [hx] at h
        rw [more_fuel L _ _ _ k _ a hx]
        exact h

theorem read_fuels {σ : Type} (L : Line σ) (k : Nat) (s : Sd σ) (sector : Nat) {r : Sd σ × Nat × List Nat} (h : readBlocks L k s sector 1 = some r) : ∀ j, readBlocks L (k + j) s sector 1 = some r
  | 0 => h
  | j + 1 => read_fuel L (k + j) s sector (read_fuels L k s sector h j)

theorem C109_violated : ¬ C109_full := by
  intro hfull
  obtain ⟨k, s', h1, -⟩ := hfull make (fun _ => 10) make_sums make_quick (fun _ => rfl) other other_off rfl rfl (.read 512 1) (show 1 ≤ 1 by decide) (show 512 + 1 ≤ 7710720 by decide) (show 512 + 1 ≤ 2048 by decide)
  obtain ⟨s2, h2, -⟩ := C109_wrong make_sums make_quick (fun _ => rfl) k other other_off rfl rfl rfl (by decide) (.read 512 1) (show 1 ≤ 1 by decide) 1 rfl (show 512 + 1 ≤ 7710720 by decide) (show 1 + 1 ≤ 2048 by decide)
  have h1 : (readBlocks (line make (fun _ => 10)) k other 512 1).map (fun q => (q.1, if q.2.1 = 0 then some q.2.2 else none)) = some (s', some (listed other.bus.mem 512 1)) := h1
  have h2 : (readBlocks (line make (fun _ => 10)) (k + 2) other 512 1).map (fun q => (q.1, if q.2.1 = 0 then some q.2.2 else none)) = some (s2, some (listed other.bus.mem 1 1)) := h2
  cases hx : readBlocks (line make (fun _ => 10)) k other 512 1 with
  | none => rw [hx] at h1; cases h1
  | some r =>
    rw [read_fuels _ k other 512 hx 2] at h2
    rw [hx] at h1
    have e : some (listed other.bus.mem 512 1) = some (listed other.bus.mem 1 1) := (congrArg Prod.snd (Option.some.inj h1)).symm.trans (congrArg Prod.snd (Option.some.inj h2))
    have e := congrArg (fun l => l.headD 0) (Option.some.inj e)
    exact absurd e (by decide +kernel)

/-- A write there replaces block 1 instead of block 512. -/
theorem C109_lost : ∃ s', ask (line make (fun _ => 10)) 2 other (.write 512 1 (List.replicate 512 7)) = some (s', some []) ∧ s'.bus.mem 1 = List.replicate 512 7 ∧ s'.bus.mem 512 = other.bus.mem 512 := by
  obtain ⟨s', h1, h2⟩ := C109_wrong make_sums make_quick (fun _ => rfl) 0 other other_off rfl rfl rfl (by decide) (.write 512 1 (List.replicate 512 7)) ⟨by decide, by decide, List.length_replicate, fun b hb => by rw [List.eq_of_mem_replicate hb]; decide⟩ 1 rfl (show 512 + 1 ≤ 7710720 by decide) (show 1 + 1 ≤ 2048 by decide)
  refine ⟨s', h1, ?_, ?_⟩
  · rw [h2]
    show (if 1 ≤ 1 ∧ 1 < 1 + 1 then ((List.replicate 512 7).drop (512 * (1 - 1))).take 512 else other.bus.mem 1) = _
    rw [if_pos (by decide), List.drop_replicate, List.take_replicate, show min 512 (512 - 512 * (1 - 1)) = 512 by decide]
  · rw [h2]
    show (if 1 ≤ 512 ∧ 512 < 1 + 1 then ((List.replicate 512 7).drop (512 * (512 - 1))).take 512 else other.bus.mem 512) = _
    rw [if_neg (by decide)]

example : Off other (fun _ => 10) ∧ other.noinit = false ∧ other.nodisk = false ∧ other.type = V2HC ∧ other.bus.kind ≠ .hc := ⟨other_off, rfl, rfl, rfl, by decide⟩

end Fpm.Sd
