import Verif.Sd.LossProps
import Verif.Sd.DriveSpec
/-!
# C108: drive 1 is the first slot with a card, and an array of blocks
-/
namespace Fpm.Sd
open Fpm.Crc Fpm.Crc.Spec Fpm.Sd.Spec

/-! ## Slots without a card -/

section
variable {σ : Type} {L : Line σ}

theorem resp_vacant (hv : Vacant L) : ∀ (n : Nat) (s : Sd σ) (r : Nat), r ≠ 1 → (respLoop L n s r).2 ≠ 1 ∧ (respLoop L n s r).1.noinit = s.noinit
  | 0, _, _, h => ⟨h, rfl⟩
  | n + 1, s, r, _ => by
    unfold respLoop
    split
    · exact ⟨hv _ _, rfl⟩
    · exact resp_vacant hv n _ _ (hv _ _)

theorem sendAll_noinit : ∀ (l : List Nat) (s : Sd σ), (sendAll L s l).1.noinit = s.noinit
  | [], _ => rfl
  | b :: l, s => sendAll_noinit l (send L s b).1

theorem cmdSpi_vacant (hv : Vacant L) (s : Sd σ) (i arg : Nat) : (cmdSpi L s i arg).2 ≠ 1 ∧ (cmdSpi L s i arg).1.noinit = s.noinit := by
  obtain ⟨h1, h2⟩ := resp_vacant hv 16 (if i = 12 then (send L (sendAll L s (packet i arg)).1 FILL).1 else (sendAll L s (packet i arg)).1) FILL (by decide)
  refine ⟨h1, h2.trans ?_⟩
  split
  · exact sendAll_noinit _ s
  · exact sendAll_noinit _ s

theorem ready_noinit : ∀ (n : Nat) (s : Sd σ), (readyLoop L n s).1.noinit = s.noinit
  | 0, _ => rfl
  | n + 1, s => by
    unfold readyLoop
    split
    · exact ready_noinit n _
    · rfl

theorem wait_noinit (s : Sd σ) : (waitReady L s).1.noinit = s.noinit := ready_noinit _ _

theorem tries_vacant (hv : Vacant L) (i arg : Nat) : ∀ (n : Nat) (s : Sd σ) (r : Nat), r ≠ 1 → (tries L i arg false n s r).2 ≠ 1 ∧ (tries L i arg false n s r).1.noinit = s.noinit
  | 0, _, _, h => ⟨h, rfl⟩
  | n + 1, s, r, _ => by
    obtain ⟨h1, h2⟩ := cmdSpi_vacant hv s i arg
    unfold tries
    show (if (cmdSpi L s i arg).2 = 0xFF then tries L i arg false n (cmdSpi L s i arg).1 (cmdSpi L s i arg).2 else cmdSpi L s i arg).2 ≠ 1 ∧ (if (cmdSpi L s i arg).2 = 0xFF then tries L i arg false n (cmdSpi L s i arg).1 (cmdSpi L s i arg).2 else cmdSpi L s i arg).1.noinit = s.noinit
    split
    · obtain ⟨h3, h4⟩ := tries_vacant hv i arg n (cmdSpi L s i arg).1 (cmdSpi L s i arg).2 h1
      exact ⟨h3, h4.trans h2⟩
    · exact ⟨h1, h2⟩

theorem settled_noinit (s : Sd σ) (i : Nat) : (settled L s i).noinit = s.noinit := by
  unfold settled
  split
  · exact wait_noinit s
  · rfl

/-- The answer to CMD0. -/
theorem checked_zero_cmd (s : Sd σ) {r : Nat} (hr : r ≠ 1) : (checked L 0 s r).resp ≠ 1 ∧ (checked L 0 s r).sd.noinit = s.noinit := by
  unfold checked rest
  split
  · exact ⟨hr, rfl⟩
  split
  · exact ⟨hr, rfl⟩
  · rw [if_neg (by decide), if_neg (by decide), if_neg (by decide)]
    exact ⟨hr, rfl⟩

theorem plain_vacant (hv : Vacant L) (s : Sd σ) : ∃ a, cmdPlain L s 0 0 false = some a ∧ a.resp ≠ 1 ∧ a.sd.noinit = s.noinit := by
  obtain ⟨h1, h2⟩ := tries_vacant hv 0 0 3 (settled L s 0) 0 (by decide)
  refine ⟨_, rfl, ?_, ?_⟩
  · split
    · exact h1
    · exact (checked_zero_cmd _ h1).1
  · split
    · exact h2.trans (settled_noinit s 0)
    · exact (checked_zero_cmd _ h1).2.trans (h2.trans (settled_noinit s 0))

theorem idle_vacant {C : Send σ} (hC : ∀ s, ∃ a, C s 0 0 false = some a ∧ a.resp ≠ 1 ∧ (s.noinit = true → a.sd.noinit = true)) : ∀ (n : Nat) (s : Sd σ) (r : Nat), r ≠ 1 → ∃ q, idleLoop L C n s r = some q ∧ q.2 ≠ 1 ∧ (s.noinit = true → q.1.noinit = true)
  | 0, s, r, h => ⟨_, rfl, h, id⟩
  | n + 1, s, r, _ => by
    obtain ⟨a, h1, h2, h3⟩ := hC s
    obtain ⟨q, e1, e2, e3⟩ := idle_vacant hC n (pulse L a.sd) a.resp h2
    refine ⟨q, ?_, e2, fun h => e3 (h3 h)⟩
    unfold idleLoop
    rw [h1, Option.bind_some, if_neg h2]
    exact e1

theorem away_noinit : ∀ (l : List Nat) (s : Sd σ), (away L s l).noinit = s.noinit
  | [], _ => rfl
  | _ :: l, s => away_noinit l _

/-- The card is not initialised, as there is none. -/
theorem init_vacant (hv : Vacant L) (s : Sd σ) (hn : s.noinit = true) : ∃ s', initNolock L (cmdPlain L) s = some s' ∧ s'.noinit = true := by
  obtain ⟨q, h1, h2, h3⟩ := idle_vacant (L := L) (C := cmdPlain L) (fun s => by
    obtain ⟨a, e1, e2, e3⟩ := plain_vacant hv s
    exact ⟨a, e1, e2, fun h => e3.trans h⟩) 4 (clocks L { s with type := 0 }) 0 (by decide)
  refine ⟨q.1, ?_, h3 ((away_noinit _ _).trans hn)⟩
  unfold initNolock initMedium
  rw [h1, Option.bind_some, if_pos h2, Option.bind_some, if_pos (show NO_DEVICE ≠ 0 by decide)]

theorem cmd_vacant (hv : Vacant L) (k : Nat) (s : Sd σ) : ∃ a, sdCmd L (k + 1) s 0 0 false = some a ∧ a.resp ≠ 1 := by
  obtain ⟨h1, -⟩ := tries_vacant hv 0 0 3 (settled L s 0) 0 (by decide)
  unfold sdCmd cmdLoop
  dsimp only
  by_cases hx : (tries L 0 0 false 3 (settled L s 0) 0).2 = 0xFF
  · obtain ⟨s', e1, e2⟩ := init_vacant hv { (tries L 0 0 false 3 (settled L s 0) 0).1 with noinit := true, nodisk := false } rfl
    rw [if_pos hx, e1, Option.bind_some, if_pos e2]
    exact ⟨_, rfl, h1⟩
  · rw [if_neg hx]
    exact ⟨_, rfl, (checked_zero_cmd _ h1).1⟩

theorem idle_resp {C : Send σ} (hC : ∀ s, ∃ a, C s 0 0 false = some a ∧ a.resp ≠ 1) : ∀ (n : Nat) (s : Sd σ) (r : Nat), r ≠ 1 → ∃ q, idleLoop L C n s r = some q ∧ q.2 ≠ 1
  | 0, s, r, h => ⟨_, rfl, h⟩
  | n + 1, s, r, _ => by
    obtain ⟨a, h1, h2⟩ := hC s
    obtain ⟨q, e1, e2⟩ := idle_resp hC n (pulse L a.sd) a.resp h2
    refine ⟨q, ?_, e2⟩
    unfold idleLoop
    rw [h1, Option.bind_some, if_neg h2]
    exact e1

theorem probe_vacant (hv : Vacant L) (k : Nat) (s : Sd σ) : ∃ s', probe L (k + 1) s = some (s', false) := by
  obtain ⟨q, h1, h2⟩ := idle_resp (cmd_vacant hv k) 4 (clocks L (send L s FILL).1) 0 (by decide)
  refine ⟨away L q.1 [FILL], ?_⟩
  unfold probe
  rw [h1]
  show some (_, decide (q.2 = 1)) = _
  rw [decide_eq_false h2]

end

/-- An empty slot is not taken, and stays empty. -/
theorem attempt_empty (k : Nat) {s : Slot} (h : Empty s) : ∃ s', attempt (k + 1) s = some (s', false) ∧ Empty s' := by
  unfold attempt
  dsimp only
  by_cases hs : s.switch = some false
  · have e : detect { s with sd := { s.sd with noinit := true, nodisk := false } } = ({ s with sd := { s.sd with noinit := true, nodisk := true, type := 0 } }, false) := if_pos hs
    rw [e, if_neg (show ¬ false = true by decide)]
    exact ⟨_, rfl, .inl hs⟩
  · have e : detect { s with sd := { s.sd with noinit := true, nodisk := false } } = ({ s with sd := { s.sd with noinit := true, nodisk := false } }, true) := if_neg hs
    obtain ⟨s', h1⟩ := probe_vacant (h.resolve_left hs) k { s.sd with noinit := true, nodisk := false }
    rw [e, if_pos rfl, h1, Option.bind_some, if_neg (show ¬ false = true by decide)]
    exact ⟨_, rfl, .inr (h.resolve_left hs)⟩

theorem configure_empty (k : Nat) : ∀ (ss done : List Slot), (∀ s ∈ ss, Empty s) → (∀ s ∈ done, Empty s) → ∃ ss', configure (k + 1) done ss = some (.idle ss') ∧ ∀ s ∈ ss', Empty s
  | [], done, _, hd => ⟨done, rfl, hd⟩
  | s :: ss, done, h, hd => by
    obtain ⟨s', h1, h2⟩ := attempt_empty k (h s (by simp))
    unfold configure
    rw [h1, Option.bind_some, if_neg (show ¬ false = true by decide)]
    refine configure_empty k ss (done ++ [s']) (fun x hx => h x (by simp [hx])) (fun x hx => ?_)
    rcases List.mem_append.1 hx with hx | hx
    · exact hd x hx
    · rw [List.mem_singleton.1 hx]; exact h2

/-- Without a card in any slot the drive is not ready, however often it is asked. -/
theorem C108_absent (k : Nat) : ∀ (cs : List Call) (ss : List Slot), (∀ s ∈ ss, Empty s) → ∃ ss', calls (k + 1) (.idle ss) cs = some (.idle ss', cs.map nothing) ∧ ∀ s ∈ ss', Empty s
  | [], ss, h => ⟨ss, rfl, h⟩
  | c :: cs, ss, h => by
    have one : ∃ ss', call (k + 1) (.idle ss) c = some (.idle ss', nothing c) ∧ ∀ s ∈ ss', Empty s := by
      obtain ⟨ss', h1, h2⟩ := configure_empty k ss [] h (by simp)
      have h1 : ready (k + 1) (.idle ss) = some (.idle ss') := h1
      cases c with
      | size => exact ⟨ss, rfl, h⟩
      | erase => exact ⟨ss, rfl, h⟩
      | sync => exact ⟨ss, rfl, h⟩
      | other => exact ⟨ss, rfl, h⟩
      | _ => refine ⟨ss', ?_, h2⟩; unfold call; rw [h1]; rfl
    obtain ⟨ss1, h1, h2⟩ := one
    obtain ⟨ss2, h3, h4⟩ := C108_absent k cs ss1 h2
    refine ⟨ss2, ?_, h4⟩
    unfold calls
    rw [h1, Option.bind_some, h3]
    rfl

/-! ## A slot with a card -/

/-- What holds between two calls. -/
structure Good (rd : Nat → Nat) (s : Sd Card) : Prop where
  up : Up s
  registers : Registers s.bus
  left : ∀ n, s.bus.left ≤ rd n

theorem same_registers {c c' : Card} (h : Same c c') (hr : Registers c) : Registers c' := by
  obtain ⟨k1, b1, c1, d1⟩ := h
  exact ⟨by rw [c1]; exact hr.csd, by rw [d1]; exact hr.cid, by rw [c1, b1]; exact hr.capacity, by rw [b1]; exact hr.some, by rw [b1]; exact hr.width⟩

/-- The quick check finds a card, and leaves it ready for initialisation. -/
theorem probe_card {m : Make} {rd : Nat → Nat} (h : Sums m) (hq : Quick m rd) (hm : Able m) (k : Nat) (s : Sd Card) (hf : Fresh s.bus) : ∃ c' w, probe (line m rd) (k + 1) s = some (put s c' w, true) ∧ At s.bus c' false false s.bus.left := by
  have h0 : clocks (line m rd) s = put s { s.bus with clk := s.bus.clk + 8 * (10 * (rd s.waits + 1)) } (s.waits + 1) := clocks_away m rd (10 * (rd s.waits + 1)) { s with waits := s.waits + 1 }
  obtain ⟨c1, h1, a1⟩ := cmd_zero (rd := rd) h hq (fun i _ => hm i) (sd_answers _ k) (s := put s { s.bus with clk := s.bus.clk + 8 * (10 * (rd s.waits + 1)) } (s.waits + 1)) hf.inp hf.out hf.next (.inr (by show 74 ≤ s.bus.clk + 8 * (10 * (rd s.waits + 1)); omega))
  refine ⟨{ c1 with clk := c1.clk + 8 }, s.waits + 2, ?_, ⟨a1.kind, a1.blocks, a1.mem, a1.csd, a1.cid, a1.spi, a1.ready, a1.crc, a1.app, a1.left, a1.inp, a1.out, a1.next⟩⟩
  unfold probe
  rw [down_byte hf, h0]
  show ((sdCmd (line m rd) (k + 1) _ 0 0 false).bind _).map _ = _
  rw [h1]
  rfl

/-- A slot with a card, at its first use or later. -/
structure Inserted (rd : Nat → Nat) (s : Sd Card) : Prop where
  sane : Sane s.bus
  registers : Registers s.bus
  fresh : Fresh s.bus
  left : ∀ n, s.bus.left ≤ rd n

theorem init_good {m : Make} {rd : Nat → Nat} (h : Sums m) (hq : Quick m rd) (hm : Able m) (k : Nat) {s : Sd Card} (hi : Inserted rd s) (hn : s.noinit = true) {sw : Option Bool} (hsw : sw ≠ some false) :
    ∃ s', slotInit (k + 1) ⟨Card, line m rd, s, sw⟩ = some ⟨Card, line m rd, s', sw⟩ ∧ Good rd s' ∧ s'.bus.mem = s.bus.mem ∧ Same s.bus s'.bus ∧
      s'.oem = [s.bus.cid.getD 1 0, s.bus.cid.getD 2 0, 0] ∧ s'.product = [s.bus.cid.getD 3 0, s.bus.cid.getD 4 0, s.bus.cid.getD 5 0, s.bus.cid.getD 6 0, s.bus.cid.getD 7 0, 0] ∧ s'.serial = number ((s.bus.cid.drop 9).take 4) := by
  obtain ⟨s', h1, u1, m1, e1, i1, i2, i3, l1⟩ := init_left h hq hm k s hi.sane hi.registers hi.fresh hi.left hn
  refine ⟨s', ?_, ⟨u1, same_registers e1 hi.registers, fun n => by rw [l1]; exact Nat.zero_le _⟩, m1, e1, i1, i2, i3⟩
  unfold slotInit
  rw [show detect ⟨Card, line m rd, s, sw⟩ = (⟨Card, line m rd, { s with nodisk := false }, sw⟩, true) from if_neg hsw, if_pos rfl]
  show (sdInit (line m rd) (k + 1) s).map _ = _
  rw [h1]
  rfl

/-- A slot with a card is taken. -/
theorem attempt_card {m : Make} {rd : Nat → Nat} (h : Sums m) (hq : Quick m rd) (hm : Able m) (k : Nat) {s : Sd Card} (hi : Inserted rd s) {sw : Option Bool} (hsw : sw ≠ some false) :
    ∃ s', attempt (k + 1) ⟨Card, line m rd, s, sw⟩ = some (⟨Card, line m rd, s', sw⟩, true) ∧ Good rd s' ∧ s'.bus.mem = s.bus.mem ∧ Same s.bus s'.bus := by
  obtain ⟨c1, w1, p1, a1⟩ := probe_card (rd := rd) h hq hm k { s with noinit := true, nodisk := false } hi.fresh
  have a1 : At s.bus c1 false false s.bus.left := a1
  obtain ⟨s', h1, g1, m1, e1, -⟩ := init_good h hq hm k (s := { put s c1 w1 with noinit := true, nodisk := true, type := 0 }) (sw := sw) ⟨at_sane a1 hi.sane, at_registers a1 hi.registers, ⟨a1.inp, a1.out, a1.next⟩, fun n => by rw [show ({ put s c1 w1 with noinit := true, nodisk := true, type := 0 } : Sd Card).bus.left = s.bus.left from a1.left]; exact hi.left n⟩ rfl hsw
  refine ⟨s', ?_, g1, m1.trans a1.mem, e1.1.trans a1.kind, e1.2.1.trans a1.blocks, e1.2.2.1.trans a1.csd, e1.2.2.2.trans a1.cid⟩
  unfold attempt
  dsimp only
  rw [show (detect ⟨Card, line m rd, { s with noinit := true, nodisk := false }, sw⟩).2 = true from congrArg Prod.snd (if_neg hsw), if_pos rfl, p1, Option.bind_some, if_pos rfl]
  show (slotInit (k + 1) ⟨Card, line m rd, { put s c1 w1 with noinit := true, nodisk := true, type := 0 }, sw⟩).map _ = _
  rw [h1]
  show some (_, !(s'.noinit || s'.nodisk)) = _
  rw [g1.up.knows.noinit, g1.up.knows.nodisk]
  rfl

/-- The first slot with a card is found. -/
theorem configure_card {m : Make} {rd : Nat → Nat} (h : Sums m) (hq : Quick m rd) (hm : Able m) (k : Nat) {s : Sd Card} (hi : Inserted rd s) {sw : Option Bool} (hsw : sw ≠ some false) (after : List Slot) : ∀ (before done : List Slot), (∀ x ∈ before, Empty x) →
    ∃ before' s', configure (k + 1) done (before ++ ⟨Card, line m rd, s, sw⟩ :: after) = some (.found before' ⟨Card, line m rd, s', sw⟩ after) ∧ before'.length = done.length + before.length ∧ Good rd s' ∧ s'.bus.mem = s.bus.mem ∧ Same s.bus s'.bus
  | [], done, _ => by
    obtain ⟨s', h1, h2⟩ := attempt_card h hq hm k hi hsw
    refine ⟨done, s', ?_, rfl, h2⟩
    show (attempt (k + 1) ⟨Card, line m rd, s, sw⟩).bind _ = _
    rw [h1]
    rfl
  | x :: before, done, hb => by
    obtain ⟨x', h1, -⟩ := attempt_empty k (hb x (by simp))
    obtain ⟨b', s', h2, h3, h4⟩ := configure_card h hq hm k hi hsw after before (done ++ [x']) (fun y hy => hb y (by simp [hy]))
    refine ⟨b', s', ?_, ?_, h4⟩
    · show (attempt (k + 1) x).bind _ = _
      rw [h1, Option.bind_some, if_neg (show ¬ false = true by decide)]
      exact h2
    · rw [h3]; simp; omega

theorem getD_title {cid : List Nat} (hl : cid.length = 16) : title cid = [cid.getD 1 0, cid.getD 2 0, 32, cid.getD 3 0, cid.getD 4 0, cid.getD 5 0, cid.getD 6 0, cid.getD 7 0, 0] := by
  match cid, hl with
  | [_, _, _, _, _, _, _, _, _, _, _, _, _, _, _, _], _ => rfl

theorem good_up {rd : Nat → Nat} {s s' : Sd Card} (hg : Good rd s) (hu : Up s') (he : Same s.bus s'.bus) (hl : s'.bus.left = s.bus.left) : Good rd s' :=
  ⟨hu, same_registers he hg.registers, fun n => by rw [hl]; exact hg.left n⟩

/-- A call, with a card that has been found. -/
theorem slot_call {m : Make} {rd : Nat → Nat} (h : Sums m) (hq : Quick m rd) (hm : Able m) (k : Nat) {s : Sd Card} (hg : Good rd s) {sw : Option Bool} (hsw : sw ≠ some false) (c : Call) (hf : Fine c) (hc : c ≠ .size ∧ c ≠ .erase ∧ c ≠ .sync ∧ c ≠ .other) :
    ∃ s', slotCall (k + 1) ⟨Card, line m rd, s, sw⟩ c = some (⟨Card, line m rd, s', sw⟩, (answer s.bus.blocks s.bus.cid s.bus.mem c).2) ∧ Good rd s' ∧ s'.bus.mem = (answer s.bus.blocks s.bus.cid s.bus.mem c).1 ∧ Same s.bus s'.bus := by
  have hno := hg.up.knows.noinit
  have hnd := hg.up.knows.nodisk
  have hs0 : ({ s with nodisk := false } : Sd Card) = s := by rw [← hnd]
  have hdt : detect ⟨Card, line m rd, s, sw⟩ = (⟨Card, line m rd, s, sw⟩, true) := by
    refine (if_neg hsw).trans ?_
    show ((⟨Card, line m rd, { s with nodisk := false }, sw⟩ : Slot), true) = _
    rw [hs0]
  have hfl : flags s = 0 := by unfold flags; rw [hno, hnd]; rfl
  cases c with
  | size => exact absurd rfl hc.1
  | erase => exact absurd rfl hc.2.1
  | sync => exact absurd rfl hc.2.2.1
  | other => exact absurd rfl hc.2.2.2
  | status =>
    refine ⟨s, ?_, hg, rfl, rfl, rfl, rfl, rfl⟩
    show some ((detect ⟨Card, line m rd, s, sw⟩).1, Ret.media (flags (detect ⟨Card, line m rd, s, sw⟩).1.sd)) = _
    rw [hdt]
    show some (_, Ret.media (flags s)) = _
    rw [hfl]
    rfl
  | «initialize» =>
    refine ⟨s, ?_, hg, rfl, rfl, rfl, rfl, rfl⟩
    have e : slotInit (k + 1) ⟨Card, line m rd, s, sw⟩ = some ⟨Card, line m rd, s, sw⟩ := by
      unfold slotInit
      rw [hdt, if_pos rfl]
      show (sdInit (line m rd) (k + 1) s).map _ = _
      unfold sdInit
      rw [hs0, if_neg (by rw [hno]; decide)]
      rfl
    show (slotInit (k + 1) ⟨Card, line m rd, s, sw⟩).map _ = _
    rw [e]
    show some (_, Ret.media (flags s)) = _
    rw [hfl]
    rfl
  | read sector count =>
    obtain ⟨s', h1, u1, m1, e1, l1⟩ := request_left h hq hm k s hg.up (.read sector count) hf
    refine ⟨s', ?_, good_up hg u1 e1 l1, m1, e1⟩
    have h1 : (readBlocks (line m rd) (k + 1) s sector count).map (fun q => (q.1, if q.2.1 = 0 then some q.2.2 else none)) = some (s', if sector + count ≤ s.bus.blocks then some (listed s.bus.mem sector count) else none) := h1
    show (readBlocks (line m rd) (k + 1) s sector count).map _ = some (_, if sector + count ≤ s.bus.blocks then Ret.ok (listed s.bus.mem sector count) else .err 4)
    by_cases hr : sector + count ≤ s.bus.blocks
    · rw [if_pos hr] at h1 ⊢
      cases hb : readBlocks (line m rd) (k + 1) s sector count with
      | none => rw [hb] at h1; cases h1
      | some q =>
        rw [hb] at h1
        have h1 := Option.some.inj h1
        have e1 : q.1 = s' := congrArg Prod.fst h1
        have e2 : (if q.2.1 = 0 then some q.2.2 else none) = some (listed s.bus.mem sector count) := congrArg Prod.snd h1
        by_cases hz : q.2.1 = 0
        · rw [if_pos hz] at e2
          show some ((⟨Card, line m rd, q.1, sw⟩ : Slot), given q.2.1 q.2.2) = _
          rw [e1, hz, Option.some.inj e2]
          rfl
        · rw [if_neg hz] at e2; cases e2
    · have hb : ∃ x, readBlocks (line m rd) (k + 1) s sector count = some (x, PARAMETER, []) := by
        refine ⟨away (line m rd) s [FILL], ?_⟩
        unfold readBlocks
        rw [first_byte hg.up]
        unfold readIn
        rw [if_pos (by rw [hg.up.knows.sectors]; omega)]
        rfl
      obtain ⟨x, hb⟩ := hb
      rw [if_neg hr] at h1 ⊢
      rw [hb] at h1 ⊢
      have e1 : x = s' := congrArg Prod.fst (Option.some.inj h1)
      rw [e1]
      rfl
  | write sector count data =>
    obtain ⟨s', h1, u1, m1, e1, l1⟩ := request_left h hq hm k s hg.up (.write sector count data) hf
    have hans : (serve s.bus.blocks s.bus.mem (.write sector count data)).1 = (answer s.bus.blocks s.bus.cid s.bus.mem (.write sector count data)).1 := by
      by_cases hr : sector + count ≤ s.bus.blocks
      · simp only [serve, answer, if_pos hr]
      · simp only [serve, answer, if_neg hr]
    refine ⟨s', ?_, good_up hg u1 e1 l1, m1.trans hans, e1⟩
    by_cases hr : sector + count ≤ s.bus.blocks
    · have ha : (answer s.bus.blocks s.bus.cid s.bus.mem (.write sector count data)).2 = .ok [] := congrArg Prod.snd (if_pos hr)
      have hv : (serve s.bus.blocks s.bus.mem (.write sector count data)).2 = some [] := congrArg Prod.snd (if_pos hr)
      rw [hv] at h1
      rw [ha]
      have h1 : (writeBlocks (line m rd) (k + 1) s sector count data).map (fun q => (q.1, if q.2 = 0 then some [] else none)) = some (s', some []) := h1
      show (writeBlocks (line m rd) (k + 1) s sector count data).map _ = _
      cases hb : writeBlocks (line m rd) (k + 1) s sector count data with
      | none => rw [hb] at h1; cases h1
      | some q =>
        rw [hb] at h1
        have h1 := Option.some.inj h1
        have e1 : q.1 = s' := congrArg Prod.fst h1
        have e2 : (if q.2 = 0 then some ([] : List Nat) else none) = some [] := congrArg Prod.snd h1
        by_cases hz : q.2 = 0
        · show some ((⟨Card, line m rd, q.1, sw⟩ : Slot), given q.2 []) = _
          rw [e1, hz]
          rfl
        · rw [if_neg hz] at e2; cases e2
    · have ha : (answer s.bus.blocks s.bus.cid s.bus.mem (.write sector count data)).2 = .err 4 := congrArg Prod.snd (if_neg hr)
      rw [ha]
      have hb : ∃ x, writeBlocks (line m rd) (k + 1) s sector count data = some (x, PARAMETER) := by
        refine ⟨away (line m rd) s [FILL], ?_⟩
        unfold writeBlocks
        rw [first_byte hg.up]
        unfold writeIn
        rw [if_pos (by rw [hg.up.knows.sectors]; omega)]
        rfl
      obtain ⟨x, hb⟩ := hb
      have h1 : (writeBlocks (line m rd) (k + 1) s sector count data).map (fun q => (q.1, if q.2 = 0 then some [] else none)) = some (s', (serve s.bus.blocks s.bus.mem (.write sector count data)).2) := h1
      show (writeBlocks (line m rd) (k + 1) s sector count data).map _ = _
      rw [hb] at h1 ⊢
      have e1 : x = s' := congrArg Prod.fst (Option.some.inj h1)
      rw [e1]
      rfl
  | sectors =>
    have ha : At s.bus s.bus true true s.bus.left := ⟨rfl, rfl, rfl, rfl, rfl, hg.up.rest.spi, hg.up.rest.ready, hg.up.rest.crc, hg.up.rest.app, rfl, hg.up.rest.inp, hg.up.rest.out, hg.up.rest.next⟩
    have hr := hg.registers
    obtain ⟨a, c2, h2, s2, r2, a2⟩ := register_spec (rd := rd) h hq (fun i _ => hm i) (sd_answers _ k) (s := s) ha (i := 9) (d := s.bus.csd) (.inl ⟨rfl, rfl⟩) hr.csd.2 hr.csd.1
    have k2 : sectorsNolock (line m rd) (sdCmd (line m rd) (k + 1)) s = some (put s c2 (s.waits + 2), s.bus.blocks) := by
      unfold sectorsNolock
      rw [h2]
      show (if a.status ≠ 0 then _ else some ((readBytes (line m rd) a.sd 16).1, (if (readBytes (line m rd) a.sd 16).2.1 ≠ 0 then 0 else csdBlocks (readBytes (line m rd) a.sd 16).2.2))) = _
      rw [s2, if_neg (fun hx => hx rfl), r2, if_neg (fun hx => hx rfl)]
      show some (_, csdBlocks s.bus.csd) = _
      rw [csd_blocks hr.csd.2 hr.csd.1 hr.capacity hr.width]
    have e : Same s.bus { c2 with clk := c2.clk + 8 } := ⟨a2.kind, a2.blocks, a2.csd, a2.cid⟩
    refine ⟨put s { c2 with clk := c2.clk + 8 } (s.waits + 2), ?_, ⟨⟨?_, ⟨a2.spi, a2.ready, a2.crc, a2.app, a2.inp, a2.out, a2.next⟩, ⟨hno, hnd, hg.up.knows.sectors.trans a2.blocks.symm, ?_⟩⟩, same_registers e hr, fun n => ?_⟩, a2.mem, e⟩
    · show slotSectors (k + 1) ⟨Card, line m rd, s, sw⟩ = _
      unfold slotSectors
      show (sectorsNolock (line m rd) (sdCmd (line m rd) (k + 1)) (send (line m rd) s FILL).1).map _ = _
      rw [first_byte hg.up, k2]
      show some ((⟨Card, line m rd, put s { c2 with clk := c2.clk + 8 } (s.waits + 2), sw⟩ : Slot), if s.bus.blocks % 2 ^ 32 = 0 then Ret.err 1 else .ok [s.bus.blocks % 2 ^ 32]) = _
      rw [Nat.mod_eq_of_lt hr.width, if_neg (Nat.ne_of_gt hr.some)]
      rfl
    · have := at_sane a2 hg.up.sane
      exact ⟨this.mem, this.addr⟩
    · show s.type = V2HC ↔ c2.kind = .hc
      rw [a2.kind]
      exact hg.up.knows.type
    · show c2.left ≤ rd n
      rw [a2.left]
      exact hg.left n
  | identify =>
    obtain ⟨s', h1, g1, m1, e1, i1, i2, i3⟩ := init_good h hq hm k (s := { s with nodisk := true, noinit := true, type := 0 }) (sw := sw) ⟨hg.up.sane, hg.registers, ⟨hg.up.rest.inp, hg.up.rest.out, hg.up.rest.next⟩, hg.left⟩ rfl hsw
    refine ⟨s', ?_, g1, m1, e1⟩
    show slotIdentify (k + 1) ⟨Card, line m rd, s, sw⟩ = _
    unfold slotIdentify
    rw [hdt, if_pos rfl]
    show (slotInit (k + 1) ⟨Card, line m rd, { s with nodisk := true, noinit := true, type := 0 }, sw⟩).map _ = _
    rw [h1]
    show some ((⟨Card, line m rd, s', sw⟩ : Slot), if s'.noinit || s'.nodisk then Ret.err 3 else .info (s'.sectors * 512) s'.serial (named s')) = some (_, Ret.info (s.bus.blocks * 512) (number ((s.bus.cid.drop 9).take 4)) (title s.bus.cid))
    rw [g1.up.knows.noinit, g1.up.knows.nodisk, if_neg (by decide), g1.up.knows.sectors, e1.2.1, i3, getD_title hg.registers.cid.1]
    unfold named
    rw [i1, i2]
    rfl

/-- Calls that do not look for a card. -/
theorem plain_call (k : Nat) (d : Disk) (blocks : Nat) (cid : List Nat) (mem : Nat → List Nat) (c : Call) (hc : ¬ (c ≠ .size ∧ c ≠ .erase ∧ c ≠ .sync ∧ c ≠ .other)) : call k d c = some (d, (answer blocks cid mem c).2) ∧ (answer blocks cid mem c).1 = mem := by
  cases c with
  | size => exact ⟨rfl, rfl⟩
  | erase => exact ⟨rfl, rfl⟩
  | sync => exact ⟨rfl, rfl⟩
  | other => exact ⟨rfl, rfl⟩
  | _ => exact absurd ⟨(fun e => by cases e), (fun e => by cases e), (fun e => by cases e), (fun e => by cases e)⟩ hc

theorem call_ready {k : Nat} {d d' : Disk} (h : ready k d = some d') {a b : List Slot} {s : Slot} (hd : d' = .found a s b) {c : Call} (hc : c ≠ .size ∧ c ≠ .erase ∧ c ≠ .sync ∧ c ≠ .other) : call k d c = (slotCall k s c).map fun q => (.found a q.1 b, q.2) := by
  subst hd
  cases c with
  | size => exact absurd rfl hc.1
  | erase => exact absurd rfl hc.2.1
  | sync => exact absurd rfl hc.2.2.1
  | other => exact absurd rfl hc.2.2.2
  | _ => unfold call; rw [h]; rfl

/-- Any series of calls to a drive with a card is answered as by an array of blocks with the registers of this card. -/
theorem C108_calls {m : Make} {rd : Nat → Nat} (h : Sums m) (hq : Quick m rd) (hm : Able m) (k : Nat) {sw : Option Bool} (hsw : sw ≠ some false) (a b : List Slot) : ∀ (cs : List Call) (s : Sd Card), Good rd s → (∀ c ∈ cs, Fine c) →
    ∃ s', calls (k + 1) (.found a ⟨Card, line m rd, s, sw⟩ b) cs = some (.found a ⟨Card, line m rd, s', sw⟩ b, (answers s.bus.blocks s.bus.cid s.bus.mem cs).2) ∧ s'.bus.mem = (answers s.bus.blocks s.bus.cid s.bus.mem cs).1
  | [], s, _, _ => ⟨s, rfl, rfl⟩
  | c :: cs, s, hg, hf => by
    have one : ∃ s', call (k + 1) (.found a ⟨Card, line m rd, s, sw⟩ b) c = some (.found a ⟨Card, line m rd, s', sw⟩ b, (answer s.bus.blocks s.bus.cid s.bus.mem c).2) ∧ Good rd s' ∧ s'.bus.mem = (answer s.bus.blocks s.bus.cid s.bus.mem c).1 ∧ Same s.bus s'.bus := by
      by_cases hc : c ≠ .size ∧ c ≠ .erase ∧ c ≠ .sync ∧ c ≠ .other
      · obtain ⟨s', h1, h2⟩ := slot_call h hq hm k hg hsw c (hf c (by simp)) hc
        refine ⟨s', ?_, h2⟩
        rw [call_ready (d := .found a ⟨Card, line m rd, s, sw⟩ b) rfl rfl hc, h1]
        rfl
      · obtain ⟨h1, h2⟩ := plain_call (k + 1) (.found a ⟨Card, line m rd, s, sw⟩ b) s.bus.blocks s.bus.cid s.bus.mem c hc
        exact ⟨s, h1, hg, h2.symm, rfl, rfl, rfl, rfl⟩
    obtain ⟨s1, h1, g1, m1, e1⟩ := one
    obtain ⟨s2, h2, m2⟩ := C108_calls h hq hm k hsw a b cs s1 g1 (fun c hc => hf c (by simp [hc]))
    rw [e1.2.1, e1.2.2.2, m1] at h2 m2
    refine ⟨s2, ?_, m2⟩
    unfold calls
    rw [h1, Option.bind_some, h2]
    rfl

/-- With an open switch nothing is sent to the wires, whatever is known of the slot: status, initialisation and identification tell
that there is no medium. -/
theorem C108_open (k : Nat) (a b : List Slot) (s : Slot) (hs : s.switch = some false) : ∃ s' : Slot, s'.σ = s.σ ∧ HEq s'.line s.line ∧ HEq s'.sd.bus s.sd.bus ∧ s'.switch = some false ∧
    call k (.found a s b) .status = some (.found a s' b, .media 3) ∧ call k (.found a s b) .initialize = some (.found a s' b, .media 3) ∧ call k (.found a s b) .identify = some (.found a s' b, .err 3) := by
  have e : detect s = ({ s with sd := { s.sd with nodisk := true, noinit := true, type := 0 } }, false) := if_pos hs
  refine ⟨{ s with sd := { s.sd with nodisk := true, noinit := true, type := 0 } }, rfl, HEq.rfl, HEq.rfl, hs, ?_, ?_, ?_⟩
  · rw [call_ready (d := .found a s b) rfl rfl ⟨(fun e => by cases e), (fun e => by cases e), (fun e => by cases e), (fun e => by cases e)⟩]
    show (some ((detect s).1, Ret.media (flags (detect s).1.sd))).map _ = _
    rw [e]
    rfl
  · rw [call_ready (d := .found a s b) rfl rfl ⟨(fun e => by cases e), (fun e => by cases e), (fun e => by cases e), (fun e => by cases e)⟩]
    show ((slotInit k s).map _).map _ = _
    unfold slotInit
    rw [e]
    rfl
  · rw [call_ready (d := .found a s b) rfl rfl ⟨(fun e => by cases e), (fun e => by cases e), (fun e => by cases e), (fun e => by cases e)⟩]
    show (slotIdentify k s).map _ = _
    unfold slotIdentify
    rw [e]
    rfl

/-- From the first call on: the card in the first slot that has one is the drive. -/
theorem C108_session {m : Make} {rd : Nat → Nat} (h : Sums m) (hq : Quick m rd) (hm : Able m) (k : Nat) {sw : Option Bool} (hsw : sw ≠ some false) (before after : List Slot) (hb : ∀ x ∈ before, Empty x) (s : Sd Card) (hi : Inserted rd s) : ∀ (cs : List Call), (∀ c ∈ cs, Fine c) →
    ∃ d, calls (k + 1) (.idle (before ++ ⟨Card, line m rd, s, sw⟩ :: after)) cs = some (d, (answers s.bus.blocks s.bus.cid s.bus.mem cs).2) ∧
      (d = .idle (before ++ ⟨Card, line m rd, s, sw⟩ :: after) ∧ (answers s.bus.blocks s.bus.cid s.bus.mem cs).1 = s.bus.mem ∨
        ∃ before' s', d = .found before' ⟨Card, line m rd, s', sw⟩ after ∧ before'.length = before.length ∧ s'.bus.mem = (answers s.bus.blocks s.bus.cid s.bus.mem cs).1)
  | [], _ => ⟨_, rfl, .inl ⟨rfl, rfl⟩⟩
  | c :: cs, hf => by
    by_cases hc : c ≠ .size ∧ c ≠ .erase ∧ c ≠ .sync ∧ c ≠ .other
    · obtain ⟨before', s0, h0, l0, g0, m0, e0⟩ := configure_card h hq hm k hi hsw after before [] hb
      have h0 : ready (k + 1) (.idle (before ++ ⟨Card, line m rd, s, sw⟩ :: after)) = some (.found before' ⟨Card, line m rd, s0, sw⟩ after) := h0
      obtain ⟨s1, h1, m1⟩ := C108_calls h hq hm k hsw before' after (c :: cs) s0 g0 hf
      rw [e0.2.1, e0.2.2.2, m0] at h1 m1
      refine ⟨_, ?_, .inr ⟨before', s1, rfl, by rw [l0]; simp, m1⟩⟩
      rw [← h1]
      unfold calls
      rw [call_ready h0 rfl hc, call_ready (d := .found before' ⟨Card, line m rd, s0, sw⟩ after) rfl rfl hc]
    · obtain ⟨h1, h2⟩ := plain_call (k + 1) (.idle (before ++ ⟨Card, line m rd, s, sw⟩ :: after)) s.bus.blocks s.bus.cid s.bus.mem c hc
      obtain ⟨d, h3, h4⟩ := C108_session h hq hm k hsw before after hb s hi cs (fun c hc => hf c (by simp [hc]))
      have e : answers s.bus.blocks s.bus.cid s.bus.mem (c :: cs) = ((answers s.bus.blocks s.bus.cid s.bus.mem cs).1, (answer s.bus.blocks s.bus.cid s.bus.mem c).2 :: (answers s.bus.blocks s.bus.cid s.bus.mem cs).2) := by
        show ((answers s.bus.blocks s.bus.cid (answer s.bus.blocks s.bus.cid s.bus.mem c).1 cs).1, _ :: (answers s.bus.blocks s.bus.cid (answer s.bus.blocks s.bus.cid s.bus.mem c).1 cs).2) = _
        rw [h2]
      refine ⟨d, ?_, by rw [e]; exact h4⟩
      unfold calls
      rw [h1, Option.bind_some, h3, e]
      rfl

/-! ## Example: two empty slots, one of them with a switch, before the card -/

example : (∀ x ∈ [(⟨Unit, ⟨fun _ _ => ((), 0xFF), fun _ _ => (), fun _ => 10⟩, ⟨(), 0, true, true, 0, 0, [], [], 0⟩, none⟩ : Slot), ⟨Card, line make (fun _ => 10), start4, some false⟩], Empty x) ∧ Inserted (fun _ => 10) start4 := by
  refine ⟨fun x hx => ?_, ?_⟩
  · simp only [List.mem_cons, List.not_mem_nil, or_false] at hx
    rcases hx with rfl | rfl
    · exact .inr fun _ _ => (show (0xFF : Nat) ≠ 1 by decide)
    · exact .inl rfl
  · exact ⟨start4_sane, start4_registers, ⟨rfl, rfl, rfl⟩, fun _ => (show 3 ≤ 10 by decide)⟩

end Fpm.Sd
