import Verif.Zmodem.Sound
/-!
# Properties of ZMODEM headers and data blocks
-/
namespace Fpm.Zmodem
open Fpm.Zmodem.Spec Fpm.Crc

/-! ## Check bytes -/

theorem check16_iff {m cs : List Nat} (hm : ∀ b ∈ m, b < 256) : Check false m cs ↔ cs = [updateCcitt 0 m / 256, updateCcitt 0 m % 256] := by
  rw [Check, if_neg (by simp)]
  simp only [isCrc16_iff m hm, exists_eq_left]

theorem check32_iff {m cs : List Nat} (hm : ∀ b ∈ m, b < 256) : Check true m cs ↔
    ∃ c, c = not32 (update32 (2 ^ 32 - 1) m) ∧ cs = [c % 256, c / 2 ^ 8 % 256, c / 2 ^ 16 % 256, c / 2 ^ 24] := by
  rw [Check, if_pos rfl]
  simp only [isCrc32_iff m hm]

theorem check_unique {in32 : Bool} {m cs cs' : List Nat} (hm : ∀ b ∈ m, b < 256) (h : Check in32 m cs) (h' : Check in32 m cs') : cs = cs' := by
  cases in32 with
  | false => rw [check16_iff hm] at h h'; rw [h, h']
  | true =>
    rw [check32_iff hm] at h h'
    obtain ⟨c, h1, h2⟩ := h
    obtain ⟨c', h1', h2'⟩ := h'
    rw [h2, h2', h1, h1']

theorem check16_same {m m' cs : List Nat} (hm : ∀ b ∈ m, b < 256) (hm' : ∀ b ∈ m', b < 256) (h : Check false m cs) (h' : Check false m' cs) :
    updateCcitt 0 m = updateCcitt 0 m' := by
  rw [check16_iff hm] at h
  rw [check16_iff hm', h] at h'
  simp only [List.cons.injEq, and_true] at h'
  omega

theorem check32_same {m m' cs : List Nat} (hm : ∀ b ∈ m, b < 256) (hm' : ∀ b ∈ m', b < 256) (h : Check true m cs) (h' : Check true m' cs) :
    update32 (2 ^ 32 - 1) m = update32 (2 ^ 32 - 1) m' := by
  rw [check32_iff hm] at h
  rw [check32_iff hm'] at h'
  obtain ⟨c, h1, h2⟩ := h
  obtain ⟨c', h1', h2'⟩ := h'
  rw [h2] at h2'
  simp only [List.cons.injEq, and_true] at h2'
  have : c = c' := by omega
  rw [h1, h1'] at this
  exact (C43_not32 _ _ (crc_bound m hm).2 (crc_bound m' hm').2).mp this

/-! ## C44: hexadecimal headers -/

/-- **C44** in full: on every target, a header as encoded by `zm_to_hex_header` is read back. -/
def C44_full : Prop :=
  ∀ (t : Target) (ty a b c d : Nat), ty < 256 → a < 256 → b < 256 → c < 256 → d < 256 → ∀ (h : Hdr) (r : List Nat),
    ∃ hdr, awaitHeader t h ([42, 42, 24] ++ toHexHeader (hdrCrc ty a b c d) ++ r) = .ok ⟨OK, hdr, false⟩ r ∧ hdr.take 5 = [ty, a, b, c, d]

/-- **C44 is violated** where `char` is signed: the line feed with bit 7 set at the end of the header
is taken for an error. -/
theorem C44_violated : ¬ C44_full := by
  intro h
  obtain ⟨hdr, h1, -⟩ := h amd64 0 0 0 0 0 (by decide) (by decide) (by decide) (by decide) (by decide) ⟨0, [], false⟩ []
  have : awaitHeader amd64 ⟨0, [], false⟩ ([42, 42, 24] ++ toHexHeader (hdrCrc 0 0 0 0 0) ++ []) = .ok ⟨0xff8a, [0, 0, 0, 0, 0, 0, 0, 0xc0, 0xc0, 0xc0], false⟩ [] := by
    decide +kernel
  rw [this] at h1
  simp [OK] at h1

theorem byteToHex_eq : ∀ b < 256, byteToHex b = hex2 b := by decide +kernel

theorem hdrCrc_eq {ty a b c d : Nat} (ht : ty < 256) (ha : a < 256) (hb : b < 256) (hc : c < 256) (hd : d < 256) :
    ∃ cs, Check false [ty, a, b, c, d] cs ∧ hdrCrc ty a b c d = [ty, a, b, c, d] ++ cs := by
  have hm : ∀ x ∈ [ty, a, b, c, d], x < 256 := by simp [ht, ha, hb, hc, hd]
  have hb16 := (crc_bound _ hm).1
  refine ⟨_, (check16_iff hm).mpr rfl, ?_⟩
  have e : stepCcitt d (stepCcitt c (stepCcitt b (stepCcitt a (stepCcitt ty 0)))) = updateCcitt 0 [ty, a, b, c, d] := rfl
  rw [hdrCrc, e]
  generalize updateCcitt 0 [ty, a, b, c, d] = x at hb16
  simp only [List.cons_append, List.nil_append, List.cons.injEq, and_true, true_and]
  constructor
  · have h1 : (x &&& 0xff00) >>> 8 = (x >>> 8) &&& 0xff := by rw [Nat.shiftRight_and_distrib]; rfl
    rw [h1, Nat.shiftRight_eq_div_pow, and_byte (by omega)]
  · rw [show (0x00ff : Nat) = 2 ^ 8 - 1 from rfl, Nat.and_two_pow_sub_one_eq_mod]

/-- **C44.** The sender writes the header as ZMODEM prescribes: ZPAD ZPAD ZDLE `B`, seven bytes in
lower-case hexadecimal (the last two are the CRC-16 of the others), carriage return, line feed with bit
7 set. -/
theorem C44_encode (ty a b c d : Nat) (ht : ty < 256) (ha : a < 256) (hb : b < 256) (hc : c < 256) (hd : d < 256) :
    HexHdr [ty, a, b, c, d] ([42, 42, 24] ++ toHexHeader (hdrCrc ty a b c d)) := by
  have hm : ∀ x ∈ [ty, a, b, c, d], x < 256 := by simp [ht, ha, hb, hc, hd]
  obtain ⟨cs, h1, h2⟩ := hdrCrc_eq ht ha hb hc hd
  refine ⟨rfl, hm, cs, h1, ?_⟩
  have : (hdrCrc ty a b c d).flatMap byteToHex = ([ty, a, b, c, d] ++ cs).flatMap hex2 := by
    rw [h2]
    apply List.flatMap_congr
    intro x hx
    apply byteToHex_eq
    rcases List.mem_append.mp hx with h | h
    · exact hm x h
    · exact (check_len h1).2 x h
  rw [toHexHeader, this]
  simp

theorem digit_lt : ∀ b < 256, (digit (b / 16) < 128 ∧ digit (b / 16) ≠ 3) ∧ digit (b % 16) < 128 ∧ digit (b % 16) ≠ 3 := by decide +kernel

theorem hexHdr_clean {t : Target} (ht : t.signedChar = false) {five w : List Nat} (h : HexHdr five w) : Clean t w := by
  obtain ⟨-, hb, cs, hcs, rfl⟩ := h
  have hl := check_len hcs
  intro x hx
  have : (x < 128 ∧ x ≠ 3) ∨ x = 138 := by
    rcases List.mem_append.mp hx with h | h
    · rcases List.mem_append.mp h with h | h
      · simp at h; omega
      · obtain ⟨b, hb1, hb2⟩ := List.mem_flatMap.mp h
        have hb3 : b < 256 := by
          rcases List.mem_append.mp hb1 with h | h
          · exact hb b h
          · exact hl.2 b h
        have := digit_lt b hb3
        simp [hex2] at hb2
        rcases hb2 with rfl | rfl
        · exact .inl this.1
        · exact .inl this.2
    · simp at h; omega
  refine ⟨by omega, fun h => ?_, fun _ => by omega⟩
  rw [ht] at h
  cases h

/-- **C44, where `char` is unsigned** (partial: the other targets are missing, see `C44_violated`).
Every header round-trips, also after any characters other than ZDLE. -/
theorem C44_roundtrip_partial (t : Target) (ht : t.signedChar = false) (ty a b c d : Nat) (h1 : ty < 256) (h2 : a < 256) (h3 : b < 256)
    (h4 : c < 256) (h5 : d < 256) (h : Hdr) (junk : List Nat) (hj : ∀ b ∈ junk, b ≠ 24) (hjc : Clean t junk) (r : List Nat) :
    ∃ hdr, awaitHeader t h (junk ++ ([42, 42, 24] ++ toHexHeader (hdrCrc ty a b c d)) ++ r) = .ok ⟨OK, hdr, false⟩ r ∧ hdr.take 5 = [ty, a, b, c, d] := by
  have hw := C44_encode ty a b c d h1 h2 h3 h4 h5
  obtain ⟨cs, g1, g2⟩ := awaitHeader_hex hj hw (clean_append hjc (hexHdr_clean ht hw)) h
  exact ⟨_, g2 r, hdrOf_take rfl⟩

/-- A header: ZRINIT with flags 0x22, after some text. -/
example : ∃ hdr, awaitHeader pico ⟨0, [], false⟩ ([114, 122, 13] ++ ([42, 42, 24] ++ toHexHeader (hdrCrc 1 0 0 0 0x22)) ++ [17]) = .ok ⟨OK, hdr, false⟩ [17] ∧
    hdr.take 5 = [1, 0, 0, 0, 0x22] :=
  C44_roundtrip_partial pico rfl 1 0 0 0 0x22 (by decide) (by decide) (by decide) (by decide) (by decide) _ _ (by decide) (by unfold Clean; decide) _

/-- The well-known string `B0100000023be50`. -/
example : (toHexHeader (hdrCrc 1 0 0 0 0x23)).take 15 = "B0100000023be50".toList.map Char.toNat := by decide +kernel

theorem hex2_inj {a b : Nat} (ha : a < 256) (hb : b < 256) (h : hex2 a = hex2 b) : a = b := by
  have e : ∀ b < 256, hexToByte (digit (b / 16)) (digit (b % 16)) = b := fun b hb => (digit_ok b hb).1
  rw [← e a ha, ← e b hb]
  simp only [hex2, List.cons.injEq, and_true] at h
  rw [h.1, h.2]

theorem hexes_inj {as bs : List Nat} (ha : ∀ b ∈ as, b < 256) (hb : ∀ b ∈ bs, b < 256) (h : as.flatMap hex2 = bs.flatMap hex2) : as = bs := by
  induction as generalizing bs with
  | nil =>
    cases bs with
    | nil => rfl
    | cons b bs => simp [hex2] at h
  | cons a as ih =>
    cases bs with
    | nil => simp [hex2] at h
    | cons b bs =>
      rw [List.flatMap_cons, List.flatMap_cons] at h
      obtain ⟨h1, h2⟩ := List.append_inj h rfl
      rw [hex2_inj (ha a (by simp)) (hb b (by simp)) h1, ih (fun x hx => ha x (by simp [hx])) (fun x hx => hb x (by simp [hx])) h2]

theorem hexes_one {as bs pre post : List Nat} {x y : Nat} (ha : ∀ b ∈ as, b < 256) (hb : ∀ b ∈ bs, b < 256)
    (h1 : as.flatMap hex2 = pre ++ x :: post) (h2 : bs.flatMap hex2 = pre ++ y :: post) :
    ∃ p1 u v p2, as = p1 ++ u :: p2 ∧ bs = p1 ++ v :: p2 := by
  induction as generalizing bs pre with
  | nil => simp at h1
  | cons a as ih =>
    cases bs with
    | nil => simp at h2
    | cons b bs =>
      have ha' : ∀ b ∈ as, b < 256 := fun x hx => ha x (by simp [hx])
      have hb' : ∀ b ∈ bs, b < 256 := fun x hx => hb x (by simp [hx])
      rw [List.flatMap_cons, hex2, List.cons_append, List.cons_append, List.nil_append] at h1 h2
      match pre with
      | [] =>
        simp only [List.nil_append, List.cons.injEq] at h1 h2
        have : as = bs := by
          apply hexes_inj ha' hb'
          have := h1.2.trans h2.2.symm
          simp only [List.cons.injEq] at this
          exact this.2
        exact ⟨[], a, b, as, rfl, by rw [this]; rfl⟩
      | [p] =>
        simp only [List.cons_append, List.nil_append, List.cons.injEq] at h1 h2
        have : as = bs := hexes_inj ha' hb' (h1.2.2.trans h2.2.2.symm)
        exact ⟨[], a, b, as, rfl, by rw [this]; rfl⟩
      | p :: q :: pre =>
        simp only [List.cons_append, List.cons.injEq] at h1 h2
        obtain ⟨p1, u, v, p2, e1, e2⟩ := ih ha' hb' h1.2.2 h2.2.2
        have : a = b := hex2_inj (ha a (by simp)) (hb b (by simp)) (by rw [hex2, hex2, h1.1, h1.2.1, h2.1, h2.2.1])
        exact ⟨a :: p1, u, v, p2, by rw [e1]; rfl, by rw [e2, this]; rfl⟩

theorem one_byte {five five' cs cs' p1 p2 : List Nat} {u v : Nat} (h5 : five.length = 5) (h5' : five'.length = 5) (hb : ∀ b ∈ five, b < 256)
    (hb' : ∀ b ∈ five', b < 256) (hc : Check false five cs) (hc' : Check false five' cs') (e : five ++ cs = p1 ++ u :: p2)
    (e' : five' ++ cs' = p1 ++ v :: p2) : u = v := by
  by_contra hne
  by_cases hp : p1.length < 5
  · obtain ⟨k, hk⟩ : ∃ k, 5 - p1.length = k + 1 := ⟨4 - p1.length, by omega⟩
    have f : ∀ (x : Nat) (l c : List Nat), l.length = 5 → l ++ c = p1 ++ x :: p2 → l = p1 ++ x :: p2.take k ∧ c = p2.drop k := by
      intro x l c hl h
      have h1 := congrArg (List.take 5) h
      have h2 := congrArg (List.drop 5) h
      rw [show 5 = l.length from hl.symm, List.take_left, hl, List.take_append, List.take_of_length_le (by omega), hk, List.take_succ_cons] at h1
      rw [show 5 = l.length from hl.symm, List.drop_left, hl, List.drop_append, List.drop_of_length_le (by omega), hk, List.drop_succ_cons] at h2
      exact ⟨h1, h2⟩
    obtain ⟨g1, g2⟩ := f u five cs h5 e
    obtain ⟨g3, g4⟩ := f v five' cs' h5' e'
    rw [← g2] at g4
    subst g4
    have := check16_same hb hb' hc hc'
    rw [g1, g3] at this
    refine (C43_byte p1 (p2.take k) u v ?_ ?_ ?_ ?_ hne).2.1 this
    · intro b h; exact hb b (by rw [g1]; simp [h])
    · intro b h; exact hb b (by rw [g1]; simp [h])
    · exact hb u (by rw [g1]; simp)
    · exact hb' v (by rw [g3]; simp)
  · have h1 := congrArg (List.take 5) e
    have h2 := congrArg (List.take 5) e'
    rw [show 5 = five.length from h5.symm, List.take_left, h5, List.take_append_of_le_length (by omega)] at h1
    rw [show 5 = five'.length from h5'.symm, List.take_left, h5', List.take_append_of_le_length (by omega)] at h2
    have : five = five' := h1.trans h2.symm
    subst this
    have := check_unique hb hc hc'
    subst this
    have := e.symm.trans e'
    have := List.append_cancel_left this
    simp [hne] at this

/-- **C44.** A header in which one of the fourteen digits arrives as any other byte is not accepted,
whatever follows it and on every target. -/
theorem C44_corrupt (t : Target) (five pre post tail : List Nat) (x y : Nat) (hw : HexHdr five ([42, 42, 24, 66] ++ (pre ++ x :: post) ++ [13, 138]))
    (hxy : x ≠ y) (hy : y < 256) (ht : ∀ b ∈ tail, b < 256) (h h' : Hdr) (r : List Nat)
    (hr : awaitHeader t h ([42, 42, 24, 66] ++ (pre ++ y :: post) ++ tail) = .ok h' r) : h'.result ≠ OK := by
  intro hok
  obtain ⟨h5, hb, cs, hcs, e⟩ := hw
  have e1 : pre ++ x :: post = (five ++ cs).flatMap hex2 := by
    have := List.append_cancel_right e
    exact List.append_cancel_left this
  have hcl := check_len hcs
  have hfb : ∀ b ∈ five ++ cs, b < 256 := by
    intro b h
    rcases List.mem_append.mp h with h | h
    · exact hb b h
    · exact hcl.2 b h
  have hlen : (pre ++ x :: post).length = 14 := by
    rw [e1]
    obtain ⟨c1, c2, rfl⟩ := two_eq hcl.1
    obtain ⟨a, b, c, d, e, rfl⟩ := five_eq h5
    simp [hex2]
  have hds : ∀ b ∈ pre ++ x :: post, b < 256 := by
    rw [e1]
    intro b h
    obtain ⟨z, hz1, hz2⟩ := List.mem_flatMap.mp h
    have := digit_lt z (hfb z hz1)
    simp [hex2] at hz2
    rcases hz2 with rfl | rfl <;> omega
  have hs : ∀ b ∈ pre ++ y :: post ++ tail, b < 256 := by
    intro b h
    rcases List.mem_append.mp h with h | h
    · rcases List.mem_append.mp h with h | h
      · exact hds b (by simp [h])
      · rcases List.mem_cons.mp h with h | h
        · omega
        · exact hds b (by simp [h])
    · exact ht b h
  have hc0 : Clean t ([42, 42] ++ [24, 66]) := by
    intro b h
    simp at h
    refine ⟨by omega, fun _ => by omega, fun _ => by omega⟩
  have hp : awaitPass t h ([42, 42, 24, 66] ++ (pre ++ y :: post) ++ tail) = _ := awaitPass_frame hc0 (by simp) (by simp) h (pre ++ y :: post ++ tail)
  rw [awaitHeader, awaitLoop, hp] at hr
  have hloop := hexLoop_post t 7 0 blankHdr 0 (pre ++ y :: post ++ tail) hs (by decide)
  rw [readHeader, if_pos (by decide), readHexHeader] at hr
  cases hx : hexLoop t 7 0 blankHdr 0 (pre ++ y :: post ++ tail) with
  | ok a r1 =>
    rw [hx] at hr hloop
    obtain ⟨res, hdr⟩ := a
    obtain ⟨-, w, hw, hgood⟩ := hloop
    rw [then_ok] at hr
    simp only at hr hgood
    by_cases ho : res = OK
    · obtain ⟨bs, k1, k2, k3, k4, k5⟩ := hgood ho
      obtain ⟨five', cs', rfl, g1, g2, g3, -⟩ := good16 k1 k2 k5
      have hwl : w.length = 14 := by
        rw [k3]
        obtain ⟨c1, c2, rfl⟩ := two_eq (check_len g3).1
        obtain ⟨a, b, c, d, e, rfl⟩ := five_eq g1
        simp [hex2]
      have hds' : pre ++ y :: post = w := (List.append_inj hw (by rw [hwl, ← hlen]; simp)).1
      rw [k3] at hds'
      obtain ⟨p1, u, v, p2, e2, e3⟩ := hexes_one hfb k2 e1.symm hds'.symm
      have huv := one_byte h5 g1 hb g2 hcs g3 e2 e3
      rw [huv] at e2
      rw [← e3] at e2
      rw [← e2, ← e1] at hds'
      have := List.append_cancel_left hds'
      simp only [List.cons.injEq, and_true] at this
      exact hxy this.symm
    · rw [if_neg ho, then_ok, then_ok] at hr
      simp only [Out.ok.injEq] at hr
      rw [← hr.1] at hok
      exact ho hok
  | wait => rw [hx] at hr; cases hr
  | killed => rw [hx] at hr; cases hr
  | ub => rw [hx] at hr; cases hr

/-- A header with a digit changed (the third from the end), and one with a digit replaced by a line
feed; both are refused. -/
example : ∃ pre x post, [42, 42, 24] ++ toHexHeader (hdrCrc 1 0 0 0 0x22) = [42, 42, 24, 66] ++ (pre ++ x :: post) ++ [13, 138] ∧ x ≠ 10 ∧ x ≠ 102 :=
  ⟨[48, 49, 48, 48, 48, 48, 48, 48, 50, 50, 97], 101, [55, 49], by decide +kernel⟩

/-! ## C45: data subpackets and binary headers -/

/-- Flow control characters only. -/
theorem quiet_noise {t : Target} {q : List Nat} (h : Quiet t q) : ∀ x ∈ q, x = 17 ∨ x = 19 := by
  obtain ⟨h, -⟩ := h
  generalize hp : ([] : List Nat) = p at h
  induction h with
  | nil => simp
  | noise n p w hn _ ih => simpa [hn] using ih hp
  | plain => cases hp
  | esc => cases hp
  | rub0 => cases hp
  | rub1 => cases hp

/-- **C45** in full: on every target every subpacket of a conforming sender is decoded. -/
def C45_full : Prop :=
  ∀ (t : Target) (in32 : Bool) (p check w buf : List Nat) (e max : Nat), Sub p e check w → Check in32 (p ++ [e]) check → p.length < max → max ≤ buf.length →
    ∃ q, (∀ x ∈ q, x = 17 ∨ x = 19) ∧ ∀ r, readDataBlock t in32 buf max (w ++ r) = .ok (512 + e, put buf 0 (p ++ [e]), p.length + 1) (q ++ r)

/-- **C45 is violated** where `char` is signed or control-C kills the program: here a payload of
one byte 200 on Linux. -/
theorem C45_violated : ¬ C45_full := by
  intro h
  have hs : Sub [200] 104 [updateCcitt 0 [200, 104] / 256, updateCcitt 0 [200, 104] % 256] ([200] ++ [24, 104] ++ [114, 83]) := by
    refine ⟨by unfold FrameEnd; decide, [200], [114, 83], .plain _ _ _ (by decide) (by decide) (by decide) (by decide) .nil, ?_, rfl⟩
    have e : [updateCcitt 0 [200, 104] / 256, updateCcitt 0 [200, 104] % 256] = [114, 83] := by decide +kernel
    rw [e]
    exact .plain _ _ _ (by decide) (by decide) (by decide) (by decide) (.plain _ _ _ (by decide) (by decide) (by decide) (by decide) .nil)
  obtain ⟨q, -, h⟩ := h amd64 false [200] _ _ [0, 0, 0] 104 3 hs ((check16_iff (by decide)).mpr rfl) (by decide) (by decide)
  have h := h []
  have e : readDataBlock amd64 false [0, 0, 0] 3 ([200] ++ [24, 104] ++ [114, 83] ++ []) = .ok (0xffc8, [0, 0, 0], 0) [24, 104, 114, 83] := by decide +kernel
  rw [e] at h
  simp at h

open Classical in
/-- **C45, where all bytes arrive** (partial: `Clean` excludes bytes above 127 where `char` is signed and
byte 3 where control-C kills).  A subpacket, however its bytes are escaped and whatever flow control
characters are in between, gives its frame end and its payload if the check bytes are right, and
is reported as bad if they are not.  At most flow control characters after it stay in the input. -/
theorem C45_block_partial (t : Target) (in32 : Bool) (p check w buf : List Nat) (e max : Nat) (hs : Sub p e check w) (hc : Clean t w)
    (hl : check.length = checkLen in32) (hmax : p.length < max) (hbuf : max ≤ buf.length) :
    ∃ q buf', (∀ x ∈ q, x = 17 ∨ x = 19) ∧ buf'.length = buf.length ∧ buf'.take (p.length + 1) = p ++ [e] ∧
      buf'.drop (p.length + 1) = buf.drop (p.length + 1) ∧
      ∀ r, readDataBlock t in32 buf max (w ++ r) = .ok (if Check in32 (p ++ [e]) check then 512 + e else BAD_CRC, buf', p.length + 1) (q ++ r) := by
  obtain ⟨q, hq, h⟩ := readDataBlock_sub hs hc hl hmax hbuf
  refine ⟨q, _, quiet_noise hq, put_len (by simp; omega), put_take _ (by simp), ?_, h⟩
  simp [put]

theorem wire_bytes {p w : List Nat} (h : Wire p w) : ∀ b ∈ w, b < 256 := by
  induction h with
  | nil => simp
  | noise n _ _ hn _ ih => simp only [List.mem_cons, forall_eq_or_imp]; exact ⟨by omega, ih⟩
  | plain b _ _ hb _ _ _ _ ih => simp only [List.mem_cons, forall_eq_or_imp]; exact ⟨hb, ih⟩
  | esc b _ _ hb _ ih => simp only [List.mem_cons, forall_eq_or_imp]; exact ⟨by decide, by omega, ih⟩
  | rub0 _ _ _ ih => simp only [List.mem_cons, forall_eq_or_imp]; exact ⟨by decide, by decide, ih⟩
  | rub1 _ _ _ ih => simp only [List.mem_cons, forall_eq_or_imp]; exact ⟨by decide, by decide, ih⟩

theorem sub_bytes {p check w : List Nat} {e : Nat} (h : Sub p e check w) : ∀ b ∈ w, b < 256 := by
  obtain ⟨he, w1, w2, h1, h2, rfl⟩ := h
  unfold FrameEnd at he
  intro b hb
  rcases List.mem_append.mp hb with h | h
  · rcases List.mem_append.mp h with h | h
    · exact wire_bytes h1 b h
    · simp at h; omega
  · exact wire_bytes h2 b h

/-- **C45 on the Pico**, without exceptions. -/
theorem C45_pico (in32 : Bool) (p check w buf : List Nat) (e max : Nat) (hs : Sub p e check w) (hck : Check in32 (p ++ [e]) check)
    (hmax : p.length < max) (hbuf : max ≤ buf.length) :
    ∃ q, (∀ x ∈ q, x = 17 ∨ x = 19) ∧ ∀ r, readDataBlock pico in32 buf max (w ++ r) = .ok (512 + e, put buf 0 (p ++ [e]), p.length + 1) (q ++ r) := by
  have hc : Clean pico w := fun b hb => ⟨sub_bytes hs b hb, (fun h => by simp [pico] at h), (fun h => by simp [pico] at h)⟩
  obtain ⟨q, hq, h⟩ := readDataBlock_sub (in32 := in32) hs hc (check_len hck).1 hmax hbuf
  refine ⟨q, quiet_noise hq, fun r => ?_⟩
  rw [h r, if_pos hck]

/-- Binary headers, and hexadecimal ones, are read as they were sent; the kind of header selects the
check of the data that follow. -/
theorem C45_header_partial (t : Target) (in32 : Bool) (five w : List Nat) (hw : Header in32 five w) (hc : Clean t w) (h : Hdr) :
    ∃ hdr q, hdr.take 5 = five ∧ (∀ x ∈ q, x = 17 ∨ x = 19) ∧ ∀ r, awaitHeader t h (w ++ r) = .ok ⟨OK, hdr, in32⟩ (q ++ r) := by
  obtain ⟨cs, q, -, hq, g⟩ := awaitHeader_ok hw hc h
  have h5 : five.length = 5 := by
    obtain ⟨_, _, _, _, h | ⟨_, h⟩⟩ := hw
    · exact h.1
    · exact h.1
  exact ⟨_, q, hdrOf_take h5, quiet_noise hq, g⟩

/-- **C45, converse.** Whatever arrives: a block is accepted only if the bytes read form a
subpacket with the right check, and then payload and frame end are the ones of that subpacket. -/
theorem C45_accept (t : Target) (in32 : Bool) (buf s r buf' : List Nat) (max res n : Nat) (hs : ∀ b ∈ s, b < 256) (hbuf : max ≤ buf.length)
    (h : readDataBlock t in32 buf max s = .ok (res, buf', n) r) (he : isError res = false) :
    ∃ w p e, s = w ++ r ∧ GoodSub in32 p e w ∧ res = 512 + e ∧ n = p.length + 1 ∧ buf'.take n = p ++ [e] := by
  obtain ⟨w, p, h1, h2, h3, h4, h5⟩ := (readDataBlock_post t in32 buf max s hs hbuf).ok h
  obtain ⟨p0, e, rfl, g1, g2⟩ := h5 he
  simp only at h2 h3 g1
  refine ⟨w, p0, e, h1, g2, g1, by rw [h3]; simp, ?_⟩
  rw [h2, put_take _ h3]

/-- The same for headers. -/
theorem C45_accept_header (t : Target) (h h' : Hdr) (s r : List Nat) (hs : ∀ b ∈ s, b < 256) (hr : awaitHeader t h s = .ok h' r) (ho : h'.result = OK) :
    ∃ pre w five, s = pre ++ w ++ r ∧ GoodHdr h'.in32 five w ∧ h'.hdr.take 5 = five := by
  obtain ⟨pre, w, h1, -, h2⟩ := (awaitLoop_post t h _ s hs).ok hr
  obtain ⟨five, cs, g1, -, g2⟩ := h2 ho
  exact ⟨pre, w, five, h1, g2, by rw [g1, hdrOf_take g2.1]⟩

/-- **C45.** Two messages (payload and frame end) of the same length that differ within 16 bits, or 32
bits with the long check, never have the same check bytes: such an error is always noticed. -/
theorem C45_detect (m m' cs : List Nat) (hm : ∀ b ∈ m, b < 256) (hm' : ∀ b ∈ m', b < 256) (hl : m.length = m'.length) (hne : m ≠ m') (s : Nat) :
    ((∀ p, p < s ∨ s + 16 ≤ p → Crc.Spec.bitAt m p = Crc.Spec.bitAt m' p) → Check false m cs → ¬ Check false m' cs) ∧
    ((∀ p, p < s ∨ s + 32 ≤ p → Crc.Spec.rbitAt m p = Crc.Spec.rbitAt m' p) → Check true m cs → ¬ Check true m' cs) := by
  constructor
  · intro hw h1 h2
    exact C43_ccitt m m' hm hm' hl s hw hne 0 (by decide) (check16_same hm hm' h1 h2)
  · intro hw h1 h2
    exact C43_crc32 m m' hm hm' hl s hw hne _ (by decide) (check32_same hm hm' h1 h2)

/-- A subpacket with an escaped ZDLE, an escaped carriage return and an XON in between. -/
example : Sub [24, 65, 13] 106 [0x12, 0x34] ([24, 88, 17, 65, 24, 77] ++ [24, 106] ++ [24, 0x52, 0x34]) :=
  ⟨by unfold FrameEnd; decide, _, _, .esc 24 _ _ (by decide) (.noise 17 _ _ (by decide) (.plain 65 _ _ (by decide) (by decide) (by decide) (by decide)
    (.esc 13 _ _ (by decide) .nil))), .esc 0x12 _ _ (by decide) (.plain 0x34 _ _ (by decide) (by decide) (by decide) (by decide) .nil), rfl⟩

/-! ## C46: the buffer -/

/-- **C46.** Whatever arrives, reading a data block and waiting for a header is defined, keeps the size
of the buffer, and leaves all bytes beyond the count reported, which is at most the size given, as
they were. -/
theorem C46_buffer (t : Target) (in32 : Bool) (buf s : List Nat) (max : Nat) (hs : ∀ b ∈ s, b < 256) (hbuf : max ≤ buf.length) :
    readDataBlock t in32 buf max s ≠ .ub ∧ ∀ res buf' n r, readDataBlock t in32 buf max s = .ok (res, buf', n) r →
      buf'.length = buf.length ∧ n ≤ max ∧ buf'.drop n = buf.drop n := by
  have hp := readDataBlock_post t in32 buf max s hs hbuf
  refine ⟨hp.ne, fun res buf' n r h => ?_⟩
  obtain ⟨w, p, h1, h2, h3, h4, -⟩ := hp.ok h
  simp only at h2 h3
  subst h2 h3
  refine ⟨put_len (by omega), h4, ?_⟩
  simp [put]

/-- The same for headers. -/
theorem C46_header (t : Target) (h : Hdr) (s : List Nat) (hs : ∀ b ∈ s, b < 256) : awaitHeader t h s ≠ .ub :=
  (awaitLoop_post t h _ s hs).ne

/-- Payload beyond the size is not stored. -/
theorem recvLoop_full (t : Target) (p : List Nat) (w : List Nat) (hw : Wire p w) (hc : Clean t w) (k len : Nat) (buf r : List Nat) (hk : k ≤ p.length)
    (hl : len + k ≤ buf.length) : ∃ r', recvLoop t k buf len (w ++ r) = .ok (OUT_OF_SPACE, put buf len (p.take k), len + k) r' := by
  induction k generalizing p w buf len with
  | zero => exact ⟨w ++ r, by rw [recvLoop, List.take_zero, put_nil]; rfl⟩
  | succ k ih =>
    cases p with
    | nil => simp at hk
    | cons b p =>
      obtain ⟨hb, w1, w2, rfl, h1, h2, _, h4⟩ := hw.uncons hc
      obtain ⟨r', hr⟩ := ih p w2 h1 h2 (len + 1) (buf.set len b) (by simpa using hk) (by simp; omega)
      refine ⟨r', ?_⟩
      have := byte_ok b hb
      rw [recvLoop, List.append_assoc, h4, then_ok, if_neg (by simp [this.1]), this.2.2, store_ok (by omega)]
      simp only
      rw [if_neg (by simp [this.2.1]), hr, put_cons (by omega), List.take_succ_cons]
      rw [show len + 1 + k = len + (k + 1) by omega]

/-- **C46.** A payload that does not fit is reported as such; what fits is in the buffer. -/
theorem C46_space (t : Target) (in32 : Bool) (buf p w : List Nat) (max : Nat) (hw : Wire p w) (hc : Clean t w) (hp : max ≤ p.length)
    (hbuf : max ≤ buf.length) (r : List Nat) :
    ∃ buf' r', readDataBlock t in32 buf max (w ++ r) = .ok (OUT_OF_SPACE, buf', max) r' ∧ buf' = p.take max ++ buf.drop max := by
  obtain ⟨r', h⟩ := recvLoop_full t p w hw hc max 0 buf r hp (by omega)
  refine ⟨put buf 0 (p.take max), r', ?_, ?_⟩
  · rw [readDataBlock, h, then_ok]
    simp only
    rw [if_pos (by decide), Nat.zero_add]
  · simp [put]; omega

/-- **C46, cancelling**, in full: wherever the receiver is, five CAN characters cancel. -/
def C46_cancel_full : Prop :=
  (∀ (t : Target) (in32 : Bool) (buf : List Nat) (max : Nat) (r : List Nat), 0 < max → max ≤ buf.length →
    ∃ buf' n, readDataBlock t in32 buf max ([24, 24, 24, 24, 24] ++ r) = .ok (CANCELLED, buf', n) r) ∧
  (∀ (t : Target) (h : Hdr) (x : Nat), x < 256 → ∃ h' r', awaitHeader t h ([24, 24, 24, 24, 24] ++ [x]) = .ok h' r' ∧ h'.result = CANCELLED)

/-- **Violated**: while waiting for a header the first one is taken for the beginning of a header, and
five are not enough. -/
theorem C46_cancel_violated : ¬ C46_cancel_full := by
  rintro ⟨-, h⟩
  obtain ⟨h', r', h1, h2⟩ := h pico ⟨0, [], false⟩ 66 (by decide)
  have : awaitHeader pico ⟨0, [], false⟩ ([24, 24, 24, 24, 24] ++ [66]) = .ok ⟨BAD_FRAME_TYPE, [], false⟩ [] := by decide +kernel
  rw [this] at h1
  simp only [Out.ok.injEq] at h1
  rw [← h1.1] at h2
  cases h2

theorem can_clean (t : Target) : Clean t [24] := by
  intro b hb; simp at hb; refine ⟨by omega, fun _ => by omega, fun _ => by omega⟩

theorem readEscaped_cancel (t : Target) (r : List Nat) : readEscaped t (24 :: 24 :: 24 :: 24 :: 24 :: r) = .ok CANCELLED r := by
  have e : ∀ s, recv t (24 :: s) = .ok 24 s := fun s => recv_clean s (can_clean t)
  rw [readEscaped_zdle (can_clean t), gotZdle, e, then_ok, if_neg (by decide), cans, if_pos (show 24 = ZDLE from rfl), e, then_ok, if_neg (by decide), cans, if_pos (show 24 = ZDLE from rfl), e, then_ok,
    if_neg (by decide), cans, if_pos (show 24 = ZDLE from rfl), e, then_ok, if_neg (by decide), cans]
  rfl

/-- **C46, cancelling** (partial: while waiting for a header six are needed, see `C46_cancel_violated`).
Five CAN characters cancel after any part of a data block that fits, six while waiting for a
header. -/
theorem C46_cancel_partial (t : Target) :
    (∀ (in32 : Bool) (buf p w : List Nat) (max : Nat) (r : List Nat), Wire p w → Clean t w → p.length < max → max ≤ buf.length →
      ∃ buf', readDataBlock t in32 buf max (w ++ ([24, 24, 24, 24, 24] ++ r)) = .ok (CANCELLED, buf', p.length) r) ∧
    (∀ (h : Hdr) (junk r : List Nat), (∀ b ∈ junk, b ≠ 24) → Clean t junk →
      awaitHeader t h (junk ++ ([24, 24, 24, 24, 24, 24] ++ r)) = .ok { h with result := CANCELLED } r) := by
  constructor
  · intro in32 buf p w max r hw hc hp hbuf
    refine ⟨put buf 0 p, ?_⟩
    rw [readDataBlock, recvLoop_wire p w hw hc max 0 buf hp (by omega)]
    obtain ⟨j, hj⟩ : ∃ j, max - p.length = j + 1 := ⟨max - p.length - 1, by omega⟩
    rw [hj, recvLoop]
    simp only [List.cons_append, List.nil_append]
    rw [readEscaped_cancel, then_ok, if_pos (by decide), then_ok]
    simp only
    rw [if_pos (by decide), Nat.zero_add]
  · intro h junk r hj hc
    apply awaitHeader_pass
    have := awaitZdle_junk (t := t) (junk := junk) (clean_append hc (can_clean t)) hj (24 :: 24 :: 24 :: 24 :: 24 :: r)
    rw [awaitPass]
    simp only [List.cons_append, List.nil_append]
    rw [this, then_ok, if_pos rfl, readEscaped_cancel, then_ok, if_pos rfl]

/-- Data that do not fit: three bytes into two. -/
example : ∃ buf' r', readDataBlock pico false [9, 9] 2 ([65, 66, 67] ++ [24, 104]) = .ok (OUT_OF_SPACE, buf', 2) r' ∧ buf' = [65, 66] :=
  C46_space pico false [9, 9] [65, 66, 67] _ 2 (.plain 65 _ _ (by decide) (by decide) (by decide) (by decide) (.plain 66 _ _ (by decide) (by decide) (by decide) (by decide)
    (.plain 67 _ _ (by decide) (by decide) (by decide) (by decide) .nil))) (by unfold Clean; decide) (by decide) (by decide) _

/-! ## C48: sending -/

theorem sendSz_zero {s : List Nat} (h : ∀ b ∈ s, b ≠ 0) (r : List Nat) : sendSz (s ++ 0 :: r) = some s := by
  induction s with
  | nil => rfl
  | cons c s ih =>
    rw [List.cons_append, sendSz, if_neg (h c (by simp)), ih (fun b hb => h b (by simp [hb]))]; rfl

theorem sendSz_none {s : List Nat} (h : ∀ b ∈ s, b ≠ 0) : sendSz s = none := by
  induction s with
  | nil => rfl
  | cons c s ih => rw [sendSz, if_neg (h c (by simp)), ih (fun b hb => h b (by simp [hb]))]; rfl

theorem hexHdr_nonzero {five w : List Nat} (h : HexHdr five w) : ∀ b ∈ w, b ≠ 0 := by
  obtain ⟨-, hb, cs, hcs, rfl⟩ := h
  have hl := check_len hcs
  have hd : ∀ b < 256, digit (b / 16) ≠ 0 ∧ digit (b % 16) ≠ 0 := by decide +kernel
  intro x hx
  rcases List.mem_append.mp hx with h | h
  · rcases List.mem_append.mp h with h | h
    · simp at h; omega
    · obtain ⟨b, hb1, hb2⟩ := List.mem_flatMap.mp h
      have hb3 : b < 256 := by
        rcases List.mem_append.mp hb1 with h | h
        · exact hb b h
        · exact hl.2 b h
      have := hd b hb3
      simp [hex2] at hb2
      omega
  · simp at h; omega

theorem toHex_nonzero {ty a b c d : Nat} (h1 : ty < 256) (h2 : a < 256) (h3 : b < 256) (h4 : c < 256) (h5 : d < 256) :
    ∀ x ∈ toHexHeader (hdrCrc ty a b c d), x ≠ 0 :=
  fun x hx => hexHdr_nonzero (C44_encode ty a b c d h1 h2 h3 h4 h5) x (by simp [hx])

/-- **C48** in full: sending any header is defined and transmits its encoding and XON. -/
def C48_full : Prop :=
  ∀ ty a b c d : Nat, ty < 256 → a < 256 → b < 256 → c < 256 → d < 256 →
    ∃ w, HexHdr [ty, a, b, c, d] w ∧ sendHexHdr [] ty a b c d = some (w ++ [17])

/-- **C48 is violated by every header**: the buffer of 17 bytes is full and has no terminating zero, so the
function reads beyond its end. -/
theorem C48_violated (ty a b c d : Nat) (h1 : ty < 256) (h2 : a < 256) (h3 : b < 256) (h4 : c < 256) (h5 : d < 256) :
    (toHexHeader (hdrCrc ty a b c d)).length = 17 ∧ sendHexHdr [] ty a b c d = none := by
  constructor
  · obtain ⟨-, -, cs, hcs, e⟩ := C44_encode ty a b c d h1 h2 h3 h4 h5
    have := congrArg List.length e
    obtain ⟨c1, c2, rfl⟩ := two_eq (check_len hcs).1
    simp [hex2] at this
    omega
  · rw [sendHexHdr, List.append_nil, sendSz_none (toHex_nonzero h1 h2 h3 h4 h5)]; rfl

theorem C48_not_full : ¬ C48_full := by
  intro h
  obtain ⟨w, -, hw⟩ := h 0 0 0 0 0 (by decide) (by decide) (by decide) (by decide) (by decide)
  rw [(C48_violated 0 0 0 0 0 (by decide) (by decide) (by decide) (by decide) (by decide)).2] at hw
  cases hw

/-- **C48** (partial: what is missing is that nothing outside the buffer is read).  The header is followed on the
line by whatever is behind the buffer up to the next zero byte; if the first byte there is zero, the
transmission is right. -/
theorem C48_send_partial (ty a b c d : Nat) (h1 : ty < 256) (h2 : a < 256) (h3 : b < 256) (h4 : c < 256) (h5 : d < 256) (x m : List Nat)
    (hx : ∀ b ∈ x, b ≠ 0) : ∃ w, HexHdr [ty, a, b, c, d] w ∧ sendHexHdr (x ++ 0 :: m) ty a b c d = some (w ++ x ++ [17]) := by
  refine ⟨_, C44_encode ty a b c d h1 h2 h3 h4 h5, ?_⟩
  have hn : ∀ y ∈ toHexHeader (hdrCrc ty a b c d) ++ x, y ≠ 0 := by
    intro y hy
    rcases List.mem_append.mp hy with h | h
    · exact toHex_nonzero h1 h2 h3 h4 h5 y h
    · exact hx y h
  rw [sendHexHdr, ← List.append_assoc, sendSz_zero hn]
  simp [ZPAD, ZDLE, XON]

theorem and255 (n : Nat) : n &&& 0xff = n % 256 := by
  rw [show (0xff : Nat) = 2 ^ 8 - 1 from rfl, Nat.and_two_pow_sub_one_eq_mod]

/-- A position is sent lowest byte first, flags highest byte first. -/
theorem C48_pos_partial (m : List Nat) (ty pos : Nat) (h1 : ty < 256) :
    ∃ w, HexHdr (ty :: le4 pos) w ∧ sendPosHdr (0 :: m) ty pos = some (w ++ [17]) := by
  have hb : ∀ n, n % 256 < 256 := fun n => Nat.mod_lt _ (by decide)
  have := C48_send_partial ty (pos % 256) (pos / 2 ^ 8 % 256) (pos / 2 ^ 16 % 256) (pos / 2 ^ 24 % 256) h1 (hb _) (hb _) (hb _) (hb _) [] m (by simp)
  obtain ⟨w, hw1, hw2⟩ := this
  refine ⟨w, hw1, ?_⟩
  rw [sendPosHdr, and255, and255, and255, and255, Nat.shiftRight_eq_div_pow, Nat.shiftRight_eq_div_pow, Nat.shiftRight_eq_div_pow]
  simpa using hw2

@[inherit_doc C48_pos_partial]
theorem C48_flags_partial (m : List Nat) (ty f0 f1 f2 f3 : Nat) (h1 : ty < 256) (h2 : f0 < 256) (h3 : f1 < 256) (h4 : f2 < 256) (h5 : f3 < 256) :
    ∃ w, HexHdr [ty, f3, f2, f1, f0] w ∧ sendFlagsHdr (0 :: m) ty f0 f1 f2 f3 = some (w ++ [17]) := by
  obtain ⟨w, hw1, hw2⟩ := C48_send_partial ty f3 f2 f1 f0 h1 h5 h4 h3 h2 [] m (by simp)
  exact ⟨w, hw1, by rw [sendFlagsHdr]; simpa using hw2⟩

/-- A position. -/
example : ∃ w, HexHdr [9, 0x78, 0x56, 0x34, 0x12] w ∧ sendPosHdr [0] 9 0x12345678 = some (w ++ [17]) := C48_pos_partial [] 9 0x12345678 (by decide)

end Fpm.Zmodem
