import Verif.Crc.StepLemmas

/-!
# Properties C42 and C43: checksums
-/
namespace Fpm.Crc
open Polynomial Fpm.Crc.Spec

/-! ## C42 -/

/-- **C42.** `crc7` never leaves its table, and returns the remainder of the message times X^7 by the
generator X^7 + X^3 + 1. -/
theorem C42_crc7 (m : List ℕ) (hm : Bytes m) :
    ∃ r, crc7 m = some r ∧ r < 2 ^ 7 ∧ poly 7 r = (X ^ 7 * msg m) %ₘ g7 := by
  obtain ⟨h1, h2⟩ := run_dvd g7 (poly 7) (poly 8) st7 7 (2 ^ 7) st7_ok m hm 0 (by decide)
  refine ⟨m.foldl st7 0, run7_eq m hm 0 (by decide), h1, ?_⟩
  apply eq_mod g7 _ _ 7 g7_monic g7_degree (poly_degree _ _)
  simpa [poly_zero, msg] using h2

/-- **C42.** `update_crc16` from any register: the register counts as the 16 bits before the message. -/
theorem C42_update16 (m : List ℕ) (hm : Bytes m) (c : ℕ) (hc : c < 2 ^ 16) :
    update16 c m < 2 ^ 16 ∧
    poly 16 (update16 c m) = (X ^ (8 * m.length) * poly 16 c + X ^ 16 * msg m) %ₘ g16 := by
  obtain ⟨h1, h2⟩ := run_dvd g16 (poly 16) (poly 8) step16 16 (2 ^ 16)
    (fun c b _ _ => step16_ok c b) m hm c hc
  exact ⟨h1, eq_mod g16 _ _ 16 g16_monic g16_degree (poly_degree _ _) h2⟩

/-- **C42.** `crc16` is the remainder of the message times X^16 by X^16 + X^12 + X^5 + 1. -/
theorem C42_crc16 (m : List ℕ) (hm : Bytes m) :
    crc16 m < 2 ^ 16 ∧ poly 16 (crc16 m) = (X ^ 16 * msg m) %ₘ g16 := by
  have := C42_update16 m hm 0 (by decide)
  rw [poly_zero, mul_zero, zero_add] at this
  exact this

/-- **C42.** The same for the ZMODEM CRC-16, which is fed byte by byte. -/
theorem C42_ccitt (m : List ℕ) (hm : Bytes m) (c : ℕ) (hc : c < 2 ^ 16) :
    updateCcitt c m < 2 ^ 16 ∧
    poly 16 (updateCcitt c m) = (X ^ (8 * m.length) * poly 16 c + X ^ 16 * msg m) %ₘ g16 := by
  rw [updateCcitt_eq m hm c]
  exact C42_update16 m hm c hc

/-- **C42.** CRC-32 in reflected form from any register. -/
theorem C42_crc32 (m : List ℕ) (hm : Bytes m) (c : ℕ) (hc : c < 2 ^ 32) :
    update32 c m < 2 ^ 32 ∧
    rpoly 32 (update32 c m) = (X ^ (8 * m.length) * rpoly 32 c + X ^ 32 * rmsg m) %ₘ g32 := by
  obtain ⟨h1, h2⟩ := run_dvd g32 (rpoly 32) (rpoly 8) (fun c b => step32 b c) 32 (2 ^ 32)
    (fun c b hc _ => step32_ok c b hc) m hm c hc
  exact ⟨h1, eq_mod g32 _ _ 32 g32_monic g32_degree (rpoly_degree _ _) h2⟩

/-- **C42.** Feeding a message in pieces. -/
theorem C42_pieces (c : ℕ) (a b : List ℕ) :
    update16 c (a ++ b) = update16 (update16 c a) b ∧
    updateCcitt c (a ++ b) = updateCcitt (updateCcitt c a) b ∧
    update32 c (a ++ b) = update32 (update32 c a) b := by
  refine ⟨?_, ?_, ?_⟩ <;> simp [update16, updateCcitt, update32, List.foldl_append]

/-- **C42.** The remainder determines the register: no other value is the remainder. -/
theorem C42_unique (m : List ℕ) (hm : Bytes m) (r : ℕ) (hr : r < 2 ^ 16)
    (h : poly 16 r = (X ^ 16 * msg m) %ₘ g16) : r = crc16 m := by
  obtain ⟨h1, h2⟩ := C42_crc16 m hm
  exact poly_inj 16 _ _ hr h1 (h.trans h2.symm)

/-- The usual check values. -/
example : crc16 [0x31, 0x32, 0x33, 0x34, 0x35, 0x36, 0x37, 0x38, 0x39] = 0x31c3 := by decide +kernel
example : updateCcitt 0 [0x31, 0x32, 0x33, 0x34, 0x35, 0x36, 0x37, 0x38, 0x39] = 0x31c3 := by
  decide +kernel
example : crc7 [0x31, 0x32, 0x33, 0x34, 0x35, 0x36, 0x37, 0x38, 0x39] = some 0x75 := by decide +kernel
example : dataCrc32 [0x31, 0x32, 0x33, 0x34, 0x35, 0x36, 0x37, 0x38, 0x39] 9 = 0xcbf43926 := by
  decide +kernel
example : Bytes [0x31, 0x32, 0xff] := by unfold Bytes; decide

/-! ## C43 -/

theorem msg_inj (m1 m2 : List ℕ) (h1 : Bytes m1) (h2 : Bytes m2) (hl : m1.length = m2.length)
    (h : msg m1 = msg m2) : m1 = m2 := by
  apply List.ext_getElem hl
  intro k hk1 hk2
  apply Nat.eq_of_testBit_eq
  intro i
  by_cases hi : i < 8
  · have := congrArg (fun p => p.coeff (8 * m1.length - 1 - (8 * k + (7 - i)))) h
    simp only [msg_coeff, ← hl, show 8 * m1.length - 1 - (8 * k + (7 - i)) < 8 * m1.length by omega,
      show 8 * m1.length - 1 - (8 * m1.length - 1 - (8 * k + (7 - i))) = 8 * k + (7 - i) by omega,
      true_and] at this
    unfold bitAt at this
    rw [show (8 * k + (7 - i)) / 8 = k by omega, show 7 - (8 * k + (7 - i)) % 8 = i by omega,
      List.getD_eq_getElem _ _ hk1, List.getD_eq_getElem _ _ hk2] at this
    cases a : (m1[k]).testBit i <;> cases b : (m2[k]).testBit i <;> simp [a, b] at this ⊢
  · rw [Nat.testBit_lt_two_pow (lt_of_lt_of_le (h1 _ (List.getElem_mem hk1))
        (show 256 ≤ 2 ^ i from Nat.pow_le_pow_right (n := 2) (by decide) (show 8 ≤ i by omega))),
      Nat.testBit_lt_two_pow (lt_of_lt_of_le (h2 _ (List.getElem_mem hk2))
        (show 256 ≤ 2 ^ i from Nat.pow_le_pow_right (n := 2) (by decide) (show 8 ≤ i by omega)))]

theorem rmsg_inj (m1 m2 : List ℕ) (h1 : Bytes m1) (h2 : Bytes m2) (hl : m1.length = m2.length)
    (h : rmsg m1 = rmsg m2) : m1 = m2 := by
  apply List.ext_getElem hl
  intro k hk1 hk2
  apply Nat.eq_of_testBit_eq
  intro i
  by_cases hi : i < 8
  · have := congrArg (fun p => p.coeff (8 * m1.length - 1 - (8 * k + i))) h
    simp only [rmsg_coeff, ← hl, show 8 * m1.length - 1 - (8 * k + i) < 8 * m1.length by omega,
      show 8 * m1.length - 1 - (8 * m1.length - 1 - (8 * k + i)) = 8 * k + i by omega,
      true_and] at this
    unfold rbitAt at this
    rw [show (8 * k + i) / 8 = k by omega, show (8 * k + i) % 8 = i by omega,
      List.getD_eq_getElem _ _ hk1, List.getD_eq_getElem _ _ hk2] at this
    cases a : (m1[k]).testBit i <;> cases b : (m2[k]).testBit i <;> simp [a, b] at this ⊢
  · rw [Nat.testBit_lt_two_pow (lt_of_lt_of_le (h1 _ (List.getElem_mem hk1))
        (show 256 ≤ 2 ^ i from Nat.pow_le_pow_right (n := 2) (by decide) (show 8 ≤ i by omega))),
      Nat.testBit_lt_two_pow (lt_of_lt_of_le (h2 _ (List.getElem_mem hk2))
        (show 256 ≤ 2 ^ i from Nat.pow_le_pow_right (n := 2) (by decide) (show 8 ≤ i by omega)))]

/-- Messages with equal remainders that differ in a short window are equal. -/
theorem window (g : (ZMod 2)[X]) (w : ℕ) (hd : g.degree = w) (h0 : g.coeff 0 = 1)
    (m1 m2 : List ℕ) (hb1 : Bytes m1) (hb2 : Bytes m2) (hl : m1.length = m2.length)
    (s : ℕ) (hs : ∀ p, p < s ∨ s + w ≤ p → bitAt m1 p = bitAt m2 p)
    (hdvd : g ∣ X ^ w * (msg m1 - msg m2)) : m1 = m2 := by
  by_contra hne
  have hz : ∀ j, (∀ p, p + 1 + j = 8 * m1.length → p < s ∨ s + w ≤ p) →
      (msg m1 - msg m2).coeff j = 0 := by
    intro j hj
    rw [coeff_sub, msg_coeff, msg_coeff, ← hl]
    by_cases hlt : j < 8 * m1.length
    · rw [hs _ (hj (8 * m1.length - 1 - j) (by omega)), sub_self]
    · simp [hlt]
  refine burst g (msg m1 - msg m2) w (8 * m1.length - s - w) w hd h0 ?_ ?_ ?_ hdvd
  · intro h
    exact hne (msg_inj m1 m2 hb1 hb2 hl (sub_eq_zero.mp h))
  · intro j hj
    exact hz j (fun p hp => by omega)
  · intro j hj
    exact hz j (fun p hp => by omega)

theorem rwindow (g : (ZMod 2)[X]) (w : ℕ) (hd : g.degree = w) (h0 : g.coeff 0 = 1)
    (m1 m2 : List ℕ) (hb1 : Bytes m1) (hb2 : Bytes m2) (hl : m1.length = m2.length)
    (s : ℕ) (hs : ∀ p, p < s ∨ s + w ≤ p → rbitAt m1 p = rbitAt m2 p)
    (hdvd : g ∣ X ^ w * (rmsg m1 - rmsg m2)) : m1 = m2 := by
  by_contra hne
  have hz : ∀ j, (∀ p, p + 1 + j = 8 * m1.length → p < s ∨ s + w ≤ p) →
      (rmsg m1 - rmsg m2).coeff j = 0 := by
    intro j hj
    rw [coeff_sub, rmsg_coeff, rmsg_coeff, ← hl]
    by_cases hlt : j < 8 * m1.length
    · rw [hs _ (hj (8 * m1.length - 1 - j) (by omega)), sub_self]
    · simp [hlt]
  refine burst g (rmsg m1 - rmsg m2) w (8 * m1.length - s - w) w hd h0 ?_ ?_ ?_ hdvd
  · intro h
    exact hne (rmsg_inj m1 m2 hb1 hb2 hl (sub_eq_zero.mp h))
  · intro j hj
    exact hz j (fun p hp => by omega)
  · intro j hj
    exact hz j (fun p hp => by omega)

/-- Equal remainders. -/
theorem mod_dvd (g a b : (ZMod 2)[X]) (hg : g.Monic) (h : a %ₘ g = b %ₘ g) : g ∣ a - b := by
  rw [← modByMonic_eq_zero_iff_dvd hg, sub_modByMonic, h, sub_self]

theorem g7_coeff : g7.coeff 0 = 1 := by simp [g7]
theorem g16_coeff : g16.coeff 0 = 1 := by simp [g16]
theorem g32_coeff : g32.coeff 0 = 1 := by simp [g32]

/-- **C43.** CRC-7 detects every change inside a window of 7 bits. -/
theorem C43_crc7 (m1 m2 : List ℕ) (hb1 : Bytes m1) (hb2 : Bytes m2) (hl : m1.length = m2.length)
    (s : ℕ) (hs : ∀ p, p < s ∨ s + 7 ≤ p → bitAt m1 p = bitAt m2 p) (hne : m1 ≠ m2) :
    crc7 m1 ≠ crc7 m2 := by
  intro h
  obtain ⟨r1, e1, -, p1⟩ := C42_crc7 m1 hb1
  obtain ⟨r2, e2, -, p2⟩ := C42_crc7 m2 hb2
  rw [e1, e2, Option.some.injEq] at h
  subst h
  apply hne
  apply window g7 7 g7_degree g7_coeff m1 m2 hb1 hb2 hl s hs
  rw [mul_sub]
  exact mod_dvd _ _ _ g7_monic (p1.symm.trans p2)

/-- **C43.** CRC-16 detects every change inside a window of 16 bits, from any register. -/
theorem C43_update16 (m1 m2 : List ℕ) (hb1 : Bytes m1) (hb2 : Bytes m2) (hl : m1.length = m2.length)
    (s : ℕ) (hs : ∀ p, p < s ∨ s + 16 ≤ p → bitAt m1 p = bitAt m2 p) (hne : m1 ≠ m2)
    (c : ℕ) (hc : c < 2 ^ 16) : update16 c m1 ≠ update16 c m2 := by
  intro h
  have p1 := (C42_update16 m1 hb1 c hc).2
  have p2 := (C42_update16 m2 hb2 c hc).2
  apply hne
  apply window g16 16 g16_degree g16_coeff m1 m2 hb1 hb2 hl s hs
  have := mod_dvd _ _ _ g16_monic ((p1.symm.trans (congrArg (poly 16) h)).trans p2)
  rw [hl] at this
  rwa [add_sub_add_left_eq_sub, ← mul_sub] at this

/-- **C43.** The same for ZMODEM's. -/
theorem C43_ccitt (m1 m2 : List ℕ) (hb1 : Bytes m1) (hb2 : Bytes m2) (hl : m1.length = m2.length)
    (s : ℕ) (hs : ∀ p, p < s ∨ s + 16 ≤ p → bitAt m1 p = bitAt m2 p) (hne : m1 ≠ m2)
    (c : ℕ) (hc : c < 2 ^ 16) : updateCcitt c m1 ≠ updateCcitt c m2 := by
  rw [updateCcitt_eq m1 hb1, updateCcitt_eq m2 hb2]
  exact C43_update16 m1 m2 hb1 hb2 hl s hs hne c hc

/-- **C43.** CRC-32 detects every change inside a window of 32 bits, from any register. -/
theorem C43_crc32 (m1 m2 : List ℕ) (hb1 : Bytes m1) (hb2 : Bytes m2) (hl : m1.length = m2.length)
    (s : ℕ) (hs : ∀ p, p < s ∨ s + 32 ≤ p → rbitAt m1 p = rbitAt m2 p) (hne : m1 ≠ m2)
    (c : ℕ) (hc : c < 2 ^ 32) : update32 c m1 ≠ update32 c m2 := by
  intro h
  have p1 := (C42_crc32 m1 hb1 c hc).2
  have p2 := (C42_crc32 m2 hb2 c hc).2
  apply hne
  apply rwindow g32 32 g32_degree g32_coeff m1 m2 hb1 hb2 hl s hs
  have := mod_dvd _ _ _ g32_monic ((p1.symm.trans (congrArg (rpoly 32) h)).trans p2)
  rw [hl] at this
  rwa [add_sub_add_left_eq_sub, ← mul_sub] at this

/-- **C43.** A single wrong byte changes the CRC-16 and the CRC-32. -/
theorem C43_byte (pre post : List ℕ) (x y : ℕ) (hpre : Bytes pre) (hpost : Bytes post)
    (hx : x < 256) (hy : y < 256) (hxy : x ≠ y) :
    crc16 (pre ++ x :: post) ≠ crc16 (pre ++ y :: post) ∧
    updateCcitt 0 (pre ++ x :: post) ≠ updateCcitt 0 (pre ++ y :: post) ∧
    update32 (2 ^ 32 - 1) (pre ++ x :: post) ≠ update32 (2 ^ 32 - 1) (pre ++ y :: post) := by
  have hb : ∀ z, z < 256 → Bytes (pre ++ z :: post) := by
    intro z hz b hb
    rcases List.mem_append.mp hb with h | h
    · exact hpre b h
    · rcases List.mem_cons.mp h with h | h
      · exact h ▸ hz
      · exact hpost b h
  have hg : ∀ w, 8 ≤ w → ∀ p, p < 8 * pre.length ∨ 8 * pre.length + w ≤ p →
      (pre ++ x :: post).getD (p / 8) 0 = (pre ++ y :: post).getD (p / 8) 0 := by
    intro w hw p hp
    rcases hp with hp | hp
    · rw [List.getD_append _ _ _ _ (by omega), List.getD_append _ _ _ _ (by omega)]
    · rw [List.getD_append_right _ _ _ _ (by omega), List.getD_append_right _ _ _ _ (by omega)]
      obtain ⟨k, hk⟩ : ∃ k, p / 8 - pre.length = k + 1 := ⟨p / 8 - pre.length - 1, by omega⟩
      rw [hk]
      rfl
  have hne : pre ++ x :: post ≠ pre ++ y :: post := by
    intro h
    have := List.append_cancel_left h
    simp [hxy] at this
  refine ⟨?_, ?_, ?_⟩
  · exact C43_update16 _ _ (hb x hx) (hb y hy) (by simp) (8 * pre.length)
      (fun p hp => by unfold bitAt; rw [hg 16 (by decide) p hp]) hne 0 (by decide)
  · exact C43_ccitt _ _ (hb x hx) (hb y hy) (by simp) (8 * pre.length)
      (fun p hp => by unfold bitAt; rw [hg 16 (by decide) p hp]) hne 0 (by decide)
  · exact C43_crc32 _ _ (hb x hx) (hb y hy) (by simp) (8 * pre.length)
      (fun p hp => by unfold rbitAt; rw [hg 32 (by decide) p hp]) hne _ (by decide)

theorem foldl_xor7 : ∀ i < 256, table7.getD (i ^^^ 0x89) 0 = table7.getD i 0 := by decide +kernel

/-- **C43, limit.** A window of 7 bits is the most CRC-7 can do: changing bits 7, 3 and 0 of any byte
of any message goes unnoticed. -/
theorem C43_crc7_tight (pre post : List ℕ) (x : ℕ) (hpre : Bytes pre) (hpost : Bytes post)
    (hx : x < 256) : crc7 (pre ++ (x ^^^ 0x89) :: post) = crc7 (pre ++ x :: post) := by
  have hx2 : x ^^^ 0x89 < 256 := Nat.xor_lt_two_pow (n := 8) hx (by decide)
  have hb : ∀ z, z < 256 → Bytes (pre ++ z :: post) := by
    intro z hz b hb
    rcases List.mem_append.mp hb with h | h
    · exact hpre b h
    · rcases List.mem_cons.mp h with h | h
      · exact h ▸ hz
      · exact hpost b h
  unfold crc7
  rw [run7_eq _ (hb _ hx2) 0 (by decide), run7_eq _ (hb _ hx) 0 (by decide)]
  rw [List.foldl_append, List.foldl_append, List.foldl_cons, List.foldl_cons]
  have hc : pre.foldl st7 0 < 2 ^ 7 :=
    (run_dvd g7 (poly 7) (poly 8) st7 7 (2 ^ 7) st7_ok pre hpre 0 (by decide)).1
  have : st7 (pre.foldl st7 0) (x ^^^ 0x89) = st7 (pre.foldl st7 0) x := by
    unfold st7
    rw [← Nat.xor_assoc]
    exact foldl_xor7 _ (idx7 _ x hc hx)
  rw [this]

/-- **C43.** The complement stored by `zm_calc_data_crc32` loses nothing. -/
theorem C43_not32 (a b : ℕ) (ha : a < 2 ^ 32) (hb : b < 2 ^ 32) : not32 a = not32 b ↔ a = b := by
  unfold not32
  constructor
  · intro h; omega
  · rintro rfl; rfl

/-- Two messages that differ in a window across a byte border. -/
example : ∀ p, p < 9 ∨ 9 + 16 ≤ p →
    bitAt [0x10, 0x40, 0x00, 0x80, 7] p = bitAt [0x10, 0x00, 0xff, 0x00, 7] p := by
  intro p hp
  by_cases h : p < 40
  · revert hp; revert p; decide
  · unfold bitAt
    rw [List.getD_eq_default _ _ (by simp; omega), List.getD_eq_default _ _ (by simp; omega)]

end Fpm.Crc
