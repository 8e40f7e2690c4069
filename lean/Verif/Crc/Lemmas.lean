import Verif.Crc.Spec
import Mathlib.Tactic.ComputeDegree
import Mathlib.Tactic.Ring
import Mathlib.Tactic.LinearCombination
import Mathlib.Algebra.CharP.Two
import Mathlib.Data.List.GetD
import Mathlib.Algebra.Polynomial.BigOperators

/-!
# Polynomials of numbers
-/
namespace Fpm.Crc
open Polynomial Fpm.Crc.Spec

theorem add_self (p : (ZMod 2)[X]) : p + p = 0 := CharTwo.add_self_eq_zero p

theorem sub_eq (p q : (ZMod 2)[X]) : p - q = p + q := CharTwo.sub_eq_add p q

theorem bit_xor (a b : Bool) (p : (ZMod 2)[X]) :
    (if (a ^^ b) then p else 0) = (if a then p else 0) + (if b then p else 0) := by
  cases a <;> cases b <;> simp [add_self]

theorem poly_xor (w a b : ℕ) : poly w (a ^^^ b) = poly w a + poly w b := by
  simp only [poly, Nat.testBit_xor, bit_xor, Finset.sum_add_distrib]

theorem rpoly_xor (w a b : ℕ) : rpoly w (a ^^^ b) = rpoly w a + rpoly w b := by
  simp only [rpoly, Nat.testBit_xor, bit_xor, Finset.sum_add_distrib]

theorem poly_zero (w : ℕ) : poly w 0 = 0 := by simp [poly]
theorem rpoly_zero (w : ℕ) : rpoly w 0 = 0 := by simp [rpoly]

theorem poly_mod (w n : ℕ) : poly w (n % 2 ^ w) = poly w n := by
  unfold poly
  apply Finset.sum_congr rfl
  intro i hi
  simp only [Finset.mem_range] at hi
  rw [Nat.testBit_mod_two_pow]
  simp [hi]

/-- High and low part. -/
theorem poly_split (k w n : ℕ) : poly (k + w) n = poly k n + X ^ k * poly w (n >>> k) := by
  unfold poly
  rw [Finset.sum_range_add, Finset.mul_sum]
  congr 1
  apply Finset.sum_congr rfl
  intro i _
  rw [Nat.testBit_shiftRight]
  split
  · rw [pow_add]
  · rw [mul_zero]

theorem poly_shl (k w n : ℕ) : poly (k + w) (n <<< k) = X ^ k * poly w n := by
  rw [poly_split, Nat.shiftLeft_shiftRight]
  have : poly k (n <<< k) = 0 := by
    unfold poly
    apply Finset.sum_eq_zero
    intro i hi
    simp only [Finset.mem_range] at hi
    rw [Nat.testBit_shiftLeft]
    simp [Nat.not_le.mpr hi]
  rw [this, zero_add]

/-- Bits beyond the number do not matter. -/
theorem poly_widen (k w n : ℕ) (h : n < 2 ^ w) : poly (w + k) n = poly w n := by
  rw [poly_split, Nat.shiftRight_eq_div_pow, Nat.div_eq_of_lt h, poly_zero, mul_zero, add_zero]

theorem poly_coeff (w n j : ℕ) :
    (poly w n).coeff j = if j < w ∧ n.testBit j = true then 1 else 0 := by
  unfold poly
  rw [finsetSum_coeff]
  have : ∀ i ∈ Finset.range w, (if n.testBit i = true then (X : (ZMod 2)[X]) ^ i else 0).coeff j =
      if i = j then (if n.testBit j = true then 1 else 0) else 0 := by
    intro i _
    by_cases h : i = j
    · subst h
      by_cases hb : n.testBit i = true <;> simp [hb]
    · by_cases hb : n.testBit i = true
      · simp [hb, h, coeff_X_pow, Ne.symm h]
      · simp [hb, h]
  rw [Finset.sum_congr rfl this, Finset.sum_ite_eq']
  by_cases h : j < w <;> simp [h]

theorem rpoly_coeff (w n j : ℕ) :
    (rpoly w n).coeff j = if j < w ∧ n.testBit (w - 1 - j) = true then 1 else 0 := by
  unfold rpoly
  rw [finsetSum_coeff]
  have : ∀ i ∈ Finset.range w,
      (if n.testBit i = true then (X : (ZMod 2)[X]) ^ (w - 1 - i) else 0).coeff j =
      if i = w - 1 - j then (if j < w ∧ n.testBit (w - 1 - j) = true then 1 else 0) else 0 := by
    intro i hi
    simp only [Finset.mem_range] at hi
    by_cases h : i = w - 1 - j
    · rw [if_pos h, ← h]
      by_cases hj : j < w
      · have e : w - 1 - i = j := by omega
        rw [e]
        by_cases hb : n.testBit i = true <;> simp [hb, hj]
      · have e : w - 1 - i ≠ j := by omega
        by_cases hb : n.testBit i = true <;> simp [hb, hj, coeff_X_pow, Ne.symm e]
    · rw [if_neg h]
      have e : w - 1 - i ≠ j := by omega
      by_cases hb : n.testBit i = true <;> simp [hb, coeff_X_pow, Ne.symm e]
  rw [Finset.sum_congr rfl this, Finset.sum_ite_eq']
  by_cases h : j < w
  · have : w - 1 - j ∈ Finset.range w := by simp; omega
    simp [h, this]
  · by_cases h2 : w - 1 - j ∈ Finset.range w <;> simp [h, h2]

theorem poly_degree (w n : ℕ) : (poly w n).degree < w := by
  rw [degree_lt_iff_coeff_zero]
  intro m hm
  rw [poly_coeff, if_neg (by omega)]

theorem rpoly_degree (w n : ℕ) : (rpoly w n).degree < w := by
  rw [degree_lt_iff_coeff_zero]
  intro m hm
  rw [rpoly_coeff, if_neg (by omega)]

/-- A register is determined by its polynomial. -/
theorem poly_inj (w a b : ℕ) (ha : a < 2 ^ w) (hb : b < 2 ^ w) (h : poly w a = poly w b) : a = b := by
  apply Nat.eq_of_testBit_eq
  intro i
  by_cases hi : i < w
  · have := congrArg (fun p => p.coeff i) h
    simp only [poly_coeff, hi, true_and] at this
    cases h1 : a.testBit i <;> cases h2 : b.testBit i <;> simp [h1, h2] at this ⊢
  · rw [Nat.testBit_lt_two_pow (lt_of_lt_of_le ha (Nat.pow_le_pow_right (by decide) (by omega))),
      Nat.testBit_lt_two_pow (lt_of_lt_of_le hb (Nat.pow_le_pow_right (by decide) (by omega)))]

theorem rpoly_inj (w a b : ℕ) (ha : a < 2 ^ w) (hb : b < 2 ^ w) (h : rpoly w a = rpoly w b) :
    a = b := by
  apply Nat.eq_of_testBit_eq
  intro i
  by_cases hi : i < w
  · have := congrArg (fun p => p.coeff (w - 1 - i)) h
    simp only [rpoly_coeff, show w - 1 - i < w by omega, true_and,
      show w - 1 - (w - 1 - i) = i by omega] at this
    cases h1 : a.testBit i <;> cases h2 : b.testBit i <;> simp [h1, h2] at this ⊢
  · rw [Nat.testBit_lt_two_pow (lt_of_lt_of_le ha (Nat.pow_le_pow_right (by decide) (by omega))),
      Nat.testBit_lt_two_pow (lt_of_lt_of_le hb (Nat.pow_le_pow_right (by decide) (by omega)))]

/-! ## One bit of long division -/

/-- Multiply by X and subtract the generator if the degree gets too high. -/
def red (w G r : ℕ) : ℕ := (r <<< 1) ^^^ (if r.testBit (w - 1) then G else 0)

theorem red_lt (w G r : ℕ) (hw : 0 < w) (hr : r < 2 ^ w) (hG : G < 2 ^ (w + 1))
    (hb : G.testBit w = true) : red w G r < 2 ^ w := by
  have h1 : red w G r < 2 ^ (w + 1) := by
    unfold red
    apply Nat.xor_lt_two_pow
    · rw [Nat.shiftLeft_eq, pow_succ]; omega
    · split
      · exact hG
      · positivity
  have h2 : (red w G r).testBit w = false := by
    unfold red
    rw [Nat.testBit_xor, Nat.testBit_shiftLeft]
    cases hr1 : r.testBit (w - 1)
    · simp
    · simp [hb, Nat.succ_le_iff.mpr hw]
  apply Nat.lt_pow_two_of_testBit
  intro i hi
  by_cases e : i = w
  · rw [e]; exact h2
  · exact Nat.testBit_lt_two_pow (lt_of_lt_of_le h1 (Nat.pow_le_pow_right (by decide) (by omega)))

theorem red_dvd (w G r : ℕ) (hw : 0 < w) (hr : r < 2 ^ w) (hG : G < 2 ^ (w + 1))
    (hb : G.testBit w = true) : poly (w + 1) G ∣ poly w (red w G r) - X * poly w r := by
  have h := red_lt w G r hw hr hG hb
  rw [← poly_widen 1 w _ h]
  unfold red
  rw [poly_xor, add_comm w 1, poly_shl, pow_one, add_sub_cancel_left]
  split
  · exact dvd_rfl
  · rw [poly_zero]; exact dvd_zero _

/-- Several bits. -/
def reds (w G : ℕ) : ℕ → ℕ → ℕ
  | 0, r => r
  | n + 1, r => reds w G n (red w G r)

theorem reds_dvd (w G n r : ℕ) (hw : 0 < w) (hr : r < 2 ^ w) (hG : G < 2 ^ (w + 1))
    (hb : G.testBit w = true) :
    poly (w + 1) G ∣ poly w (reds w G n r) - X ^ n * poly w r := by
  induction n generalizing r with
  | zero => simp [reds]
  | succ n ih =>
    rw [reds]
    have h1 := ih (red w G r) (red_lt w G r hw hr hG hb)
    have h2 := red_dvd w G r hw hr hG hb
    have : poly w (reds w G n (red w G r)) - X ^ (n + 1) * poly w r =
        (poly w (reds w G n (red w G r)) - X ^ n * poly w (red w G r)) +
        X ^ n * (poly w (red w G r) - X * poly w r) := by ring
    rw [this]
    exact dvd_add h1 (Dvd.dvd.mul_left h2 _)

/-- The same in reflected form. -/
def rred (G r : ℕ) : ℕ := (r >>> 1) ^^^ (if r.testBit 0 then G else 0)

theorem rred_lt (w G r : ℕ) (hr : r < 2 ^ w) (hG : G < 2 ^ w) : rred G r < 2 ^ w := by
  unfold rred
  apply Nat.xor_lt_two_pow
  · rw [Nat.shiftRight_eq_div_pow]; omega
  · split
    · exact hG
    · positivity

theorem rpoly_shr (w r : ℕ) (hr : r < 2 ^ w) :
    X * rpoly w r = (if r.testBit 0 then X ^ w else 0) + rpoly w (r >>> 1) := by
  cases w with
  | zero =>
    have : r = 0 := by simpa using hr
    simp [this, rpoly]
  | succ w =>
    unfold rpoly
    rw [Finset.sum_range_succ', Finset.sum_range_succ (fun i => if (r >>> 1).testBit i = true then
      (X : (ZMod 2)[X]) ^ (w + 1 - 1 - i) else 0)]
    have h0 : (r >>> 1).testBit w = false := by
      rw [Nat.testBit_shiftRight, add_comm]; exact Nat.testBit_lt_two_pow hr
    rw [h0, mul_add, Finset.mul_sum]
    have h1 : X * (if r.testBit 0 = true then (X : (ZMod 2)[X]) ^ (w + 1 - 1 - 0) else 0) =
        if r.testBit 0 = true then X ^ (w + 1) else 0 := by
      split
      · rw [← pow_succ']; congr 1
      · simp
    rw [h1, add_comm]
    congr 1
    simp only [Bool.false_eq_true, if_false, add_zero]
    apply Finset.sum_congr rfl
    intro i hi
    simp only [Finset.mem_range] at hi
    rw [Nat.testBit_shiftRight, add_comm 1 i]
    split
    · rw [← pow_succ']; congr 1; omega
    · simp

theorem rred_dvd (w G r : ℕ) (hr : r < 2 ^ w) :
    X ^ w + rpoly w G ∣ rpoly w (rred G r) - X * rpoly w r := by
  unfold rred
  rw [rpoly_shr w r hr, rpoly_xor, sub_eq]
  split
  · have : rpoly w (r >>> 1) + rpoly w G + (X ^ w + rpoly w (r >>> 1)) =
        (X ^ w + rpoly w G) + (rpoly w (r >>> 1) + rpoly w (r >>> 1)) := by ring
    rw [this, add_self, add_zero]
  · rw [rpoly_zero, add_zero, zero_add, add_self]; exact dvd_zero _

/-- Several bits. -/
def rreds (G : ℕ) : ℕ → ℕ → ℕ
  | 0, r => r
  | n + 1, r => rreds G n (rred G r)

theorem rreds_dvd (w G n r : ℕ) (hr : r < 2 ^ w) (hG : G < 2 ^ w) :
    X ^ w + rpoly w G ∣ rpoly w (rreds G n r) - X ^ n * rpoly w r := by
  induction n generalizing r with
  | zero => simp [rreds]
  | succ n ih =>
    rw [rreds]
    have h1 := ih (rred G r) (rred_lt w G r hr hG)
    have h2 := rred_dvd w G r hr
    have : rpoly w (rreds G n (rred G r)) - X ^ (n + 1) * rpoly w r =
        (rpoly w (rreds G n (rred G r)) - X ^ n * rpoly w (rred G r)) +
        X ^ n * (rpoly w (rred G r) - X * rpoly w r) := by ring
    rw [this]
    exact dvd_add h1 (Dvd.dvd.mul_left h2 _)

/-! ## Messages -/

theorem foldl_from (B : ℕ → (ZMod 2)[X]) (p : (ZMod 2)[X]) (m : List ℕ) :
    m.foldl (fun p b => X ^ 8 * p + B b) p =
      X ^ (8 * m.length) * p + m.foldl (fun p b => X ^ 8 * p + B b) 0 := by
  induction m generalizing p with
  | nil => simp
  | cons b m ih =>
    rw [List.foldl_cons, ih, List.foldl_cons, ih (X ^ 8 * 0 + B b), List.length_cons]
    ring

/-- From the property of one step to that of a whole run. -/
theorem run_dvd (g : (ZMod 2)[X]) (P B : ℕ → (ZMod 2)[X]) (st : ℕ → ℕ → ℕ) (w N : ℕ)
    (h : ∀ c b, c < N → b < 256 →
      st c b < N ∧ g ∣ P (st c b) - (X ^ 8 * P c + X ^ w * B b))
    (m : List ℕ) (hm : Bytes m) (c : ℕ) (hc : c < N) :
    m.foldl st c < N ∧ g ∣ P (m.foldl st c) -
      (X ^ (8 * m.length) * P c + X ^ w * m.foldl (fun p b => X ^ 8 * p + B b) 0) := by
  induction m generalizing c with
  | nil => simp [hc]
  | cons b m ih =>
    obtain ⟨h1, h2⟩ := h c b hc (hm b (by simp))
    obtain ⟨h3, h4⟩ := ih (fun x hx => hm x (by simp [hx])) (st c b) h1
    refine ⟨h3, ?_⟩
    rw [List.foldl_cons, List.foldl_cons, foldl_from B (X ^ 8 * 0 + B b), List.length_cons]
    have e : P (m.foldl st (st c b)) - (X ^ (8 * (m.length + 1)) * P c + X ^ w *
        (X ^ (8 * m.length) * (X ^ 8 * 0 + B b) + m.foldl (fun p b => X ^ 8 * p + B b) 0)) =
        (P (m.foldl st (st c b)) - (X ^ (8 * m.length) * P (st c b) +
          X ^ w * m.foldl (fun p b => X ^ 8 * p + B b) 0)) +
        X ^ (8 * m.length) * (P (st c b) - (X ^ 8 * P c + X ^ w * B b)) := by ring
    rw [e]
    exact dvd_add h4 (Dvd.dvd.mul_left h2 _)

/-- A polynomial of low degree congruent to `q` is the remainder of `q`. -/
theorem eq_mod (g p q : (ZMod 2)[X]) (w : ℕ) (hg : g.Monic) (hd : g.degree = w)
    (hp : p.degree < w) (h : g ∣ p - q) : p = q %ₘ g := by
  rw [← modByMonic_eq_of_dvd_sub hg h, (modByMonic_eq_self_iff hg).mpr (by rw [hd]; exact hp)]

theorem g7_monic : g7.Monic := by unfold g7; monicity!
theorem g16_monic : g16.Monic := by unfold g16; monicity!
theorem g32_monic : g32.Monic := by unfold g32; monicity!
theorem g7_degree : g7.degree = (7 : ℕ) := by unfold g7; compute_degree!
theorem g16_degree : g16.degree = (16 : ℕ) := by unfold g16; compute_degree!
theorem g32_degree : g32.degree = (32 : ℕ) := by unfold g32; compute_degree!

theorem g7_poly : poly 8 0x89 = g7 := by
  simp [poly, g7, Finset.sum_range_succ, Nat.testBit]; ring
theorem g16_poly : poly 17 0x11021 = g16 := by
  simp [poly, g16, Finset.sum_range_succ, Nat.testBit]; ring
theorem g32_poly : X ^ 32 + rpoly 32 0xedb88320 = g32 := by
  simp [rpoly, g32, Finset.sum_range_succ, Nat.testBit]; ring

/-! ## Coefficients of messages -/

theorem msg_append (m : List ℕ) (b : ℕ) : msg (m ++ [b]) = X ^ 8 * msg m + poly 8 b := by
  simp [msg]

theorem rmsg_append (m : List ℕ) (b : ℕ) : rmsg (m ++ [b]) = X ^ 8 * rmsg m + rpoly 8 b := by
  simp [rmsg]

theorem msg_coeff (m : List ℕ) (j : ℕ) : (msg m).coeff j =
    if j < 8 * m.length ∧ bitAt m (8 * m.length - 1 - j) = true then 1 else 0 := by
  induction m using List.reverseRecOn generalizing j with
  | nil => simp [msg]
  | append_singleton m b ih =>
    rw [msg_append, coeff_add, coeff_X_pow_mul', poly_coeff, List.length_append, List.length_singleton]
    by_cases hj : 8 ≤ j
    · rw [if_pos hj, ih, if_neg (show ¬ (j < 8 ∧ b.testBit j = true) by omega), add_zero]
      have e : 8 * (m.length + 1) - 1 - j = 8 * m.length - 1 - (j - 8) := by omega
      by_cases hl : j - 8 < 8 * m.length
      · have hlt : (8 * m.length - 1 - (j - 8)) / 8 < m.length := by omega
        have hb : bitAt (m ++ [b]) (8 * (m.length + 1) - 1 - j) = bitAt m (8 * m.length - 1 - (j - 8)) := by
          unfold bitAt
          rw [e, List.getD_append _ _ _ _ hlt]
        rw [hb]
        simp [hl, show j < 8 * (m.length + 1) by omega]
      · simp [hl, show ¬ j < 8 * (m.length + 1) by omega]
    · rw [if_neg hj, zero_add]
      have hb : bitAt (m ++ [b]) (8 * (m.length + 1) - 1 - j) = b.testBit j := by
        unfold bitAt
        rw [List.getD_append_right _ _ _ _ (by omega)]
        have : (8 * (m.length + 1) - 1 - j) / 8 - m.length = 0 := by omega
        rw [this, show 7 - (8 * (m.length + 1) - 1 - j) % 8 = j by omega]
        simp
      rw [hb]
      simp [show j < 8 by omega, show j < 8 * (m.length + 1) by omega]

theorem rmsg_coeff (m : List ℕ) (j : ℕ) : (rmsg m).coeff j =
    if j < 8 * m.length ∧ rbitAt m (8 * m.length - 1 - j) = true then 1 else 0 := by
  induction m using List.reverseRecOn generalizing j with
  | nil => simp [rmsg]
  | append_singleton m b ih =>
    rw [rmsg_append, coeff_add, coeff_X_pow_mul', rpoly_coeff, List.length_append,
      List.length_singleton]
    by_cases hj : 8 ≤ j
    · rw [if_pos hj, ih, if_neg (show ¬ (j < 8 ∧ b.testBit (8 - 1 - j) = true) by omega), add_zero]
      have e : 8 * (m.length + 1) - 1 - j = 8 * m.length - 1 - (j - 8) := by omega
      by_cases hl : j - 8 < 8 * m.length
      · have hlt : (8 * m.length - 1 - (j - 8)) / 8 < m.length := by omega
        have hb : rbitAt (m ++ [b]) (8 * (m.length + 1) - 1 - j) =
            rbitAt m (8 * m.length - 1 - (j - 8)) := by
          unfold rbitAt
          rw [e, List.getD_append _ _ _ _ hlt]
        rw [hb]
        simp [hl, show j < 8 * (m.length + 1) by omega]
      · simp [hl, show ¬ j < 8 * (m.length + 1) by omega]
    · rw [if_neg hj, zero_add]
      have hb : rbitAt (m ++ [b]) (8 * (m.length + 1) - 1 - j) = b.testBit (8 - 1 - j) := by
        unfold rbitAt
        rw [List.getD_append_right _ _ _ _ (by omega)]
        have : (8 * (m.length + 1) - 1 - j) / 8 - m.length = 0 := by omega
        rw [this, show (8 * (m.length + 1) - 1 - j) % 8 = 8 - 1 - j by omega]
        simp
      rw [hb]
      simp [show j < 8 by omega, show j < 8 * (m.length + 1) by omega]

/-- The generator does not divide a short burst. -/
theorem burst (g d : (ZMod 2)[X]) (w lo k : ℕ) (hd : g.degree = w)
    (h0 : g.coeff 0 = 1) (hne : d ≠ 0) (hlo : ∀ j < lo, d.coeff j = 0)
    (hhi : ∀ j, lo + w ≤ j → d.coeff j = 0) : ¬ g ∣ X ^ k * d := by
  intro hdvd
  have hcop : ∀ n, IsCoprime g (X ^ n) := by
    intro n
    apply IsCoprime.pow_right
    have : X ∣ g - 1 := by
      rw [X_dvd_iff]; simp [h0]
    obtain ⟨q, hq⟩ := this
    refine ⟨1, -q, ?_⟩
    linear_combination hq
  have h1 : g ∣ d := (hcop k).dvd_of_dvd_mul_left hdvd
  obtain ⟨e, rfl⟩ : X ^ lo ∣ d := X_pow_dvd_iff.mpr hlo
  have h2 : g ∣ e := (hcop lo).dvd_of_dvd_mul_left h1
  have he : e ≠ 0 := by rintro rfl; simp at hne
  have hde : e.degree < w := by
    rw [degree_lt_iff_coeff_zero]
    intro m hm
    have := hhi (m + lo) (by omega)
    rwa [coeff_X_pow_mul] at this
  have := degree_le_of_dvd h2 he
  rw [hd] at this
  exact absurd hde (not_lt.mpr this)

end Fpm.Crc
