import Verif.Crc.Model
import Verif.Crc.Lemmas

/-!
# One byte of each checksum
-/
namespace Fpm.Crc
open Polynomial Fpm.Crc.Spec

/-! ## CRC-16 -/

theorem table16_eq : ∀ i < 256, table16.getD i 0 = reds 16 0x11021 8 (i <<< 8) := by decide +kernel

theorem tables_agree : tableCcitt = table16 := by decide +kernel

theorem table16_dvd (i : ℕ) (hi : i < 256) :
    g16 ∣ poly 16 (table16.getD i 0) - X ^ 16 * poly 8 i := by
  have h := reds_dvd 16 0x11021 8 (i <<< 8) (by decide) (by rw [Nat.shiftLeft_eq]; omega)
    (by decide) (by decide)
  rw [g16_poly, ← table16_eq i hi, poly_shl 8 8] at h
  have e : X ^ 8 * (X ^ 8 * poly 8 i) = X ^ 16 * poly 8 i := by ring
  rwa [e] at h

theorem poly_byte (n : ℕ) : poly 8 (n &&& 0xff) = poly 8 n := by
  have := poly_mod 8 n
  rwa [← Nat.and_two_pow_sub_one_eq_mod] at this

theorem step16_ok (c b : ℕ) : step16 c b < 2 ^ 16 ∧
    g16 ∣ poly 16 (step16 c b) - (X ^ 8 * poly 16 c + X ^ 16 * poly 8 b) := by
  refine ⟨Nat.mod_lt _ (by decide), ?_⟩
  unfold step16
  have hi : ((c >>> 8) ^^^ b) &&& 0xff < 256 :=
    lt_of_le_of_lt Nat.and_le_right (by decide)
  have h := table16_dvd _ hi
  rw [poly_byte, poly_xor] at h
  rw [poly_mod, poly_xor, poly_shl 8 8, poly_split 8 8 c]
  have e : X ^ 8 * poly 8 c + poly 16 (table16.getD (((c >>> 8) ^^^ b) &&& 0xff) 0) -
      (X ^ 8 * (poly 8 c + X ^ 8 * poly 8 (c >>> 8)) + X ^ 16 * poly 8 b) =
      poly 16 (table16.getD (((c >>> 8) ^^^ b) &&& 0xff) 0) -
        X ^ 16 * (poly 8 (c >>> 8) + poly 8 b) := by ring
  rw [e]
  exact h

theorem stepCcitt_eq (c b : ℕ) (hb : b < 256) : stepCcitt b c = step16 c b := by
  unfold stepCcitt step16
  rw [tables_agree, Nat.and_xor_distrib_right]
  have : b &&& 0xff = b := by
    have := Nat.and_two_pow_sub_one_eq_mod b 8
    rw [show (2 : ℕ) ^ 8 - 1 = 0xff by decide] at this
    rw [this]; exact Nat.mod_eq_of_lt hb
  rw [this, Nat.xor_comm]

theorem updateCcitt_eq (m : List ℕ) (hm : Bytes m) (c : ℕ) : updateCcitt c m = update16 c m := by
  unfold updateCcitt update16
  induction m generalizing c with
  | nil => rfl
  | cons b m ih =>
    rw [List.foldl_cons, List.foldl_cons, stepCcitt_eq c b (hm b (by simp)),
      ih (fun x hx => hm x (by simp [hx]))]

/-! ## CRC-7 -/

theorem table7_eq : ∀ i < 256, table7[i]? =
    some (reds 7 0x89 7 (red 7 0x89 (i >>> 1) ^^^ (i % 2))) := by decide +kernel

theorem table7_lt : ∀ i < 256, table7.getD i 0 < 2 ^ 7 := by decide +kernel

theorem table7_dvd (i : ℕ) (hi : i < 256) :
    g7 ∣ poly 7 (table7.getD i 0) - X ^ 7 * poly 8 i := by
  have hs : i >>> 1 < 2 ^ 7 := by rw [Nat.shiftRight_eq_div_pow]; omega
  have hr : red 7 0x89 (i >>> 1) < 2 ^ 7 := red_lt 7 0x89 _ (by decide) hs (by decide) (by decide)
  have h1 := red_dvd 7 0x89 (i >>> 1) (by decide) hs (by decide) (by decide)
  have h2 := reds_dvd 7 0x89 7 (red 7 0x89 (i >>> 1) ^^^ (i % 2)) (by decide)
    (Nat.xor_lt_two_pow hr (by omega)) (by decide) (by decide)
  rw [g7_poly] at h1 h2
  have e : table7.getD i 0 = reds 7 0x89 7 (red 7 0x89 (i >>> 1) ^^^ (i % 2)) := by
    rw [List.getD_eq_getElem?_getD, table7_eq i hi]; rfl
  have e1 : poly 7 (i % 2) = poly 1 i := by
    rw [poly_widen 6 1 (i % 2) (by omega)]
    exact poly_mod 1 i
  rw [← e, poly_xor, e1] at h2
  have e2 : poly 8 i = poly 1 i + X ^ 1 * poly 7 (i >>> 1) := poly_split 1 7 i
  rw [e2]
  have e3 : poly 7 (table7.getD i 0) - X ^ 7 * (poly 1 i + X ^ 1 * poly 7 (i >>> 1)) =
      (poly 7 (table7.getD i 0) - X ^ 7 * (poly 7 (red 7 0x89 (i >>> 1)) + poly 1 i)) +
      X ^ 7 * (poly 7 (red 7 0x89 (i >>> 1)) - X * poly 7 (i >>> 1)) := by ring
  rw [e3]
  exact dvd_add h2 (Dvd.dvd.mul_left h1 _)

/-- The step when the index is inside the table. -/
def st7 (c b : ℕ) : ℕ := table7.getD ((c <<< 1) ^^^ b) 0

theorem idx7 (c b : ℕ) (hc : c < 2 ^ 7) (hb : b < 256) : (c <<< 1) ^^^ b < 256 :=
  Nat.xor_lt_two_pow (n := 8) (by rw [Nat.shiftLeft_eq]; omega) hb

theorem step7_eq (c b : ℕ) (hc : c < 2 ^ 7) (hb : b < 256) : step7 c b = some (st7 c b) := by
  unfold step7 st7
  have := table7_eq _ (idx7 c b hc hb)
  rw [List.getD_eq_getElem?_getD, this]
  rfl

theorem st7_ok (c b : ℕ) (hc : c < 2 ^ 7) (hb : b < 256) : st7 c b < 2 ^ 7 ∧
    g7 ∣ poly 7 (st7 c b) - (X ^ 8 * poly 7 c + X ^ 7 * poly 8 b) := by
  refine ⟨table7_lt _ (idx7 c b hc hb), ?_⟩
  have h := table7_dvd _ (idx7 c b hc hb)
  have e1 : poly 8 (c <<< 1) = X ^ 1 * poly 7 c := poly_shl 1 7 c
  rw [poly_xor, e1] at h
  have e : X ^ 8 * poly 7 c + X ^ 7 * poly 8 b = X ^ 7 * (X ^ 1 * poly 7 c + poly 8 b) := by ring
  rw [e]
  exact h

theorem run7_eq (m : List ℕ) (hm : Bytes m) (c : ℕ) (hc : c < 2 ^ 7) :
    run7 c m = some (m.foldl st7 c) := by
  induction m generalizing c with
  | nil => rfl
  | cons b m ih =>
    rw [run7, step7_eq c b hc (hm b (by simp)), List.foldl_cons]
    exact ih (fun x hx => hm x (by simp [hx])) _ (st7_ok c b hc (hm b (by simp))).1

/-! ## CRC-32 -/

theorem table32_eq : ∀ i < 256, table32.getD i 0 = rreds 0xedb88320 8 i := by decide +kernel

theorem table32_lt : ∀ i < 256, table32.getD i 0 < 2 ^ 32 := by decide +kernel

theorem rpoly_succ (k c : ℕ) :
    rpoly (k + 1) c = X * rpoly k c + (if c.testBit k then 1 else 0) := by
  unfold rpoly
  rw [Finset.sum_range_succ, Finset.mul_sum]
  congr 1
  · apply Finset.sum_congr rfl
    intro i hi
    simp only [Finset.mem_range] at hi
    split
    · rw [← pow_succ']; congr 1; omega
    · simp
  · simp

theorem rpoly_split (k w c : ℕ) (hc : c < 2 ^ w) :
    X ^ k * rpoly w c = X ^ w * rpoly k c + rpoly w (c >>> k) := by
  induction k with
  | zero => simp [rpoly]
  | succ k ih =>
    have hk : c >>> k < 2 ^ w := by
      rw [Nat.shiftRight_eq_div_pow]; exact lt_of_le_of_lt (Nat.div_le_self _ _) hc
    have h := rpoly_shr w (c >>> k) hk
    rw [pow_succ', mul_assoc, ih, mul_add, h, rpoly_succ, Nat.testBit_shiftRight, add_zero,
      ← Nat.shiftRight_add]
    split <;> ring

theorem rpoly_byte (n : ℕ) : rpoly 8 (n &&& 0xff) = rpoly 8 n := by
  unfold rpoly
  apply Finset.sum_congr rfl
  intro i hi
  simp only [Finset.mem_range] at hi
  have : (n &&& 0xff).testBit i = n.testBit i := by
    rw [show n &&& 0xff = n % 2 ^ 8 from Nat.and_two_pow_sub_one_eq_mod n 8,
      Nat.testBit_mod_two_pow]
    simp [hi]
  rw [this]

theorem table32_dvd (i : ℕ) (hi : i < 256) :
    g32 ∣ rpoly 32 (table32.getD i 0) - X ^ 32 * rpoly 8 i := by
  have h := rreds_dvd 32 0xedb88320 8 i (lt_trans hi (by decide)) (by decide)
  rw [g32_poly, ← table32_eq i hi, rpoly_split 8 32 i (lt_trans hi (by decide))] at h
  have e : i >>> 8 = 0 := by rw [Nat.shiftRight_eq_div_pow]; omega
  rwa [e, rpoly_zero, add_zero] at h

theorem step32_ok (c b : ℕ) (hc : c < 2 ^ 32) : step32 b c < 2 ^ 32 ∧
    g32 ∣ rpoly 32 (step32 b c) - (X ^ 8 * rpoly 32 c + X ^ 32 * rpoly 8 b) := by
  have hi : (c ^^^ b) &&& 0xff < 256 := lt_of_le_of_lt Nat.and_le_right (by decide)
  unfold step32
  constructor
  · apply Nat.xor_lt_two_pow (table32_lt _ hi)
    rw [Nat.shiftRight_eq_div_pow]
    exact lt_of_le_of_lt (Nat.div_le_self _ _) hc
  · have h := table32_dvd _ hi
    rw [rpoly_byte, rpoly_xor] at h
    rw [rpoly_xor, rpoly_split 8 32 c hc]
    have e : rpoly 32 (table32.getD ((c ^^^ b) &&& 0xff) 0) + rpoly 32 (c >>> 8) -
        (X ^ 32 * rpoly 8 c + rpoly 32 (c >>> 8) + X ^ 32 * rpoly 8 b) =
        rpoly 32 (table32.getD ((c ^^^ b) &&& 0xff) 0) - X ^ 32 * (rpoly 8 c + rpoly 8 b) := by ring
    rw [e]
    exact h

end Fpm.Crc
