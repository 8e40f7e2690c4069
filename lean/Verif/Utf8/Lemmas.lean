import Verif.Utf8.Model
import Verif.Utf8.Spec
/-! # Helper lemmas: bit masks as arithmetic -/
namespace Fpm
open Spec

theorem and_3f (x : Nat) : x &&& 0x3f = x % 64 := Nat.and_two_pow_sub_one_eq_mod x 6
theorem and_1f (x : Nat) : x &&& 0x1f = x % 32 := Nat.and_two_pow_sub_one_eq_mod x 5
theorem and_0f (x : Nat) : x &&& 0x0f = x % 16 := Nat.and_two_pow_sub_one_eq_mod x 4
theorem shr6 (x : Nat) : x >>> 6 = x / 64 := Nat.shiftRight_eq_div_pow x 6
theorem shr12 (x : Nat) : x >>> 12 = x / 4096 := Nat.shiftRight_eq_div_pow x 12

theorem or_80 : ∀ x < 64, x ||| 0x80 = 128 + x := by decide
theorem or_c0 : ∀ x < 32, x ||| 0xc0 = 192 + x := by decide
theorem or_e0 : ∀ x < 16, x ||| 0xe0 = 224 + x := by decide

theorem shl6_or (a b : Nat) (h : b < 64) : a <<< 6 ||| b = a * 64 + b := by
  rw [← Nat.shiftLeft_add_eq_or_of_lt (i := 6) h, Nat.shiftLeft_eq]
theorem shl12_or (a b : Nat) (h : b < 4096) : a <<< 12 ||| b = a * 4096 + b := by
  rw [← Nat.shiftLeft_add_eq_or_of_lt (i := 12) h, Nat.shiftLeft_eq]

theorem join3 (a b c : Nat) (hb : b < 64) (hc : c < 64) :
    a <<< 12 ||| b <<< 6 ||| c = a * 4096 + b * 64 + c := by
  rw [Nat.or_assoc, shl6_or _ _ hc, shl12_or _ _ (by omega)]; omega

theorem putwch_eq (c : Nat) (h : c < 65536) : putwch c = enc c := by
  unfold putwch enc u8
  simp only [and_3f, shr6, shr12]
  split
  · simp; omega
  · split
    · rw [or_c0 _ (by omega), or_80 _ (by omega)]
      simp only [List.cons.injEq, and_true]; omega
    · rw [or_e0 _ (by omega), or_80 _ (by omega), or_80 _ (by omega)]
      simp only [List.cons.injEq, and_true]; omega

theorem test80_lo : ∀ x < 128, x &&& 0x80 = 0 := by decide
theorem test80_hi : ∀ x < 128, (128 + x) &&& 0x80 ≠ 0 := by decide
theorem test20_c : ∀ x < 32, (192 + x) &&& 0x20 = 0 := by decide
theorem test20_e : ∀ x < 16, (224 + x) &&& 0x20 ≠ 0 := by decide
theorem test80_c : ∀ x < 32, (192 + x) &&& 0x80 ≠ 0 := by decide
theorem test80_e : ∀ x < 16, (224 + x) &&& 0x80 ≠ 0 := by decide
theorem testc0_lo : ∀ x < 128, x &&& 0xc0 ≠ 0x80 := by decide
theorem testc0_c : ∀ x < 32, (192 + x) &&& 0xc0 ≠ 0x80 := by decide
theorem testc0_e : ∀ x < 16, (224 + x) &&& 0xc0 ≠ 0x80 := by decide
theorem testc0_t : ∀ x < 64, (128 + x) &&& 0xc0 = 0x80 := by decide

theorem dec2 (a b : Nat) (ha : a < 32) (hb : b < 64) :
    u16 (((192 + a) &&& 0x1f) <<< 6 ||| ((128 + b) &&& 0x3f)) = a * 64 + b := by
  rw [and_1f, and_3f, shl6_or _ _ (by omega)]; unfold u16; omega

theorem dec3 (a b c : Nat) (ha : a < 16) (hb : b < 64) (hc : c < 64) :
    u16 (((224 + a) &&& 0x0f) <<< 12 ||| ((128 + b) &&& 0x3f) <<< 6 ||| ((128 + c) &&& 0x3f))
      = a * 4096 + b * 64 + c := by
  rw [and_0f, and_3f, and_3f, join3 _ _ _ (by omega) (by omega)]; unfold u16; omega

theorem getwch_enc (c : Nat) (h : c < 65536) (rest : List Nat) :
    getwch (enc c ++ rest) = some (c, rest) := by
  unfold enc
  split
  · rename_i h1; simp [getwch, test80_lo c h1]
  · split
    · rename_i h1 h2
      simp only [List.cons_append, List.nil_append, getwch]
      rw [if_neg (test80_c _ (by omega)), if_pos (test20_c _ (by omega)), dec2 _ _ (by omega) (by omega)]
      congr 2; omega
    · rename_i h1 h2
      simp only [List.cons_append, List.nil_append, getwch]
      rw [if_neg (test80_e _ (by omega)), if_neg (test20_e _ (by omega)),
        dec3 _ _ _ (by omega) (by omega) (by omega)]
      congr 2; omega

theorem puts_enc (c : Nat) (h0 : 0 < c) (h : c < 65536) (rest : List Nat) :
    puts (enc c ++ rest) = (puts rest).map (enc c ++ ·) := by
  unfold enc
  split
  · rename_i h1
    simp only [List.cons_append, List.nil_append]
    rw [puts.eq_def]; dsimp only
    rw [if_neg (by omega), if_pos (test80_lo c h1), putwch_eq c h]; simp [enc, h1]
  · split
    · rename_i h1 h2
      simp only [List.cons_append, List.nil_append]
      rw [puts.eq_def]; dsimp only
      rw [if_neg (by omega), if_neg (test80_c _ (by omega)), if_pos (test20_c _ (by omega)),
        dec2 _ _ (by omega) (by omega), show c / 64 * 64 + c % 64 = c by omega, putwch_eq c h]
      simp [enc, h1, h2]
    · rename_i h1 h2
      simp only [List.cons_append, List.nil_append]
      rw [puts.eq_def]; dsimp only
      rw [if_neg (by omega), if_neg (test80_e _ (by omega)), if_neg (test20_e _ (by omega)),
        dec3 _ _ _ (by omega) (by omega) (by omega),
        show c / 4096 * 4096 + c / 64 % 64 * 64 + c % 64 = c by omega, putwch_eq c h]
      simp [enc, h1, h2]

theorem utf8len_enc (c : Nat) (h0 : 0 < c) (h : c < 65536) (rest : List Nat) :
    utf8len (enc c ++ rest) = (utf8len rest).map (· + 1) := by
  unfold enc
  split
  · rename_i h1
    simp [utf8len, testc0_lo c h1, show c ≠ 0 by omega]
  · split
    · rename_i h1 h2
      simp only [List.cons_append, List.nil_append, utf8len, testc0_t (c % 64) (by omega), if_neg (show ¬ (192 + c / 64 = 0) by omega),
        if_neg (show ¬ (128 + c % 64 = 0) by omega)]
      cases utf8len rest <;> simp [testc0_c (c / 64) (by omega)]
    · rename_i h1 h2
      simp only [List.cons_append, List.nil_append, utf8len, testc0_t (c % 64) (by omega), testc0_t (c / 64 % 64) (by omega),
        if_neg (show ¬ (224 + c / 4096 = 0) by omega), if_neg (show ¬ (128 + c / 64 % 64 = 0) by omega),
        if_neg (show ¬ (128 + c % 64 = 0) by omega)]
      cases utf8len rest <;> simp [testc0_e (c / 4096) (by omega)]

end Fpm
