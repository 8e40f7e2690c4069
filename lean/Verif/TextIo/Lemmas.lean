import Verif.Utf8.Lemmas
import Verif.TextIo.Model
import Verif.TextIo.Spec

/-! # Facts about UTF-8 bytes and the conversion functions -/
namespace Fpm.TextIo
open Fpm.TextIo.Spec

theorem and_07 (x : Nat) : x &&& 0x07 = x % 8 := Nat.and_two_pow_sub_one_eq_mod x 3
theorem and_3ff (x : Nat) : x &&& 0x3FF = x % 1024 := Nat.and_two_pow_sub_one_eq_mod x 10
theorem and_ffff (x : Nat) : x &&& 0xFFFF = x % 65536 := Nat.and_two_pow_sub_one_eq_mod x 16
theorem shr18 (x : Nat) : x >>> 18 = x / 262144 := Nat.shiftRight_eq_div_pow x 18
theorem shr16 (x : Nat) : x >>> 16 = x / 65536 := Nat.shiftRight_eq_div_pow x 16
theorem shr8 (x : Nat) : x >>> 8 = x / 256 := Nat.shiftRight_eq_div_pow x 8
theorem shr2 (x : Nat) : x >>> 2 = x / 4 := Nat.shiftRight_eq_div_pow x 2
theorem shl6 (x : Nat) : x <<< 6 = x * 64 := Nat.shiftLeft_eq x 6

theorem or80' (x : Nat) (h : x < 64) : 0x80 ||| x = 128 + x := by
  rw [Nat.or_comm]; exact or_80 x h
theorem orc0' (x : Nat) (h : x < 32) : 0xC0 ||| x = 192 + x := by
  rw [Nat.or_comm]; exact or_c0 x h
theorem ore0' (x : Nat) (h : x < 16) : 0xE0 ||| x = 224 + x := by
  rw [Nat.or_comm]; exact or_e0 x h
theorem orf0' : ∀ x < 8, 0xF0 ||| x = 240 + x := by decide

theorem is80 : ∀ b < 256, (b &&& 0x80 = 0 ↔ b < 128) := by decide +kernel
theorem isTrail : ∀ b < 256, (b &&& 0xC0 = 0x80 ↔ 128 ≤ b ∧ b < 192) := by decide +kernel
theorem isLead2 : ∀ b < 256, (b &&& 0xE0 = 0xC0 ↔ 192 ≤ b ∧ b < 224) := by decide +kernel
theorem isLead3 : ∀ b < 256, (b &&& 0xF0 = 0xE0 ↔ 224 ≤ b ∧ b < 240) := by decide +kernel
theorem isLead4 : ∀ b < 256, (b &&& 0xF8 = 0xF0 ↔ 240 ≤ b ∧ b < 248) := by decide +kernel

theorem leadByte_2 (a : Nat) (h : a < 32) : leadByte (192 + a) = some (a, 1) := by
  unfold leadByte
  rw [if_pos ((isLead2 _ (by omega)).mpr (by omega)), and_1f]
  have : (192 + a) % 32 = a := by omega
  rw [this]

theorem leadByte_3 (a : Nat) (h : a < 16) : leadByte (224 + a) = some (a, 2) := by
  unfold leadByte
  rw [if_neg (by rw [isLead2 _ (by omega)]; omega), if_pos ((isLead3 _ (by omega)).mpr (by omega)),
    and_0f]
  have : (224 + a) % 16 = a := by omega
  rw [this]

theorem leadByte_4 (a : Nat) (h : a < 8) : leadByte (240 + a) = some (a, 3) := by
  unfold leadByte
  rw [if_neg (by rw [isLead2 _ (by omega)]; omega), if_neg (by rw [isLead3 _ (by omega)]; omega),
    if_pos ((isLead4 _ (by omega)).mpr (by omega)), and_07]
  have : (240 + a) % 8 = a := by omega
  rw [this]

theorem trail_step (nf uc a : Nat) (h : a < 64) (p : List Nat) :
    trailBytes (nf + 1) uc ((128 + a) :: p) = trailBytes nf (uc * 64 + a) p := by
  have h1 : (128 + a) % 64 = a := by omega
  rw [trailBytes, if_neg (by rw [Classical.not_not, isTrail _ (by omega)]; omega), and_3f, h1,
    shl6_or _ _ h]

theorem packUni_eq (c : Nat) (h : Scalar c) (h8 : 0x80 ≤ c) : packUni c = some (utf16 c) := by
  obtain ⟨h1, h2⟩ := h
  unfold packUni utf16 isSurrogate
  rw [if_neg (by simp; omega)]
  by_cases hc : c < 0x10000
  · rw [if_neg (by omega), if_pos hc]
  · rw [if_pos (by omega), if_neg hc, shl6, and_3ff]
    apply congrArg some
    generalize hv : c - 0x10000 = v
    have hvb : v < 1048576 := by omega
    have hm : c % 1024 = v % 1024 := by omega
    rw [hm]
    have d1 := Nat.div_add_mod (0xD800DC00 ||| (v * 64 &&& 0x3FF0000) ||| v % 1024) (2 ^ 16)
    rw [Nat.or_div_two_pow, Nat.or_div_two_pow, Nat.or_mod_two_pow, Nat.or_mod_two_pow,
      Nat.and_div_two_pow, Nat.and_mod_two_pow] at d1
    have e1 : (0x3FF0000 : Nat) / 2 ^ 16 = 0x3FF := by decide
    have e2 : (0x3FF0000 : Nat) % 2 ^ 16 = 0 := by decide
    have e3 : (0xD800DC00 : Nat) / 2 ^ 16 = 54 <<< 10 := by decide
    have e4 : (0xD800DC00 : Nat) % 2 ^ 16 = 55 <<< 10 := by decide
    have e5 : v % 1024 / 2 ^ 16 = 0 := by omega
    have e6 : v % 1024 % 2 ^ 16 = v % 1024 := by omega
    have e7 : v * 64 / 2 ^ 16 % 1024 = v / 1024 := by omega
    rw [e1, e2, e3, e4, e5, e6, and_3ff, e7, Nat.and_zero, Nat.or_zero, Nat.or_zero,
      ← Nat.shiftLeft_add_eq_or_of_lt (by omega), ← Nat.shiftLeft_add_eq_or_of_lt (by omega)] at d1
    rw [← d1]
    omega

/-- The decoder reads back the encoding of every scalar value. -/
theorem tchar2uni_enc (c : Nat) (h : Scalar c) (rest : List Nat) :
    tchar2uni (uenc c ++ rest) = some (some (utf16 c, rest)) := by
  have hb := h.1
  unfold uenc
  by_cases h1 : c < 0x80
  · rw [if_pos h1]
    show tchar2uni (c :: rest) = _
    rw [tchar2uni, if_pos ((is80 c (by omega)).mpr h1)]
    simp only [utf16]; rw [if_pos (by omega)]
  · rw [if_neg h1]
    by_cases h2 : c < 0x800
    · rw [if_pos h2]
      show tchar2uni ((192 + c / 64) :: (128 + c % 64) :: rest) = _
      rw [tchar2uni, if_neg (by rw [is80 _ (by omega)]; omega), leadByte_2 _ (by omega)]
      simp only []
      have e : c / 64 * 64 + c % 64 = c := by omega
      rw [trail_step _ _ _ (by omega), trailBytes, e]
      simp only [packUni_eq c h (by omega), Option.map]
    · rw [if_neg h2]
      by_cases h3 : c < 0x10000
      · rw [if_pos h3]
        show tchar2uni ((224 + c / 4096) :: (128 + c / 64 % 64) :: (128 + c % 64) :: rest) = _
        rw [tchar2uni, if_neg (by rw [is80 _ (by omega)]; omega), leadByte_3 _ (by omega)]
        simp only []
        have e : (c / 4096 * 64 + c / 64 % 64) * 64 + c % 64 = c := by omega
        rw [trail_step _ _ _ (by omega), trail_step _ _ _ (by omega), trailBytes, e]
        simp only [packUni_eq c h (by omega), Option.map]
      · rw [if_neg h3]
        show tchar2uni ((240 + c / 262144) :: (128 + c / 4096 % 64) :: (128 + c / 64 % 64) ::
          (128 + c % 64) :: rest) = _
        rw [tchar2uni, if_neg (by rw [is80 _ (by omega)]; omega), leadByte_4 _ (by omega)]
        simp only []
        have e : ((c / 262144 * 64 + c / 4096 % 64) * 64 + c / 64 % 64) * 64 + c % 64 = c := by omega
        rw [trail_step _ _ _ (by omega), trail_step _ _ _ (by omega), trail_step _ _ _ (by omega),
          trailBytes, e]
        simp only [packUni_eq c h (by omega), Option.map]

theorem join10 (v : Nat) : v / 1024 * 1024 ||| v % 1024 = v := by
  have h := Nat.shiftLeft_add_eq_or_of_lt (i := 10) (b := v % 1024) (Nat.mod_lt _ (by decide)) (v / 1024)
  have e : (v / 1024) <<< 10 = v / 1024 * 1024 := Nat.shiftLeft_eq _ 10
  rw [e] at h
  exact h.symm.trans (Nat.div_add_mod' v 1024)

theorem sub32_add (a b : Nat) (h : b + a < 4294967296) : sub32 (b + a) b = a := by
  unfold sub32
  generalize hN : 2 ^ 32 = N
  have hN' : N = 4294967296 := by rw [← hN]
  have : b + a + N - b = a + N := by clear hN; omega
  rw [this, Nat.add_mod_right, Nat.mod_eq_of_lt]
  omega

theorem hi_mask (x : Nat) (h : x < 4294967296) : x &&& 0xFFFF0000 = x / 65536 * 65536 := by
  have d1 := Nat.div_add_mod (x &&& 0xFFFF0000) (2 ^ 16)
  have e1 : (0xFFFF0000 : Nat) / 2 ^ 16 = 0xFFFF := by decide
  have e2 : (0xFFFF0000 : Nat) % 2 ^ 16 = 0 := by decide
  rw [Nat.and_div_two_pow, Nat.and_mod_two_pow, e1, e2, and_ffff, Nat.and_zero] at d1
  rw [← d1]
  omega

/-- The four UTF-8 bytes of a supplementary character. -/
theorem putUtf_4 (c szb : Nat) (h1 : 0x10000 ≤ c) (h2 : c < 0x110000) (h4 : 4 ≤ szb) :
    putUtf (utf16 c) szb = uenc c := by
  have hu : utf16 c = (0xD800 + (c - 0x10000) / 1024) * 65536 + (0xDC00 + (c - 0x10000) % 1024) := by
    unfold utf16; rw [if_neg (by omega)]
  generalize hv : c - 0x10000 = v at hu
  have hvb : v < 1048576 := by omega
  have hx : utf16 c < 4294967296 := by omega
  unfold putUtf
  rw [if_neg (by omega), if_neg (by omega), if_neg (by omega), if_neg (by omega)]
  rw [hi_mask _ hx, and_ffff, hu]
  have q1 : ((0xD800 + v / 1024) * 65536 + (0xDC00 + v % 1024)) / 65536 * 65536
      = 0xD8000000 + v / 1024 * 65536 := by omega
  have q2 : ((0xD800 + v / 1024) * 65536 + (0xDC00 + v % 1024)) % 65536 = 0xDC00 + v % 1024 := by
    omega
  have e3 : sub32 (0xD8000000 + v / 1024 * 65536) 0xD8000000 >>> 6 = v / 1024 * 1024 := by
    rw [sub32_add _ _ (by omega), shr6]; omega
  have e4 : sub32 (0xDC00 + v % 1024) 0xDC00 = v % 1024 := sub32_add _ _ (by omega)
  simp only [q1, q2, e3, e4]
  rw [if_neg (by omega)]
  rw [join10]
  have e6 : v + 0x10000 = c := by omega
  rw [e6, shr18, shr12, shr6, and_07, and_3f, and_3f, and_3f, orf0' _ (by omega),
    or80' _ (by omega), or80' _ (by omega), or80' _ (by omega)]
  unfold uenc
  rw [if_neg (by omega), if_neg (by omega), if_neg (by omega)]
  have e7 : c / 262144 % 8 = c / 262144 := by omega
  rw [e7]

theorem uenc_length (c : Nat) : 1 ≤ (uenc c).length ∧ (uenc c).length ≤ 4 := by
  unfold uenc; split; · simp
  split; · simp
  split <;> simp

/-- `put_utf` stores the UTF-8 form if it fits and nothing otherwise. -/
theorem putUtf_eq (c szb : Nat) (h : Scalar c) :
    putUtf (utf16 c) szb = if (uenc c).length ≤ szb then uenc c else [] := by
  obtain ⟨hb, hs⟩ := h
  by_cases h4 : 0x10000 ≤ c
  · have hl : (uenc c).length = 4 := by
      unfold uenc; rw [if_neg (by omega), if_neg (by omega), if_neg (by omega)]; rfl
    rw [hl]
    by_cases hz : 4 ≤ szb
    · rw [if_pos hz]; exact putUtf_4 c szb h4 hb hz
    · rw [if_neg hz]
      have hu : utf16 c ≥ 0x10000 := by unfold utf16; rw [if_neg (by omega)]; omega
      unfold putUtf
      rw [if_neg (by omega), if_neg (by omega), if_neg (by omega), if_pos (by omega)]
  · have hu : utf16 c = c := by unfold utf16; rw [if_pos (by omega)]
    rw [hu]
    unfold putUtf uenc
    by_cases h1 : c < 0x80
    · rw [if_pos h1, if_pos h1]
      by_cases hz : szb < 1
      · rw [if_pos hz, if_neg (by simp; omega)]
      · rw [if_neg hz, if_pos (by simp; omega)]
    · rw [if_neg h1, if_neg h1]
      by_cases h2 : c < 0x800
      · rw [if_pos h2, if_pos h2, shr6, and_1f, and_3f, orc0' _ (by omega), or80' _ (by omega)]
        have : c / 64 % 32 = c / 64 := by omega
        rw [this]
        by_cases hz : szb < 2
        · rw [if_pos hz, if_neg (by simp; omega)]
        · rw [if_neg hz, if_pos (by simp; omega)]
      · rw [if_neg h2, if_neg h2, if_pos (by omega : c < 0x10000), if_pos (by omega : c < 0x10000), shr6, shr12, and_0f, and_3f,
          and_3f, ore0' _ (by omega), or80' _ (by omega), or80' _ (by omega)]
        have : c / 4096 % 16 = c / 4096 := by omega
        rw [this]
        by_cases hz : szb < 3
        · rw [if_pos (Or.inl hz), if_neg (by simp; omega)]
        · rw [if_neg (by simp [isSurrogate]; omega), if_pos (by simp; omega)]

end Fpm.TextIo
