import Verif.Fat.EntryLemmas
/-!
# Bit operations of FAT entries as arithmetic
-/
namespace Fpm.Fat
open Fpm.FatBytes

theorem or_shift8 {b0 b1 : Nat} (h : b0 < 256) : b0 ||| b1 <<< 8 = b0 + 256 * b1 := by
  rw [Nat.or_comm, Nat.shiftLeft_eq, Nat.mul_comm, ← Nat.two_pow_add_eq_or_of_lt (i := 8) (by omega)]; omega

theorem and_mask (x n : Nat) : x &&& (2 ^ n - 1) = x % 2 ^ n := Nat.and_two_pow_sub_one_eq_mod x n

theorem val12_eq {c b0 b1 : Nat} (h0 : b0 < 256) : val12 c b0 b1 = if c % 2 = 1 then b0 / 16 + 16 * b1 else (b0 + 256 * b1) % 4096 := by
  unfold val12
  rw [or_shift8 h0]
  split
  · rw [Nat.shiftRight_eq_div_pow]; omega
  · exact and_mask _ 12

theorem first12_eq (c val b : Nat) : first12 c val b = if c % 2 = 1 then b % 16 + 16 * (val % 16) else val % 256 := by
  unfold first12
  split
  · have h1 : b &&& 0x0F = b % 16 := and_mask b 4
    have hb : b % 16 < 2 ^ 4 := Nat.mod_lt _ (by decide)
    rw [h1, Nat.or_comm, Nat.shiftLeft_eq, Nat.mul_comm, ← Nat.two_pow_add_eq_or_of_lt (i := 4) hb]
    omega
  · rfl

theorem and_f0 {b : Nat} (h : b < 256) : b &&& 0xF0 = 2 ^ 4 * (b / 16) := by
  have : ∀ b < 256, b &&& 0xF0 = 2 ^ 4 * (b / 16) := by decide +kernel
  exact this b h

theorem second12_eq (c val : Nat) {b : Nat} (h : b < 256) : second12 c val b = if c % 2 = 1 then val / 16 % 256 else 16 * (b / 16) + val / 256 % 16 := by
  unfold second12
  split
  · rw [Nat.shiftRight_eq_div_pow]
  · have h2 : (val >>> 8) % 256 &&& 0x0F = val / 256 % 16 := by
      rw [and_mask _ 4, Nat.shiftRight_eq_div_pow]
      omega
    rw [and_f0 h, h2, ← Nat.two_pow_add_eq_or_of_lt (i := 4) (by omega)]
    omega

theorem and_hi (x : Nat) (h : x < 2 ^ 32) : x &&& 0xF0000000 = 2 ^ 28 * (x / 2 ^ 28) := by
  have e : (0xF0000000 : Nat) = 2 ^ 28 * (2 ^ 4 - 1) := by decide
  have key : x &&& 2 ^ 28 * (2 ^ 4 - 1) = 2 ^ 28 * (x / 2 ^ 28 &&& (2 ^ 4 - 1)) := by
    apply Nat.eq_of_testBit_eq
    intro i
    rw [Nat.testBit_and, Nat.testBit_two_pow_mul, Nat.testBit_two_pow_mul, Nat.testBit_and, Nat.testBit_div_two_pow]
    by_cases hi : 28 ≤ i
    · simp [hi]
    · simp [hi]
  rw [e, key, and_mask _ 4, Nat.mod_eq_of_lt (by omega)]

theorem put32_eq (val : Nat) {x : Nat} (h : x < 2 ^ 32) : ((val &&& 0x0FFFFFFF) ||| (x &&& 0xF0000000)) = val % 2 ^ 28 + 2 ^ 28 * (x / 2 ^ 28) := by
  rw [and_hi x h, show (0x0FFFFFFF : Nat) = 2 ^ 28 - 1 from rfl, and_mask _ 28, Nat.or_comm, ← Nat.two_pow_add_eq_or_of_lt (i := 28) (Nat.mod_lt _ (by decide)), Nat.add_comm]

theorem ld16 {m : List Nat} {p a b : Nat} (h0 : m[p]? = some a) (h1 : m[p + 1]? = some b) (ha : a < 256) (hb : b < 256) : ldWord m p = some (a + 256 * b) := by
  rw [ldWord, h1, h0, Option.bind_some, Option.bind_some, shiftIn_eq ha (by omega)]

theorem ld32 {m : List Nat} {p a b c d : Nat} (h0 : m[p]? = some a) (h1 : m[p + 1]? = some b) (h2 : m[p + 2]? = some c) (h3 : m[p + 3]? = some d)
    (ha : a < 256) (hb : b < 256) (hc : c < 256) (hd : d < 256) : ldDword m p = some (a + 256 * (b + 256 * (c + 256 * d))) := by
  rw [ldDword, h3, h2, h1, h0, Option.bind_some, Option.bind_some, Option.bind_some, Option.bind_some, shiftIn_eq hc (by omega), shiftIn_eq hb (by omega), shiftIn_eq ha (by omega)]

theorem st16 {m : List Nat} {p v : Nat} (h : p + 1 < m.length) : stWord m p v = some ((m.set p (v % 256)).set (p + 1) (v / 256 % 256)) := by
  rw [stWord, stByte, if_pos (by omega), Option.bind_some, stByte, if_pos (by rw [List.length_set]; omega), shr8]

theorem st32 {m : List Nat} {p v : Nat} (h : p + 3 < m.length) : stDword m p v =
    some ((((m.set p (v % 256)).set (p + 1) (v / 256 % 256)).set (p + 2) (v / 256 / 256 % 256)).set (p + 3) (v / 256 / 256 / 256 % 256)) := by
  rw [stDword, stByte, if_pos (by omega), Option.bind_some, stByte, if_pos (by rw [List.length_set]; omega), Option.bind_some, stByte,
    if_pos (by rw [List.length_set, List.length_set]; omega), Option.bind_some, stByte, if_pos (by rw [List.length_set, List.length_set, List.length_set]; omega), shr8, shr8, shr8]

end Fpm.Fat
