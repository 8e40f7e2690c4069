import Verif.Dir.Spec
namespace Fpm.Dir
open Fpm.Dir.Spec

theorem dec_lt {n : Nat} (h : n < 10) : dec n = [48 + n] := by rw [dec, if_pos h]
theorem dec_ge {n : Nat} (h : 10 ≤ n) : dec n = dec (n / 10) ++ [48 + n % 10] := by rw [dec, if_neg (by omega)]

theorem digitChar_toNat : ∀ n < 10, (Nat.digitChar n).toNat = 48 + n := by decide

theorem dec_eq_digits (n : Nat) : dec n = digits n := by
  induction n using Nat.strongRecOn with
  | ind n ih =>
    by_cases h : n < 10
    · rw [dec_lt h, digits, Nat.toDigits_of_lt_base h, List.map_singleton, digitChar_toNat n h]
    · rw [dec_ge (by omega), ih (n / 10) (by omega), digits, digits, Nat.toDigits_of_base_le (n := n) (by decide) (by omega), List.map_append]
      rw [List.map_singleton, digitChar_toNat _ (Nat.mod_lt _ (by decide))]

theorem dec_digit (n : Nat) : ∀ c ∈ dec n, 48 ≤ c := by
  induction n using Nat.strongRecOn with
  | ind n ih =>
    by_cases h : n < 10
    · rw [dec_lt h]; simp
    · rw [dec_ge (by omega)]
      intro c hc
      rcases List.mem_append.mp hc with hc | hc
      · exact ih (n / 10) (by omega) c hc
      · simp at hc; omega

theorem dec_ne_nil (n : Nat) : dec n ≠ [] := by
  by_cases h : n < 10
  · rw [dec_lt h]; simp
  · rw [dec_ge (by omega)]; simp

theorem dec_split {n : Nat} (h : 1000 ≤ n) : dec n = dec (n / 1000) ++ dec3 (n % 1000) := by
  rw [dec_ge (by omega), dec_ge (n := n / 10) (by omega), dec_ge (n := n / 10 / 10) (by omega)]
  rw [show n / 10 / 10 / 10 = n / 1000 by omega, dec3]
  rw [show n % 1000 / 100 = n / 10 / 10 % 10 by omega, show n % 1000 / 10 % 10 = n / 10 % 10 by omega, show n % 1000 % 10 = n % 10 by omega]
  simp

theorem dec_len {n : Nat} (h : n < 1000) : (dec n).length = if n ≥ 100 then 3 else if n ≥ 10 then 2 else 1 := by
  by_cases h1 : n < 10
  · rw [dec_lt h1, if_neg (by omega), if_neg (by omega)]; rfl
  · by_cases h2 : n < 100
    · rw [dec_ge (by omega), dec_lt (by omega), if_neg (by omega), if_pos (by omega)]; rfl
    · rw [dec_ge (by omega), dec_ge (n := n / 10) (by omega), dec_lt (by omega), if_pos (by omega)]; rfl

/-- Number with separators. -/
def group (n : Nat) : List Nat := if n < 1000 then dec n else group (n / 1000) ++ 44 :: dec3 (n % 1000)
termination_by n

theorem group_lt {n : Nat} (h : n < 1000) : group n = dec n := by rw [group, if_pos h]
theorem group_ge {n : Nat} (h : 1000 ≤ n) : group n = group (n / 1000) ++ 44 :: dec3 (n % 1000) := by rw [group, if_neg (by omega)]

theorem group_len (n : Nat) : (group n).length = sizeLen n := by
  induction n using Nat.strongRecOn with
  | ind n ih =>
    by_cases h : n < 1000
    · rw [group_lt h, dec_len h, sizeLen, if_pos h]
    · rw [group_ge (by omega), List.length_append, ih (n / 1000) (by omega), sizeLen.eq_def n, if_neg h]; rfl

theorem filter_dec (n : Nat) : (dec n).filter (· ≠ 44) = dec n := by
  rw [List.filter_eq_self]
  intro c hc
  have := dec_digit n c hc
  simp; omega

theorem group_grouped (n : Nat) : Grouped n (group n) := by
  unfold Grouped
  rw [← dec_eq_digits]
  induction n using Nat.strongRecOn with
  | ind n ih =>
    by_cases h : n < 1000
    · rw [group_lt h]
      refine ⟨filter_dec n, ?_, ?_⟩
      · intro k c hk
        have h1 : (dec n).length ≤ 3 := by rw [dec_len h]; repeat' split
                                           all_goals omega
        have h2 : k < (dec n).reverse.length := by
          rw [List.getElem?_eq_some_iff] at hk; exact hk.1
        rw [List.length_reverse] at h2
        have h3 := dec_digit n c (by
          have := List.mem_of_getElem? hk
          simpa using this)
        omega
      · intro hh
        have h3 := dec_digit n 44 (List.mem_of_mem_head? (by rw [hh]; rfl))
        omega
    · obtain ⟨i1, i2, i3⟩ := ih (n / 1000) (by omega)
      rw [group_ge (by omega)]
      refine ⟨?_, ?_, ?_⟩
      · rw [List.filter_append, i1, dec_split (n := n) (by omega)]
        congr 1
        rw [List.filter_cons_of_neg (by simp), List.filter_eq_self]
        intro c hc
        simp only [dec3, List.mem_cons, List.not_mem_nil, or_false] at hc
        simp; omega
      · intro k c
        rw [List.reverse_append, List.reverse_cons]
        simp only [dec3, List.reverse_cons, List.reverse_nil, List.nil_append, List.cons_append]
        match k with
        | 0 => intro h; simp at h; omega
        | 1 => intro h; simp at h; omega
        | 2 => intro h; simp at h; omega
        | 3 => intro h; simp at h; omega
        | k + 4 =>
          intro h
          simp only [List.getElem?_cons_succ] at h
          rw [i2 k c h]
          omega
      · cases hg : group (n / 1000) with
        | nil =>
          have := group_len (n / 1000)
          rw [hg, sizeLen] at this
          simp only [List.length_nil] at this
          repeat' split at this
          all_goals omega
        | cons a t => rw [hg] at i3; simpa using i3

/-- The groups printed by the second loop. -/
def tailGroups : Nat → Nat → List Nat
  | 0, _ => []
  | k + 1, n2 => (44 :: dec3 (n2 / 1000 ^ k)) ++ tailGroups k (n2 % 1000 ^ k)

theorem pow_pos' (k : Nat) : 0 < 1000 ^ k := Nat.pow_pos (by decide)

theorem sizeLoop2_eq (k n2 : Nat) : sizeLoop2 n2 (1000 ^ k) = some (tailGroups k n2) := by
  induction k generalizing n2 with
  | zero => rw [sizeLoop2]; rfl
  | succ k ih =>
    have h1 : 1000 ^ (k + 1) = 1000 ^ k * 1000 := Nat.pow_succ ..
    have h2 : 1000 ^ (k + 1) / 1000 = 1000 ^ k := by rw [h1, Nat.mul_div_cancel _ (by decide)]
    have h3 := pow_pos' k
    rw [sizeLoop2, if_neg (by omega), dif_neg (by omega), h2, ih]
    rfl

theorem tailGroups_succ (k n2 r : Nat) (h : n2 < 1000 ^ k) :
    tailGroups (k + 1) (n2 + 1000 ^ k * r) = (44 :: dec3 r) ++ tailGroups k n2 := by
  rw [tailGroups, Nat.add_mul_div_left _ _ (pow_pos' k), Nat.div_eq_of_lt h, Nat.zero_add, Nat.add_mul_mod_self_left, Nat.mod_eq_of_lt h]

theorem sizeLoop1_eq (n n2 k w : Nat) (h2 : n2 < 1000 ^ k) (hn : n * 1000 ^ k + n2 < 2 ^ 64) (hw : sizeLen n ≤ w) (hw2 : w < 2 ^ 31) :
    ∃ n' n2' k' w', sizeLoop1 n n2 (1000 ^ k) w = (n', n2', 1000 ^ k', w') ∧ n' < 1000 ∧ w' < 2 ^ 31 ∧
      group n ++ tailGroups k n2 = dec n' ++ tailGroups k' n2' ∧ w' - (dec n').length = w - sizeLen n := by
  induction n using Nat.strongRecOn generalizing n2 k w with
  | ind n ih =>
    by_cases h : n < 1000
    · refine ⟨n, n2, k, w, by rw [sizeLoop1, if_pos h], h, hw2, by rw [group_lt h], ?_⟩
      rw [← group_lt h, group_len]
    · have hk := pow_pos' k
      have h1 : 1000 ^ (k + 1) = 1000 ^ k * 1000 := Nat.pow_succ ..
      have h3 : 1000 * 1000 ^ k ≤ n * 1000 ^ k := Nat.mul_le_mul_right _ (by omega)
      have h4 : 1000 ^ k * (n % 1000) ≤ 1000 ^ k * 999 := Nat.mul_le_mul_left _ (by omega)
      have h5 : n * 1000 ^ k = n / 1000 * 1000 ^ (k + 1) + 1000 ^ k * (n % 1000) := by
        rw [h1]
        conv => lhs; rw [← Nat.div_add_mod n 1000]
        rw [Nat.add_mul, Nat.mul_comm (n % 1000), Nat.mul_comm 1000 (n / 1000), Nat.mul_assoc, Nat.mul_comm 1000]
      have hs : sizeLen n = sizeLen (n / 1000) + 4 := by rw [sizeLen, if_neg h]
      obtain ⟨n', n2', k', w', e, r1, r2, r3, r4⟩ := ih (n / 1000) (by omega) (n2 + 1000 ^ k * (n % 1000)) (k + 1) (w - 4)
        (by omega) (by omega) (by omega) (by omega)
      refine ⟨n', n2', k', w', ?_, r1, r2, ?_, by omega⟩
      · rw [sizeLoop1, if_neg h, Nat.mod_eq_of_lt (by omega : n2 + 1000 ^ k * (n % 1000) < 2 ^ 64), Nat.mod_eq_of_lt (by omega : 1000 ^ k * 1000 < 2 ^ 64), ← h1,
          show (w + 2 ^ 32 - 4) % 2 ^ 32 = w - 4 by omega]
        exact e
      · rw [← r3, tailGroups_succ k n2 _ h2, group_ge (by omega)]
        simp

theorem printSize_eq {n w : Nat} (hn : n < 2 ^ 64) (hw : sizeLen n ≤ w) (hw2 : w < 2 ^ 31) :
    printSize n w = some (List.replicate (w - sizeLen n) 32 ++ group n) := by
  obtain ⟨n', n2', k', w', e, r1, r2, r3, r4⟩ := sizeLoop1_eq n 0 0 w (by decide) (by simpa using hn) hw hw2
  unfold printSize
  rw [Nat.pow_zero] at e
  rw [e]
  simp only
  rw [sizeLoop2_eq, Option.map_some, padStar, if_pos r2, Nat.mod_eq_of_lt (by omega : n' < 2 ^ 32), r4, List.append_assoc, ← r3]
  simp [tailGroups]

theorem sizeLen_mono {n m : Nat} (h : n ≤ m) : sizeLen n ≤ sizeLen m := by
  induction m using Nat.strongRecOn generalizing n with
  | ind m ih =>
    rw [sizeLen]
    conv => rhs; rw [sizeLen]
    by_cases h1 : n < 1000
    · rw [if_pos h1]
      by_cases h2 : m < 1000
      · rw [if_pos h2]; repeat' split
        all_goals omega
      · rw [if_neg h2]; repeat' split
        all_goals omega
    · rw [if_neg h1, if_neg (by omega)]
      have := ih (m / 1000) (by omega) (Nat.div_le_div_right (c := 1000) h)
      omega

theorem sizeLen_le {n : Nat} (h : n < 2 ^ 64) : sizeLen n ≤ 26 := by
  have h1 := sizeLen_mono (show n ≤ 2 ^ 64 - 1 by omega)
  have h2 : sizeLen (2 ^ 64 - 1) = 26 := by
    simp [sizeLen]
  omega

end Fpm.Dir
