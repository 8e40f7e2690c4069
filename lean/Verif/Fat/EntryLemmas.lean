import Verif.Fat.WinLemmas
/-!
# Entries by bytes
-/
namespace Fpm.Fat
open Fpm.Fat.Spec Fpm.FatBytes Fpm.FatBytes.Spec

/-- Byte `k` of the FAT. -/
def B (v : Vol) (d : Disk) (k : Nat) : Nat := (d (v.fatbase + k / v.ss)).getD (k % v.ss) 0

theorem flat_get (f : Nat → List Nat) (ss : Nat) (h0 : 0 < ss) (h : ∀ i, (f i).length = ss) (n k : Nat) (hk : k < n * ss) :
    ((List.range n).flatMap f)[k]? = some ((f (k / ss)).getD (k % ss) 0) ∧ ((List.range n).flatMap f).length = n * ss := by
  induction n with
  | zero => simp at hk
  | succ n ih =>
    have hlen : ∀ m, ((List.range m).flatMap f).length = m * ss := by
      intro m
      induction m with
      | zero => simp
      | succ m ihm => rw [List.range_succ, List.flatMap_append, List.length_append, ihm, Nat.succ_mul]; simp [h]
    refine ⟨?_, hlen _⟩
    rw [List.range_succ, List.flatMap_append]
    by_cases hlt : k < n * ss
    · rw [List.getElem?_append_left (by rw [hlen]; exact hlt)]
      exact (ih hlt).1
    · rw [List.getElem?_append_right (by rw [hlen]; omega), hlen]
      have hdiv : k / ss = n := by
        exact Nat.div_eq_of_lt_le (by omega) hk
      have hmod : k - n * ss = k % ss := by
        have := Nat.div_add_mod k ss
        rw [hdiv, Nat.mul_comm] at this
        omega
      rw [hdiv, hmod]
      have hm : k % ss < (f n).length := by rw [h]; exact Nat.mod_lt _ h0
      simp [List.getD_eq_getElem?_getD, List.getElem?_eq_getElem hm]

theorem num_append (a b : List Nat) : num (a ++ b) = num a + 256 ^ a.length * num b := by
  induction a with
  | nil => simp [num]
  | cons x a ih => rw [List.cons_append, num, num, ih, List.length_cons, Nat.pow_succ, Nat.mul_add, Nat.mul_comm (256 ^ a.length) 256, Nat.mul_assoc, Nat.add_assoc]

theorem num_div {l : List Nat} (h : ∀ b ∈ l, b < 256) (k : Nat) (hk : k ≤ l.length) : num l / 256 ^ k = num (l.drop k) := by
  conv => lhs; rw [← List.take_append_drop k l, num_append]
  have hl : (l.take k).length = k := by rw [List.length_take]; omega
  have := num_lt (s := l.take k) (fun b hb => h b (List.mem_of_mem_take hb))
  rw [hl] at this ⊢
  rw [Nat.add_mul_div_left _ _ (Nat.pow_pos (by decide)), Nat.div_eq_of_lt this, Nat.zero_add]

theorem num_drop {l : List Nat} {k b : Nat} (h : l[k]? = some b) : num (l.drop k) = b + 256 * num (l.drop (k + 1)) := by
  obtain ⟨hl, hb⟩ := List.getElem?_eq_some_iff.mp h
  rw [List.drop_eq_getElem_cons hl, num, hb]

theorem pow16 (c : Nat) : 2 ^ (16 * c) = 256 ^ (2 * c) := by rw [show 256 = 2 ^ 8 from rfl, ← Nat.pow_mul]; congr 1; omega
theorem pow32 (c : Nat) : 2 ^ (32 * c) = 256 ^ (4 * c) := by rw [show 256 = 2 ^ 8 from rfl, ← Nat.pow_mul]; congr 1; omega

/-- Bytes of a FAT. -/
structure Bytes (v : Vol) (d : Disk) : Prop where
  ss : v.ss % 4 = 0 ∧ 0 < v.ss
  sec : ∀ n, Sec v (d n)

theorem Bytes.get {v : Vol} {d : Disk} (h : Bytes v d) {k : Nat} (hk : k < v.fsize * v.ss) : (area v d)[k]? = some (B v d k) :=
  (flat_get (fun i => d (v.fatbase + i)) v.ss h.ss.2 (fun _ => (h.sec _).1) v.fsize k hk).1

theorem Bytes.lt {v : Vol} {d : Disk} (h : Bytes v d) (k : Nat) : B v d k < 256 := by
  have hm : k % v.ss < (d (v.fatbase + k / v.ss)).length := by rw [(h.sec _).1]; exact Nat.mod_lt _ h.ss.2
  unfold B
  rw [List.getD_eq_getElem?_getD, List.getElem?_eq_getElem hm]
  exact (h.sec _).2 _ (List.getElem_mem hm)

theorem Bytes.all {v : Vol} {d : Disk} (h : Bytes v d) : ∀ b ∈ area v d, b < 256 := by
  intro b hb
  obtain ⟨i, -, hi⟩ := List.mem_flatMap.mp hb
  exact (h.sec _).2 b hi

theorem Bytes.len {v : Vol} {d : Disk} (h : Bytes v d) {k : Nat} (hk : k < v.fsize * v.ss) : k < (area v d).length :=
  (List.getElem?_eq_some_iff.mp (h.get hk)).1

/-- Entry of FAT16 by bytes. -/
theorem entry16 {v : Vol} {d : Disk} (h : Bytes v d) {c : Nat} (hc : 2 * c + 1 < v.fsize * v.ss) :
    entry 16 (area v d) c = B v d (2 * c) + 256 * B v d (2 * c + 1) := by
  have h0 := h.get (k := 2 * c) (by omega)
  have h1 := h.get hc
  have l1 := h.len hc
  unfold entry
  rw [pow16, num_div h.all _ (by omega), num_drop h0, num_drop h1]
  have := h.lt (2 * c)
  have := h.lt (2 * c + 1)
  omega

/-- Entry of FAT32 by bytes. -/
theorem entry32 {v : Vol} {d : Disk} (h : Bytes v d) {c : Nat} (hc : 4 * c + 3 < v.fsize * v.ss) :
    entry 32 (area v d) c = B v d (4 * c) + 256 * (B v d (4 * c + 1) + 256 * (B v d (4 * c + 2) + 256 * B v d (4 * c + 3))) := by
  have h0 := h.get (k := 4 * c) (by omega)
  have h1 := h.get (k := 4 * c + 1) (by omega)
  have h2 := h.get (k := 4 * c + 2) (by omega)
  have h3 := h.get hc
  have l1 := h.len hc
  unfold entry
  rw [pow32, num_div h.all _ (by omega), num_drop h0, num_drop h1, num_drop h2, num_drop h3]
  have := h.lt (4 * c)
  have := h.lt (4 * c + 1)
  have := h.lt (4 * c + 2)
  have := h.lt (4 * c + 3)
  omega

/-- Entry of FAT12 by bytes. -/
theorem entry12 {v : Vol} {d : Disk} (h : Bytes v d) {c : Nat} (hc : bc12 c + 1 < v.fsize * v.ss) :
    entry 12 (area v d) c = if c % 2 = 1 then B v d (bc12 c) / 16 + 16 * B v d (bc12 c + 1) else B v d (bc12 c) + 256 * (B v d (bc12 c + 1) % 16) := by
  have h0 := h.get (k := bc12 c) (by omega)
  have h1 := h.get hc
  have l1 := h.len hc
  have b0 := h.lt (bc12 c)
  have b1 := h.lt (bc12 c + 1)
  have hd : num (area v d) / 256 ^ bc12 c = B v d (bc12 c) + 256 * (B v d (bc12 c + 1) + 256 * num ((area v d).drop (bc12 c + 1 + 1))) := by
    rw [num_div h.all _ (by omega), num_drop h0, num_drop h1]
  unfold entry
  split
  · rename_i ho
    have : 2 ^ (12 * c) = 256 ^ bc12 c * 16 := by
      rw [show 256 = 2 ^ 8 from rfl, ← Nat.pow_mul, show 16 = 2 ^ 4 from rfl, ← Nat.pow_add]
      congr 1
      unfold bc12
      omega
    rw [this, ← Nat.div_div_eq_div_mul, hd]
    omega
  · rename_i ho
    have : 2 ^ (12 * c) = 256 ^ bc12 c := by
      rw [show 256 = 2 ^ 8 from rfl, ← Nat.pow_mul]
      congr 1
      unfold bc12
      omega
    rw [this, hd]
    omega

end Fpm.Fat
