import Verif.Upcase.Model
/-!
# C73: conversion to upper case
-/
namespace Fpm.Upcase

/-- Blocks of a table: base and size.  `none`: the table is cut off. -/
def parse : Nat → List Nat → Option (List (Nat × Nat))
  | 0, _ => none
  | _ + 1, [] => none
  | k + 1, bc :: p =>
    if bc = 0 then some []
    else
      match p with
      | [] => none
      | nc :: p =>
        match parse k (if nc / 256 = 0 then p.drop (nc % 256) else p) with
        | none => none
        | some l => some ((bc, nc % 256) :: l)

theorem blocks_out (uc : Nat) : ∀ (k : Nat) (t : List Nat) (l : List (Nat × Nat)), parse k t = some l → (∀ b ∈ l, ¬ (b.1 ≤ uc ∧ uc < b.1 + b.2)) → blocks uc k t = some uc
  | 0, _, _, h, _ => by cases h
  | _ + 1, [], _, h, _ => by cases h
  | k + 1, bc :: p, l, h, hl => by
    rw [blocks.eq_def]
    rw [parse.eq_def] at h
    simp only at h ⊢
    by_cases h0 : bc = 0
    · rw [if_pos (.inl h0)]
    · rw [if_neg h0] at h
      by_cases hlt : uc < bc
      · rw [if_pos (.inr hlt)]
      · rw [if_neg (by omega)]
        cases p with
        | nil => cases h
        | cons nc p =>
          simp only at h ⊢
          cases hp : parse k (if nc / 256 = 0 then p.drop (nc % 256) else p) with
          | none => rw [hp] at h; cases h
          | some m =>
            rw [hp] at h
            cases h
            have := hl (bc, nc % 256) (by simp)
            rw [if_neg (by simp only at this; omega)]
            exact blocks_out uc k _ m hp fun b hb => hl b (List.mem_cons_of_mem _ hb)

/-- Blocks of the tables. -/
def ranges1 : List (Nat × Nat) := (parse cvt1.length cvt1).getD []
def ranges2 : List (Nat × Nat) := (parse cvt2.length cvt2).getD []

theorem parse1 : parse cvt1.length cvt1 = some ranges1 := by decide +kernel
theorem parse2 : parse cvt2.length cvt2 = some ranges2 := by decide +kernel

theorem unchanged {u : Nat} (h : ∀ b ∈ ranges1 ++ ranges2, ¬ (b.1 ≤ u ∧ u < b.1 + b.2)) : wtoupper u = some u := by
  unfold wtoupper
  split
  · split
    · exact blocks_out u _ _ _ parse1 fun b hb => h b (List.mem_append_left _ hb)
    · exact blocks_out u _ _ _ parse2 fun b hb => h b (List.mem_append_right _ hb)
  · rfl

/-- Specification for one code unit `u` and its result. -/
def Spec.Good (u : Nat) (r : Option Nat) : Prop :=
  ∃ w, r = some w ∧ wtoupper w = some w ∧ (w = 0 ↔ u = 0) ∧ (u < 128 → w = if 97 ≤ u ∧ u ≤ 122 then u - 32 else u) ∧
    (128 ≤ u → 128 ≤ w) ∧ (0xD800 ≤ w ∧ w < 0xE000 ↔ 0xD800 ≤ u ∧ u < 0xE000) ∧ (w < 0x10000 ↔ u < 0x10000)

/-- The same as a computation. -/
def good (u : Nat) : Bool :=
  match wtoupper u with
  | none => false
  | some w => decide (wtoupper w = some w ∧ (w = 0 ↔ u = 0) ∧ (u < 128 → w = if 97 ≤ u ∧ u ≤ 122 then u - 32 else u) ∧
    (128 ≤ u → 128 ≤ w) ∧ (0xD800 ≤ w ∧ w < 0xE000 ↔ 0xD800 ≤ u ∧ u < 0xE000) ∧ (w < 0x10000 ↔ u < 0x10000))

theorem good_spec {u : Nat} (h : good u = true) : Spec.Good u (wtoupper u) := by
  unfold good at h
  split at h
  · cases h
  · rename_i w hw
    exact ⟨w, hw, of_decide_eq_true h⟩

theorem all_good : ((ranges1 ++ ranges2).all fun b => (List.range b.2).all fun i => good (b.1 + i)) = true := by decide +kernel

theorem letters : (97, 26) ∈ ranges1 ++ ranges2 := by decide +kernel

/-- **C73**.  For all 32-bit values the tables are only read inside; the result does not change if it is converted again; it is zero only for zero; ASCII
is treated as ASCII and not mixed with the rest; surrogates stay surrogates and others do not become one. -/
theorem C73_upcase (u : Nat) : Spec.Good u (wtoupper u) := by
  by_cases h : ∃ b ∈ ranges1 ++ ranges2, b.1 ≤ u ∧ u < b.1 + b.2
  · obtain ⟨b, hb, h1, h2⟩ := h
    have hall := List.all_eq_true.mp (List.all_eq_true.mp all_good b hb) (u - b.1) (List.mem_range.mpr (by omega))
    rw [show b.1 + (u - b.1) = u from by omega] at hall
    exact good_spec hall
  · have hn : ∀ b ∈ ranges1 ++ ranges2, ¬ (b.1 ≤ u ∧ u < b.1 + b.2) := fun b hb h' => h ⟨b, hb, h'⟩
    have hu := unchanged hn
    have hl := hn _ letters
    refine ⟨u, hu, hu, Iff.rfl, fun _ => ?_, fun h => h, Iff.rfl, Iff.rfl⟩
    rw [if_neg (by simp only at hl; omega)]

/-- Alphabets: first and last small letter, and the distance to the capitals. -/
def Spec.alphabets : List (Nat × Nat × Nat) := [(0xE0, 0xF6, 32), (0xF8, 0xFE, 32), (0x3B1, 0x3C1, 32), (0x3C3, 0x3CB, 32), (0x430, 0x44F, 32), (0x450, 0x45F, 80), (0x561, 0x586, 48),
  (0x2170, 0x217F, 16), (0x24D0, 0x24E9, 26), (0x2C30, 0x2C5E, 48), (0xFF41, 0xFF5A, 32)]

/-- Blocks in which capitals and small letters take turns, the capitals first: first capital, last small letter. -/
def Spec.pairs : List (Nat × Nat) := [(0x100, 0x12F), (0x14A, 0x177), (0x1CD, 0x1DA) , (0x3D8, 0x3EF), (0x460, 0x481), (0x48A, 0x4BF), (0x1E00, 0x1E95), (0x2C80, 0x2CE3)]

theorem alphabets_ok : (Spec.alphabets.all fun a => (List.range (a.2.1 - a.1 + 1)).all fun i => decide (wtoupper (a.1 + i) = some (a.1 + i - a.2.2) ∧ wtoupper (a.1 + i - a.2.2) = some (a.1 + i - a.2.2))) = true := by decide +kernel

theorem pairs_ok : (Spec.pairs.all fun a => (List.range (a.2 - a.1 + 1)).all fun i => decide (wtoupper (a.1 + i) = some (a.1 + i - i % 2))) = true := by decide +kernel

/-- Letters of Latin-1, Greek, Cyrillic, Armenian, Roman numerals, circled and full-width letters become the capitals of the same alphabet. -/
theorem C73_alphabets (a : Nat × Nat × Nat) (ha : a ∈ Spec.alphabets) (u : Nat) (h1 : a.1 ≤ u) (h2 : u ≤ a.2.1) : wtoupper u = some (u - a.2.2) ∧ wtoupper (u - a.2.2) = some (u - a.2.2) := by
  have := of_decide_eq_true (List.all_eq_true.mp (List.all_eq_true.mp alphabets_ok a ha) (u - a.1) (List.mem_range.mpr (by omega)))
  rwa [show a.1 + (u - a.1) = u from by omega] at this

example : (0x24D0, 0x24E9, 26) ∈ Spec.alphabets ∧ 0x24D0 ≤ 0x24D1 ∧ 0x24D1 ≤ 0x24E9 := by decide

/-- In the blocks where capitals and small letters take turns each small letter becomes the capital before it. -/
theorem C73_pairs (a : Nat × Nat) (ha : a ∈ Spec.pairs) (u : Nat) (h1 : a.1 ≤ u) (h2 : u ≤ a.2) : wtoupper u = some (u - (u - a.1) % 2) := by
  have := of_decide_eq_true (List.all_eq_true.mp (List.all_eq_true.mp pairs_ok a ha) (u - a.1) (List.mem_range.mpr (by omega)))
  rwa [show a.1 + (u - a.1) = u from by omega] at this

example : (0x1CD, 0x1DA) ∈ Spec.pairs ∧ 0x1CD ≤ 0x1CE ∧ 0x1CE ≤ 0x1DA := by decide

/-- A small and a capital letter, and two of another alphabet. -/
example : wtoupper 0x7A = some 0x5A ∧ wtoupper 0x3C2 = some 0x3A3 ∧ wtoupper 0x1F80 = some 0x1F88 := by decide +kernel

end Fpm.Upcase
