import Verif.FatBytes.Model
/-!
# C49: integers on disk
-/
namespace Fpm.FatBytes

/-! ## Specification -/

/-- The number with the given bytes, lowest first. -/
def Spec.num : List Nat → Nat
  | [] => 0
  | b :: s => b + 256 * Spec.num s

/-- The `n` lowest bytes of a number, lowest first. -/
def Spec.bytes : Nat → Nat → List Nat
  | 0, _ => []
  | n + 1, v => v % 256 :: Spec.bytes n (v / 256)

/-- `new` is `old` with the bytes `d` at position `p`. -/
def Spec.Patched (old : List Nat) (p : Nat) (d new : List Nat) : Prop :=
  new.length = old.length ∧ ∀ i, new[i]? = if p ≤ i ∧ i < p + d.length then d[i - p]? else old[i]?

open Spec

/-! ## Lemmas -/

theorem shiftIn_eq {n rv b : Nat} (hb : b < 256) (h : rv < 2 ^ n / 256) : shiftIn n rv b = b + 256 * rv := by
  have hor : rv <<< 8 ||| b = b + 256 * rv := by
    rw [Nat.shiftLeft_eq, Nat.mul_comm, ← Nat.two_pow_add_eq_or_of_lt (i := 8) (by omega)]; omega
  rw [shiftIn, hor, Nat.mod_eq_of_lt]
  have := (Nat.le_div_iff_mul_le (by decide)).mp h
  rw [Nat.succ_mul] at this
  omega

theorem num_lt {s : List Nat} (h : ∀ b ∈ s, b < 256) : num s < 256 ^ s.length := by
  induction s with
  | nil => decide
  | cons b s ih =>
    have h1 := ih fun x hx => h x (by simp [hx])
    have h2 := h b (by simp)
    rw [num, List.length_cons, Nat.pow_succ]
    omega

theorem num_bytes (n v : Nat) : num (bytes n v) = v % 256 ^ n := by
  induction n generalizing v with
  | zero => simp [bytes, num, Nat.mod_one]
  | succ n ih =>
    rw [bytes, num, ih, Nat.pow_succ, Nat.mul_comm (256 ^ n) 256, Nat.mod_mul]

theorem bytes_length (n v : Nat) : (bytes n v).length = n := by
  induction n generalizing v with
  | zero => rfl
  | succ n ih => rw [bytes, List.length_cons, ih]

theorem bytes_lt (n v : Nat) : ∀ b ∈ bytes n v, b < 256 := by
  induction n generalizing v with
  | zero => simp [bytes]
  | succ n ih =>
    intro b hb
    rw [bytes] at hb
    rcases List.mem_cons.mp hb with rfl | hb
    · exact Nat.mod_lt _ (by decide)
    · exact ih _ b hb

theorem shr8 (v : Nat) : v >>> 8 = v / 256 := Nat.shiftRight_eq_div_pow v 8

/-- The bytes at `p`. -/
theorem get_of_slice {m d : List Nat} {p : Nat} (h : (m.drop p).take d.length = d) {i : Nat} (hi : i < d.length) : m[p + i]? = d[i]? := by
  have h1 : ((m.drop p).take d.length)[i]? = d[i]? := by rw [h]
  rwa [List.getElem?_take_of_lt hi, List.getElem?_drop] at h1

/-- Storing one byte after the other. -/
def stAll (m : List Nat) (p : Nat) : List Nat → Option (List Nat)
  | [] => some m
  | b :: s => (stByte m p b).bind (stAll · (p + 1) s)

theorem stAll_ok (d m : List Nat) (p : Nat) (hd : ∀ b ∈ d, b < 256) (h : p + d.length ≤ m.length) :
    stAll m p d = some (m.take p ++ d ++ m.drop (p + d.length)) := by
  induction d generalizing m p with
  | nil => simp [stAll]
  | cons b s ih =>
    rw [List.length_cons] at h
    rw [stAll, stByte, if_pos (by omega), Option.bind_some, ih _ _ (fun x hx => hd x (by simp [hx])) (by rw [List.length_set]; omega), Nat.mod_eq_of_lt (hd b (by simp))]
    congr 1
    rw [List.set_eq_take_append_cons_drop, if_pos (by omega), List.take_append, List.drop_append, List.length_take, Nat.min_eq_left (by omega)]
    have e1 : (m.take p).take (p + 1) = m.take p := by rw [List.take_take, Nat.min_eq_right (by omega)]
    have e2 : (m.take p).drop (p + 1 + s.length) = [] := List.drop_eq_nil_of_le (by rw [List.length_take]; omega)
    have e3 : p + 1 - p = 1 := by omega
    have e4 : p + 1 + s.length - p = s.length + 1 := by omega
    rw [e1, e2, e3, e4, List.drop_succ_cons, List.drop_drop]
    simp
    congr 1
    omega

theorem stAll_none (d m : List Nat) (p : Nat) (h : m.length < p + d.length) (hp : d ≠ []) : stAll m p d = none := by
  induction d generalizing m p with
  | nil => exact absurd rfl hp
  | cons b s ih =>
    rw [stAll, stByte]
    split
    · rw [Option.bind_some]
      cases s with
      | nil => rw [List.length_cons, List.length_nil] at h; omega
      | cons c s =>
        refine ih _ _ ?_ (by simp)
        simp only [List.length_set, List.length_cons] at *
        omega
    · rfl

theorem patched (m d : List Nat) (p : Nat) (h : p + d.length ≤ m.length) : Patched m p d (m.take p ++ d ++ m.drop (p + d.length)) := by
  constructor
  · simp; omega
  · intro i
    have hl : (m.take p).length = p := by rw [List.length_take]; omega
    by_cases h1 : i < p
    · rw [if_neg (by omega), List.append_assoc, List.getElem?_append_left (by rw [hl]; omega), List.getElem?_take_of_lt h1]
    · by_cases h2 : i < p + d.length
      · rw [if_pos ⟨by omega, h2⟩, List.append_assoc, List.getElem?_append_right (by rw [hl]; omega), hl, List.getElem?_append_left (by omega)]
      · rw [if_neg (by omega), List.getElem?_append_right (by rw [List.length_append, hl]; omega), List.length_append, hl, List.getElem?_drop]
        congr 1
        omega

theorem stByte_mod (m : List Nat) (p v : Nat) : stByte m p (v % 256) = stByte m p v := by
  rw [stByte, stByte, Nat.mod_mod]

theorem stWord_all (m : List Nat) (p v : Nat) : stWord m p v = stAll m p (bytes 2 v) := by
  simp [stWord, bytes, stAll, shr8, stByte_mod]

theorem stDword_all (m : List Nat) (p v : Nat) : stDword m p v = stAll m p (bytes 4 v) := by
  simp [stDword, bytes, stAll, shr8, stByte_mod]

theorem stQword_all (m : List Nat) (p v : Nat) : stQword m p v = stAll m p (bytes 8 v) := by
  simp [stQword, bytes, stAll, shr8, stByte_mod]

/-! ## Theorems -/

/-- **C49.** Loading gives the number whose bytes, lowest first, are at the position. -/
theorem C49_load (m d : List Nat) (p : Nat) (hd : ∀ b ∈ d, b < 256) (h : (m.drop p).take d.length = d) :
    (d.length = 2 → ldWord m p = some (num d)) ∧ (d.length = 4 → ldDword m p = some (num d)) ∧ (d.length = 8 → ldQword m p = some (num d)) := by
  have g : ∀ i, i < d.length → m[p + i]? = d[i]? := fun i hi => get_of_slice h hi
  refine ⟨fun hl => ?_, fun hl => ?_, fun hl => ?_⟩
  · obtain ⟨b0, b1, rfl⟩ : ∃ b0 b1, d = [b0, b1] := by
      match d, hl with
      | [b0, b1], _ => exact ⟨_, _, rfl⟩
    have g0 := g 0 (by simp); have g1 := g 1 (by simp)
    simp at g0 g1 hd
    rw [ldWord, g1, Option.bind_some, g0, Option.bind_some, shiftIn_eq hd.1 (by omega)]
    simp [num]
  · obtain ⟨b0, b1, b2, b3, rfl⟩ : ∃ b0 b1 b2 b3, d = [b0, b1, b2, b3] := by
      match d, hl with
      | [b0, b1, b2, b3], _ => exact ⟨_, _, _, _, rfl⟩
    have g0 := g 0 (by simp); have g1 := g 1 (by simp); have g2 := g 2 (by simp); have g3 := g 3 (by simp)
    simp at g0 g1 g2 g3 hd
    rw [ldDword, g3, Option.bind_some, g2, Option.bind_some, g1, Option.bind_some, g0, Option.bind_some, shiftIn_eq hd.2.2.1 (by omega), shiftIn_eq hd.2.1 (by omega), shiftIn_eq hd.1 (by omega)]
    simp [num]
  · obtain ⟨b0, b1, b2, b3, b4, b5, b6, b7, rfl⟩ : ∃ b0 b1 b2 b3 b4 b5 b6 b7, d = [b0, b1, b2, b3, b4, b5, b6, b7] := by
      match d, hl with
      | [b0, b1, b2, b3, b4, b5, b6, b7], _ => exact ⟨_, _, _, _, _, _, _, _, rfl⟩
    have g0 := g 0 (by simp); have g1 := g 1 (by simp); have g2 := g 2 (by simp); have g3 := g 3 (by simp)
    have g4 := g 4 (by simp); have g5 := g 5 (by simp); have g6 := g 6 (by simp); have g7 := g 7 (by simp)
    simp at g0 g1 g2 g3 g4 g5 g6 g7 hd
    obtain ⟨h0, h1, h2, h3, h4, h5, h6, h7⟩ := hd
    rw [ldQword, g7, Option.bind_some, g6, Option.bind_some, g5, Option.bind_some, g4, Option.bind_some, g3, Option.bind_some, g2, Option.bind_some, g1, Option.bind_some, g0, Option.bind_some,
      shiftIn_eq h6 (by omega), shiftIn_eq h5 (by omega), shiftIn_eq h4 (by omega), shiftIn_eq h3 (by omega), shiftIn_eq h2 (by omega), shiftIn_eq h1 (by omega), shiftIn_eq h0 (by omega)]
    simp [num]

example : ldDword [9, 0x78, 0x56, 0x34, 0x12] 1 = some 0x12345678 := (C49_load [9, 0x78, 0x56, 0x34, 0x12] [0x78, 0x56, 0x34, 0x12] 1 (by decide) rfl).2.1 rfl

/-- **C49.** Storing changes exactly the bytes of the field, to those of the number, lowest first; outside
the array it is undefined. -/
theorem C49_store (m : List Nat) (p v : Nat) :
    (p + 2 ≤ m.length → ∃ m', stWord m p v = some m' ∧ Patched m p (bytes 2 v) m') ∧ (m.length < p + 2 → stWord m p v = none) ∧
    (p + 4 ≤ m.length → ∃ m', stDword m p v = some m' ∧ Patched m p (bytes 4 v) m') ∧ (m.length < p + 4 → stDword m p v = none) ∧
    (p + 8 ≤ m.length → ∃ m', stQword m p v = some m' ∧ Patched m p (bytes 8 v) m') ∧ (m.length < p + 8 → stQword m p v = none) := by
  have ok : ∀ n, p + n ≤ m.length → ∃ m', stAll m p (bytes n v) = some m' ∧ Patched m p (bytes n v) m' := fun n h =>
    ⟨_, stAll_ok _ m p (bytes_lt n v) (by rw [bytes_length]; exact h), patched m _ p (by rw [bytes_length]; exact h)⟩
  have no : ∀ n, 0 < n → m.length < p + n → stAll m p (bytes n v) = none := fun n hn h =>
    stAll_none _ m p (by rw [bytes_length]; exact h) (by intro he; have := bytes_length n v; rw [he] at this; simp at this; omega)
  rw [stWord_all, stDword_all, stQword_all]
  exact ⟨ok 2, no 2 (by decide), ok 4, no 4 (by decide), ok 8, no 8 (by decide)⟩

example : stWord [1, 2, 3, 4] 1 0xABCD = some [1, 0xCD, 0xAB, 4] ∧ stWord [1, 2] 1 5 = none := by decide

/-- **C49.** A stored value is read back. -/
theorem C49_roundtrip (m m' : List Nat) (p v : Nat) :
    (v < 2 ^ 16 → stWord m p v = some m' → ldWord m' p = some v) ∧ (v < 2 ^ 32 → stDword m p v = some m' → ldDword m' p = some v) ∧
    (v < 2 ^ 64 → stQword m p v = some m' → ldQword m' p = some v) := by
  have key : ∀ n, 0 < n → stAll m p (bytes n v) = some m' → (m'.drop p).take (bytes n v).length = bytes n v := by
    intro n hn h
    by_cases hl : p + n ≤ m.length
    · rw [stAll_ok _ m p (bytes_lt n v) (by rw [bytes_length]; exact hl)] at h
      obtain rfl := (Option.some.inj h).symm
      rw [List.append_assoc, List.drop_append_of_le_length (by rw [List.length_take]; omega), List.drop_eq_nil_of_le (by rw [List.length_take]; omega), List.nil_append, List.take_left]
    · rw [stAll_none _ m p (by rw [bytes_length]; omega) (by intro he; have := bytes_length n v; rw [he] at this; simp at this; omega)] at h
      cases h
  rw [stWord_all, stDword_all, stQword_all]
  refine ⟨fun hv h => ?_, fun hv h => ?_, fun hv h => ?_⟩
  · rw [(C49_load m' _ p (bytes_lt 2 v) (key 2 (by decide) h)).1 (bytes_length 2 v), num_bytes, Nat.mod_eq_of_lt (by omega)]
  · rw [(C49_load m' _ p (bytes_lt 4 v) (key 4 (by decide) h)).2.1 (bytes_length 4 v), num_bytes, Nat.mod_eq_of_lt (by omega)]
  · rw [(C49_load m' _ p (bytes_lt 8 v) (key 8 (by decide) h)).2.2 (bytes_length 8 v), num_bytes, Nat.mod_eq_of_lt (by omega)]

example : ∃ m', stQword (List.replicate 9 7) 1 0x8877665544332211 = some m' ∧ ldQword m' 1 = some 0x8877665544332211 := ⟨_, rfl, by decide⟩

end Fpm.FatBytes
