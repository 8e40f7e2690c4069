import Verif.Alloc.Model
/-! # Lemmas: words in memory, rounding -/
namespace Fpm.Alloc

/-- Supported word sizes. -/
def WordOk (w : Nat) : Prop := w = 4 ∨ w = 8

theorem wrap_ge {w : Nat} (h : WordOk w) : 2 ^ 32 ≤ wrap w := by
  rcases h with rfl | rfl <;> decide

theorem loadN_lt (k : Nat) (m : Mem) (a : Nat) : loadN k m a < 256 ^ k := by
  induction k generalizing a with
  | zero => simp [loadN]
  | succ k ih =>
    have := ih (a + 1)
    have h2 := (m a).toNat_lt
    rw [loadN, Nat.pow_succ]
    omega

theorem load_lt (w : Nat) (m : Mem) (a : Nat) : load w m a < wrap w := loadN_lt w m a

theorem loadN_congr (k : Nat) (m m' : Mem) (a : Nat) (h : ∀ x, a ≤ x → x < a + k → m x = m' x) :
    loadN k m a = loadN k m' a := by
  induction k generalizing a with
  | zero => rfl
  | succ k ih =>
    rw [loadN, loadN, h a (by omega) (by omega), ih (a + 1) (fun x h1 h2 => h x (by omega) (by omega))]

theorem load_congr {w : Nat} {m m' : Mem} {a : Nat} (h : ∀ x, a ≤ x → x < a + w → m x = m' x) :
    load w m a = load w m' a := loadN_congr w m m' a h

theorem store_out {w : Nat} {m : Mem} {a v x : Nat} (h : x < a ∨ a + w ≤ x) : store w m a v x = m x := by
  unfold store; rw [if_neg (by omega)]

theorem load_store_ne {w : Nat} {m : Mem} {a b v : Nat} (h : a + w ≤ b ∨ b + w ≤ a) :
    load w (store w m b v) a = load w m a :=
  load_congr fun x h1 h2 => store_out (by omega)

theorem loadN_digits (k : Nat) (m : Mem) (a v : Nat)
    (h : ∀ i, i < k → (m (a + i)).toNat = v / 256 ^ i % 256) : loadN k m a = v % 256 ^ k := by
  induction k generalizing a v with
  | zero => simp [loadN, Nat.mod_one]
  | succ k ih =>
    have h0 := h 0 (by omega)
    simp at h0
    have := ih (a + 1) (v / 256) (fun i hi => by
      have := h (i + 1) (by omega)
      rw [Nat.pow_succ, Nat.mul_comm, ← Nat.div_div_eq_div_mul] at this
      rw [← this]; congr 2; omega)
    rw [loadN, this, h0, Nat.pow_succ, Nat.mul_comm (256 ^ k), Nat.mod_mul]

theorem load_store_same {w : Nat} {m : Mem} {a v : Nat} (h : v < wrap w) : load w (store w m a v) a = v := by
  have := loadN_digits w (store w m a v) a v (fun i hi => by
    unfold store
    rw [if_pos (by omega), show a + i - a = i by omega]
    simp)
  rw [load, this]; exact Nat.mod_eq_of_lt h

/-- Rounding by masking is rounding down. -/
theorem and_mask (k n : Nat) (hk : k ≤ 32) : n &&& (2 ^ 32 - 2 ^ k) = n % 2 ^ 32 / 2 ^ k * 2 ^ k := by
  apply Nat.eq_of_testBit_eq
  intro i
  have e : 2 ^ 32 - 2 ^ k = (2 ^ (32 - k) - 1) <<< k := by
    rw [Nat.shiftLeft_eq, Nat.sub_mul, ← Nat.pow_add]
    rw [show 32 - k + k = 32 by omega, Nat.one_mul]
  rw [e, Nat.testBit_and, Nat.testBit_shiftLeft, Nat.testBit_two_pow_sub_one]
  rw [← Nat.shiftLeft_eq (n % 2 ^ 32 / 2 ^ k), Nat.testBit_shiftLeft, ← Nat.shiftRight_eq_div_pow,
    Nat.testBit_shiftRight, Nat.testBit_mod_two_pow]
  by_cases h : k ≤ i
  · have e2 : k + (i - k) = i := by omega
    have e3 : (i - k < 32 - k) ↔ i < 32 := by omega
    simp [h, e2, e3, Bool.and_comm]
  · simp [h]

theorem sizeAlign_eq {w n : Nat} (hw : WordOk w) (h : n + w ≤ 2 ^ 32) :
    sizeAlign w n = (n + (w - 1)) / w * w := by
  have hg := wrap_ge hw
  unfold sizeAlign
  rw [Nat.mod_eq_of_lt (by rcases hw with rfl | rfl <;> omega)]
  rcases hw with rfl | rfl
  · rw [show 2 ^ 32 - 4 = 2 ^ 32 - 2 ^ 2 by decide, and_mask 2 _ (by omega), Nat.mod_eq_of_lt (by omega)]
    rfl
  · rw [show 2 ^ 32 - 8 = 2 ^ 32 - 2 ^ 3 by decide, and_mask 3 _ (by omega), Nat.mod_eq_of_lt (by omega)]
    rfl

/-- Facts about the block size for a request that does not wrap around. -/
theorem reqSize_facts {w n : Nat} (hw : WordOk w) (h : n + 2 * w ≤ 2 ^ 32) :
    n + w ≤ reqSize w n ∧ 2 * w ≤ reqSize w n ∧ reqSize w n % w = 0 ∧ reqSize w n ≤ 2 ^ 32 ∧
      reqSize w n < max n w + w + w := by
  have hg := wrap_ge hw
  unfold reqSize
  have e : (if n < w then w else n) = max n w := by
    rw [Nat.max_def]; split <;> split <;> omega
  rw [e, Nat.mod_eq_of_lt (by rcases hw with rfl | rfl <;> omega),
    sizeAlign_eq hw (by rcases hw with rfl | rfl <;> omega)]
  refine ⟨?_, ?_, by simp, ?_, ?_⟩ <;> rcases hw with rfl | rfl <;> omega

end Fpm.Alloc
