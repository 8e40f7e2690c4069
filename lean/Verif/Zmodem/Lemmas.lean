import Verif.Zmodem.Spec
import Verif.Crc.Props
/-!
# Lemmas about reading
-/
namespace Fpm.Zmodem
open Fpm.Zmodem.Spec Fpm.Crc

@[simp] theorem then_ok {α β : Type} (a : α) (r : List Nat) (f : α → List Nat → Out β) : (Out.ok a r).then f = f a r := rfl
@[simp] theorem then_wait {α β : Type} (f : α → List Nat → Out β) : (Out.wait).then f = .wait := rfl
@[simp] theorem then_killed {α β : Type} (f : α → List Nat → Out β) : (Out.killed).then f = .killed := rfl
@[simp] theorem then_ub {α β : Type} (f : α → List Nat → Out β) : (Out.ub).then f = .ub := rfl

theorem Spec.Clean.head {t : Target} {b : Nat} {s : List Nat} (h : Clean t (b :: s)) :
    b < 256 ∧ (t.signedChar = true → b < 128) ∧ (t.breakOn3 = true → b ≠ 3) := h b (by simp)

theorem Spec.Clean.tail {t : Target} {b : Nat} {s : List Nat} (h : Clean t (b :: s)) : Clean t s :=
  fun x hx => h x (by simp [hx])

theorem Spec.Clean.left {t : Target} {a b : List Nat} (h : Clean t (a ++ b)) : Clean t a := fun x hx => h x (by simp [hx])

theorem Spec.Clean.right {t : Target} {a b : List Nat} (h : Clean t (a ++ b)) : Clean t b := fun x hx => h x (by simp [hx])

theorem recv1_clean {t : Target} {b : Nat} {s : List Nat} (h : Clean t (b :: s)) : recv1 t b = some b := by
  obtain ⟨_, h2, h3⟩ := h.head
  unfold recv1
  rw [if_neg (fun x => h3 x.1 x.2), if_neg (fun x => by have := h2 x.1; omega)]

theorem recv_clean {t : Target} {b : Nat} {s : List Nat} (r : List Nat) (h : Clean t (b :: s)) : recv t (b :: r) = .ok b r := by
  rw [recv, recv1_clean h]

theorem byte_ok : ∀ b < 256, isError b = false ∧ isFin b = false ∧ zvalue b = b := by decide +kernel

theorem and_byte {b : Nat} (h : b < 256) : b &&& 0xff = b := (byte_ok b h).2.2

theorem control_of : ∀ b < 256, noncontrol b = true ∨ b < 32 := by decide +kernel

theorem not_noncontrol : ∀ b < 32, noncontrol b = false := by decide +kernel

theorem esc_ok : ∀ b < 256, (b < 32 ∨ (128 ≤ b ∧ b < 160)) → b + 64 < 256 ∧ b + 64 ≠ 24 ∧ escValue (b + 64) = b := by
  decide +kernel

theorem end_ok : ∀ e, 104 ≤ e → e ≤ 107 → escValue e = 512 + e := by
  intro e h1 h2
  have : ∀ e < 108, 104 ≤ e → escValue e = 512 + e := by decide +kernel
  exact this e (by omega) h1

theorem fin_ok : ∀ e, 104 ≤ e → e ≤ 107 → isError (512 + e) = false ∧ isFin (512 + e) = true ∧ zvalue (512 + e) = e := by
  intro e h1 h2
  have : ∀ e < 108, 104 ≤ e → isError (512 + e) = false ∧ isFin (512 + e) = true ∧ zvalue (512 + e) = e := by decide +kernel
  exact this e (by omega) h1

theorem readEscaped_plain {t : Target} {b : Nat} {s : List Nat} (h : Clean t (b :: s)) (h1 : b ≠ 17) (h2 : b ≠ 19) (h3 : b ≠ 24)
    (r : List Nat) : readEscaped t (b :: r) = .ok b r := by
  rw [readEscaped, recv1_clean h]
  simp only
  have hb := h.head.1
  rcases control_of b hb with h | h
  · rw [if_pos (by simp [h])]
  · rw [if_neg (by simp [not_noncontrol b h, (byte_ok b hb).1]),
      if_neg (by simp [XON, XOFF]; omega), if_neg (by simp [ZDLE]; exact h3)]

theorem readEscaped_noise {t : Target} {n : Nat} {s : List Nat} (h : Clean t (n :: s)) (hn : n = 17 ∨ n = 19)
    (r : List Nat) : readEscaped t (n :: r) = readEscaped t r := by
  rw [readEscaped, recv1_clean h]
  simp only
  rw [if_neg (by rcases hn with rfl | rfl <;> decide), if_pos (by rcases hn with rfl | rfl <;> decide)]

theorem readEscaped_zdle {t : Target} {s : List Nat} (h : Clean t (24 :: s)) (r : List Nat) : readEscaped t (24 :: r) = gotZdle t r := by
  rw [readEscaped, recv1_clean h]
  simp only
  rw [if_neg (by decide), if_neg (by decide), if_pos (by decide)]

theorem readEscaped_esc {t : Target} {c : Nat} {s : List Nat} (h : Clean t (24 :: c :: s)) (hc : c ≠ 24) (r : List Nat) :
    readEscaped t (24 :: c :: r) = .ok (escValue c) r := by
  rw [readEscaped_zdle h, gotZdle, recv_clean r h.tail, then_ok, if_neg (by simp [(byte_ok c h.tail.head.1).1]), cans,
    if_neg (by simpa [ZDLE] using hc)]

/-- Data can be taken apart byte by byte. -/
theorem Spec.Wire.uncons {t : Target} {b : Nat} {p w : List Nat} (h : Wire (b :: p) w) (hc : Clean t w) :
    b < 256 ∧ ∃ w1 w2, w = w1 ++ w2 ∧ Wire p w2 ∧ Clean t w2 ∧ w2.length < w.length ∧ ∀ r, readEscaped t (w1 ++ r) = .ok b r := by
  generalize hq : b :: p = q at h
  induction h with
  | nil => cases hq
  | noise n p' w hn _ ih =>
    obtain ⟨hb, w1, w2, e, h1, h2, h3, h4⟩ := ih hc.tail hq
    refine ⟨hb, n :: w1, w2, by simp [e], h1, h2, by simp; omega, fun r => ?_⟩
    rw [List.cons_append, readEscaped_noise hc hn, h4]
  | plain b' p' w hb h1 h2 h3 hw _ =>
    cases hq
    exact ⟨hb, [b], w, rfl, hw, hc.tail, by simp, fun r => readEscaped_plain hc h1 h2 h3 r⟩
  | esc b' p' w hb hw _ =>
    cases hq
    obtain ⟨h1, h2, h3⟩ := esc_ok b (by omega) hb
    refine ⟨by omega, [24, b + 64], w, rfl, hw, hc.tail.tail, by simp, fun r => ?_⟩
    rw [List.cons_append, List.cons_append, List.nil_append, readEscaped_esc hc h2, h3]
  | rub0 p' w hw _ =>
    cases hq
    exact ⟨by decide, [24, 108], w, rfl, hw, hc.tail.tail, by simp, fun r => readEscaped_esc hc (by decide) r⟩
  | rub1 p' w hw _ =>
    cases hq
    exact ⟨by decide, [24, 109], w, rfl, hw, hc.tail.tail, by simp, fun r => readEscaped_esc hc (by decide) r⟩

/-- What is left when all data have been read are flow control characters. -/
theorem Spec.Wire.rest {t : Target} {w : List Nat} (h : Wire [] w) (hc : Clean t w) (r : List Nat) :
    readEscaped t (w ++ r) = readEscaped t r := by
  generalize hq : ([] : List Nat) = q at h
  induction h with
  | nil => rfl
  | noise n p w hn _ ih => rw [List.cons_append, readEscaped_noise hc hn, ih hc.tail hq]
  | plain | esc | rub0 | rub1 => cases hq

theorem Spec.Wire.bytes {p w : List Nat} (h : Wire p w) : ∀ b ∈ p, b < 256 := by
  induction h with
  | nil => simp
  | noise _ _ _ _ _ ih => exact ih
  | plain b p w hb _ _ _ _ ih => simpa using ⟨hb, ih⟩
  | esc b p w hb _ ih => simp only [List.mem_cons, forall_eq_or_imp]; exact ⟨by omega, ih⟩
  | rub0 p w _ ih => simpa using ih
  | rub1 p w _ ih => simpa using ih

/-! ## The data buffer -/

/-- The buffer with `xs` stored at `i`. -/
def put (buf : List Nat) (i : Nat) (xs : List Nat) : List Nat := buf.take i ++ xs ++ buf.drop (i + xs.length)

theorem put_nil (buf : List Nat) (i : Nat) : put buf i [] = buf := by simp [put]

theorem put_len {buf : List Nat} {i : Nat} {xs : List Nat} (h : i + xs.length ≤ buf.length) : (put buf i xs).length = buf.length := by
  simp [put]; omega

theorem put_cons {buf : List Nat} {i x : Nat} {xs : List Nat} (h : i < buf.length) :
    put (buf.set i x) (i + 1) xs = put buf i (x :: xs) := by
  obtain ⟨l, y, r, rfl, rfl⟩ : ∃ l y r, buf = l ++ y :: r ∧ i = l.length :=
    ⟨buf.take i, buf[i], buf.drop (i + 1), by rw [← List.drop_eq_getElem_cons h, List.take_append_drop], by simp; omega⟩
  unfold put
  rw [List.set_append_right _ _ (Nat.le_refl _), Nat.sub_self, List.set_cons_zero]
  have e3 : ∀ z n, (l ++ z :: r).drop (l.length + 1 + n) = r.drop n := by
    intro z n
    rw [show l ++ z :: r = (l ++ [z]) ++ r by simp, show l.length + 1 + n = (l ++ [z]).length + n by simp, List.drop_append,
      List.drop_of_length_le (by simp), List.nil_append, Nat.add_sub_cancel_left]
  have e4 : (l ++ x :: r).take (l.length + 1) = l ++ [x] := by
    rw [show l ++ x :: r = (l ++ [x]) ++ r by simp, show l.length + 1 = (l ++ [x]).length by simp, List.take_left]
  rw [e3, e4, List.take_left, List.length_cons, show l.length + (xs.length + 1) = l.length + 1 + xs.length by omega, e3]
  simp

theorem put_take {buf : List Nat} {xs : List Nat} (n : Nat) (hn : n = xs.length) : (put buf 0 xs).take n = xs := by
  subst hn; simp [put]

theorem store_ok {buf : List Nat} {i v : Nat} (h : i < buf.length) : store buf i v = some (buf.set i v) := by
  rw [store, if_pos h]

/-- Receiving data. -/
theorem recvLoop_wire {t : Target} (p : List Nat) (w : List Nat) (hw : Wire p w) (hc : Clean t w) (k len : Nat) (buf : List Nat)
    (hk : p.length < k) (hl : len + p.length ≤ buf.length) (r : List Nat) :
    recvLoop t k buf len (w ++ r) = recvLoop t (k - p.length) (put buf len p) (len + p.length) r := by
  induction p generalizing w k len buf with
  | nil =>
    obtain ⟨k, rfl⟩ : ∃ j, k = j + 1 := ⟨k - 1, by simp at hk; omega⟩
    simp only [List.length_nil, Nat.sub_zero, Nat.add_zero, put_nil]
    rw [recvLoop, recvLoop, hw.rest hc]
  | cons b p ih =>
    obtain ⟨hb, w1, w2, rfl, h1, h2, _, h4⟩ := hw.uncons hc
    simp only [List.length_cons] at hk hl
    obtain ⟨k, rfl⟩ : ∃ j, k = j + 1 := ⟨k - 1, by omega⟩
    obtain ⟨e1, e2, e3⟩ := byte_ok b hb
    rw [recvLoop, List.append_assoc, h4, then_ok, if_neg (by simp [e1]), store_ok (by omega)]
    simp only
    rw [if_neg (by simp [e2]), e3, ih w2 h1 h2 k (len + 1) (buf.set len b) (by omega) (by simp; omega), put_cons (by omega)]
    simp only [List.length_cons]
    congr 1 <;> omega

/-- Receiving data and a frame end. -/
theorem recvLoop_end {t : Target} {p w : List Nat} {e : Nat} (hw : Wire p w) (he : FrameEnd e) (hc : Clean t (w ++ [24, e])) {k : Nat}
    {buf : List Nat} (hk : p.length < k) (hl : k ≤ buf.length) (r : List Nat) :
    recvLoop t k buf 0 (w ++ [24, e] ++ r) = .ok (512 + e, put buf 0 (p ++ [e]), p.length + 1) r := by
  rw [List.append_assoc, recvLoop_wire p w hw hc.left k 0 buf hk (by omega)]
  obtain ⟨j, hj⟩ : ∃ j, k - p.length = j + 1 := ⟨k - p.length - 1, by omega⟩
  have hc2 : Clean t (24 :: e :: []) := hc.right
  obtain ⟨he1, he2⟩ := he
  obtain ⟨e1, e2, e3⟩ := fin_ok e he1 he2
  have hp : (put buf 0 p).length = buf.length := put_len (by omega)
  rw [hj, recvLoop, List.cons_append, List.cons_append, List.nil_append, readEscaped_esc hc2 (by omega), then_ok,
    end_ok e he1 he2, if_neg (by simp [e1]), store_ok (by rw [hp]; omega)]
  simp only
  rw [if_pos e2, e3]
  congr 3
  · unfold put
    simp only [List.take_zero, List.nil_append, Nat.zero_add, List.length_append, List.length_singleton]
    rw [List.set_append_right _ _ (Nat.le_refl _), Nat.sub_self, List.append_assoc]
    congr 1
    rw [List.drop_eq_getElem_cons (by omega : p.length < buf.length)]
    rfl
  · simp

/-! ## Checksums -/

theorem crc_bound (m : List Nat) (hm : ∀ b ∈ m, b < 256) : updateCcitt 0 m < 2 ^ 16 ∧ update32 (2 ^ 32 - 1) m < 2 ^ 32 :=
  ⟨(C42_ccitt m hm 0 (by decide)).1, (C42_crc32 m hm _ (by decide)).1⟩

theorem isCrc16_iff (m : List Nat) (hm : ∀ b ∈ m, b < 256) (c : Nat) : IsCrc16 m c ↔ c = updateCcitt 0 m := by
  obtain ⟨h1, h2⟩ := C42_ccitt m hm 0 (by decide)
  rw [poly_zero, mul_zero, zero_add] at h2
  constructor
  · rintro ⟨h3, h4⟩
    exact poly_inj 16 _ _ h3 h1 (h4.trans h2.symm)
  · rintro rfl
    exact ⟨h1, h2⟩

theorem isCrc32_iff (m : List Nat) (hm : ∀ b ∈ m, b < 256) (c : Nat) : IsCrc32 m c ↔ c = not32 (update32 (2 ^ 32 - 1) m) := by
  obtain ⟨h1, h2⟩ := C42_crc32 m hm (2 ^ 32 - 1) (by decide)
  constructor
  · rintro ⟨h3, h4⟩
    have := rpoly_inj 32 _ _ (show 2 ^ 32 - 1 - c < 2 ^ 32 by omega) h1 (h4.trans h2.symm)
    unfold not32
    omega
  · rintro rfl
    unfold not32
    refine ⟨by omega, ?_⟩
    rw [show 2 ^ 32 - 1 - (2 ^ 32 - 1 - update32 (2 ^ 32 - 1) m) = update32 (2 ^ 32 - 1) m by omega]
    exact h2

theorem crcOf2_eq {a b : Nat} (hb : b < 256) : crcOf2 a b = a * 256 + b := by
  rw [crcOf2, Nat.shiftLeft_eq, show (2 : Nat) ^ 8 = 256 from rfl, Nat.mul_comm a 256, show (256 : Nat) = 2 ^ 8 from rfl,
    Nat.two_pow_add_eq_or_of_lt (by simpa using hb)]

theorem crcOf4_eq {a b c d : Nat} (ha : a < 256) (hb : b < 256) (hc : c < 256) :
    crcOf4 a b c d = a + b * 2 ^ 8 + c * 2 ^ 16 + d * 2 ^ 24 := by
  rw [crcOf4, Nat.shiftLeft_eq, Nat.shiftLeft_eq, Nat.shiftLeft_eq]
  have h1 : c * 2 ^ 16 < 2 ^ 24 := by
    rw [show (2 : Nat) ^ 24 = 256 * 2 ^ 16 from rfl]; exact Nat.mul_lt_mul_of_pos_right hc (by decide)
  have h2 : b * 2 ^ 8 < 2 ^ 16 := by
    rw [show (2 : Nat) ^ 16 = 256 * 2 ^ 8 from rfl]; exact Nat.mul_lt_mul_of_pos_right hb (by decide)
  rw [Nat.mul_comm d, ← Nat.two_pow_add_eq_or_of_lt h1, show 2 ^ 24 * d + c * 2 ^ 16 = 2 ^ 16 * (2 ^ 8 * d + c) by omega,
    ← Nat.two_pow_add_eq_or_of_lt h2, show 2 ^ 16 * (2 ^ 8 * d + c) + b * 2 ^ 8 = 2 ^ 8 * (2 ^ 16 * d + 2 ^ 8 * c + b) by omega,
    ← Nat.two_pow_add_eq_or_of_lt (by simpa using ha)]
  omega

/-- Check bytes. -/
theorem check_iff (m : List Nat) (hm : ∀ b ∈ m, b < 256) {a b c d : Nat} (ha : a < 256) (hb : b < 256) (hc : c < 256) (_hd : d < 256) :
    (Check false m [a, b] ↔ crcOf2 a b = updateCcitt 0 m) ∧
    (Check true m [a, b, c, d] ↔ crcOf4 a b c d = not32 (update32 (2 ^ 32 - 1) m)) := by
  constructor
  · rw [crcOf2_eq hb, Check]
    simp only [Bool.false_eq_true, if_false, isCrc16_iff m hm, exists_eq_left, List.cons.injEq, and_true]
    omega
  · rw [crcOf4_eq ha hb hc, Check]
    simp only [if_true, isCrc32_iff m hm, exists_eq_left, List.cons.injEq, and_true]
    generalize not32 _ = n
    omega

end Fpm.Zmodem
