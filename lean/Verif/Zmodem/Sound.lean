import Verif.Zmodem.HdrLemmas
/-!
# What is accepted is well-formed, and nothing is read or written outside
-/
namespace Fpm.Zmodem
open Fpm.Zmodem.Spec Fpm.Crc

/-- No undefined behaviour, and a condition on the value and the rest of the input. -/
def Post {α : Type} (P : α → List Nat → Prop) : Out α → Prop
  | .ok a r => P a r
  | .wait => True
  | .killed => True
  | .ub => False

theorem Post.bind {α β : Type} {P : α → List Nat → Prop} {Q : β → List Nat → Prop} {x : Out α} {f : α → List Nat → Out β}
    (h : Post P x) (hf : ∀ a r, P a r → Post Q (f a r)) : Post Q (x.then f) := by
  cases x with
  | ok a r => exact hf a r h
  | wait => trivial
  | killed => trivial
  | ub => exact h

theorem Post.imp {α : Type} {P Q : α → List Nat → Prop} {x : Out α} (h : Post P x) (hf : ∀ a r, P a r → Q a r) : Post Q x := by
  cases x with
  | ok a r => exact hf a r h
  | wait => trivial
  | killed => trivial
  | ub => exact h

theorem Post.ok {α : Type} {P : α → List Nat → Prop} {x : Out α} (h : Post P x) {a : α} {r : List Nat} (hx : x = .ok a r) : P a r := by
  subst hx; exact h

theorem Post.ne {α : Type} {P : α → List Nat → Prop} {x : Out α} (h : Post P x) : x ≠ .ub := by
  rintro rfl; exact h

theorem recv1_cases (t : Target) (b : Nat) (hb : b < 256) :
    recv1 t b = none ∨ recv1 t b = some b ∨ (∃ c, recv1 t b = some c ∧ isError c = true) := by
  unfold recv1
  split
  · exact .inl rfl
  · split
    · rename_i h
      refine .inr (.inr ⟨_, rfl, ?_⟩)
      have : ∀ b < 256, 128 ≤ b → isError (0xff00 + b) = true := by decide +kernel
      exact this b hb h.2
    · exact .inr (.inl rfl)

theorem recv_post (t : Target) (s : List Nat) (hs : ∀ b ∈ s, b < 256) :
    Post (fun c r => ∃ b, s = b :: r ∧ b < 256 ∧ (c = b ∨ isError c = true)) (recv t s) := by
  cases s with
  | nil => trivial
  | cons b r =>
    have hb := hs b (by simp)
    rw [recv]
    rcases recv1_cases t b hb with h | h | ⟨c, h, hc⟩
    · rw [h]; trivial
    · rw [h]; exact ⟨b, rfl, hb, .inl rfl⟩
    · rw [h]; exact ⟨b, rfl, hb, .inr hc⟩

theorem escSym_of (x : Nat) (hx : x < 256) (h : isError (escValue x) = false) : EscSym (escValue x) x := by
  unfold EscSym FrameEnd
  revert h
  revert hx
  revert x
  decide +kernel

theorem escValue_can : isError (escValue 24) = true := by decide

theorem cans_post (t : Target) (k c : Nat) (hc : c < 256) (r : List Nat) (hr : ∀ b ∈ r, b < 256) :
    Post (fun v r' => ∃ w, c :: r = w ++ r' ∧ (isError v = false → ∃ j x, j ≤ k ∧ w = List.replicate j 24 ++ [x] ∧ EscSym v x)) (cans t k c r) := by
  induction k generalizing c r with
  | zero => exact ⟨[c], rfl, fun h => ⟨0, c, Nat.le_refl _, rfl, escSym_of c hc h⟩⟩
  | succ k ih =>
    rw [cans]
    split
    · rename_i h
      refine (recv_post t r hr).bind fun c' r' ⟨b, hb, hb2, hb3⟩ => ?_
      subst hb
      split
      · rename_i he
        exact ⟨[c, b], rfl, fun h => by simp [he] at h⟩
      · rename_i he
        have : c' = b := by rcases hb3 with h | h
                            · exact h
                            · exact absurd h he
        subst this
        refine (ih c' hb2 r' (fun x hx => hr x (by simp [hx]))).imp fun v r2 ⟨w, hw, hv⟩ => ?_
        refine ⟨c :: w, by rw [hw]; rfl, fun hv2 => ?_⟩
        obtain ⟨j, x, hj, hw2, hx⟩ := hv hv2
        refine ⟨j + 1, x, by omega, ?_, hx⟩
        rw [hw2, h]; rfl
    · exact ⟨[c], rfl, fun h => ⟨0, c, by omega, rfl, escSym_of c hc h⟩⟩

theorem readEscaped_post (t : Target) (s : List Nat) (hs : ∀ b ∈ s, b < 256) :
    Post (fun c r => ∃ w, w ≠ [] ∧ s = w ++ r ∧ (isError c = false → Sym c w)) (readEscaped t s) := by
  induction s with
  | nil => trivial
  | cons b r ih =>
    have hb := hs b (by simp)
    have hr : ∀ b ∈ r, b < 256 := fun x hx => hs x (by simp [hx])
    rw [readEscaped]
    rcases recv1_cases t b hb with h | h | ⟨c, h, hc⟩
    · rw [h]; trivial
    · rw [h]
      simp only
      split
      · rename_i h1
        refine ⟨[b], by simp, rfl, fun _ => ?_⟩
        have h2 : noncontrol b = true := by simpa [(byte_ok b hb).1] using h1
        refine .plain b hb ?_ ?_ ?_ <;> (rintro rfl; simp [noncontrol] at h2)
      · rename_i h1
        have h2 : noncontrol b = false := by
          cases h3 : noncontrol b with
          | false => rfl
          | true => simp [h3] at h1
        split
        · rename_i h3
          have hn : b = 17 ∨ b = 19 := by
            rcases h3 with h | h | h | h
            · exact .inl h
            · subst h; simp [noncontrol, XON] at h2
            · exact .inr h
            · subst h; simp [noncontrol, XOFF] at h2
          refine (ih hr).imp fun c r' ⟨w, hw1, hw2, hw3⟩ => ?_
          exact ⟨b :: w, by simp, by rw [hw2]; rfl, fun hc => .noise b c w hn (hw3 hc)⟩
        · rename_i h3
          split
          · rename_i h4
            rw [gotZdle]
            refine (recv_post t r hr).bind fun c' r' ⟨b', hb1, hb2, hb3⟩ => ?_
            subst hb1
            split
            · rename_i he
              exact ⟨[b, b'], by simp, rfl, fun h => by simp [he] at h⟩
            · rename_i he
              have : c' = b' := by rcases hb3 with h | h
                                   · exact h
                                   · exact absurd h he
              subst this
              refine (cans_post t 3 c' hb2 r' (fun x hx => hr x (by simp [hx]))).imp fun v r2 ⟨w, hw, hv⟩ => ?_
              refine ⟨b :: w, by simp, by rw [hw]; rfl, fun hv2 => ?_⟩
              obtain ⟨j, x, hj, hw2, hx⟩ := hv hv2
              rw [hw2, h4]
              exact .esc (j + 1) v x (by omega) (by omega) hx
          · rename_i h4
            refine ⟨[b], by simp, rfl, fun _ => ?_⟩
            exact .plain b hb (fun h => h3 (.inl h)) (fun h => h3 (.inr (.inr (.inl h)))) h4
    · rw [h]
      simp only
      rw [if_pos (by simp [hc])]
      exact ⟨[b], by simp, rfl, fun h => by simp [hc] at h⟩

theorem Spec.Sym.cases' {v : Nat} {w : List Nat} (h : Sym v w) : v < 256 ∨ ∃ e, FrameEnd e ∧ v = 512 + e := by
  induction h with
  | noise _ _ _ _ _ ih => exact ih
  | plain b hb _ _ _ => exact .inl hb
  | esc k v x _ _ hx =>
    rcases hx with h | h | h | ⟨h1, h2⟩
    · left; omega
    · left; omega
    · left; omega
    · exact .inr ⟨x, h2, h1⟩

theorem Spec.Sym.ne_nil {v : Nat} {w : List Nat} (h : Sym v w) : w ≠ [] := by
  cases h <;> simp

theorem suffix_bytes {s w r : List Nat} (hs : ∀ b ∈ s, b < 256) (h : s = w ++ r) : ∀ b ∈ r, b < 256 :=
  fun b hb => hs b (by rw [h]; simp [hb])

theorem recvLoop_post (t : Target) (k : Nat) (buf : List Nat) (len : Nat) (s : List Nat) (hs : ∀ b ∈ s, b < 256) (hk : len + k ≤ buf.length) :
    Post (fun x r => ∃ w p, s = w ++ r ∧ (0 < k → w ≠ []) ∧ x.2.1 = put buf len p ∧ x.2.2 = len + p.length ∧ p.length ≤ k ∧
      (isError x.1 = false → ∃ p0 e w1 w2, p = p0 ++ [e] ∧ (∀ b ∈ p0, b < 256) ∧ x.1 = 512 + e ∧ FrameEnd e ∧ w = w1 ++ w2 ∧ Syms p0 w1 ∧ Sym (512 + e) w2))
      (recvLoop t k buf len s) := by
  induction k generalizing buf len s with
  | zero => exact ⟨[], [], rfl, by omega, (put_nil _ _).symm, rfl, Nat.le_refl _, fun h => absurd h (by simp [isError, OUT_OF_SPACE])⟩
  | succ k ih =>
    rw [recvLoop]
    refine (readEscaped_post t s hs).bind fun c r ⟨w, hw0, hw, hv⟩ => ?_
    split
    · rename_i he
      exact ⟨w, [], hw, fun _ => hw0, (put_nil _ _).symm, rfl, Nat.zero_le _, fun h => by simp [he] at h⟩
    · rename_i he
      have hv := hv (by simpa using he)
      rw [store_ok (by omega)]
      simp only
      rcases hv.cases' with hc | ⟨e, he2, rfl⟩
      · rw [if_neg (by simp [(byte_ok c hc).2.1]), (byte_ok c hc).2.2]
        refine (ih (buf.set len c) (len + 1) r (suffix_bytes hs hw) (by simp; omega)).imp fun x r2 ⟨w2, p, h1, h2, h3, h4, h5, h6⟩ => ?_
        refine ⟨w ++ w2, c :: p, by rw [hw, h1, List.append_assoc], fun _ => by simp [hw0], ?_, by rw [h4, List.length_cons]; omega,
          by rw [List.length_cons]; omega, fun hx => ?_⟩
        · rw [h3, put_cons (by omega)]
        · obtain ⟨p0, e, u1, u2, g1, g2, g3, g4, g5, g6, g7⟩ := h6 hx
          refine ⟨c :: p0, e, w ++ u1, u2, by rw [g1]; rfl, ?_, g3, g4, by rw [g5, List.append_assoc], .cons _ _ _ _ hv g6, g7⟩
          intro b hb
          rcases List.mem_cons.mp hb with h | h
          · omega
          · exact g2 b h
      · obtain ⟨f1, f2, f3⟩ := fin_ok e he2.1 he2.2
        rw [if_pos (by simp [f2]), f3]
        refine ⟨w, [e], hw, fun _ => hw0, ?_, rfl, by simp, fun _ => ⟨[], e, [], w, rfl, by simp, rfl, he2, rfl, .nil, hv⟩⟩
        have h := put_cons (xs := []) (x := e) (show len < buf.length by omega)
        rw [put_nil] at h
        exact h

theorem Spec.Sym.zv {v : Nat} {w : List Nat} (h : Sym v w) : zvalue v = v % 256 ∧ v % 256 < 256 := by
  refine ⟨?_, Nat.mod_lt _ (by decide)⟩
  rcases h.cases' with h | ⟨e, he, rfl⟩
  · rw [(byte_ok v h).2.2]; omega
  · rw [(fin_ok e he.1 he.2).2.2]; unfold FrameEnd at he; omega

theorem crcByte_post {t : Target} {buf : List Nat} {len : Nat} {s : List Nat} (hs : ∀ b ∈ s, b < 256) {f : Nat → List Nat → Out (Nat × List Nat × Nat)}
    {Q : Nat × List Nat × Nat → List Nat → Prop} (he : ∀ c w r, s = w ++ r → isError c = true → Q (c, buf, len) r)
    (hf : ∀ v w r, s = w ++ r → Sym v w → Post Q (f (v % 256) r)) : Post Q (crcByte t buf len s f) := by
  rw [crcByte]
  refine (readEscaped_post t s hs).bind fun c r ⟨w, _, hw, hv⟩ => ?_
  split
  · rename_i h; exact he c w r hw h
  · rename_i h
    have hv := hv (by simpa using h)
    rw [hv.zv.1]
    exact hf c w r hw hv

/-- What a data block read from any input does. -/
theorem readDataBlock_post (t : Target) (in32 : Bool) (buf : List Nat) (max : Nat) (s : List Nat) (hs : ∀ b ∈ s, b < 256) (hk : max ≤ buf.length) :
    Post (fun x r => ∃ w p, s = w ++ r ∧ x.2.1 = put buf 0 p ∧ x.2.2 = p.length ∧ p.length ≤ max ∧
      (isError x.1 = false → ∃ p0 e, p = p0 ++ [e] ∧ x.1 = 512 + e ∧ GoodSub in32 p0 e w))
      (readDataBlock t in32 buf max s) := by
  rw [readDataBlock]
  refine (recvLoop_post t max buf 0 s hs (by omega)).bind fun x r ⟨w, p, h1, _, h2, h3, h4, h5⟩ => ?_
  obtain ⟨res, buf', n⟩ := x
  simp only at h2 h3 h4 h5 ⊢
  rw [Nat.zero_add] at h3
  split
  · rename_i h
    exact ⟨w, p, h1, h2, h3, h4, fun hx => by simp [h] at hx⟩
  rename_i h
  obtain ⟨p0, e, w1, w2, rfl, g2, rfl, g4, rfl, g6, g7⟩ := h5 (by simpa using h)
  have hr := suffix_bytes hs h1
  have hpe : ∀ b ∈ p0 ++ [e], b < 256 := by
    intro b hb
    rcases List.mem_append.mp hb with h | h
    · exact g2 b h
    · simp at h; unfold FrameEnd at g4; omega
  have hz : (0 : Nat) < 256 := by decide
  have htk : (put buf 0 (p0 ++ [e])).take (p0 ++ [e]).length = p0 ++ [e] := put_take _ rfl
  have hq : ∀ c (w' r' : List Nat), r = w' ++ r' → isError c = true → ∃ w p, s = w ++ r' ∧ put buf 0 (p0 ++ [e]) = put buf 0 p ∧ (p0 ++ [e]).length = p.length ∧ p.length ≤ max ∧
      (isError c = false → ∃ p0 e, p = p0 ++ [e] ∧ c = 512 + e ∧ GoodSub in32 p0 e w) := by
    intro c w' r' hw hc
    exact ⟨w1 ++ w2 ++ w', p0 ++ [e], by rw [h1, hw]; simp only [List.append_assoc], rfl, rfl, h4, fun hx => by simp [hc] at hx⟩
  subst h2 h3
  refine crcByte_post hr (fun c w' r' hw hc => hq c w' r' hw hc) fun v1 u1 r1 e1 s1 => ?_
  have hr1 := suffix_bytes hr e1
  refine crcByte_post hr1 (fun c w' r' hw hc => hq c (u1 ++ w') r' (by rw [e1, hw, List.append_assoc]) hc) fun v2 u2 r2 e2 s2 => ?_
  have hr2 := suffix_bytes hr1 e2
  cases in32 with
  | false =>
    rw [if_neg (by simp)]
    refine ⟨w1 ++ w2 ++ (u1 ++ u2), p0 ++ [e], by rw [h1, e1, e2]; simp only [List.append_assoc], rfl, rfl, h4, fun hx => ⟨p0, e, rfl, ?_⟩⟩
    simp only at hx ⊢
    have hc := (check_iff (p0 ++ [e]) hpe s1.zv.2 s2.zv.2 hz hz).1
    by_cases hcheck : crcOf2 (v1 % 256) (v2 % 256) = dataCrc16 (put buf 0 (p0 ++ [e])) (p0 ++ [e]).length
    · rw [if_pos hcheck]
      refine ⟨rfl, g4, w1, w2, u1 ++ u2, [v1 % 256, v2 % 256], rfl, g6, g2, g7, ⟨[v1, v2], ?_, rfl⟩, ?_⟩
      · have := Syms.cons v1 [v2] u1 _ s1 (.cons v2 [] u2 [] s2 .nil)
        simpa using this
      · rw [hc, hcheck, dataCrc16, htk]
    · rw [if_neg hcheck] at hx
      cases hx
  | true =>
    rw [if_pos rfl]
    refine crcByte_post hr2 (fun c w' r' hw hc => hq c (u1 ++ u2 ++ w') r' (by rw [e1, e2, hw]; simp only [List.append_assoc]) hc) fun v3 u3 r3 e3 s3 => ?_
    have hr3 := suffix_bytes hr2 e3
    refine crcByte_post hr3 (fun c w' r' hw hc => hq c (u1 ++ u2 ++ u3 ++ w') r' (by rw [e1, e2, e3, hw]; simp only [List.append_assoc]) hc) fun v4 u4 r4 e4 s4 => ?_
    refine ⟨w1 ++ w2 ++ (u1 ++ u2 ++ u3 ++ u4), p0 ++ [e], by rw [h1, e1, e2, e3, e4]; simp only [List.append_assoc], rfl, rfl, h4, fun hx => ⟨p0, e, rfl, ?_⟩⟩
    simp only at hx ⊢
    have hc := (check_iff (p0 ++ [e]) hpe s1.zv.2 s2.zv.2 s3.zv.2 s4.zv.2).2
    by_cases hcheck : crcOf4 (v1 % 256) (v2 % 256) (v3 % 256) (v4 % 256) = dataCrc32 (put buf 0 (p0 ++ [e])) (p0 ++ [e]).length
    · rw [if_pos hcheck]
      refine ⟨rfl, g4, w1, w2, u1 ++ u2 ++ u3 ++ u4, [v1 % 256, v2 % 256, v3 % 256, v4 % 256], rfl, g6, g2, g7, ⟨[v1, v2, v3, v4], ?_, rfl⟩, ?_⟩
      · have := Syms.cons v1 [v2, v3, v4] u1 _ s1 (.cons v2 [v3, v4] u2 _ s2 (.cons v3 [v4] u3 _ s3 (.cons v4 [] u4 [] s4 .nil)))
        simpa using this
      · rw [hc, hcheck, dataCrc32, if_neg (by simp), htk]
    · rw [if_neg hcheck] at hx
      cases hx

/-! ## Headers -/

theorem nybble_of : ∀ c < 256, hexToNybble c = BAD_DIGIT ∨ (hexToNybble c < 16 ∧ c = digit (hexToNybble c)) := by decide +kernel

theorem hexToByte_of (c1 c2 : Nat) (h1 : c1 < 256) (h2 : c2 < 256) (h : isError (hexToByte c1 c2) = false) :
    hexToByte c1 c2 < 256 ∧ [c1, c2] = hex2 (hexToByte c1 c2) := by
  rcases nybble_of c1 h1 with a | ⟨a, b⟩
  · simp [hexToByte, Nat.mod_eq_of_lt h1, a, isError, BAD_DIGIT] at h
  · rcases nybble_of c2 h2 with c | ⟨c, d⟩
    · simp [hexToByte, Nat.mod_eq_of_lt h2, c, isError, BAD_DIGIT] at h
    · rw [hexToByte, Nat.mod_eq_of_lt h1, Nat.mod_eq_of_lt h2, if_neg (by unfold BAD_DIGIT; omega)]
      generalize hexToNybble c1 = x at a b ⊢
      generalize hexToNybble c2 = y at c d ⊢
      have e : x <<< 4 ||| y = x * 16 + y := by
        rw [Nat.shiftLeft_eq, show (2 : Nat) ^ 4 = 16 from rfl, Nat.mul_comm x 16, show (16 : Nat) = 2 ^ 4 from rfl, Nat.two_pow_add_eq_or_of_lt c]
      rw [e, hex2, show (x * 16 + y) / 16 = x by omega, show (x * 16 + y) % 16 = y by omega, b, d]
      exact ⟨by omega, by rw [← b, ← d]⟩

theorem hexDigit_post {t : Target} {hdr : List Nat} {s : List Nat} (hs : ∀ b ∈ s, b < 256) {f : Nat → List Nat → Out (Nat × List Nat)}
    {Q : Nat × List Nat → List Nat → Prop} (he : ∀ c b r, s = b :: r → isError c = true → Q (c, hdr) r)
    (hf : ∀ b r, s = b :: r → b < 256 → Post Q (f b r)) : Post Q (hexDigit t hdr s f) := by
  rw [hexDigit]
  refine (recv_post t s hs).bind fun c r ⟨b, h1, h2, h3⟩ => ?_
  split
  · rename_i h; exact he c b r h1 h
  · rename_i h
    split
    · exact he CLOSED b r h1 (by decide)
    · rcases h3 with rfl | h3
      · exact hf c r h1 h2
      · exact absurd h3 h

theorem set_put {hdr : List Nat} {i b : Nat} (bs : List Nat) (h : i < hdr.length) : put (hdr.set i b) (i + 1) bs = put hdr i (b :: bs) := put_cons h

theorem hexLoop_post (t : Target) (k i : Nat) (hdr : List Nat) (crc : Nat) (s : List Nat) (hs : ∀ b ∈ s, b < 256) (hk : i + k ≤ hdr.length) :
    Post (fun x r => x.2.length = hdr.length ∧ ∃ w, s = w ++ r ∧ (x.1 = OK → ∃ bs, bs.length = k ∧ (∀ b ∈ bs, b < 256) ∧ w = bs.flatMap hex2 ∧
      x.2 = put hdr i bs ∧ checkCrc16 (put hdr i bs) (updateCcitt crc (bs.take (5 - i))) = OK)) (hexLoop t k i hdr crc s) := by
  induction k generalizing i hdr crc s with
  | zero => exact ⟨rfl, [], rfl, fun h => ⟨[], rfl, by simp, rfl, (put_nil _ _).symm, by rw [put_nil, List.take_nil]; exact h⟩⟩
  | succ k ih =>
    have herr : ∀ c, isError c = true → c ≠ OK := by rintro c h rfl; simp [isError, OK] at h
    rw [hexLoop]
    refine hexDigit_post hs (fun c b r h1 h2 => ⟨rfl, [b], h1, fun h => absurd h (herr c h2)⟩) fun c1 r1 e1 h1 => ?_
    have hs1 : ∀ b ∈ r1, b < 256 := suffix_bytes (w := [c1]) hs e1
    refine hexDigit_post hs1 (fun c b r h1 h2 => ⟨rfl, [c1, b], by rw [e1, h1]; rfl, fun h => absurd h (herr c h2)⟩) fun c2 r2 e2 h2 => ?_
    have hs2 : ∀ b ∈ r2, b < 256 := suffix_bytes (w := [c2]) hs1 e2
    split
    · rename_i h
      exact ⟨rfl, [c1, c2], by rw [e1, e2]; rfl, fun hx => absurd hx (herr _ h)⟩
    · rename_i h
      obtain ⟨g1, g2⟩ := hexToByte_of c1 c2 h1 h2 (by simpa using h)
      generalize hexToByte c1 c2 = v at g1 g2
      rw [store_ok (by omega), Nat.mod_eq_of_lt g1]
      refine (ih (i + 1) (hdr.set i v) _ r2 hs2 (by simp; omega)).imp fun x r ⟨j1, w, j2, j3⟩ => ?_
      refine ⟨by rw [j1, List.length_set], [c1, c2] ++ w, by rw [e1, e2, j2]; rfl, fun hx => ?_⟩
      obtain ⟨bs, k1, k2, k3, k4, k5⟩ := j3 hx
      refine ⟨v :: bs, by simp [k1], by simpa using ⟨g1, k2⟩, by rw [List.flatMap_cons, ← g2, k3], by rw [k4, set_put _ (by omega)], ?_⟩
      rw [set_put _ (by omega)] at k5
      rw [updateCcitt] at k5 ⊢
      rw [take_step]
      exact k5

theorem bin16Loop_post (t : Target) (k i : Nat) (hdr : List Nat) (crc : Nat) (s : List Nat) (hs : ∀ b ∈ s, b < 256) (hk : i + k ≤ hdr.length) :
    Post (fun x r => x.2.length = hdr.length ∧ ∃ w, s = w ++ r ∧ (x.1 = OK → ∃ bs, bs.length = k ∧ (∀ b ∈ bs, b < 256) ∧ Vals bs w ∧
      x.2 = put hdr i bs ∧ checkCrc16 (put hdr i bs) (updateCcitt crc (bs.take (5 - i))) = OK)) (bin16Loop t k i hdr crc s) := by
  induction k generalizing i hdr crc s with
  | zero => exact ⟨rfl, [], rfl, fun h => ⟨[], rfl, by simp, ⟨[], .nil, rfl⟩, (put_nil _ _).symm, by rw [put_nil, List.take_nil]; exact h⟩⟩
  | succ k ih =>
    have herr : ∀ c, isError c = true → c ≠ OK := by rintro c h rfl; simp [isError, OK] at h
    rw [bin16Loop]
    refine (readEscaped_post t s hs).bind fun c r ⟨w, _, hw, hv⟩ => ?_
    split
    · rename_i h
      exact ⟨rfl, w, hw, fun hx => absurd hx (herr _ h)⟩
    · rename_i h
      have hv := hv (by simpa using h)
      have g1 : c % 256 < 256 := Nat.mod_lt _ (by decide)
      rw [store_ok (by omega)]
      refine (ih (i + 1) (hdr.set i (c % 256)) _ r (suffix_bytes hs hw) (by simp; omega)).imp fun x r' ⟨j1, w', j2, j3⟩ => ?_
      refine ⟨by rw [j1, List.length_set], w ++ w', by rw [hw, j2, List.append_assoc], fun hx => ?_⟩
      obtain ⟨bs, k1, k2, ⟨vs, k3, k3'⟩, k4, k5⟩ := j3 hx
      refine ⟨c % 256 :: bs, by simp [k1], by simpa using ⟨g1, k2⟩, ⟨c :: vs, .cons _ _ _ _ hv k3, by rw [k3']; rfl⟩, by rw [k4, set_put _ (by omega)], ?_⟩
      rw [set_put _ (by omega)] at k5
      rw [updateCcitt] at k5 ⊢
      rw [take_step]
      exact k5

theorem bin32Loop_post (t : Target) (k i : Nat) (hdr : List Nat) (crc : Nat) (s : List Nat) (hs : ∀ b ∈ s, b < 256) (hk : i + k ≤ hdr.length) :
    Post (fun x r => x.2.length = hdr.length ∧ ∃ w, s = w ++ r ∧ (x.1 = OK → ∃ bs, bs.length = k ∧ (∀ b ∈ bs, b < 256) ∧ Vals bs w ∧
      x.2 = put hdr i bs ∧ checkCrc32 (put hdr i bs) (not32 (update32 crc (bs.take (5 - i)))) = OK)) (bin32Loop t k i hdr crc s) := by
  induction k generalizing i hdr crc s with
  | zero => exact ⟨rfl, [], rfl, fun h => ⟨[], rfl, by simp, ⟨[], .nil, rfl⟩, (put_nil _ _).symm, by rw [put_nil, List.take_nil]; exact h⟩⟩
  | succ k ih =>
    have herr : ∀ c, isError c = true → c ≠ OK := by rintro c h rfl; simp [isError, OK] at h
    rw [bin32Loop]
    refine (readEscaped_post t s hs).bind fun c r ⟨w, _, hw, hv⟩ => ?_
    split
    · rename_i h
      exact ⟨rfl, w, hw, fun hx => absurd hx (herr _ h)⟩
    · rename_i h
      have hv := hv (by simpa using h)
      have g1 : c % 256 < 256 := Nat.mod_lt _ (by decide)
      rw [store_ok (by omega)]
      refine (ih (i + 1) (hdr.set i (c % 256)) _ r (suffix_bytes hs hw) (by simp; omega)).imp fun x r' ⟨j1, w', j2, j3⟩ => ?_
      refine ⟨by rw [j1, List.length_set], w ++ w', by rw [hw, j2, List.append_assoc], fun hx => ?_⟩
      obtain ⟨bs, k1, k2, ⟨vs, k3, k3'⟩, k4, k5⟩ := j3 hx
      refine ⟨c % 256 :: bs, by simp [k1], by simpa using ⟨g1, k2⟩, ⟨c :: vs, .cons _ _ _ _ hv k3, by rw [k3']; rfl⟩, by rw [k4, set_put _ (by omega)], ?_⟩
      rw [set_put _ (by omega)] at k5
      rw [update32] at k5 ⊢
      rw [take_step]
      exact k5

theorem split5 {bs : List Nat} {n : Nat} (h : bs.length = 5 + n) : ∃ five cs, bs = five ++ cs ∧ five.length = 5 ∧ cs.length = n :=
  ⟨bs.take 5, bs.drop 5, (List.take_append_drop 5 bs).symm, by simp; omega, by simp; omega⟩

theorem hdrOf_take {five cs : List Nat} (h : five.length = 5) : (hdrOf (five ++ cs)).take 5 = five := by
  rw [hdrOf, List.append_assoc, show 5 = five.length from h.symm, List.take_left]

theorem good16 {bs : List Nat} (hl : bs.length = 7) (hb : ∀ b ∈ bs, b < 256)
    (h : checkCrc16 (put blankHdr 0 bs) (updateCcitt 0 (bs.take (5 - 0))) = OK) :
    ∃ five cs, bs = five ++ cs ∧ five.length = 5 ∧ (∀ b ∈ five, b < 256) ∧ Check false five cs ∧ put blankHdr 0 bs = hdrOf (five ++ cs) := by
  obtain ⟨five, cs, rfl, h1, h2⟩ := split5 (n := 2) hl
  obtain ⟨c1, c2, rfl⟩ := two_eq h2
  have hf : ∀ b ∈ five, b < 256 := fun b hx => hb b (by simp [hx])
  rw [put_blank _ (by omega), check16 five h1 hf c1 c2 (hb _ (by simp)) (hb _ (by simp))] at h
  refine ⟨five, [c1, c2], rfl, h1, hf, ?_, put_blank _ (by omega)⟩
  by_contra hc
  rw [if_neg hc] at h
  cases h

theorem good32 {bs : List Nat} (hl : bs.length = 9) (hb : ∀ b ∈ bs, b < 256)
    (h : checkCrc32 (put blankHdr 0 bs) (not32 (update32 (2 ^ 32 - 1) (bs.take (5 - 0)))) = OK) :
    ∃ five cs, bs = five ++ cs ∧ five.length = 5 ∧ (∀ b ∈ five, b < 256) ∧ Check true five cs ∧ put blankHdr 0 bs = hdrOf (five ++ cs) := by
  obtain ⟨five, cs, rfl, h1, h2⟩ := split5 (n := 4) hl
  obtain ⟨c1, c2, c3, c4, rfl⟩ := four_eq h2
  have hf : ∀ b ∈ five, b < 256 := fun b hx => hb b (by simp [hx])
  rw [put_blank _ (by omega), check32 five h1 hf c1 c2 c3 c4 (hb _ (by simp)) (hb _ (by simp)) (hb _ (by simp)) (hb _ (by simp))] at h
  refine ⟨five, [c1, c2, c3, c4], rfl, h1, hf, ?_, put_blank _ (by omega)⟩
  by_contra hc
  rw [if_neg hc] at h
  cases h

theorem readCrlf_post (t : Target) (s : List Nat) (hs : ∀ b ∈ s, b < 256) : Post (fun _ r => ∃ w, s = w ++ r) (readCrlf t s) := by
  rw [readCrlf]
  refine (readEscaped_post t s hs).bind fun c r ⟨w, _, hw, _⟩ => ?_
  split
  · exact ⟨w, hw⟩
  split
  · exact ⟨w, hw⟩
  split
  · refine (readEscaped_post t r (suffix_bytes hs hw)).bind fun c r' ⟨w', _, hw', _⟩ => ?_
    split
    · exact ⟨w ++ w', by rw [hw, hw', List.append_assoc]⟩
    split
    · exact ⟨w ++ w', by rw [hw, hw', List.append_assoc]⟩
    · exact ⟨w ++ w', by rw [hw, hw', List.append_assoc]⟩
  · exact ⟨w, hw⟩

/-- What a header read from any input does. -/
theorem readHeader_post (t : Target) (f : Nat) (h : Hdr) (s : List Nat) (hs : ∀ b ∈ s, b < 256) :
    Post (fun h' r => ∃ w, s = w ++ r ∧ (h'.result = OK → ∃ five cs, h'.hdr = hdrOf (five ++ cs) ∧ Check h'.in32 five cs ∧ GoodHdr h'.in32 five w))
      (readHeader t f h s) := by
  rw [readHeader]
  have hz : 0 + 7 ≤ blankHdr.length := by decide
  have hz9 : 0 + 9 ≤ blankHdr.length := by decide
  split
  · refine (hexLoop_post t 7 0 blankHdr 0 s hs hz).bind fun x r ⟨_, w, hw, hx⟩ => ?_
    obtain ⟨res, hdr⟩ := x
    simp only at hx ⊢
    split
    · rename_i ho
      obtain ⟨bs, k1, k2, k3, k4, k5⟩ := hx ho
      obtain ⟨five, cs, rfl, g1, g2, g3, g4⟩ := good16 k1 k2 k5
      refine (readCrlf_post t r (suffix_bytes hs hw)).bind fun c r' ⟨w', hw'⟩ => ?_
      exact ⟨w ++ w', by rw [hw, hw', List.append_assoc], fun _ => ⟨five, cs, by rw [k4, g4], g3, g1, g2, cs, g3, .inr ⟨rfl, w', by rw [k3]⟩⟩⟩
    · rename_i ho
      exact ⟨w, hw, fun h => absurd h ho⟩
  split
  · refine (bin16Loop_post t 7 0 blankHdr 0 s hs hz).bind fun x r ⟨_, w, hw, hx⟩ => ?_
    refine ⟨w, hw, fun ho => ?_⟩
    obtain ⟨bs, k1, k2, k3, k4, k5⟩ := hx ho
    obtain ⟨five, cs, rfl, g1, g2, g3, g4⟩ := good16 k1 k2 k5
    exact ⟨five, cs, by rw [← g4, ← k4], g3, g1, g2, cs, g3, .inl k3⟩
  split
  · refine (bin32Loop_post t 9 0 blankHdr _ s hs hz9).bind fun x r ⟨_, w, hw, hx⟩ => ?_
    refine ⟨w, hw, fun ho => ?_⟩
    obtain ⟨bs, k1, k2, k3, k4, k5⟩ := hx ho
    obtain ⟨five, cs, rfl, g1, g2, g3, g4⟩ := good32 k1 k2 k5
    exact ⟨five, cs, by rw [← g4, ← k4], g3, g1, g2, cs, g3, .inl k3⟩
  · exact ⟨[], rfl, fun h => by cases h⟩

theorem awaitZdle_post (t : Target) (s : List Nat) (hs : ∀ b ∈ s, b < 256) : Post (fun _ r => ∃ w, s = w ++ r ∧ w ≠ []) (awaitZdle t s) := by
  induction s with
  | nil => trivial
  | cons b r ih =>
    rw [awaitZdle]
    rcases recv1_cases t b (hs b (by simp)) with h | h | ⟨c, h, hc⟩
    · rw [h]; trivial
    · rw [h]
      simp only
      split
      · exact ⟨[b], rfl, by simp⟩
      split
      · exact ⟨[b], rfl, by simp⟩
      · refine (ih (fun x hx => hs x (by simp [hx]))).imp fun _ r' ⟨w, hw, _⟩ => ⟨b :: w, by rw [hw]; rfl, by simp⟩
    · rw [h]
      simp only
      rw [if_pos hc]
      exact ⟨[b], rfl, by simp⟩

theorem awaitPass_post (t : Target) (h : Hdr) (s : List Nat) (hs : ∀ b ∈ s, b < 256) :
    Post (fun x r => ∃ pre w, s = pre ++ w ++ r ∧ pre ≠ [] ∧ ∀ h', x = some h' → h'.result = OK → ∃ five cs, h'.hdr = hdrOf (five ++ cs) ∧ Check h'.in32 five cs ∧ GoodHdr h'.in32 five w)
      (awaitPass t h s) := by
  rw [awaitPass]
  refine (awaitZdle_post t s hs).bind fun c r ⟨w, hw, hne⟩ => ?_
  split
  · have hr := suffix_bytes hs hw
    refine (readEscaped_post t r hr).bind fun f r' ⟨w', _, hw', _⟩ => ?_
    have hs' : s = (w ++ w') ++ r' := by rw [hw, hw', List.append_assoc]
    split
    · refine ⟨w ++ w', [], by rw [hs', List.append_nil], by simp [hne], fun h' hx ho => ?_⟩
      cases hx; cases ho
    split
    · exact ⟨w ++ w', [], by rw [hs', List.append_nil], by simp [hne], fun h' hx ho => by cases hx⟩
    · refine (readHeader_post t f h r' (suffix_bytes hr hw')).bind fun h2 r2 ⟨u, hu, hx⟩ => ?_
      refine ⟨w ++ w', u, by rw [hs', hu]; simp only [List.append_assoc], by simp [hne], fun h' hx2 ho => ?_⟩
      cases hx2
      exact hx ho
  · refine ⟨w, [], by rw [hw, List.append_nil], hne, fun h' hx ho => ?_⟩
    cases hx; cases ho

theorem awaitLoop_post (t : Target) (h : Hdr) (n : Nat) (s : List Nat) (hs : ∀ b ∈ s, b < 256) :
    Post (fun h' r => ∃ pre w, s = pre ++ w ++ r ∧ pre ≠ [] ∧ (h'.result = OK → ∃ five cs, h'.hdr = hdrOf (five ++ cs) ∧ Check h'.in32 five cs ∧ GoodHdr h'.in32 five w))
      (awaitLoop t h n s) := by
  induction n generalizing s with
  | zero => trivial
  | succ n ih =>
    rw [awaitLoop]
    refine (awaitPass_post t h s hs).bind fun x r ⟨pre, w, h1, h2, h3⟩ => ?_
    cases x with
    | some h' => exact ⟨pre, w, h1, h2, h3 h' rfl⟩
    | none =>
      refine (ih r (suffix_bytes hs h1)).imp fun h' r' ⟨pre', w', g1, g2, g3⟩ => ?_
      exact ⟨pre ++ w ++ pre', w', by rw [h1, g1]; simp only [List.append_assoc], by simp [h2], g3⟩

/-- More fuel makes no difference. -/
theorem awaitLoop_fuel (t : Target) (h : Hdr) (n m : Nat) (s : List Nat) (hs : ∀ b ∈ s, b < 256) (hn : s.length < n) (hm : s.length < m) :
    awaitLoop t h n s = awaitLoop t h m s := by
  induction n generalizing m s with
  | zero => omega
  | succ n ih =>
    obtain ⟨m, rfl⟩ : ∃ k, m = k + 1 := ⟨m - 1, by omega⟩
    rw [awaitLoop, awaitLoop]
    have hp := awaitPass_post t h s hs
    cases hx : awaitPass t h s with
    | ok a r =>
      rw [hx] at hp
      obtain ⟨pre, w, h1, h2, -⟩ := hp
      cases a with
      | some => rfl
      | none =>
        have : r.length < s.length := by
          have := List.length_pos_iff.mpr h2
          rw [h1]; simp; omega
        exact ih m r (suffix_bytes hs h1) (by omega) (by omega)
    | wait => rfl
    | killed => rfl
    | ub => rfl

/-- `zm_await_header` as a loop without a limit. -/
theorem awaitHeader_eq (t : Target) (h : Hdr) (s : List Nat) (hs : ∀ b ∈ s, b < 256) :
    awaitHeader t h s = (awaitPass t h s).then fun x r => match x with
      | some h => .ok h r
      | none => awaitHeader t h r := by
  rw [awaitHeader, awaitLoop]
  have hp := awaitPass_post t h s hs
  cases hx : awaitPass t h s with
  | ok a r =>
    rw [hx] at hp
    obtain ⟨pre, w, h1, h2, -⟩ := hp
    cases a with
    | some => rfl
    | none =>
      have : r.length < s.length := by
        have := List.length_pos_iff.mpr h2
        rw [h1]; simp; omega
      exact awaitLoop_fuel t h _ _ r (suffix_bytes hs h1) this (by omega)
  | wait => rfl
  | killed => rfl
  | ub => rfl

end Fpm.Zmodem
