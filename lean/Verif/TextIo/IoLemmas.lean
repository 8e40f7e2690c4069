import Verif.TextIo.Lemmas

/-! # Reading and writing well-formed text -/
namespace Fpm.TextIo
open Fpm.TextIo.Spec

theorem getsLead_2 (a : Nat) (h : a < 32) : getsLead (192 + a) = (a, 1) := by
  have h3 : ¬ (a &&& 0xF0 = 0xE0) := by rw [isLead3 _ (by omega)]; omega
  have h4 : ¬ (a &&& 0xF8 = 0xF0) := by rw [isLead4 _ (by omega)]; omega
  have e : (192 + a) % 32 = a := by omega
  unfold getsLead
  rw [if_pos ((isLead2 _ (by omega)).mpr (by omega)), and_1f, e]
  simp only []
  rw [if_neg h3]
  simp only []
  rw [if_neg h4]

theorem getsLead_3 (a : Nat) (h : a < 16) : getsLead (224 + a) = (a, 2) := by
  have h4 : ¬ (a &&& 0xF8 = 0xF0) := by rw [isLead4 _ (by omega)]; omega
  have e : (224 + a) % 16 = a := by omega
  unfold getsLead
  rw [if_neg (by rw [isLead2 _ (by omega)]; omega)]
  simp only []
  rw [if_pos ((isLead3 _ (by omega)).mpr (by omega)), and_0f, e]
  simp only []
  rw [if_neg h4]

theorem getsLead_4 (a : Nat) (h : a < 8) : getsLead (240 + a) = (a, 3) := by
  have e : (240 + a) % 8 = a := by omega
  have h2 : ¬ ((240 + a) &&& 0xE0 = 0xC0) := by rw [isLead2 _ (by omega)]; omega
  have h3 : ¬ ((240 + a) &&& 0xF0 = 0xE0) := by rw [isLead3 _ (by omega)]; omega
  unfold getsLead
  rw [if_neg h2]
  simp only []
  rw [if_neg h3]
  simp only []
  rw [if_pos ((isLead4 _ (by omega)).mpr (by omega)), and_07, e]

theorem merge_step (uc a : Nat) (h : a < 64) (p : List Nat) :
    merge uc ((128 + a) :: p) = merge (uc * 64 + a) p := by
  have h1 : (128 + a) % 64 = a := by omega
  rw [merge, if_neg (by rw [Classical.not_not, isTrail _ (by omega)]; omega), and_3f, h1,
    shl6_or _ _ h]

theorem getTrail_ok (dc ct c : Nat) (t rest : List Nat) (hl : t.length = ct) (h0 : ct ≠ 0)
    (hm : merge dc t = some c) (h : Scalar c) (h8 : 0x80 ≤ c) :
    getTrail dc ct (t ++ rest) = .chr c rest := by
  have h1 := h.1
  have h2 := h.2
  unfold getTrail
  rw [if_neg h0, if_neg (by simp; omega), List.take_left' hl, hm, List.drop_left' hl]
  simp only []
  rw [if_neg (by simp [isSurrogate]; omega)]

/-- One pass of `f_gets` reads one scalar value. -/
theorem getChar_enc (c : Nat) (h : Scalar c) (rest : List Nat) :
    ∃ b p, uenc c ++ rest = b :: p ∧ getChar b p = .chr c rest := by
  have hb := h.1
  unfold uenc
  by_cases h1 : c < 0x80
  · rw [if_pos h1]
    exact ⟨c, rest, rfl, by unfold getChar; rw [if_neg (by omega)]⟩
  · rw [if_neg h1]
    by_cases h2 : c < 0x800
    · rw [if_pos h2]
      refine ⟨192 + c / 64, [128 + c % 64] ++ rest, rfl, ?_⟩
      unfold getChar
      rw [if_pos (by omega), getsLead_2 _ (by omega)]
      refine getTrail_ok _ _ c _ _ rfl (by simp) ?_ h (by omega)
      have e : c / 64 * 64 + c % 64 = c := by omega
      rw [merge_step _ _ (by omega), merge, e]
    · rw [if_neg h2]
      by_cases h3 : c < 0x10000
      · rw [if_pos h3]
        refine ⟨224 + c / 4096, [128 + c / 64 % 64, 128 + c % 64] ++ rest, rfl, ?_⟩
        unfold getChar
        rw [if_pos (by omega), getsLead_3 _ (by omega)]
        refine getTrail_ok _ _ c _ _ rfl (by simp) ?_ h (by omega)
        have e : (c / 4096 * 64 + c / 64 % 64) * 64 + c % 64 = c := by omega
        rw [merge_step _ _ (by omega), merge_step _ _ (by omega), merge, e]
      · rw [if_neg h3]
        refine ⟨240 + c / 262144, [128 + c / 4096 % 64, 128 + c / 64 % 64, 128 + c % 64] ++ rest,
          rfl, ?_⟩
        unfold getChar
        rw [if_pos (by omega), getsLead_4 _ (by omega)]
        refine getTrail_ok _ _ c _ _ rfl (by simp) ?_ h (by omega)
        have e : ((c / 262144 * 64 + c / 4096 % 64) * 64 + c / 64 % 64) * 64 + c % 64 = c := by omega
        rw [merge_step _ _ (by omega), merge_step _ _ (by omega), merge_step _ _ (by omega), merge, e]

theorem getsPut_eq (c : Nat) (h : c < 0x110000) : getsPut c = uenc c := by
  unfold getsPut uenc
  by_cases h1 : c < 0x80
  · rw [if_pos h1, if_pos h1]
  · rw [if_neg h1, if_neg h1]
    by_cases h2 : c < 0x800
    · have e : c / 64 % 32 = c / 64 := by omega
      rw [if_pos h2, if_pos h2, shr6, and_1f, and_3f, orc0' _ (by omega), or80' _ (by omega), e]
    · rw [if_neg h2, if_neg h2]
      by_cases h3 : c < 0x10000
      · have e : c / 4096 % 16 = c / 4096 := by omega
        rw [if_pos h3, if_pos h3, shr6, shr12, and_0f, and_3f, and_3f, ore0' _ (by omega),
          or80' _ (by omega), or80' _ (by omega), e]
      · have e : c / 262144 % 8 = c / 262144 := by omega
        rw [if_neg h3, if_neg h3, shr18, shr6, shr12, and_07, and_3f, and_3f, and_3f,
          orf0' _ (by omega), or80' _ (by omega), or80' _ (by omega), or80' _ (by omega), e]

theorem getsPut_length (c : Nat) : (getsPut c).length ≤ 4 := by
  unfold getsPut; split; · simp
  split; · simp
  split <;> simp

/-- The characters one call of `f_gets` takes from a text, given room for `n` more bytes before
the limit. -/
def chunk : Nat → List Nat → List Nat × List Nat
  | _, [] => ([], [])
  | 0, s => ([], s)
  | n + 1, c :: s =>
    if c = 10 then ([10], s)
    else (c :: (chunk (n + 1 - (uenc c).length) s).1, (chunk (n + 1 - (uenc c).length) s).2)

theorem chunk_append (n : Nat) (s : List Nat) : (chunk n s).1 ++ (chunk n s).2 = s := by
  induction s generalizing n with
  | nil => simp [chunk]
  | cons c s ih =>
    cases n with
    | zero => simp [chunk]
    | succ n =>
      rw [chunk]
      split
      · rename_i h; simp [h]
      · simp [ih]

theorem chunk_nonempty (n : Nat) (c : Nat) (s : List Nat) : (chunk (n + 1) (c :: s)).1 ≠ [] := by
  rw [chunk]
  split <;> simp

theorem chunk_line (l t : List Nat) (h : 10 ∉ l) (n : Nat) (hn : (text l).length < n) :
    chunk n (l ++ 10 :: t) = (l ++ [10], t) := by
  induction l generalizing n with
  | nil =>
    obtain ⟨m, rfl⟩ : ∃ m, n = m + 1 := ⟨n - 1, by simp [text] at hn; omega⟩
    simp [chunk]
  | cons c l ih =>
    have hc : c ≠ 10 := by intro e; simp [e] at h
    have hl : 10 ∉ l := by intro e; simp [e] at h
    have ht : (text (c :: l)).length = (uenc c).length + (text l).length := by simp [text]
    obtain ⟨m, rfl⟩ : ∃ m, n = m + 1 := ⟨n - 1, by omega⟩
    rw [List.cons_append, chunk, if_neg hc, ih hl _ (by omega)]
    rfl

theorem text_append (a b : List Nat) : text (a ++ b) = text a ++ text b := by simp [text]

/-- `f_gets` on a well-formed text. -/
theorem getsLoop_text (lim : Nat) (s : List Nat) (h : ∀ c ∈ s, Scalar c) (acc : List Nat) :
    getsLoop lim acc (text s) =
      (acc ++ text (chunk (lim - acc.length) s).1, text (chunk (lim - acc.length) s).2) := by
  induction s generalizing acc with
  | nil =>
    rw [getsLoop.eq_def]
    split <;> simp [text, chunk]
  | cons c s ih =>
    have hc := h c (List.mem_cons_self ..)
    have hs := fun d hd => h d (List.mem_cons_of_mem _ hd)
    obtain ⟨b, p, e1, e2⟩ := getChar_enc c hc (text s)
    have ht : text (c :: s) = b :: p := by rw [← e1]; simp [text]
    rw [getsLoop.eq_def, ht]
    by_cases hl : acc.length < lim
    · obtain ⟨m, hm⟩ : ∃ m, lim - acc.length = m + 1 := ⟨lim - acc.length - 1, by omega⟩
      rw [if_pos hl, hm, chunk]
      simp only []
      split
      · rename_i r hr; rw [e2] at hr; cases hr
      · rename_i r hr; rw [e2] at hr; cases hr
      · rename_i dc r hr
        rw [e2] at hr
        injection hr with e3 e4
        subst dc; subst r
        by_cases h10 : c = 10
        · rw [if_pos h10, if_pos h10]
          simp [text, uenc]
        · rw [if_neg h10, if_neg h10, ih hs, getsPut_eq c hc.1]
          have e5 : lim - (acc ++ uenc c).length = m + 1 - (uenc c).length := by
            rw [List.length_append]; omega
          rw [e5]
          simp [text]
    · rw [if_neg hl]
      have : lim - acc.length = 0 := by omega
      rw [this, chunk.eq_2 _ (by simp)]
      simp only [ht]
      simp [text]

theorem getsLoop_bound (lim : Nat) (acc file : List Nat) (h : acc.length ≤ lim + 3) :
    (getsLoop lim acc file).1.length ≤ lim + 3 := by
  induction hn : file.length using Nat.strongRecOn generalizing acc file with
  | _ n ih =>
    rw [getsLoop.eq_def]
    split
    · split
      · exact h
      · rename_i b p
        have hr := getChar_rest b p
        split
        · exact h
        · rename_i r e
          rw [e] at hr
          exact ih r.length (by simp [Got.rest] at hr; simp at hn; omega) _ _ h rfl
        · rename_i dc r e
          rw [e] at hr
          split
          · simp; omega
          · refine ih r.length (by simp [Got.rest] at hr; simp at hn; omega) _ _ ?_ rfl
            have := getsPut_length dc
            rw [List.length_append]; omega
    · exact h

/-- Whatever the file contains, the remaining file is a suffix and shrinks if anything was stored. -/
theorem getsLoop_shrinks (lim : Nat) (acc file : List Nat) :
    (getsLoop lim acc file).2.length ≤ file.length ∧
    ((getsLoop lim acc file).1 ≠ acc → (getsLoop lim acc file).2.length < file.length) := by
  induction hn : file.length using Nat.strongRecOn generalizing acc file with
  | _ n ih =>
    subst hn
    rw [getsLoop.eq_def]
    split
    · split
      · exact ⟨Nat.le_refl _, fun h => absurd rfl h⟩
      · rename_i b p
        have hr := getChar_rest b p
        split
        · rename_i r e
          rw [e] at hr
          simp only [Got.rest] at hr
          exact ⟨by simp; omega, fun h => absurd rfl h⟩
        · rename_i r e
          rw [e] at hr
          simp only [Got.rest] at hr
          have := ih r.length (by simp; omega) acc r rfl
          exact ⟨by simp; omega, fun h => by have := this.1; simp; omega⟩
        · rename_i dc r e
          rw [e] at hr
          simp only [Got.rest] at hr
          split
          · exact ⟨by simp; omega, fun _ => by simp; omega⟩
          · have := (ih r.length (by simp; omega) (acc ++ getsPut dc) r rfl).1
            exact ⟨by simp; omega, fun _ => by simp; omega⟩
    · exact ⟨Nat.le_refl _, fun h => absurd rfl h⟩

/-! ## Writing -/

theorem putBytes_eq (c : Nat) (h : Scalar c) : putBytes (utf16 c) = uenc c := by
  obtain ⟨hb, hs⟩ := h
  unfold putBytes
  simp only [shr16, shr8, shr2, shr6, shr12, and_ffff, and_3ff, and_3f, and_0f]
  by_cases h4 : c < 0x10000
  · have hu : utf16 c = c := by unfold utf16; rw [if_pos h4]
    have e1 : c / 65536 % 65536 = 0 := by omega
    have e2 : c % 65536 = c := by omega
    rw [hu, e1, e2, if_neg (by decide)]
    unfold uenc
    by_cases h1 : c < 0x80
    · rw [if_pos h1, if_pos h1]
    · rw [if_neg h1, if_neg h1]
      by_cases h2 : c < 0x800
      · rw [if_pos h2, if_pos h2, orc0' _ (by omega), or80' _ (by omega)]
      · rw [if_neg h2, if_neg h2, if_pos h4, ore0' _ (by omega), or80' _ (by omega),
          or80' _ (by omega)]
  · have hu : utf16 c =
        (0xD800 + (c - 0x10000) / 1024) * 65536 + (0xDC00 + (c - 0x10000) % 1024) := by
      unfold utf16; rw [if_neg h4]
    rw [hu]
    unfold uenc
    rw [if_neg (show ¬ c < 0x80 by omega), if_neg (show ¬ c < 0x800 by omega), if_neg h4]
    clear hu
    generalize hv : c - 0x10000 = v
    have hc : c = v + 0x10000 := by omega
    have hvb : v < 1048576 := by omega
    clear hs hb h4 hv
    subst c
    have e1 : ((0xD800 + v / 1024) * 65536 + (0xDC00 + v % 1024)) / 65536 % 65536
        = 0xD800 + v / 1024 := by omega
    have e2 : ((0xD800 + v / 1024) * 65536 + (0xDC00 + v % 1024)) % 65536 = 0xDC00 + v % 1024 := by
      omega
    rw [e1, e2, if_pos (by omega)]
    have e3 : (0xD800 + v / 1024) % 1024 = v / 1024 := by omega
    rw [e3]
    have a3 : (v / 1024 + 0x40) &&& 3 = (v / 1024 + 0x40) % 4 := Nat.and_two_pow_sub_one_eq_mod _ 2
    have b3 : ∀ x < 4, ∀ y < 16, 0x80 ||| x <<< 4 ||| y = 128 + x * 16 + y := by decide
    rw [a3, b3 _ (by omega) _ (by omega), or80' _ (by omega), or80' _ (by omega),
      orf0' _ (by omega)]
    have k1 : (240 + (v / 1024 + 64) / 256) % 256 = 240 + (v + 0x10000) / 262144 := by omega
    have k2 : (v / 1024 + 64) / 4 % 64 = (v + 0x10000) / 4096 % 64 := by omega
    have k3 : 128 + (v / 1024 + 64) % 4 * 16 + (0xDC00 + v % 1024) / 64 % 16
        = 128 + (v + 0x10000) / 64 % 64 := by omega
    have k4 : (0xDC00 + v % 1024) % 64 = (v + 0x10000) % 64 := by omega
    rw [k1, k2, k3, k4]

end Fpm.TextIo
