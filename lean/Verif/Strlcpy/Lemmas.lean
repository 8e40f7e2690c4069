import Verif.Strlcpy.Model
import Verif.Strlcpy.Spec
import Verif.Utf8.Lemmas
namespace Fpm
open Spec

theorem store_mid (pre rest : List Nat) (o v : Nat) :
    store (pre ++ o :: rest) pre.length v = some (pre ++ v :: rest) := by
  simp [store]

theorem store_at (pre post : List Nat) (d v : Nat) (hd : d = pre.length) (hp : post ≠ []) :
    store (pre ++ post) d v = some ((pre ++ [v]) ++ post.tail) := by
  subst hd
  cases post with
  | nil => exact absurd rfl hp
  | cons o t => simp [store_mid]

theorem stores_at (vs pre post : List Nat) (d : Nat) (hd : d = pre.length) (hp : vs.length ≤ post.length) :
    stores (pre ++ post) d vs = some ((pre ++ vs) ++ post.drop vs.length) := by
  induction vs generalizing pre post d with
  | nil => simp [stores]
  | cons v vs ih =>
    cases post with
    | nil => simp at hp
    | cons o t =>
      simp only [List.length_cons, Nat.add_le_add_iff_right] at hp
      simp only [stores, store_at pre (o :: t) d v hd (by simp), List.tail_cons, Option.bind_eq_bind, Option.bind_some]
      rw [ih (pre ++ [v]) t (d+1) (by simp [hd]) hp]; simp

theorem skipStr_eq (s junk : List Nat) (h : NulFree s) : skipStr (s ++ 0 :: junk) = some (s.length + 1) := by
  induction s with
  | nil => simp [skipStr]
  | cons c s ih =>
    have hc := h c List.mem_cons_self
    simp [skipStr, hc, ih (fun x hx => h x (List.mem_cons_of_mem _ hx))]

/-- Exit state of the plain copy loop. -/
theorem strlcpyLoop_eq (pre post s junk : List Nat) (used n d : Nat) (h : NulFree s)
    (hd : d = pre.length) (hcap : n + 1 ≤ post.length) :
    strlcpyLoop (pre ++ post) d (s ++ 0 :: junk) used (n + 1) =
      if s.length < n then
        some ⟨pre ++ s ++ 0 :: post.drop (s.length + 1), d + s.length + 1, junk, used + s.length + 1, n - s.length⟩
      else some ⟨pre ++ s.take n ++ post.drop n, d + n, s.drop n ++ 0 :: junk, used + n, 0⟩ := by
  induction n generalizing pre post s used d with
  | zero => rw [strlcpyLoop.eq_def]; simp
  | succ n ih =>
    cases s with
    | nil =>
      cases post with
      | nil => simp at hcap
      | cons o t => simp [strlcpyLoop, store_at pre (o :: t) d 0 hd (by simp)]
    | cons c s =>
      cases post with
      | nil => simp at hcap
      | cons o t =>
        have hc := h c List.mem_cons_self
        have h' : NulFree s := fun x hx => h x (List.mem_cons_of_mem _ hx)
        rw [strlcpyLoop.eq_def]
        simp only [List.cons_append, store_at pre (o :: t) d c hd (by simp), List.tail_cons,
          Option.bind_eq_bind, Option.bind_some, if_neg hc, if_neg (show ¬ (n + 1 = 0) by omega)]
        rw [ih (pre ++ [c]) t s (used+1) (d+1) h' (by simp [hd]) (by simpa using hcap)]
        simp only [List.length_cons, Nat.add_lt_add_iff_right]
        split <;> simp <;> omega

theorem fromUtf8Loop_eq (pre post s junk : List Nat) (used n d : Nat) (h : Chars s)
    (hd : d = pre.length) (hcap : n + 1 ≤ post.length) :
    fromUtf8Loop (pre ++ post) d (encs s ++ 0 :: junk) used (n + 1) =
      if s.length < n then
        some ⟨pre ++ s ++ 0 :: post.drop (s.length + 1), d + s.length + 1, junk,
          used + (encs s).length + 1, n - s.length⟩
      else some ⟨pre ++ s.take n ++ post.drop n, d + n, encs (s.drop n) ++ 0 :: junk,
          used + (encs (s.take n)).length, 0⟩ := by
  induction n generalizing pre post s used d with
  | zero => rw [fromUtf8Loop.eq_def]; simp [encs]
  | succ n ih =>
    cases s with
    | nil =>
      cases post with
      | nil => simp at hcap
      | cons o t => rw [fromUtf8Loop.eq_def]; simp [encs, store_at pre (o :: t) d 0 hd (by simp)]
    | cons c s =>
      cases post with
      | nil => simp at hcap
      | cons o t =>
        have hc := h c List.mem_cons_self
        have h' : Chars s := fun x hx => h x (List.mem_cons_of_mem _ hx)
        have key : fromUtf8Loop (pre ++ o :: t) d (enc c ++ (encs s ++ 0 :: junk)) used (n + 1 + 1) =
            fromUtf8Loop (pre ++ [c] ++ t) (d + 1) (encs s ++ 0 :: junk) (used + (enc c).length) (n + 1) := by
          have hst := store_at pre (o :: t) d c hd (by simp)
          by_cases h1 : c < 128
          · have : enc c = [c] := by simp [enc, h1]
            rw [this, fromUtf8Loop.eq_def]
            simp only [List.cons_append, List.nil_append, if_neg (show ¬ c = 0 by omega),
              if_pos (test80_lo c h1), hst, List.tail_cons, Option.bind_eq_bind, Option.bind_some,
              if_neg (show ¬ (n + 1 = 0) by omega), List.length_singleton]
          · by_cases h2 : c < 2048
            · have : enc c = [192 + c / 64, 128 + c % 64] := by simp [enc, h1, h2]
              rw [this, fromUtf8Loop.eq_def]
              simp only [List.cons_append, List.nil_append, if_neg (show ¬ (192 + c / 64 = 0) by omega),
                if_neg (test80_c (c / 64) (by omega)), if_pos (test20_c (c / 64) (by omega)),
                dec2 (c / 64) (c % 64) (by omega) (by omega), show c / 64 * 64 + c % 64 = c by omega,
                hst, List.tail_cons, Option.bind_eq_bind, Option.bind_some,
                if_neg (show ¬ (n + 1 = 0) by omega), List.length_cons, List.length_nil]
            · have : enc c = [224 + c / 4096, 128 + c / 64 % 64, 128 + c % 64] := by simp [enc, h1, h2]
              rw [this, fromUtf8Loop.eq_def]
              simp only [List.cons_append, List.nil_append, if_neg (show ¬ (224 + c / 4096 = 0) by omega),
                if_neg (test80_e (c / 4096) (by omega)), if_neg (test20_e (c / 4096) (by omega)),
                dec3 (c / 4096) (c / 64 % 64) (c % 64) (by omega) (by omega) (by omega),
                show c / 4096 * 4096 + c / 64 % 64 * 64 + c % 64 = c by omega,
                hst, List.tail_cons, Option.bind_eq_bind, Option.bind_some,
                if_neg (show ¬ (n + 1 = 0) by omega), List.length_cons, List.length_nil]
        have e1 : encs (c :: s) = enc c ++ encs s := by simp [encs]
        have e2 : encs (c :: s.take n) = enc c ++ encs (s.take n) := by simp [encs]
        rw [e1, List.append_assoc, key, ih (pre ++ [c]) t s _ (d+1) h' (by simp [hd]) (by simpa using hcap)]
        simp only [List.length_cons, Nat.add_lt_add_iff_right, List.take_succ_cons, e2]
        split <;> simp <;> omega

theorem enc_length_pos (c : Nat) : 0 < (enc c).length := by unfold enc; split <;> (try split) <;> simp
theorem enc_length_le (c : Nat) : (enc c).length ≤ 3 := by unfold enc; split <;> (try split) <;> simp

theorem encs_cons (c : Nat) (s : List Nat) : encs (c :: s) = enc c ++ encs s := by simp [encs]
theorem encs_append (s t : List Nat) : encs (s ++ t) = encs s ++ encs t := by simp [encs]

theorem encs_length_le (s : List Nat) : (encs s).length ≤ 3 * s.length := by
  induction s with
  | nil => simp [encs]
  | cons c s ih => rw [encs_cons]; have := enc_length_le c; simp; omega

theorem charBudget_prefix (n : Nat) (s : List Nat) : charBudget n s <+: s := by
  induction s generalizing n with
  | nil => cases n <;> simp [charBudget]
  | cons c s ih =>
    cases n with
    | zero => simp [charBudget]
    | succ n =>
      simp only [charBudget]; split
      · exact List.cons_prefix_cons.mpr ⟨rfl, ih n⟩
      · simp

theorem charBudget_length (n : Nat) (s : List Nat) : (charBudget n s).length ≤ n := by
  induction s generalizing n with
  | nil => cases n <;> simp [charBudget]
  | cons c s ih =>
    cases n with
    | zero => simp [charBudget]
    | succ n =>
      simp only [charBudget]; split
      · simpa using ih n
      · simp

/-- One accepted character of the encoding loop. -/
theorem toUtf8Loop_step (pre post r : List Nat) (used n d c : Nat) (h0 : 0 < c) (hc : c < 65536)
    (hd : d = pre.length) (hn : 0 < n) (hw : (enc c).length ≤ n) (hcap : (enc c).length ≤ post.length) :
    toUtf8Loop (pre ++ post) d (c :: r) used (n + 1) =
      toUtf8Loop (pre ++ enc c ++ post.drop (enc c).length) (d + (enc c).length) r (used + 1) n := by
  have hpw := putwch_eq c hc
  have hst := stores_at (enc c) pre post d hd hcap
  rw [toUtf8Loop.eq_def]
  by_cases h1 : c < 128
  · have e : enc c = [c] := by simp [enc, h1]
    rw [e] at hst hcap
    simp only [stores, Option.bind_eq_bind, List.length_singleton] at hst
    simp only [if_neg (show ¬ n = 0 by omega), if_neg (show ¬ c = 0 by omega), if_pos (show c < 0x80 from h1),
      u8, Nat.mod_eq_of_lt (show c < 256 by omega), e, List.length_singleton]
    cases hs : store (pre ++ post) d c with
    | none => simp [hs] at hst
    | some x => simp [hs] at hst; simp [hst]
  · by_cases h2 : c < 2048
    · have hp : [u8 (c >>> 6 ||| 0xc0), u8 ((c &&& 0x3f) ||| 0x80)] = enc c := by
        rw [← hpw]; simp [putwch, h1, h2]
      have e : (enc c).length = 2 := by simp [enc, h1, h2]
      simp only [if_neg (show ¬ n = 0 by omega), if_neg (show ¬ c = 0 by omega),
        if_neg (show ¬ c < 0x80 from h1), if_pos (show c < 0x800 from h2),
        if_neg (show ¬ n < 2 by omega), hp, hst, e, Option.bind_eq_bind, Option.bind_some]
    · have hp : [u8 (c >>> 12 ||| 0xe0), u8 (((c >>> 6) &&& 0x3f) ||| 0x80), u8 ((c &&& 0x3f) ||| 0x80)] = enc c := by
        rw [← hpw]; simp [putwch, h1, h2]
      have e : (enc c).length = 3 := by simp [enc, h1, h2]
      simp only [if_neg (show ¬ n = 0 by omega), if_neg (show ¬ c = 0 by omega),
        if_neg (show ¬ c < 0x80 from h1), if_neg (show ¬ c < 0x800 from h2),
        if_neg (show ¬ n < 3 by omega), hp, hst, e, Option.bind_eq_bind, Option.bind_some]

/-- A refused character: the loop stores a NUL and stops. -/
theorem toUtf8Loop_refuse (pre post r : List Nat) (used n d c : Nat) (_h0 : 0 < c)
    (hd : d = pre.length) (hn : 0 < n) (hw : n < (enc c).length) (hcap : post ≠ []) :
    toUtf8Loop (pre ++ post) d (c :: r) used (n + 1) =
      some ⟨pre ++ 0 :: post.tail, d + 1, r, used + 1, n⟩ := by
  have hst := store_at pre post d 0 hd hcap
  rw [toUtf8Loop.eq_def]
  by_cases h1 : c < 128
  · have : (enc c).length = 1 := by simp [enc, h1]
    omega
  · by_cases h2 : c < 2048
    · have e : (enc c).length = 2 := by simp [enc, h1, h2]
      simp only [if_neg (show ¬ n = 0 by omega), if_neg (show ¬ c = 0 by omega),
        if_neg (show ¬ c < 0x80 from h1), if_pos (show c < 0x800 from h2),
        if_pos (show n < 2 by omega), hst, Option.bind_eq_bind, Option.bind_some]
      simp
    · have e : (enc c).length = 3 := by simp [enc, h1, h2]
      simp only [if_neg (show ¬ n = 0 by omega), if_neg (show ¬ c = 0 by omega),
        if_neg (show ¬ c < 0x80 from h1), if_neg (show ¬ c < 0x800 from h2),
        if_pos (show n < 3 by omega), hst, Option.bind_eq_bind, Option.bind_some]
      simp

/-- The whole conversion: the emitted text is the encoding of `charBudget n s`. -/
theorem toUtf8_dst (s pre post junk : List Nat) (used n d nitems : Nat) (h : Chars s)
    (hd : d = pre.length) (hcap : (encs (charBudget n s)).length + 1 ≤ post.length) (hni : nitems ≠ 0) :
    ∃ ret, (do let e ← toUtf8Loop (pre ++ post) d (s ++ 0 :: junk) used (n + 1); copyFinish nitems e) =
      some (pre ++ encs (charBudget n s) ++ 0 :: post.drop ((encs (charBudget n s)).length + 1), ret) ∧
      (charBudget n s = s.take n → ret = used + s.length) := by
  induction n generalizing s pre post used d with
  | zero =>
    have hn : charBudget 0 s = [] := by cases s <;> simp [charBudget]
    have hnf : NulFree s := fun c hc => by have := h c hc; omega
    rw [hn] at hcap ⊢
    have hp : post ≠ [] := by rintro rfl; simp [encs] at hcap
    rw [toUtf8Loop.eq_def]
    simp [copyFinish, hni, store_at pre post d 0 hd hp, skipStr_eq s junk hnf, encs]
  | succ n ih =>
    cases s with
    | nil =>
      have hp : post ≠ [] := by rintro rfl; simp [encs] at hcap
      rw [toUtf8Loop.eq_def]
      simp [charBudget, encs, store_at pre post d 0 hd hp, copyFinish]
    | cons c s =>
      have hc := h c List.mem_cons_self
      have h' : Chars s := fun x hx => h x (List.mem_cons_of_mem _ hx)
      by_cases hw : (enc c).length ≤ n + 1
      · have hcb : charBudget (n + 1) (c :: s) = c :: charBudget n s := by simp [charBudget, hw]
        rw [hcb, encs_cons] at hcap ⊢
        simp only [List.length_append] at hcap
        rw [List.cons_append, toUtf8Loop_step pre post _ used (n+1) d c hc.1 hc.2 hd (by omega) hw (by omega)]
        obtain ⟨ret, h1, h2⟩ := ih s (pre ++ enc c) (post.drop (enc c).length) (used + 1)
          (d + (enc c).length) h' (by simp [hd]) (by simp; omega)
        refine ⟨ret, ?_, ?_⟩
        · rw [h1]; simp only [List.drop_drop, List.append_assoc, List.length_append, Nat.add_assoc]
        · intro ht
          have := h2 (by simpa using ht)
          simp; omega
      · have hcb : charBudget (n + 1) (c :: s) = [] := by simp [charBudget]; omega
        rw [hcb] at hcap ⊢
        have hp : post ≠ [] := by rintro rfl; simp [encs] at hcap
        rw [List.cons_append, toUtf8Loop_refuse pre post _ used (n+1) d c hc.1 hd (by omega) (by omega) hp]
        refine ⟨used, ?_, ?_⟩
        · simp [copyFinish, encs]
        · intro ht; simp at ht

end Fpm
