import Verif.Shell.Spec
import Verif.Utf8.Props
import Verif.Strlcpy.Props
import Verif.Tokenize.Props
import Verif.Exec.Props
/-! # Lemmas about the shell -/
namespace Fpm.Shell
open Fpm.Spec (enc encs Chars overwrite NulFree)
open Fpm.Tok (Err wordsFrom)
open Fpm.Tok.Spec (lex words Mode)

/-- Units of the encoded line for a unit of the line. -/
def encU : Tok.Spec.Unit' → List Tok.Spec.Unit'
  | .sep => [.sep]
  | .ch c => (enc c).map .ch

theorem encs_nil : encs [] = [] := rfl
theorem encs_cons (c : Nat) (s : List Nat) : encs (c :: s) = enc c ++ encs s := by simp [encs]
theorem encs_append (a b : List Nat) : encs (a ++ b) = encs a ++ encs b := by simp [encs]
theorem enc_lo {c : Nat} (h : c < 128) : enc c = [c] := by simp [enc, h]

theorem enc_hi {c : Nat} (h : ¬ c < 128) : ∀ b ∈ enc c, 128 ≤ b := by
  intro b hb
  unfold enc at hb
  rw [if_neg h] at hb
  split at hb <;> simp at hb <;> omega

theorem enc_cons (c : Nat) : ∃ b bs, enc c = b :: bs ∧ ∀ x ∈ bs, 128 ≤ x := by
  unfold enc
  split
  · exact ⟨_, _, rfl, by simp⟩
  · split
    · exact ⟨_, _, rfl, by simp⟩
    · exact ⟨_, _, rfl, by simp⟩

theorem enc_ne (c : Nat) : enc c ≠ [] := by
  obtain ⟨b, bs, h, _⟩ := enc_cons c
  rw [h]; simp

theorem lex_high (m : Mode) (bs t : List Nat) (h : ∀ b ∈ bs, 128 ≤ b) :
    lex m (bs ++ t) = (lex m t).map (bs.map .ch ++ ·) := by
  induction bs with
  | nil => rw [List.nil_append]; cases lex m t <;> simp [Except.map]
  | cons b bs ih =>
    have hb := h b List.mem_cons_self
    rw [List.cons_append, Tok.lex_literal m b _ (by omega) (fun _ => ⟨by omega, by omega, by omega⟩)
      (fun _ => by omega) (fun _ => by omega), ih (fun x hx => h x (List.mem_cons_of_mem _ hx)), Tok.map_map_cons]
    simp

theorem lex_encs : ∀ (k : Nat) (s : List Nat), s.length ≤ k → ∀ m : Mode,
    lex m (encs s) = (lex m s).map (·.flatMap encU) := by
  intro k
  induction k with
  | zero =>
    intro s hs m
    cases s with
    | nil => cases m <;> simp [encs_nil, lex, Except.map]
    | cons c t => simp at hs
  | succ k ih =>
    intro s hs m
    cases s with
    | nil => cases m <;> simp [encs_nil, lex, Except.map]
    | cons c t =>
      have ht : t.length ≤ k := by simpa using hs
      by_cases h92 : c = 92
      · subst h92
        rw [encs_cons, enc_lo (by omega)]
        cases t with
        | nil => simp [encs_nil, lex, Except.map]
        | cons d u =>
          obtain ⟨b, bs, hb, hbs⟩ := enc_cons d
          have hu : u.length ≤ k := by simp at ht; omega
          rw [encs_cons, hb]
          have e1 : ∀ x y, lex m (92 :: x :: y) = (lex m y).map (.ch x :: ·) := by
            intro x y; cases m <;> rw [lex]
          rw [show [92] ++ (b :: bs ++ encs u) = 92 :: b :: (bs ++ encs u) by simp, e1, e1, lex_high m bs _ hbs,
            Tok.map_map_cons, ih u hu m]
          cases lex m u with
          | error e => rfl
          | ok us => simp [Except.map, encU, hb]
      by_cases hlit : (m = .plain → c ≠ 39 ∧ c ≠ 34 ∧ c ≠ 32) ∧ (m = .apos → c ≠ 39) ∧ (m = .quote → c ≠ 34)
      · rw [Tok.lex_literal m c t h92 hlit.1 hlit.2.1 hlit.2.2, encs_cons]
        by_cases hc : c < 128
        · rw [enc_lo hc, List.singleton_append, Tok.lex_literal m c _ h92 hlit.1 hlit.2.1 hlit.2.2, ih t ht m]
          cases lex m t with
          | error e => rfl
          | ok us => simp [Except.map, encU, enc_lo hc]
        · rw [lex_high m _ _ (enc_hi hc), ih t ht m]
          cases lex m t with
          | error e => rfl
          | ok us => simp [Except.map, encU]
      · cases m with
        | plain =>
          have : c = 39 ∨ c = 34 ∨ c = 32 := by
            simp at hlit; omega
          rcases this with rfl | rfl | rfl
          · rw [encs_cons, enc_lo (by omega), List.singleton_append,
              show ∀ x, lex .plain (39 :: x) = lex .apos x from fun _ => by rw [lex],
              show ∀ x, lex .plain (39 :: x) = lex .apos x from fun _ => by rw [lex], ih t ht]
          · rw [encs_cons, enc_lo (by omega), List.singleton_append,
              show ∀ x, lex .plain (34 :: x) = lex .quote x from fun _ => by rw [lex],
              show ∀ x, lex .plain (34 :: x) = lex .quote x from fun _ => by rw [lex], ih t ht]
          · rw [encs_cons, enc_lo (by omega), List.singleton_append,
              show ∀ x, lex .plain (32 :: x) = (lex .plain x).map (.sep :: ·) from fun _ => by rw [lex],
              show ∀ x, lex .plain (32 :: x) = (lex .plain x).map (.sep :: ·) from fun _ => by rw [lex], ih t ht]
            cases lex .plain t with
            | error e => rfl
            | ok us => simp [Except.map, encU]
        | apos =>
          have : c = 39 := by simp at hlit; omega
          subst this
          rw [encs_cons, enc_lo (by omega), List.singleton_append,
              show ∀ x, lex .apos (39 :: x) = lex .plain x from fun _ => by rw [lex],
              show ∀ x, lex .apos (39 :: x) = lex .plain x from fun _ => by rw [lex], ih t ht]
        | quote =>
          have : c = 34 := by simp at hlit; omega
          subst this
          rw [encs_cons, enc_lo (by omega), List.singleton_append,
              show ∀ x, lex .quote (34 :: x) = lex .plain x from fun _ => by rw [lex],
              show ∀ x, lex .quote (34 :: x) = lex .plain x from fun _ => by rw [lex], ih t ht]

theorem wordsFrom_encs (us : List Tok.Spec.Unit') : ∀ cur : Option (List Nat),
    wordsFrom (cur.map encs) (us.flatMap encU) = (wordsFrom cur us).map encs := by
  induction us with
  | nil => intro cur; cases cur <;> simp [wordsFrom]
  | cons u us ih =>
    intro cur
    cases u with
    | sep => cases cur <;> simp [encU, wordsFrom, ← ih none]
    | ch c =>
      simp only [List.flatMap_cons, encU]
      rw [Tok.wordsFrom_chs _ _ _ (enc_ne c)]
      have := ih (some (cur.getD [] ++ [c]))
      rw [Option.map_some, encs_append, encs_cons, encs_nil, List.append_nil] at this
      cases cur with
      | none => simpa [wordsFrom, encs_nil] using this
      | some w => simpa [wordsFrom] using this

theorem words_encs (us : List Tok.Spec.Unit') : words (us.flatMap encU) = (words us).map encs := by
  rw [Tok.words_eq, Tok.words_eq]
  exact wordsFrom_encs us none

theorem encs_inj {a b : List Nat} (ha : Chars a) (hb : Chars b) (h : encs a = encs b) : a = b := by
  induction a generalizing b with
  | nil =>
    cases b with
    | nil => rfl
    | cons c t =>
      rw [encs_cons] at h
      exact absurd (List.append_eq_nil_iff.mp h.symm).1 (enc_ne c)
  | cons c t ih =>
    cases b with
    | nil =>
      rw [encs_cons] at h
      exact absurd (List.append_eq_nil_iff.mp h).1 (enc_ne c)
    | cons d u =>
      have h1 := getwch_enc c (ha c List.mem_cons_self).2 (encs t)
      rw [← encs_cons, h, encs_cons, getwch_enc d (hb d List.mem_cons_self).2] at h1
      simp only [Option.some.injEq, Prod.mk.injEq] at h1
      rw [h1.1, ih (fun x hx => ha x (List.mem_cons_of_mem _ hx)) (fun x hx => hb x (List.mem_cons_of_mem _ hx)) h1.2.symm]

theorem encs_nulFree {s : List Nat} (h : Chars s) : ∀ c ∈ encs s, c ≠ 0 := by
  intro c hc
  simp only [encs, List.mem_flatMap] at hc
  obtain ⟨x, hx, hc⟩ := hc
  have := h x hx
  by_cases h1 : x < 128
  · rw [enc_lo h1] at hc; simp at hc; omega
  · have := enc_hi h1 c hc; omega

/-- Characters of the words come from the line. -/
theorem lex_chars (s : List Nat) (p : Nat → Prop) (h : ∀ c ∈ s, p c) : ∀ (m : Mode) us, lex m s = .ok us →
    ∀ c, .ch c ∈ us → p c := by
  intro m us hl c hc
  fun_induction lex m s generalizing us with
  | case1 => simp_all [Except.ok.injEq]
  | case2 => simp at hl
  | case3 => simp at hl
  | case4 => simp at hl
  | case5 m d t ih =>
    cases ht : lex m t with
    | error e => rw [ht] at hl; simp [Except.map] at hl
    | ok vs =>
      rw [ht] at hl
      simp only [Except.map, Except.ok.injEq] at hl
      subst hl
      simp only [List.mem_cons, Tok.Spec.Unit'.ch.injEq] at hc
      rcases hc with rfl | hc
      · exact h c (by simp)
      · exact ih (fun x hx => h x (by simp [hx])) vs ht hc
  | case6 t ih => exact ih (fun x hx => h x (by simp [hx])) us hl hc
  | case7 t ih => exact ih (fun x hx => h x (by simp [hx])) us hl hc
  | case8 t ih =>
    cases ht : lex .plain t with
    | error e => rw [ht] at hl; simp [Except.map] at hl
    | ok vs =>
      rw [ht] at hl
      simp only [Except.map, Except.ok.injEq] at hl
      subst hl
      simp only [List.mem_cons, reduceCtorEq, false_or] at hc
      exact ih (fun x hx => h x (by simp [hx])) vs ht hc
  | case9 t ih => exact ih (fun x hx => h x (by simp [hx])) us hl hc
  | case10 t ih => exact ih (fun x hx => h x (by simp [hx])) us hl hc
  | case11 m d t _ _ _ _ _ _ _ ih =>
    cases ht : lex m t with
    | error e => rw [ht] at hl; simp [Except.map] at hl
    | ok vs =>
      rw [ht] at hl
      simp only [Except.map, Except.ok.injEq] at hl
      subst hl
      simp only [List.mem_cons, Tok.Spec.Unit'.ch.injEq] at hc
      rcases hc with rfl | hc
      · exact h c (by simp)
      · exact ih (fun x hx => h x (by simp [hx])) vs ht hc

theorem cut_chars (us : List Tok.Spec.Unit') : ∀ w ∈ Tok.Spec.cut us, ∀ c ∈ w, .ch c ∈ us := by
  induction us with
  | nil => simp [Tok.Spec.cut]
  | cons u us ih =>
    cases u with
    | sep =>
      intro w hw c hc
      simp only [Tok.Spec.cut, List.mem_cons] at hw
      rcases hw with rfl | hw
      · simp at hc
      · exact List.mem_cons_of_mem _ (ih w hw c hc)
    | ch d =>
      intro w hw c hc
      simp only [Tok.Spec.cut] at hw
      cases h : Tok.Spec.cut us with
      | nil => exact absurd h (Tok.cut_ne_nil us)
      | cons v vs =>
        rw [h] at hw ih
        simp only [List.mem_cons] at hw
        rcases hw with rfl | hw
        · simp only [List.mem_cons] at hc
          rcases hc with rfl | hc
          · simp
          · exact List.mem_cons_of_mem _ (ih v (by simp) c hc)
        · exact List.mem_cons_of_mem _ (ih w (by simp [hw]) c hc)

theorem words_chars {s : List Nat} (h : Chars s) {us} (hl : lex .plain s = .ok us) : ∀ w ∈ words us, Chars w ∧ w ≠ [] := by
  intro w hw
  simp only [words, List.mem_filter, decide_eq_true_eq] at hw
  exact ⟨fun c hc => lex_chars s (fun c => 0 < c ∧ c < 65536) h .plain us hl c (cut_chars us w hw.1 c hc), hw.2⟩

end Fpm.Shell
