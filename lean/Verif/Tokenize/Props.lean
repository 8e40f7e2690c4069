import Verif.Tokenize.Lemmas
/-! # Properties C17 - C21: command-line splitting -/
namespace Fpm.Tok
open Spec

/-- C18: for every NUL-free line, stored with its terminator and at least one more byte, and an
argument vector with room for more than half the line, the in-place splitter never accesses
memory out of bounds; it fails with the specification's error, or returns pointers to exactly
the specification's words, and leaves every byte from two positions after the line's end on
unchanged. -/
theorem C18_inplace_refines_words (cap : Nat) (s extra : List Nat) (h0 : ∀ c ∈ s, c ≠ 0)
    (hx : extra ≠ []) (hcap : s.length + 1 < 2 * cap) :
    match lex .plain s with
    | .error e => tokenize cap (s ++ 0 :: extra) = .error e
    | .ok us => ∃ buf argv, tokenize cap (s ++ 0 :: extra) = .ok buf argv ∧
        argv.map (cstr buf) = words us ∧
        buf.length = (s ++ 0 :: extra).length ∧
        buf.drop (s.length + 2) = extra.tail := by
  have key := tokenize_eq cap s extra h0 hcap
  cases hl : lex .plain s with
  | error e => simpa [hl] using key
  | ok us =>
    rw [hl] at key
    simp only at key ⊢
    have hlen := lex_length .plain s us hl
    have hsz := wordsFrom_size none us
    rw [← words_eq] at hsz
    simp at hlen hsz
    have hx' : 0 < extra.length := List.length_pos_iff.mpr hx
    rw [if_pos (by omega)] at key
    refine ⟨_, _, key, ?_, ?_, ?_⟩
    · have := cstr_offs (words us)
        (by rw [words_eq]; exact wordsFrom_nulfree none us (by simp) (lex_nulfree .plain s h0 us hl))
        [] (0 :: (s ++ 0 :: extra).drop ((image (words us)).length + 1))
      simpa using this
    · simp; omega
    · obtain ⟨e, extra, rfl⟩ := List.exists_cons_of_ne_nil hx
      generalize hI : image (words us) = I at *
      have hI' : I.length ≤ s.length + 1 := by omega
      rw [List.drop_append, List.drop_eq_nil_of_le (by omega), List.nil_append]
      obtain ⟨k, hk⟩ : ∃ k, s.length + 2 = I.length + 1 + k := ⟨s.length + 1 - I.length, by omega⟩
      rw [show s.length + 2 - I.length = k + 1 by omega, List.drop_succ_cons, List.drop_drop, ← hk]
      simp [List.drop_append]

/-- `ab 'c d' e\ f` with a buffer of 20 bytes. -/
example : (∀ c ∈ [97, 98, 32, 39, 99, 32, 100, 39, 32, 101, 92, 32, 102], c ≠ 0) ∧
    lex .plain [97, 98, 32, 39, 99, 32, 100, 39, 32, 101, 92, 32, 102] =
      .ok [.ch 97, .ch 98, .sep, .ch 99, .ch 32, .ch 100, .sep, .ch 101, .ch 32, .ch 102] ∧
    words [.ch 97, .ch 98, .sep, .ch 99, .ch 32, .ch 100, .sep, .ch 101, .ch 32, .ch 102] =
      [[97, 98], [99, 32, 100], [101, 32, 102]] := ⟨by decide, by rfl, by decide⟩

/-! ## C19 -/

/-- Independent scanner for the end state of a line: quoting mode, and whether a backslash is
pending. -/
def scanStep : Mode × Bool → Nat → Mode × Bool
  | (m, true), _ => (m, false)
  | (m, false), 92 => (m, true)
  | (.plain, false), 39 => (.apos, false)
  | (.plain, false), 34 => (.quote, false)
  | (.apos, false), 39 => (.plain, false)
  | (.quote, false), 34 => (.plain, false)
  | (m, false), _ => (m, false)

/-- The error, if any, for a line ending in the given state. -/
def endError : Mode × Bool → Option Err
  | (_, true) => some .backslash
  | (.apos, false) => some .apostrophe
  | (.quote, false) => some .quote
  | (.plain, false) => none

theorem lex_error (m : Mode) (s : List Nat) :
    (match lex m s with | .error e => some e | .ok _ => none) = endError (s.foldl scanStep (m, false)) := by
  fun_induction lex m s with
  | case1 => rfl
  | case2 => rfl
  | case3 => rfl
  | case4 m => cases m <;> rfl
  | case5 m c t ih =>
    have : (List.foldl scanStep (m, false) (92 :: c :: t)) = List.foldl scanStep (m, false) t := by
      cases m <;> simp [scanStep]
    rw [this, ← ih]; cases lex m t <;> rfl
  | case6 t ih => simpa [scanStep] using ih
  | case7 t ih => simpa [scanStep] using ih
  | case8 t ih =>
    have : (List.foldl scanStep (.plain, false) (32 :: t)) = List.foldl scanStep (.plain, false) t := by
      simp [scanStep]
    rw [this, ← ih]; cases lex .plain t <;> rfl
  | case9 t ih => simpa [scanStep] using ih
  | case10 t ih => simpa [scanStep] using ih
  | case11 m c t n1 n2 n3 n4 n5 n6 n7 ih =>
    have hc92 : c ≠ 92 := by
      rintro rfl
      cases t with
      | nil => exact n1 rfl rfl
      | cons a b => exact n2 a b rfl rfl
    have : (List.foldl scanStep (m, false) (c :: t)) = List.foldl scanStep (m, false) t := by
      simp only [List.foldl_cons]
      congr 1
      unfold scanStep
      split <;> simp_all
    rw [this, ← ih]; cases lex m t <;> rfl

/-- C19: the splitter reports an error exactly if the line ends inside quotes or after a lone
backslash, and the error names the construct that is open. -/
theorem C19_error_iff_open (cap : Nat) (s extra : List Nat) (h0 : ∀ c ∈ s, c ≠ 0)
    (hx : extra ≠ []) (hcap : s.length + 1 < 2 * cap) (e : Err) :
    tokenize cap (s ++ 0 :: extra) = .error e ↔ endError (s.foldl scanStep (.plain, false)) = some e := by
  have h1 := C18_inplace_refines_words cap s extra h0 hx hcap
  have h2 := lex_error .plain s
  cases hl : lex .plain s with
  | error e' =>
    rw [hl] at h1 h2
    simp only at h1 h2
    rw [h1, ← h2]; simp
  | ok us =>
    rw [hl] at h1 h2
    obtain ⟨buf, argv, h1, _⟩ := h1
    simp only at h2
    rw [h1, ← h2]; simp

example : endError ([97, 32, 39, 98].foldl scanStep (.plain, false)) = some .apostrophe := by decide

/-! ## C17 -/

theorem lex_literal (m : Mode) (c : Nat) (t : List Nat) (h92 : c ≠ 92)
    (hp : m = .plain → c ≠ 39 ∧ c ≠ 34 ∧ c ≠ 32) (ha : m = .apos → c ≠ 39) (hq : m = .quote → c ≠ 34) :
    lex m (c :: t) = (lex m t).map (.ch c :: ·) := by
  rw [lex.eq_def]
  split <;> simp_all

theorem map_map_cons (us : List Unit') (u : Unit') (r : Except Err (List Unit')) :
    ((r.map (us ++ ·)).map (u :: ·)) = r.map ((u :: us) ++ ·) := by
  cases r <;> simp [Except.map]

theorem lex_escape (m : Mode) (p : Nat → Bool) (w t : List Nat) (h92 : p 92)
    (hp : m = .plain → p 39 ∧ p 34 ∧ p 32) (ha : m = .apos → p 39) (hq : m = .quote → p 34) :
    lex m (escape p w ++ t) = (lex m t).map (w.map .ch ++ ·) := by
  induction w with
  | nil => simp [escape]; cases lex m t <;> rfl
  | cons c w ih =>
    have e : escape p (c :: w) ++ t = (if p c then [92, c] else [c]) ++ (escape p w ++ t) := by
      simp [escape]
    rw [e]
    split
    · have : lex m ([92, c] ++ (escape p w ++ t)) = (lex m (escape p w ++ t)).map (.ch c :: ·) := by
        cases m <;> rfl
      rw [this, ih, map_map_cons]; simp
    · rename_i hpc
      rw [List.singleton_append, lex_literal m c _ (by rintro rfl; exact hpc h92)
        (fun hm => ⟨by rintro rfl; exact hpc (hp hm).1, by rintro rfl; exact hpc (hp hm).2.1,
          by rintro rfl; exact hpc (hp hm).2.2⟩)
        (fun hm => by rintro rfl; exact hpc (ha hm))
        (fun hm => by rintro rfl; exact hpc (hq hm)), ih, map_map_cons]
      simp

theorem lex_quoteArg (st : Style) (w t : List Nat) :
    lex .plain (quoteArg st w ++ t) = (lex .plain t).map (w.map .ch ++ ·) := by
  cases st with
  | bare => exact lex_escape .plain _ w t (by simp) (by simp) (by simp) (by simp)
  | single =>
    have e : quoteArg .single w ++ t = 39 :: (escape (fun c => c = 92 || c = 39) w ++ 39 :: t) := by
      simp [quoteArg]
    rw [e, show ∀ x, lex .plain (39 :: x) = lex .apos x from fun _ => by rw [lex]]
    rw [lex_escape .apos _ w _ (by simp) (by simp) (by simp) (by simp)]
    rw [show lex .apos (39 :: t) = lex .plain t by rw [lex]]
  | double =>
    have e : quoteArg .double w ++ t = 34 :: (escape (fun c => c = 92 || c = 34) w ++ 34 :: t) := by
      simp [quoteArg]
    rw [e, show ∀ x, lex .plain (34 :: x) = lex .quote x from fun _ => by rw [lex]]
    rw [lex_escape .quote _ w _ (by simp) (by simp) (by simp) (by simp)]
    rw [show lex .quote (34 :: t) = lex .plain t by rw [lex]]

theorem wordsFrom_chs (cur : Option (List Nat)) (w : List Nat) (t : List Unit') (h : w ≠ []) :
    wordsFrom cur (w.map .ch ++ t) = wordsFrom (some (cur.getD [] ++ w)) t := by
  induction w generalizing cur with
  | nil => exact absurd rfl h
  | cons c w ih =>
    have e : wordsFrom cur ((c :: w).map .ch ++ t) = wordsFrom (some (cur.getD [] ++ [c])) (w.map .ch ++ t) := by
      cases cur <;> rfl
    rw [e]
    cases w with
    | nil => simp
    | cons d w => rw [ih _ (by simp)]; simp

theorem lex_quoteLine (args : List (Style × List Nat)) (h : ∀ a ∈ args, a.2 ≠ []) :
    ∃ us, lex .plain (quoteLine args) = .ok us ∧ wordsFrom none us = args.map (·.2) := by
  induction args with
  | nil => exact ⟨[], by simp [quoteLine, lex, wordsFrom]⟩
  | cons a rest ih =>
    obtain ⟨st, w⟩ := a
    obtain ⟨us, h1, h2⟩ := ih (fun a ha => h a (List.mem_cons_of_mem _ ha))
    have hw : w ≠ [] := h (st, w) List.mem_cons_self
    cases rest with
    | nil =>
      refine ⟨w.map .ch, ?_, ?_⟩
      · have := lex_quoteArg st w []
        simpa [quoteLine, lex, Except.map] using this
      · have := wordsFrom_chs none w [] hw
        simpa [wordsFrom] using this
    | cons b rest =>
      refine ⟨w.map .ch ++ .sep :: us, ?_, ?_⟩
      · rw [quoteLine, lex_quoteArg]
        · rw [show ∀ x, lex .plain (32 :: x) = (lex .plain x).map (.sep :: ·) from fun _ => by rw [lex], h1]
          rfl
        · simp
      · rw [wordsFrom_chs _ _ _ hw]
        simp [wordsFrom, h2]

/-- C17: every list of non-empty NUL-free arguments, each written bare, in apostrophes or in
quotes, is split back into exactly that list. -/
theorem C17_quoting_roundtrip (cap : Nat) (args : List (Style × List Nat)) (extra : List Nat)
    (hne : ∀ a ∈ args, a.2 ≠ []) (h0 : ∀ a ∈ args, ∀ c ∈ a.2, c ≠ 0) (hx : extra ≠ [])
    (hcap : (quoteLine args).length + 1 < 2 * cap) :
    ∃ buf argv, tokenize cap (quoteLine args ++ 0 :: extra) = .ok buf argv ∧
      argv.map (cstr buf) = args.map (·.2) := by
  obtain ⟨us, h1, h2⟩ := lex_quoteLine args hne
  have hq : ∀ a : Style × List Nat, (∀ c ∈ a.2, c ≠ 0) → ∀ c ∈ quoteArg a.1 a.2, c ≠ 0 := by
    rintro ⟨st, w⟩ hw c hc
    have esc : ∀ p : Nat → Bool, ∀ c ∈ escape p w, c ≠ 0 := by
      intro p c hc
      simp only [escape, List.mem_flatMap] at hc
      obtain ⟨x, hx, hc⟩ := hc
      have := hw x hx
      split at hc <;> simp at hc
      · rcases hc with rfl | rfl
        · omega
        · exact this
      · subst hc; exact this
    cases st <;> simp only [quoteArg, List.mem_cons, List.mem_append, List.cons_append, List.not_mem_nil, or_false] at hc
    · exact esc _ c hc
    · rcases hc with rfl | hc | rfl
      · omega
      · exact esc _ c hc
      · omega
    · rcases hc with rfl | hc | rfl
      · omega
      · exact esc _ c hc
      · omega
  have hline : ∀ args : List (Style × List Nat), (∀ a ∈ args, ∀ c ∈ a.2, c ≠ 0) → ∀ c ∈ quoteLine args, c ≠ 0 := by
    intro args
    induction args with
    | nil => intro _ c hc; simp [quoteLine] at hc
    | cons a rest ih =>
      intro h c hc
      cases rest with
      | nil => exact hq a (h a List.mem_cons_self) c (by simpa [quoteLine] using hc)
      | cons b rest =>
        rw [quoteLine] at hc
        · simp only [List.mem_append, List.mem_cons] at hc
          rcases hc with hc | rfl | hc
          · exact hq a (h a List.mem_cons_self) c hc
          · omega
          · exact ih (fun a ha => h a (List.mem_cons_of_mem _ ha)) c hc
        · simp
  have := C18_inplace_refines_words cap (quoteLine args) extra (hline args h0) hx hcap
  rw [h1] at this
  obtain ⟨buf, argv, h3, h4, _⟩ := this
  exact ⟨buf, argv, h3, by rw [h4, words_eq, h2]⟩

example : quoteLine [(.bare, [97, 32]), (.single, [98, 39]), (.double, [34, 99])] =
    [97, 92, 32, 32, 39, 98, 92, 39, 39, 32, 34, 92, 34, 99, 34] := by decide

/-! ## C20 -/

/-- C20, full statement: a line stored with nothing but its terminator is never written beyond
that terminator. -/
def C20_full : Prop :=
  ∀ (cap : Nat) (s : List Nat), (∀ c ∈ s, c ≠ 0) → s.length + 1 < 2 * cap → tokenize cap (s ++ [0]) ≠ .ub

/-- C20 is false of the code: for the line `abc` a NUL is written one byte past the
terminator. -/
theorem C20_violated : ¬ C20_full := by
  intro h
  exact h 42 [97, 98, 99] (by decide) (by decide) (by decide)

/-- C20, exactly when it holds: the splitter stays within the terminated line if and only if the
line is malformed or its words with one terminator each take at most as many bytes as the line
itself, i.e. something (a quote, a backslash or an extra space) has been squeezed out.  One extra
byte is always enough (C18). -/
theorem C20_exact_partial (cap : Nat) (s : List Nat) (h0 : ∀ c ∈ s, c ≠ 0) (hcap : s.length + 1 < 2 * cap) :
    tokenize cap (s ++ [0]) ≠ .ub ↔
      match lex .plain s with
      | .error _ => True
      | .ok us => ((words us).map (·.length + 1)).sum ≤ s.length := by
  rw [tokenize_eq cap s [] h0 hcap]
  cases lex .plain s with
  | error e => simp
  | ok us =>
    have : ∀ ws : List (List Nat), (image ws).length = (ws.map (·.length + 1)).sum := by
      intro ws
      induction ws with
      | nil => simp [image]
      | cons w ws ih => rw [image_cons]; simp [ih]; omega
    simp only [this, List.length_nil, Nat.add_zero]
    split
    · simp; omega
    · simp; omega

example : tokenize 42 ([97, 32, 32, 98, 99] ++ [0]) ≠ .ub ∧ tokenize 42 ([97, 32, 98, 99] ++ [0]) = .ub := by
  decide

/-! ## C21 -/

/-- C21: every argument is non-empty and `2 * argc ≤ length + 1`. -/
theorem C21_args_nonempty_and_bounded (cap : Nat) (s extra : List Nat) (h0 : ∀ c ∈ s, c ≠ 0)
    (hx : extra ≠ []) (hcap : s.length + 1 < 2 * cap) (buf argv : List Nat)
    (h : tokenize cap (s ++ 0 :: extra) = .ok buf argv) :
    (∀ a ∈ argv, cstr buf a ≠ []) ∧ 2 * argv.length ≤ s.length + 1 := by
  have h1 := C18_inplace_refines_words cap s extra h0 hx hcap
  cases hl : lex .plain s with
  | error e => rw [hl] at h1; rw [h1] at h; cases h
  | ok us =>
    rw [hl] at h1
    obtain ⟨b, a, h2, h3, _⟩ := h1
    rw [h2] at h; cases h
    constructor
    · intro x hx hn
      have hm : cstr buf x ∈ words us := by rw [← h3]; exact List.mem_map_of_mem hx
      rw [hn, words] at hm
      simp at hm
    · have e : argv.length = (words us).length := by rw [← h3]; simp
      have := (wordsFrom_size none us).2.1
      have hl' := lex_length .plain s us hl
      rw [e, words_eq]
      simp at this hl'
      omega

example : tokenize 42 ([97, 32, 98] ++ [0, 0]) = .ok [97, 0, 98, 0, 0] [0, 2] := by decide

/-- C21, shell capacity, full statement: the 42-pointer vector of the shell
(kernel/fpm_shell.c:81, FPM_CMDLINE_SIZE/3 with size 128) is enough for every line of up to 127
characters. -/
def C21_shell_full : Prop :=
  ∀ s extra : List Nat, (∀ c ∈ s, c ≠ 0) → s.length ≤ 127 → extra ≠ [] →
    tokenize 42 (s ++ 0 :: extra) ≠ .ub

/-- C21 is false of the shell: 42 one-letter words (83 characters) overrun the vector. -/
theorem C21_shell_violated : ¬ C21_shell_full := by
  intro h
  have h1 : tokenize 42 (((List.replicate 41 [97, 32]).flatten ++ [97]) ++ 0 :: [0]) = .ub := by decide +kernel
  refine h ((List.replicate 41 [97, 32]).flatten ++ [97]) [0] ?_ ?_ ?_ h1
  · decide +kernel
  · decide +kernel
  · simp

/-- C21 for the shell, the part that holds: lines of at most 82 characters are safe.
Missing: lines of 83 to 127 characters. -/
theorem C21_shell_partial (s extra : List Nat) (h0 : ∀ c ∈ s, c ≠ 0) (hl : s.length ≤ 82) (hx : extra ≠ []) :
    tokenize 42 (s ++ 0 :: extra) ≠ .ub := by
  have h1 := C18_inplace_refines_words 42 s extra h0 hx (by omega)
  cases h : lex .plain s with
  | error e => rw [h] at h1; rw [h1]; simp
  | ok us =>
    rw [h] at h1
    obtain ⟨b, a, h2, _⟩ := h1
    rw [h2]; simp

example : (List.replicate 82 97).length ≤ 82 := by decide

end Fpm.Tok
