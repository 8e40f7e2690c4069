import Verif.TextIo.DecLemmas

/-!
# Properties of the FatFs text functions (C57, C64)
-/
namespace Fpm.TextIo
open Fpm.TextIo.Spec

/-! ## C57 File-name transcoding is lossless -/

/-- Every scalar value survives being stored as UTF-8 and parsed again, whatever follows; it is
stored exactly if it fits the buffer. -/
theorem C57_roundtrip (c : Nat) (h : Scalar c) (szb : Nat) (rest : List Nat) :
    tchar2uni (uenc c ++ rest) = some (some (utf16 c, rest)) ∧
    putUtf (utf16 c) szb = (if (uenc c).length ≤ szb then uenc c else []) :=
  ⟨tchar2uni_enc c h rest, putUtf_eq c szb h⟩

example : Scalar 0x1F600 ∧ uenc 0x1F600 = [0xF0, 0x9F, 0x98, 0x80] ∧ utf16 0x1F600 = 0xD83DDE00 := by
  decide

/-- Full claim: the parser accepts nothing but well-formed UTF-8. -/
def C57_full : Prop :=
  ∀ (s : List Nat) (w : Nat) (r : List Nat), (∀ b ∈ s, b < 256) →
    tchar2uni s = some (some (w, r)) → ∃ c, Scalar c ∧ w = utf16 c ∧ s = uenc c ++ r

/-- The code accepts overlong sequences: `E0 82 80` is read as U+0080. -/
theorem C57_violated : ¬ C57_full := by
  intro h
  obtain ⟨c, _, hw, hs⟩ := h [0xE0, 0x82, 0x80, 0] 0x80 [0] (by decide) (by decide)
  have hc : c = 0x80 := by
    unfold utf16 at hw
    split at hw <;> omega
  subst c
  revert hs
  decide

/-- What is accepted always spells a scalar value, in its UTF-8 form or in an overlong form of
three or four bytes of a character beyond ASCII (so `/`, `.`, NUL have one spelling only).
Missing for the full claim: overlong forms are not rejected. -/
theorem C57_accepts_partial (s : List Nat) (hb : ∀ b ∈ s, b < 256) (w : Nat) (r : List Nat)
    (h : tchar2uni s = some (some (w, r))) :
    ∃ c, Scalar c ∧ w = utf16 c ∧
      ∃ o, s = o ++ r ∧ (o = uenc c ∨ (0x80 ≤ c ∧ Overlong c o)) :=
  tchar2uni_sound s hb w r h

example : tchar2uni [0xE2, 0x82, 0xAC, 0x21, 0] = some (some (0x20AC, [0x21, 0])) := by decide

/-- The parser never reads past the terminator of a string. -/
theorem C57_in_bounds (s : List Nat) (h : 0 ∈ s) : tchar2uni s ≠ none :=
  tchar2uni_ne_none s (Or.inl h)

example : (0 : Nat) ∈ [0xF0, 0x9F, 0] := by decide

/-- A lone surrogate unit found on disk is never emitted. -/
theorem C57_surrogate (c szb : Nat) (h : 0xD800 ≤ c ∧ c ≤ 0xDFFF) : putUtf c szb = [] := by
  unfold putUtf
  rw [if_neg (by omega), if_neg (by omega), if_pos (by omega), if_pos]
  right
  simp [isSurrogate]
  exact h

example : putUtf 0xD83D 16 = [] := C57_surrogate _ _ (by decide)

/-! ## C64 Text line I/O round-trips -/

/-- Writing strings one after another with `f_puts`; `none` if any call fails or is undefined. -/
def writeAll : List (List Nat) → WFile → Option WFile
  | [], f => some f
  | s :: ss, f =>
    match fputs (s ++ [0]) f with
    | some (some _, f') => writeAll ss f'
    | _ => none

/-- Results of `n` successive calls of `f_gets` with a buffer of `len` bytes. -/
def readAll (len : Nat) : Nat → List Nat → List (Option (List Nat))
  | 0, _ => []
  | n + 1, file => (fgets len file).1 :: readAll len n (fgets len file).2

/-- A line of text (characters other than NUL and LF) followed by LF. -/
def Line (l : List Nat) : Prop := ∃ t, l = t ++ [10] ∧ Text t ∧ 10 ∉ t

/-- Full claim: reading back gives the lines for any buffer that holds each line and its
terminator. -/
def C64_full : Prop :=
  ∀ (ls : List (List Nat)) (room len : Nat) (f : WFile), (∀ l ∈ ls, Line l) →
    writeAll (ls.map text) ⟨[], room⟩ = some f → (∀ l ∈ ls, (text l).length + 1 ≤ len) →
    readAll len (ls.length + 1) f.data = (ls.map (fun l => some (text l))) ++ [none]

/-- `f_gets` stops up to three bytes early: with a buffer of 5 bytes the line "abc\n" comes back
in pieces. -/
theorem C64_violated : ¬ C64_full := by
  intro h
  have e := fputs_text [97, 98, 99, 10] (by decide) [] ⟨[], 100⟩
  have := h [[97, 98, 99, 10]] 100 5 ⟨[97, 98, 99, 10], 96⟩
    (by intro l hl; simp at hl; subst hl; exact ⟨[97, 98, 99], rfl, by decide, by decide⟩)
    (by
      have e2 : text [97, 98, 99, 10] = [97, 98, 99, 10] := by decide
      rw [e2] at e
      simp only [List.map, e2, writeAll, e]
      rfl)
    (by decide)
  rw [readAll] at this
  have r : fgets 5 [97, 98, 99, 10] = (some [97], [98, 99, 10]) := by
    have := getsLoop_text 1 [97, 98, 99, 10] (by decide) []
    have e2 : text [97, 98, 99, 10] = [97, 98, 99, 10] := by decide
    rw [e2] at this
    unfold fgets
    simp only [show 5 - 4 = 1 from rfl, this]
    decide
  rw [r] at this
  revert this
  simp only [List.map, List.cons_append, List.cons.injEq]
  intro hh
  exact absurd hh.1 (by decide)

theorem writeAll_text (ls : List (List Nat)) (h : ∀ l ∈ ls, Text l) (f g : WFile)
    (hw : writeAll (ls.map text) f = some g) : g.data = f.data ++ text ls.flatten := by
  induction ls generalizing f with
  | nil =>
    simp only [List.map, writeAll, Option.some.injEq] at hw
    subst hw; simp [text]
  | cons l ls ih =>
    have e := fputs_text l (h l (List.mem_cons_self ..)) [] f
    rw [List.map, writeAll, e] at hw
    by_cases hr : (text l).length ≤ f.room
    · simp only [hr, if_true] at hw
      rw [ih (fun l hl => h l (List.mem_cons_of_mem _ hl)) _ hw]
      simp only [List.flatten_cons, text_append, List.append_assoc]
      rw [List.take_of_length_le hr]
    · simp only [hr, if_false] at hw
      cases hw

theorem Line.text {l : List Nat} (h : Line l) : Text l := by
  obtain ⟨t, rfl, ht, _⟩ := h
  intro c hc
  rcases List.mem_append.mp hc with hc | hc
  · exact ht c hc
  · simp at hc; subst hc; decide

/-- Lines written with `f_puts` are read back one by one by `f_gets`, followed by the null result,
for every buffer at least three bytes larger than necessary.
Missing for the full claim: buffers of just the needed size. -/
theorem C64_lines_partial (ls : List (List Nat)) (room len : Nat) (f : WFile)
    (hl : ∀ l ∈ ls, Line l) (hw : writeAll (ls.map text) ⟨[], room⟩ = some f)
    (hlen : ∀ l ∈ ls, (text l).length + 4 ≤ len) :
    readAll len (ls.length + 1) f.data = (ls.map (fun l => some (text l))) ++ [none] := by
  rw [writeAll_text ls (fun l h => (hl l h).text) _ _ hw, List.nil_append]
  clear hw
  induction ls with
  | nil =>
    have : fgets len [] = (none, []) := by
      unfold fgets
      have := getsLoop_text (len - 4) [] (by simp) []
      simp only [text, List.flatMap_nil, chunk] at this
      simp [this]
    show readAll len 1 [] = _
    simp [readAll, this]
  | cons l ls ih =>
    obtain ⟨t, e, ht, h10⟩ := hl l (List.mem_cons_self ..)
    have hsc : ∀ c ∈ (l :: ls).flatten, Scalar c := by
      intro c hc
      obtain ⟨m, hm, hc⟩ := List.mem_flatten.mp hc
      exact ((hl m hm).text c hc).1
    have hg := getsLoop_text (len - 4) (l :: ls).flatten hsc []
    have hn := hlen l (List.mem_cons_self ..)
    have htl : (text l).length = (text t).length + 1 := by
      rw [e, text_append]; simp [text, uenc]
    have hch : chunk (len - 4 - ([] : List Nat).length) (l :: ls).flatten = (l, ls.flatten) := by
      rw [List.flatten_cons, e, List.append_assoc, List.singleton_append,
        chunk_line t _ h10 _ (by simp; omega)]
    rw [hch] at hg
    have hf : fgets len (text (l :: ls).flatten) = (some (text l), text ls.flatten) := by
      unfold fgets
      simp only [hg, List.nil_append]
      rw [if_neg (by omega)]
    rw [List.length_cons, readAll, hf]
    simp only [List.map_cons, List.cons_append]
    rw [ih (fun l h => hl l (List.mem_cons_of_mem _ h)) (fun l h => hlen l (List.mem_cons_of_mem _ h))]

example : Line [0xE9, 10] ∧ (text [0xE9, 10]).length + 4 ≤ 7 :=
  ⟨⟨[0xE9], rfl, by decide, by decide⟩, by decide⟩

/-- `f_puts` appends all of a text and returns its length in bytes; if the disk is too small it
fills the disk with the beginning of the text and reports failure. -/
theorem C64_puts (s : List Nat) (h : Text s) (junk : List Nat) (f : WFile) :
    fputs (text s ++ 0 :: junk) f = some (
      if (text s).length ≤ f.room then some (text s).length else none,
      { data := f.data ++ (text s).take f.room, room := f.room - (text s).length }) :=
  fputs_text s h junk f

example : Text [72, 0x20AC, 0x1F600] := by decide

/-- Whatever the string contains, `f_puts` stays within its buffers. -/
theorem C64_puts_in_bounds (s : List Nat) (h : 0 ∈ s) (f : WFile) : fputs s f ≠ none := by
  unfold fputs
  obtain ⟨q, e, _⟩ := putsLoop_ok (putcInit f)
    ⟨rfl, Nat.zero_le 3, by intro b hb; cases hb; decide⟩ s h
  rw [e]
  simp

example : (0 : Nat) ∈ [0xFF, 0xE2, 0x28, 0xA1, 0] := by decide

/-- Whatever the file contains, the string `f_gets` returns and its terminator fit the buffer. -/
theorem C64_gets_in_bounds (len : Nat) (h : 1 ≤ len) (file : List Nat) (l : List Nat)
    (hl : (fgets len file).1 = some l) : l.length + 1 ≤ len := by
  unfold fgets at hl
  simp only [] at hl
  split at hl
  · cases hl
  · rename_i hne
    cases hl
    have := getsLoop_bound (len - 4) [] file (by simp)
    by_cases h4 : 4 < len
    · omega
    · have : len - 4 = 0 := by omega
      rw [this, getsLoop.eq_def, if_neg (by simp)] at hne
      exact absurd rfl hne

/-- Contents of the pieces `f_gets` delivers until its null result. -/
def pieces (len : Nat) : Nat → List Nat → List Nat
  | 0, _ => []
  | n + 1, file =>
    match fgets len file with
    | (none, _) => []
    | (some l, rest) => l ++ pieces len n rest

/-- For any text (lines of any length) and any buffer of at least 5 bytes, the pieces read put
together are the text. -/
theorem C64_pieces (len : Nat) (hlen : 5 ≤ len) (s : List Nat) (h : ∀ c ∈ s, Scalar c) (n : Nat)
    (hn : s.length ≤ n) : pieces len n (text s) = text s := by
  induction n generalizing s with
  | zero =>
    have : s = [] := List.length_eq_zero_iff.mp (by omega)
    subst this; rfl
  | succ n ih =>
    rw [pieces]
    have hg := getsLoop_text (len - 4) s h []
    obtain ⟨m, hm⟩ : ∃ m, len - 4 - ([] : List Nat).length = m + 1 := ⟨len - 5, by simp; omega⟩
    rw [hm, List.nil_append] at hg
    cases s with
    | nil =>
      have : fgets len (text []) = (none, []) := by
        unfold fgets; simp only [hg]; simp [chunk, text]
      rw [this]; rfl
    | cons c s =>
      have happ := chunk_append (m + 1) (c :: s)
      have hne := chunk_nonempty m c s
      have hf : fgets len (text (c :: s)) =
          (some (text (chunk (m + 1) (c :: s)).1), text (chunk (m + 1) (c :: s)).2) := by
        unfold fgets
        simp only [hg]
        rw [if_neg]
        cases hk : (chunk (m + 1) (c :: s)).1 with
        | nil => exact absurd hk hne
        | cons d k =>
          have := (uenc_length d).1
          have e : (text (d :: k)).length = (uenc d).length + (text k).length := by simp [text]
          rw [e]
          omega
      rw [hf]
      simp only []
      have hl2 : (chunk (m + 1) (c :: s)).2.length < (c :: s).length := by
        have e := congrArg List.length happ
        rw [List.length_append] at e
        have : (chunk (m + 1) (c :: s)).1.length ≠ 0 := by
          intro e0; exact hne (List.length_eq_zero_iff.mp e0)
        omega
      rw [ih _ (fun d hd => h d (by rw [← happ]; exact List.mem_append_right _ hd))
        (by simp at hl2 hn; omega), ← text_append, happ]

example : ∀ c ∈ [0x41, 0x20AC, 10, 0x1F600], Scalar c := by decide

end Fpm.TextIo
