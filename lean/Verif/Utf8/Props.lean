import Verif.Utf8.Lemmas
/-! # Properties C11, C12, C16 (fpm_puts): console text -/
namespace Fpm
open Spec

/-- Read `n` characters from the console. -/
def getwchs : Nat → List Nat → Option (List Nat × List Nat)
  | 0, inp => some ([], inp)
  | n + 1, inp => do
    let (c, inp) ← getwch inp
    let (cs, inp) ← getwchs n inp
    return (c :: cs, inp)

/-- C11: what `fpm_putwch` writes is the UTF-8 encoding, and `fpm_getwch` reads it back,
consuming exactly these bytes, for every 16-bit character. -/
theorem C11_char_roundtrip (c : Nat) (h : c < 65536) (rest : List Nat) :
    putwch c = enc c ∧ getwch (putwch c ++ rest) = some (c, rest) := by
  rw [putwch_eq c h]; exact ⟨rfl, getwch_enc c h rest⟩

example : (0x20ac : Nat) < 65536 ∧ putwch 0x20ac = [0xe2, 0x82, 0xac] := by decide

/-- C11 for sequences: a string printed by `fpm_wputs` is read back character by character;
what follows in the input is untouched. -/
theorem C11_string_roundtrip (s : List Nat) (h : Chars s) (rest junk : List Nat) :
    ∃ out, wputs (s ++ 0 :: junk) = some out ∧ getwchs s.length (out ++ rest) = some (s, rest) := by
  induction s with
  | nil => exact ⟨[], by simp [wputs, getwchs]⟩
  | cons c s ih =>
    obtain ⟨out, h1, h2⟩ := ih (fun x hx => h x (List.mem_cons_of_mem _ hx))
    have hc := h c List.mem_cons_self
    refine ⟨enc c ++ out, ?_, ?_⟩
    · simp only [List.cons_append, wputs, h1, if_neg (show ¬ c = 0 by omega), Option.map_some,
        putwch_eq c hc.2]
    · simp [getwchs, List.append_assoc, getwch_enc c hc.2, h2]

example : Chars [0x41, 0x3b1, 0x20ac] := by decide

theorem wputs_eq (s : List Nat) (h : Chars s) (junk : List Nat) :
    wputs (s ++ 0 :: junk) = some (encs s) := by
  induction s with
  | nil => simp [wputs, encs]
  | cons c s ih =>
    have hc := h c List.mem_cons_self
    have := ih (fun x hx => h x (List.mem_cons_of_mem _ hx))
    simp only [List.cons_append, wputs, this, if_neg (show ¬ c = 0 by omega), Option.map_some,
      putwch_eq c hc.2]
    simp [encs]

/-- C12: printing the UTF-8 text of a character string emits exactly that text, which is also
what `fpm_wputs` emits for the characters; both length functions return the number of
characters.  Nothing after the terminator matters. -/
theorem C12_puts_and_lengths (s : List Nat) (h : Chars s) (junk junk' : List Nat) :
    puts (encs s ++ 0 :: junk) = some (encs s) ∧
    wputs (s ++ 0 :: junk') = some (encs s) ∧
    utf8len (encs s ++ 0 :: junk) = some s.length ∧
    strwlen (s ++ 0 :: junk') = some s.length := by
  refine ⟨?_, wputs_eq s h junk', ?_, ?_⟩
  · induction s with
    | nil => rw [puts.eq_def]; simp [encs]
    | cons c s ih =>
      have hc := h c List.mem_cons_self
      have := ih (fun x hx => h x (List.mem_cons_of_mem _ hx))
      simp only [encs, List.flatMap_cons, List.append_assoc] at this ⊢
      rw [puts_enc c hc.1 hc.2, this]; simp
  · induction s with
    | nil => simp [encs, utf8len]
    | cons c s ih =>
      have hc := h c List.mem_cons_self
      have := ih (fun x hx => h x (List.mem_cons_of_mem _ hx))
      simp only [encs, List.flatMap_cons, List.append_assoc] at this ⊢
      rw [utf8len_enc c hc.1 hc.2, this]; simp
  · induction s with
    | nil => simp [strwlen]
    | cons c s ih =>
      have hc := h c List.mem_cons_self
      have := ih (fun x hx => h x (List.mem_cons_of_mem _ hx))
      simp only [List.cons_append, strwlen, this, if_neg (show ¬ c = 0 by omega)]; simp

example : Chars [0x7f, 0x80, 0x7ff, 0x800, 0xffff] := by decide

/-- C16 (fpm_puts), full statement: for every NUL-free byte string `s` stored with its
terminator, `fpm_puts` does not read beyond the terminator. -/
def C16_puts_full : Prop :=
  ∀ s : List Nat, (∀ b ∈ s, 0 < b ∧ b < 256) → puts (s ++ [0]) ≠ none

/-- C16 is false of the code: a lead byte directly before the terminator makes `fpm_puts`
skip the terminator and read beyond the string. -/
theorem C16_puts_violated : ¬ C16_puts_full := by
  intro h; exact h [0xc3] (by decide) (by decide)

/-- C16, the part that holds: well-formed text is read exactly up to its terminator.
Missing: byte strings that are not the encoding of 16-bit characters. -/
theorem C16_puts_partial (s : List Nat) (h : Chars s) : puts (encs s ++ [0]) ≠ none := by
  rw [(C12_puts_and_lengths s h [] []).1]; simp

end Fpm
