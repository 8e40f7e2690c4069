import Verif.Strlcpy.Lemmas
/-! # Properties C13, C14, C15, C16 (fpm_strlcpy_from_utf8): bounded copies -/
namespace Fpm
open Spec

/-- C13: `fpm_strlcpy` / `fpm_strlcpy_unicode` with a destination object of at least `nitems`
items: no out-of-bounds access; `nitems = 0` changes nothing; otherwise exactly the first
`min (nitems-1) length` items and a NUL are written over the beginning of the destination; the
source length is returned. -/
theorem C13_strlcpy (dst s junk : List Nat) (nitems : Nat) (h : NulFree s)
    (hcap : nitems ≤ dst.length) :
    strlcpy dst (s ++ 0 :: junk) nitems =
      some (if nitems = 0 then dst else overwrite dst (s.take (nitems - 1) ++ [0]), s.length) := by
  cases nitems with
  | zero => simp [strlcpy, strlcpyLoop, copyFinish, skipStr_eq s junk h]
  | succ n =>
    have := strlcpyLoop_eq [] dst s junk 0 n 0 h rfl hcap
    simp only [List.nil_append] at this
    simp only [strlcpy, this, Nat.zero_add]
    split
    · have e : s.take n = s := List.take_of_length_le (by omega)
      have : n - s.length ≠ 0 := by omega
      simp [copyFinish, this, overwrite, e]
    · have hd : NulFree (s.drop n) := fun c hc => h c (List.mem_of_mem_drop hc)
      have hl : (s.take n).length = n := by simp; omega
      have hne : dst.drop n ≠ [] := by
        intro hh; have := congrArg List.length hh; simp at this; omega
      have hst := store_at (s.take n) (dst.drop n) n 0 hl.symm hne
      simp only [Option.bind_eq_bind, Option.bind_some, copyFinish, if_true]
      simp [hst, skipStr_eq _ junk hd, overwrite]
      have : min n s.length = n := by omega
      rw [this]
      exact ⟨rfl, by omega⟩

example : NulFree [72, 105, 33] ∧ (3 : Nat) ≤ [9, 9, 9, 9].length ∧
    strlcpy [9, 9, 9, 9] [72, 105, 33, 0, 7] 3 = some ([72, 105, 0, 9], 3) := by decide

/-- C14 (decoding): `fpm_strlcpy_from_utf8` of the encoding of `s` stores the longest prefix of
`s` that fits, NUL-terminated, writes nothing beyond it, and returns the byte length of the
source. -/
theorem C14_from_utf8 (dst s junk : List Nat) (nitems : Nat) (h : Chars s)
    (hcap : nitems ≤ dst.length) :
    strlcpyFromUtf8 dst (encs s ++ 0 :: junk) nitems =
      some (if nitems = 0 then dst else overwrite dst (s.take (nitems - 1) ++ [0]), (encs s).length) := by
  have hnf : ∀ t : List Nat, Chars t → NulFree (encs t) := by
    intro t ht c hc
    simp only [encs, List.mem_flatMap] at hc
    obtain ⟨x, hx, hc⟩ := hc
    have := ht x hx
    unfold enc at hc
    split at hc
    · simp at hc; omega
    · split at hc <;> simp at hc <;> omega
  cases nitems with
  | zero => simp [strlcpyFromUtf8, fromUtf8Loop, copyFinish, skipStr_eq _ junk (hnf s h)]
  | succ n =>
    have := fromUtf8Loop_eq [] dst s junk 0 n 0 h rfl hcap
    simp only [List.nil_append] at this
    simp only [strlcpyFromUtf8, this, Nat.zero_add]
    split
    · have e : s.take n = s := List.take_of_length_le (by omega)
      have : n - s.length ≠ 0 := by omega
      simp [copyFinish, this, overwrite, e]
    · have hd : Chars (s.drop n) := fun c hc => h c (List.mem_of_mem_drop hc)
      have hl : (s.take n).length = n := by simp; omega
      have hne : dst.drop n ≠ [] := by
        intro hh; have := congrArg List.length hh; simp at this; omega
      have hst := store_at (s.take n) (dst.drop n) n 0 hl.symm hne
      have hlen : (encs s).length = (encs (s.take n)).length + (encs (s.drop n)).length := by
        rw [← List.length_append, ← encs_append, List.take_append_drop]
      simp only [Option.bind_eq_bind, Option.bind_some, copyFinish, if_true]
      simp [hst, skipStr_eq _ junk (hnf _ hd), overwrite, hlen]
      have : min n s.length = n := by omega
      rw [this]

example : Chars [0x41, 0x20ac, 0x42] ∧ (3 : Nat) ≤ [9, 9, 9].length ∧
    strlcpyFromUtf8 [9, 9, 9] (encs [0x41, 0x20ac, 0x42] ++ [0]) 3 = some ([0x41, 0x20ac, 0], 5) := by decide

/-- Exact behaviour of `fpm_strlcpy_to_utf8`: the text emitted is the encoding of the prefix
`charBudget (nitems-1) s`, provided the destination object can hold it. -/
theorem C14_to_utf8_exact (dst s junk : List Nat) (n : Nat) (h : Chars s)
    (hcap : (encs (charBudget n s)).length + 1 ≤ dst.length) :
    ∃ ret, strlcpyToUtf8 dst (s ++ 0 :: junk) (n + 1) =
        some (overwrite dst (encs (charBudget n s) ++ [0]), ret) ∧
      (charBudget n s = s.take n → ret = s.length) := by
  obtain ⟨ret, h1, h2⟩ := toUtf8_dst s [] dst junk 0 n 0 (n+1) h rfl hcap (by omega)
  simp only [List.nil_append] at h1
  exact ⟨ret, by rw [strlcpyToUtf8, h1]; simp [overwrite], by simpa using h2⟩

theorem charBudget_all (n : Nat) (s : List Nat) (h : s.length + 2 ≤ n) : charBudget n s = s := by
  induction s generalizing n with
  | nil => cases n <;> simp [charBudget]
  | cons c s ih =>
    cases n with
    | zero => simp at h
    | succ n =>
      have := enc_length_le c
      simp only [List.length_cons] at h
      simp only [charBudget]
      rw [if_pos (by omega), ih n (by omega)]

/-- C14 (round trip): with buffers large enough, encoding a string and decoding the result gives
the string back; both calls report the full source length. -/
theorem C14_roundtrip (dst dst' s junk : List Nat) (n m : Nat) (h : Chars s)
    (hn : s.length + 3 ≤ n) (hcap : (encs s).length + 1 ≤ dst.length)
    (hm : s.length + 1 ≤ m) (hcap' : m ≤ dst'.length) :
    ∃ u, strlcpyToUtf8 dst (s ++ 0 :: junk) n = some (u, s.length) ∧
      strlcpyFromUtf8 dst' u m = some (overwrite dst' (s ++ [0]), (encs s).length) := by
  obtain ⟨n, rfl⟩ : ∃ k, n = k + 1 := ⟨n - 1, by omega⟩
  have hb := charBudget_all n s (by omega)
  obtain ⟨ret, h1, h2⟩ := C14_to_utf8_exact dst s junk n h (by rw [hb]; exact hcap)
  have hr := h2 (by rw [hb, List.take_of_length_le (by omega)])
  rw [hb] at h1
  subst hr
  refine ⟨_, h1, ?_⟩
  have := C14_from_utf8 dst' s (dst.drop ((encs s).length + 1)) m h hcap'
  simp only [overwrite, List.append_assoc, List.cons_append, List.nil_append, List.length_append,
    List.length_singleton] at this ⊢
  rw [this, if_neg (by omega), List.take_of_length_le (by omega)]

example : Chars [0x416, 0x20ac] ∧ [0x416, 0x20ac].length + 3 ≤ 5 ∧
    (encs [0x416, 0x20ac]).length + 1 ≤ (List.replicate 6 0).length := by decide

/-- C15, full statement: whatever the source string, a destination object of `nitems` bytes is
enough for `fpm_strlcpy_to_utf8` called with `nitems`. -/
def C15_full : Prop :=
  ∀ (s dst : List Nat) (nitems : Nat), Chars s → dst.length = nitems →
    ∃ p ret, p <+: s ∧ strlcpyToUtf8 dst (s ++ [0]) nitems = some (overwrite dst (encs p ++ [0]), ret)

/-- C15 is false of the code: the budget counts characters, not bytes.  With a buffer of six
bytes, five three-byte characters run past its end. -/
theorem C15_violated : ¬ C15_full := by
  intro h
  obtain ⟨p, ret, _, h⟩ := h [0x800, 0x800, 0x800, 0x800, 0x800] (List.replicate 6 0) 6 (by decide) (by decide)
  have : strlcpyToUtf8 (List.replicate 6 0) ([0x800, 0x800, 0x800, 0x800, 0x800] ++ [0]) 6 = none := by decide
  rw [this] at h; cases h

/-- C15, the part that holds: the call is safe and emits the encoding of a prefix whenever the
object has room for three bytes per character of budget; and a text of 7-bit characters needs
no more than `nitems` bytes.  Missing: objects of exactly `nitems` bytes and wide characters. -/
theorem C15_partial (s dst junk : List Nat) (n : Nat) (h : Chars s)
    (hcap : 3 * n + 1 ≤ dst.length ∨ ((∀ c ∈ s, c < 128) ∧ n + 1 ≤ dst.length)) :
    ∃ p ret, p <+: s ∧ p.length ≤ n ∧
      strlcpyToUtf8 dst (s ++ 0 :: junk) (n + 1) = some (overwrite dst (encs p ++ [0]), ret) := by
  have hb : (encs (charBudget n s)).length + 1 ≤ dst.length := by
    have h1 := charBudget_length n s
    rcases hcap with hc | ⟨ha, hc⟩
    · have := encs_length_le (charBudget n s); omega
    · have : ∀ t : List Nat, (∀ c ∈ t, c < 128) → (encs t).length = t.length := by
        intro t ht
        induction t with
        | nil => simp [encs]
        | cons c t ih =>
          rw [encs_cons]
          have := ht c List.mem_cons_self
          simp [enc, this, ih (fun x hx => ht x (List.mem_cons_of_mem _ hx))]
      rw [this _ (fun c hc => ha c ((charBudget_prefix n s).subset hc))]; omega
  obtain ⟨ret, h1, _⟩ := C14_to_utf8_exact dst s junk n h hb
  exact ⟨_, ret, charBudget_prefix n s, charBudget_length n s, h1⟩

example : Chars [0x800, 0x41] ∧ 3 * 3 + 1 ≤ (List.replicate 10 0).length := by decide

/-- C15 for the shell (kernel/fpm_shell.c:77-78): a line of at most 127 characters always fits,
completely, into the 384-byte command line. -/
theorem C15_shell_line (s dst junk : List Nat) (h : Chars s) (hl : s.length ≤ 127) (hd : dst.length = 384) :
    strlcpyToUtf8 dst (s ++ 0 :: junk) 384 = some (overwrite dst (encs s ++ [0]), s.length) := by
  have hb := charBudget_all 383 s (by omega)
  have := encs_length_le s
  obtain ⟨ret, h1, h2⟩ := C14_to_utf8_exact dst s junk 383 h (by rw [hb]; omega)
  rw [hb] at h1 h2
  rw [h1, h2 (by rw [List.take_of_length_le (by omega)])]

example : Chars (List.replicate 127 0x20ac) ∧ (List.replicate 127 0x20ac).length ≤ 127 := ⟨by intro c hc; simp_all, by simp⟩

/-- C16 (decoding), full statement: no byte string makes `fpm_strlcpy_from_utf8` read past its
terminator. -/
def C16_from_utf8_full : Prop :=
  ∀ (s dst : List Nat) (nitems : Nat), (∀ b ∈ s, 0 < b ∧ b < 256) → nitems ≤ dst.length →
    strlcpyFromUtf8 dst (s ++ [0]) nitems ≠ none

/-- C16 is false of `fpm_strlcpy_from_utf8`: a lead byte before the terminator. -/
theorem C16_from_utf8_violated : ¬ C16_from_utf8_full := by
  intro h; exact h [0x41, 0xe2] (List.replicate 8 0) 8 (by decide) (by decide) (by decide)

/-- C16, the part that holds: well-formed text.  Missing: malformed byte strings. -/
theorem C16_from_utf8_partial (s dst : List Nat) (nitems : Nat) (h : Chars s) (hc : nitems ≤ dst.length) :
    strlcpyFromUtf8 dst (encs s ++ [0]) nitems ≠ none := by
  rw [C14_from_utf8 dst s [] nitems h hc]; simp

example : Chars [0x41, 0x20ac] := by decide

end Fpm
