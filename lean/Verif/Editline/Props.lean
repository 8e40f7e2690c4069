import Verif.Editline.RunLemmas
/-! # Properties C26-C29: the line editor -/
namespace Fpm.Editline
open Fpm.Editline.Spec Fpm.Spec

/-- Arguments of a call: `s` is the initial line (empty if `clear`), `h` the line of the history. -/
structure CallOk (buf : List Nat) (bl : Nat) (clear : Bool) (prev : Option (List Nat)) (next s : List Nat) (h : Option (List Nat)) : Prop where
  size : 1 ≤ bl ∧ bl ≤ 2 ^ 32 ∧ buf ≠ []
  line : if clear then s = [] else Holds buf s ∧ NulFree s
  hist : (prev = none ∧ h = none) ∨ ∃ m l, prev = some m ∧ h = some l ∧ Holds m l ∧ NulFree l ∧ 128 ≤ m.length ∧ 128 ≤ buf.length
  next : next.length = 128

/-- The abstract editor at the beginning: cursor at the end of the line. -/
def start (s : List Nat) (h : Option (List Nat)) : Abs := ⟨s, [], h, [], false⟩

/-- What is shared by the theorems below. -/
theorem editline_ok {buf : List Nat} {bl : Nat} {clear : Bool} {prev : Option (List Nat)} {next s : List Nat} {h : Option (List Nat)}
    (hc : CallOk buf bl clear prev next s h) (p : List (Nat ⊕ List Nat)) (keys : List Nat)
    (hfit : ∀ n, (Abs.run (bl - 1) (keys.take n) (start s h)).1.text.length < buf.length) :
    ∃ e, editline buf bl clear (promptChars p) prev next keys = some (e, (Abs.run (bl - 1) keys (start s h)).2) ∧
      Rel buf.length e (Abs.run (bl - 1) keys (start s h)).1 ∧
      (AbsPrintable (start s h) → PromptOk p →
        (Term.fresh.feeds e.out).Shows (promptText p ++ (Abs.run (bl - 1) keys (start s h)).1.text)
          ((promptText p).length + (Abs.run (bl - 1) keys (start s h)).1.left.length)) := by
  obtain ⟨⟨hs1, hs2, hs3⟩, hline, hhist, hnext⟩ := hc
  -- the state before the loop
  have hinit : ∃ b, (if clear then store buf 0 0 else some buf) = some b ∧ (if clear then some [] else wchars b) = some s ∧
      Holds b s ∧ b.length = buf.length ∧ NulFree s := by
    cases clear with
    | true =>
      simp only [if_true] at hline
      subst hline
      obtain ⟨x, xs, hx⟩ := List.exists_cons_of_ne_nil hs3
      subst hx
      exact ⟨0 :: xs, by simp [store], rfl, ⟨xs, rfl⟩, by simp, by intro x hx; simp at hx⟩
    | false =>
      simp only [Bool.false_eq_true, if_false] at hline
      obtain ⟨⟨j, hj⟩, hn⟩ := hline
      refine ⟨buf, rfl, ?_, ⟨j, hj⟩, rfl, hn⟩
      simp only [Bool.false_eq_true, if_false]
      rw [hj]; exact wchars_eq _ hn
  obtain ⟨b, hb1, hb2, ⟨j, hb3⟩, hb4, hn⟩ := hinit
  have hlen : strwlen b = some s.length := by rw [hb3]; exact strwlen_eq _ hn
  have hrel : Rel buf.length ⟨b, s.length, prev, next, false, promptChars p ++ s⟩ (start s h) :=
    ⟨⟨j, by simpa [start, Abs.text] using hb3⟩, hb4, by simpa [start, Abs.text] using hn, rfl, hhist, hnext, (by intro h; cases h), rfl⟩
  obtain ⟨e, o, h1, h2, h3, h4, _⟩ := run_ok (p := p) keys hs1 hs2 rfl _ _ hrel hfit
  refine ⟨e, ?_, h2, ?_⟩
  · unfold editline
    cases clear with
    | true =>
      simp only [if_true, Option.some.injEq] at hb1 hb2
      simp only [if_true, Option.bind_eq_bind, hb1, Option.bind_some, hb2, hlen, h1]
    | false =>
      simp only [Bool.false_eq_true, if_false, Option.some.injEq] at hb1 hb2
      simp only [Bool.false_eq_true, if_false, Option.bind_eq_bind, hb1, Option.bind_some, hb2, hlen, h1]
  · intro ha hp
    rw [h3, feeds_append]
    refine h4 ha hp _ ?_
    simp only
    rw [feeds_append]
    have g1 := shows_prompt hp (A := []) fresh_shows
    have g2 := shows_print (w := s) (by simpa [start, Abs.text] using ha.1) (by simpa using g1)
    simpa [start, Abs.text] using g2

theorem fit_of_size {buf : List Nat} {bl : Nat} {clear : Bool} {prev : Option (List Nat)} {next s : List Nat} {h : Option (List Nat)}
    (hc : CallOk buf bl clear prev next s h) (hbl : bl ≤ buf.length) (hs : s.length < buf.length) (keys : List Nat) (n : Nat) :
    (Abs.run (bl - 1) (keys.take n) (start s h)).1.text.length < buf.length := by
  have hpos := List.length_pos_iff.mpr hc.size.2.2
  have := length_run (cap := bl - 1) (keys.take n) (buf.length - 1) (by omega) (start s h) (by
    rcases hc.hist with h | ⟨m, l, _, _, _, _, _, h⟩
    · exact Or.inr ⟨h.2, rfl⟩
    · left; omega) (by simp [start, Abs.text]; omega)
  omega

theorem initial_fits {buf : List Nat} {bl : Nat} {clear : Bool} {prev : Option (List Nat)} {next s : List Nat} {h : Option (List Nat)}
    (hc : CallOk buf bl clear prev next s h) : s.length < buf.length := by
  have hpos := List.length_pos_iff.mpr hc.size.2.2
  have := hc.line
  cases clear with
  | true => simp only [if_true] at this; subst this; exact hpos
  | false =>
    obtain ⟨⟨j, hj⟩, _⟩ := this
    rw [hj]; simp

/-- **C26**: with a buffer of at least `buffer_length` items, for every sequence of keys the function
makes no access outside its buffers, and buffer, insertion point, history and return are those of
the abstract editor of capacity `buffer_length - 1`. -/
theorem C26_refines {buf : List Nat} {bl : Nat} {clear : Bool} {prev : Option (List Nat)} {next s : List Nat} {h : Option (List Nat)}
    (hc : CallOk buf bl clear prev next s h) (hbl : bl ≤ buf.length) (p : List (Nat ⊕ List Nat)) (keys : List Nat) :
    ∃ e a fin, editline buf bl clear (promptChars p) prev next keys = some (e, fin) ∧
      Abs.run (bl - 1) keys (start s h) = (a, fin) ∧
      Holds e.buf a.text ∧ NulFree a.text ∧ e.buf.length = buf.length ∧ e.pos = a.left.length ∧
      (∀ l, a.hist = some l → ∃ m, e.prev = some m ∧ Holds m l ∧ NulFree l) := by
  obtain ⟨e, h1, h2, _⟩ := editline_ok hc p keys (fit_of_size hc hbl (initial_fits hc) keys)
  refine ⟨e, _, _, h1, rfl, h2.buf, h2.nul, h2.len, h2.pos, ?_⟩
  intro l hl
  rcases h2.hist with ⟨_, hh⟩ | ⟨m, l', hm, hl', h3, h4, _⟩
  · rw [hh] at hl; cases hl
  · rw [hl'] at hl; cases hl; exact ⟨m, hm, h3, h4⟩

/-- C26, capacity: the text never exceeds `buffer_length - 1` characters, or 127 once a line was
recalled from the history, or the length of the initial line. -/
theorem C26_capacity {buf : List Nat} {bl : Nat} {clear : Bool} {prev : Option (List Nat)} {next s : List Nat} {h : Option (List Nat)}
    (hc : CallOk buf bl clear prev next s h) (hbl : bl ≤ buf.length) (p : List (Nat ⊕ List Nat)) (keys : List Nat) :
    ∃ e fin text, editline buf bl clear (promptChars p) prev next keys = some (e, fin) ∧ Holds e.buf text ∧ NulFree text ∧ e.pos ≤ text.length ∧
      text.length ≤ max s.length (if prev = none then bl - 1 else max (bl - 1) 127) := by
  obtain ⟨e, a, fin, h1, h2, h3, h4, _, h6, _⟩ := C26_refines hc hbl p keys
  refine ⟨e, fin, a.text, h1, h3, h4, by rw [h6]; simp [Abs.text], ?_⟩
  have := length_run (cap := bl - 1) keys (max s.length (if prev = none then bl - 1 else max (bl - 1) 127)) (by split <;> omega) (start s h) (by
    rcases hc.hist with h | ⟨m, l, hp, _⟩
    · exact Or.inr ⟨h.2, rfl⟩
    · left; rw [hp]; simp; omega) (by simp [start, Abs.text]; omega)
  rwa [h2] at this

private def exBuf : List Nat := List.replicate 128 7

/-- A call with an uninitialised buffer of 128 items and the line `ls` in the history. -/
private theorem exCall : CallOk exBuf 128 true (some ([108, 115, 0] ++ List.replicate 125 0)) (List.replicate 128 9) [] (some [108, 115]) :=
  ⟨⟨by decide, by decide, by simp [exBuf]⟩, rfl, Or.inr ⟨_, _, rfl, rfl, ⟨_, rfl⟩, by decide, by simp [exBuf], by simp [exBuf]⟩, by simp [exBuf]⟩

/-- Keys `a b ← c` and Return. -/
example : (Abs.run 127 [97, 98, 0x2190, 99, 13] (start [] (some [108, 115]))).1.text = [97, 99, 98] ∧
    (Abs.run 127 [97, 98, 0x2190, 99, 13] (start [] (some [108, 115]))).2 = true := by decide

/-- **C27**: whatever the keys typed so far, a terminal that received the output shows the prompt and
the text, with the cursor at the insertion point. -/
theorem C27_display {buf : List Nat} {bl : Nat} {clear : Bool} {prev : Option (List Nat)} {next s : List Nat} {h : Option (List Nat)}
    (hc : CallOk buf bl clear prev next s h) (hbl : bl ≤ buf.length) (p : List (Nat ⊕ List Nat)) (keys : List Nat)
    (hp : PromptOk p) (hs : Printable s) (hh : ∀ l, h = some l → Printable l) :
    ∃ e fin text, editline buf bl clear (promptChars p) prev next keys = some (e, fin) ∧ Holds e.buf text ∧ NulFree text ∧
      (Term.fresh.feeds e.out).Shows (promptText p ++ text) ((promptText p).length + e.pos) := by
  obtain ⟨e, h1, h2, h3⟩ := editline_ok hc p keys (fit_of_size hc hbl (initial_fits hc) keys)
  refine ⟨e, _, _, h1, h2.buf, h2.nul, ?_⟩
  rw [h2.pos]
  exact h3 ⟨by simpa [start, Abs.text] using hs, hh, by intro h; cases h⟩ hp

/-- The prompt of the shell: `ESC[0;31m` flash:/ `ESC[1;32m` > `ESC[m` -/
example : PromptOk [.inr [48, 59, 51, 49], .inl 102, .inl 58, .inl 47, .inr [49, 59, 51, 50], .inl 32, .inl 62, .inr [], .inl 32] ∧
    promptText [.inr [48, 59, 51, 49], .inl 102, .inl 58, .inl 47, .inr [49, 59, 51, 50], .inl 32, .inl 62, .inr [], .inl 32] =
      [102, 58, 47, 32, 62, 32] := by
  refine ⟨?_, by decide⟩
  intro x hx
  simp only [List.mem_cons, List.not_mem_nil, or_false] at hx
  rcases hx with rfl | rfl | rfl | rfl | rfl | rfl | rfl | rfl | rfl <;> simp

/-! ## C28 -/

/-- C28: the call of the shell (kernel/fpm_shell.c:77-78: an array of 128 items, `sizeof` of it as
length) never leaves the buffers. -/
def C28_full : Prop := ∀ (buf prev next l prompt keys : List Nat), buf.length = 128 → prev.length = 128 → next.length = 128 →
  Holds prev l → NulFree l → editline buf 256 true prompt (some prev) next keys ≠ none

/-- **C28 is violated**: typing 128 characters writes beyond the end of the shell's buffer. -/
theorem C28_violated : ¬ C28_full := by
  intro h
  refine h (List.replicate 128 0) (List.replicate 128 0) (List.replicate 128 0) [] [] (List.replicate 128 97) (by simp) (by simp) (by simp)
    ⟨List.replicate 127 0, rfl⟩ (by decide) ?_
  decide +kernel

/-- The call is safe as long as the line never becomes longer than 127 characters; then it behaves
like the abstract editor. -/
theorem C28_safe_partial (buf prev next l keys : List Nat) (p : List (Nat ⊕ List Nat)) (hb : buf.length = 128) (hp : prev.length = 128)
    (hn : next.length = 128) (hl : Holds prev l) (hnul : NulFree l)
    (hshort : ∀ n, (Abs.run 255 (keys.take n) (start [] (some l))).1.text.length ≤ 127) :
    ∃ e fin, editline buf 256 true (promptChars p) (some prev) next keys = some (e, fin) ∧ Holds e.buf (Abs.run 255 keys (start [] (some l))).1.text := by
  have hc : CallOk buf 256 true (some prev) next [] (some l) :=
    ⟨⟨by decide, by decide, by rintro rfl; simp at hb⟩, rfl, Or.inr ⟨prev, l, rfl, rfl, hl, hnul, by omega, by omega⟩, hn⟩
  obtain ⟨e, h1, h2, _⟩ := editline_ok hc p keys (by intro n; have := hshort n; show (Abs.run 255 _ _).1.text.length < _; omega)
  exact ⟨e, _, h1, h2.buf⟩

/-- Any line of at most 127 keys, with an empty history: the hypothesis holds. -/
example : ∀ n, (Abs.run 255 ([108, 115, 8, 16, 97, 13].take n) (start [] (some []))).1.text.length ≤ 127 := by
  have : ∀ n, n ≤ 6 → (Abs.run 255 ([108, 115, 8, 16, 97, 13].take n) (start [] (some []))).1.text.length ≤ 127 := by decide
  intro n
  rcases Nat.le_total n 6 with h | h
  · exact this n h
  · rw [List.take_of_length_le (by simpa using h)]
    exact this 6 (by decide)

/-! ## C29 -/

theorem run_append (cap : Nat) (ks ks' : List Nat) (a : Abs) (h : (Abs.run cap ks a).2 = false) :
    Abs.run cap (ks ++ ks') a = Abs.run cap ks' (Abs.run cap ks a).1 := by
  induction ks generalizing a with
  | nil => rfl
  | cons k ks ih =>
    rw [Abs.run] at h
    rw [List.cons_append, Abs.run, Abs.run]
    split
    · rename_i hk; rw [if_pos hk] at h; cases h
    · rename_i hk; rw [if_neg hk] at h; exact ih _ h

theorem holds_unique {m s u : List Nat} (h1 : Holds m s) (h2 : Holds m u) (n1 : NulFree s) (n2 : NulFree u) : s = u := by
  obtain ⟨j, h1⟩ := h1
  obtain ⟨k, h2⟩ := h2
  have a1 := wchars_eq j n1
  have a2 := wchars_eq k n2
  rw [← h1] at a1
  rw [← h2, a1] at a2
  exact Option.some.inj a2

/-- **C29**: after any keys (the line not being the recalled one), up-arrow replaces the line `s` by
the previous line `l`, and down-arrow right after it restores `s` exactly; the cursor is at the end
and the previous line is unchanged. -/
theorem C29_recall {buf prev next line l : List Nat} {clear : Bool} (hc : CallOk buf 128 clear (some prev) next line (some l))
    (hb : buf.length = 128) (p : List (Nat ⊕ List Nat)) (keys s l' m : List Nat) (e : Ed)
    (he : editline buf 128 clear (promptChars p) (some prev) next keys = some (e, false)) (hcur : e.onPrev = false)
    (hs : Holds e.buf s) (hsn : NulFree s) (hm : e.prev = some m) (hl : Holds m l') (hln : NulFree l') (hll : l'.length ≤ 127)
    (up down : Nat) (hup : up = 16 ∨ up = 0x2191) (hdown : down = 14 ∨ down = 0x2193) :
    (∃ e1, editline buf 128 clear (promptChars p) (some prev) next (keys ++ [up]) = some (e1, false) ∧ Holds e1.buf l' ∧ e1.pos = l'.length) ∧
    (∃ e2 m2, editline buf 128 clear (promptChars p) (some prev) next (keys ++ [up, down]) = some (e2, false) ∧ Holds e2.buf s ∧ e2.pos = s.length ∧
      e2.prev = some m2 ∧ Holds m2 l') := by
  have hfit := fit_of_size hc (by omega) (initial_fits hc)
  obtain ⟨e', h1, h2, _⟩ := editline_ok hc p keys (hfit keys)
  rw [he] at h1
  simp only [Option.some.injEq, Prod.mk.injEq] at h1
  obtain ⟨rfl, hfin⟩ := h1
  have hkeys := run_append (128 - 1) keys
  generalize ha : (Abs.run (128 - 1) keys (start line (some l))).1 = a at *
  have hrec : a.recalled = false := by rw [← h2.on]; exact hcur
  have hst : s = a.text := holds_unique hs h2.buf hsn h2.nul
  have hhist : a.hist = some l' := by
    rcases h2.hist with ⟨hh, _⟩ | ⟨m', h', hm', hh', hhold, hn', _⟩
    · rw [hm] at hh; cases hh
    · rw [hm] at hm'; cases hm'
      rw [hh', holds_unique hl hhold hln hn']
  have hstl : s.length ≤ 127 := by
    have := h2.len
    obtain ⟨j, hj⟩ := h2.buf
    rw [hj] at this
    rw [hst]
    simp at this
    omega
  have hclip : ∀ x : List Nat, x.length ≤ 127 → clip x = x := fun x hx => List.take_of_length_le hx
  have b1 : binding up = some .older := by rcases hup with rfl | rfl <;> rfl
  have b2 : binding down = some .newer := by rcases hdown with rfl | rfl <;> rfl
  have n1 : up ≠ 13 := by rcases hup with rfl | rfl <;> decide
  have n2 : down ≠ 13 := by rcases hdown with rfl | rfl <;> decide
  have s1 : a.step 127 up = { a with kept := s, left := l', right := [], recalled := true } := by
    simp only [Abs.step, b1, hrec, Bool.false_eq_true, if_false, hhist, ← hst, hclip s hstl, hclip l' hll]
  have s2 : (a.step 127 up).step 127 down = { a with kept := s, hist := some l', left := s, right := [], recalled := false } := by
    rw [s1]
    simp only [Abs.step, b2, if_true, hhist, Abs.text, List.append_nil, hclip s hstl, hclip l' hll, Option.map_some]
  have r1 : Abs.run (128 - 1) (keys ++ [up]) (start line (some l)) = (a.step 127 up, false) := by
    rw [hkeys _ _ hfin.symm, ha]; simp [Abs.run, n1]
  have r2 : Abs.run (128 - 1) (keys ++ [up, down]) (start line (some l)) = ((a.step 127 up).step 127 down, false) := by
    rw [hkeys _ _ hfin.symm, ha]; simp [Abs.run, n1, n2]
  refine ⟨?_, ?_⟩
  · obtain ⟨e1, g1, g2, _⟩ := editline_ok hc p (keys ++ [up]) (hfit _)
    rw [r1, s1] at g1 g2
    exact ⟨e1, g1, by simpa [Abs.text] using g2.buf, g2.pos⟩
  · obtain ⟨e2, g1, g2, _⟩ := editline_ok hc p (keys ++ [up, down]) (hfit _)
    rw [r2, s2] at g1 g2
    rcases g2.hist with ⟨_, hh⟩ | ⟨m2, h2', hm2, hh2, hold, _⟩
    · cases hh
    · cases hh2
      exact ⟨e2, m2, g1, by simpa [Abs.text] using g2.buf, g2.pos, hm2, hold⟩

/-- Keys `a b`: the line is `ab`, not recalled. -/
example : ((editline exBuf 128 true [] (some ([108, 115, 0] ++ List.replicate 125 0)) (List.replicate 128 9) [97, 98]).map
    fun x => (x.1.buf.take 3, x.1.onPrev, x.2)) = some ([97, 98, 0], false, false) := by decide +kernel

end Fpm.Editline
