import Verif.Editline.Model
import Verif.Editline.TermLemmas
import Verif.Strlcpy.Props
/-! # Lemmas: the line editor refines the abstract editor -/
namespace Fpm.Editline
open Fpm.Editline.Spec Fpm.Spec

theorem strwlen_eq {s : List Nat} (j : List Nat) (h : NulFree s) : strwlen (s ++ 0 :: j) = some s.length := by
  induction s with
  | nil => simp [strwlen]
  | cons c s ih =>
    rw [List.cons_append, strwlen, if_neg (h c (by simp)), ih (fun x hx => h x (by simp [hx]))]
    rfl

theorem wchars_eq {s : List Nat} (j : List Nat) (h : NulFree s) : wchars (s ++ 0 :: j) = some s := by
  induction s with
  | nil => simp [wchars]
  | cons c s ih =>
    rw [List.cons_append, wchars, if_neg (h c (by simp)), ih (fun x hx => h x (by simp [hx]))]
    rfl

theorem memmove_up (L R : List Nat) (j0 : Nat) (j : List Nat) (key : Nat) :
    (memmove (L ++ (R ++ 0 :: j0 :: j)) (L.length + 1) L.length (R.length + 1)).bind (fun b => store b L.length key) =
      some (L ++ key :: (R ++ 0 :: j)) := by
  unfold memmove
  rw [if_pos (by simp; omega)]
  have e1 : ((L ++ (R ++ 0 :: j0 :: j)).drop L.length).take (R.length + 1) = R ++ [0] := by
    rw [List.drop_left]; simp [List.take_append, List.take_of_length_le]
  have e2 : (L ++ (R ++ 0 :: j0 :: j)).drop (L.length + 1 + (R.length + 1)) = j := by
    rw [show L.length + 1 + (R.length + 1) = L.length + (R.length + 2) by omega, ← List.drop_drop, List.drop_left]
    rw [← List.drop_drop, List.drop_left]; rfl
  obtain ⟨x, e3⟩ : ∃ x, (L ++ (R ++ 0 :: j0 :: j)).take (L.length + 1) = L ++ [x] := by
    rw [List.take_length_add_append]
    cases R with
    | nil => exact ⟨0, rfl⟩
    | cons r R => exact ⟨r, rfl⟩
  rw [e1, e2, e3]
  unfold store
  simp [List.append_assoc]

theorem memmove_down (L R : List Nat) (c : Nat) (j : List Nat) :
    memmove (L ++ c :: (R ++ 0 :: j)) L.length (L.length + 1) (R.length + 1) = some (L ++ (R ++ 0 :: 0 :: j)) := by
  unfold memmove
  rw [if_pos (by simp; omega)]
  have e1 : (L ++ c :: (R ++ 0 :: j)).take L.length = L := by simp
  have e2 : ((L ++ c :: (R ++ 0 :: j)).drop (L.length + 1)).take (R.length + 1) = R ++ [0] := by
    rw [← List.drop_drop, List.drop_left]; simp [List.take_append, List.take_of_length_le]
  have e3 : (L ++ c :: (R ++ 0 :: j)).drop (L.length + (R.length + 1)) = 0 :: j := by
    rw [← List.drop_drop, List.drop_left]; simp
  rw [e1, e2, e3]; simp

/-- The state of the C function represents the abstract editor; `P` is the number of items of the
caller's buffer. -/
structure Rel (P : Nat) (e : Ed) (a : Abs) : Prop where
  buf : Holds e.buf a.text
  len : e.buf.length = P
  nul : NulFree a.text
  pos : e.pos = a.left.length
  hist : (e.prev = none ∧ a.hist = none) ∨
    ∃ m h, e.prev = some m ∧ a.hist = some h ∧ Holds m h ∧ NulFree h ∧ 128 ≤ m.length ∧ 128 ≤ P
  next : e.next.length = 128
  kept : a.recalled = true → Holds e.next a.kept ∧ NulFree a.kept ∧ a.hist ≠ none
  on : e.onPrev = a.recalled

/-- Texts in the abstract editor can be displayed. -/
def AbsPrintable (a : Abs) : Prop :=
  Printable a.text ∧ (∀ h, a.hist = some h → Printable h) ∧ (a.recalled = true → Printable a.kept)

/-- Output `o` turns a display of `a` into one of `a'`. -/
def Displays (p : List (Nat ⊕ List Nat)) (a a' : Abs) (o : List Nat) : Prop :=
  AbsPrintable a → PromptOk p → ∀ t : Term, t.Shows (promptText p ++ a.text) ((promptText p).length + a.left.length) →
    (t.feeds o).Shows (promptText p ++ a'.text) ((promptText p).length + a'.left.length)

variable {P bl cap : Nat} {p : List (Nat ⊕ List Nat)} {e : Ed} {a : Abs}

theorem nulFree_of_subset {s u : List Nat} (h : NulFree u) (hs : ∀ x ∈ s, x ∈ u) : NulFree s := fun x hx => h x (hs x hx)

theorem displays_refl : Displays p a a [] := fun _ _ _ h => h

theorem insert_ok (hr : Rel P e a) (hbl : 1 ≤ bl) (hbl' : bl ≤ 2 ^ 32) (hcap : cap = bl - 1) {key : Nat}
    {a' : Abs} (ha' : a' = if key ≥ 32 ∧ a.text.length < cap then { a with left := a.left ++ [key] } else a)
    (hfit : a'.text.length < P) :
    ∃ e' o, insertKey bl key e = some e' ∧ Rel P e' a' ∧ e'.out = e.out ++ o ∧ Displays p a a' o := by
  have hmod : (bl + 2 ^ 32 - 1) % 2 ^ 32 = cap := by omega
  obtain ⟨j, hj⟩ := hr.buf
  by_cases hc : key ≥ 32 ∧ a.text.length < cap
  · rw [if_pos hc] at ha'
    have hl := hr.len
    rw [hj] at hl
    subst a'
    have hj0 : ∃ j0 j', j = j0 :: j' := by
      cases j with
      | nil => simp [Abs.text] at hl hfit; omega
      | cons j0 j' => exact ⟨j0, j', rfl⟩
    obtain ⟨j0, j', rfl⟩ := hj0
    have hm := memmove_up a.left a.right j0 j' key
    have hbufeq : e.buf = a.left ++ (a.right ++ 0 :: j0 :: j') := by rw [hj]; simp [Abs.text]
    have hlen : strwlen e.buf = some a.text.length := by rw [hj]; exact strwlen_eq _ hr.nul
    have hsub : a.text.length - e.pos + 1 = a.right.length + 1 := by rw [hr.pos]; simp [Abs.text]
    refine ⟨{ e with buf := a.left ++ key :: (a.right ++ 0 :: j'), pos := e.pos + 1,
                     out := e.out ++ (if a.text.length > e.pos then [27, 91, 64] else []) ++ [key] },
      (if a.text.length > e.pos then [27, 91, 64] else []) ++ [key], ?_, ?_, by simp, ?_⟩
    · unfold insertKey
      rw [if_pos hc.1, hlen]
      simp only [Option.bind_eq_bind, Option.bind_some, hmod, if_pos hc.2, hsub]
      rw [hbufeq, hr.pos]
      cases hmm : memmove (a.left ++ (a.right ++ 0 :: j0 :: j')) (a.left.length + 1) a.left.length (a.right.length + 1) with
      | none => rw [hmm] at hm; cases hm
      | some b =>
        rw [hmm] at hm
        simp only [Option.bind_some] at hm ⊢
        rw [hm]
        rfl
    · refine ⟨⟨j', by simp [Abs.text]⟩, ?_, ?_, ?_, hr.hist, hr.next, hr.kept, hr.on⟩
      · rw [← hr.len, hbufeq]; simp; omega
      · intro x hx
        have := hr.nul x
        simp only [Abs.text, List.mem_append, List.mem_singleton] at hx this
        rcases hx with (h | h) | h
        · exact this (Or.inl h)
        · omega
        · exact this (Or.inr h)
      · simp [hr.pos]
    · intro hp _ t ht
      have ht' : t.Shows ((promptText p ++ a.left) ++ a.right) (promptText p ++ a.left).length := by
        simpa [Abs.text] using ht
      rw [feeds_append]
      by_cases hR : a.text.length > e.pos
      · rw [if_pos hR]
        have h1 := shows_put (c := key) (shows_ins ht') hc.1
        simpa [Abs.text, feeds_cons, feeds_nil, Nat.add_assoc] using h1
      · rw [if_neg hR]
        have hnil : a.right = [] := by
          rw [hr.pos] at hR
          simp [Abs.text] at hR
          exact hR
        have h1 := shows_put (c := key) ht' hc.1
        simpa [Abs.text, feeds_cons, feeds_nil, Nat.add_assoc, hnil] using h1
  · rw [if_neg hc] at ha'
    subst a'
    refine ⟨e, [], ?_, hr, by simp, displays_refl⟩
    unfold insertKey
    by_cases hk : key ≥ 32
    · have hlen : strwlen e.buf = some a.text.length := by rw [hj]; exact strwlen_eq _ hr.nul
      rw [if_pos hk, hlen]
      simp only [Option.bind_eq_bind, Option.bind_some, hmod]
      rw [if_neg (fun h => hc ⟨hk, h⟩)]
    · rw [if_neg hk]

theorem finish_ok (hr : Rel P e a) :
    ∃ e' o, finishLine e = some e' ∧ Rel P e' { a with left := a.text, right := [] } ∧ e'.out = e.out ++ o ∧
      Displays p a { a with left := a.text, right := [] } o := by
  obtain ⟨j, hj⟩ := hr.buf
  have hd : e.buf.drop e.pos = a.right ++ 0 :: j := by rw [hj, hr.pos]; simp [Abs.text]
  have hw : wchars (e.buf.drop e.pos) = some a.right := by
    rw [hd]; exact wchars_eq _ (fun x hx => hr.nul x (by simp [Abs.text, hx]))
  refine ⟨{ e with pos := e.pos + a.right.length, out := e.out ++ a.right }, a.right, ?_, ?_, rfl, ?_⟩
  · unfold finishLine; rw [hw]; rfl
  · exact ⟨⟨j, by simpa [Abs.text] using hj⟩, hr.len, by simpa [Abs.text] using hr.nul, by simp [hr.pos, Abs.text], hr.hist, hr.next, hr.kept, hr.on⟩
  · intro hp _ t ht
    have h1 := shows_over (t := t) (A := promptText p ++ a.left) (w := a.right) (fun x hx => hp.1 x (by simp [Abs.text, hx]))
      (by simpa [Abs.text] using ht)
    simpa [Abs.text, Nat.add_assoc] using h1

theorem end_ok (hr : Rel P e a) :
    ∃ e' o, endKey e = some e' ∧ Rel P e' { a with left := a.text, right := [] } ∧ e'.out = e.out ++ o ∧
      Displays p a { a with left := a.text, right := [] } o := by
  obtain ⟨j, hj⟩ := hr.buf
  have hlen : strwlen e.buf = some a.text.length := by rw [hj]; exact strwlen_eq _ hr.nul
  have hd : (e.buf.take a.text.length).drop e.pos = a.right := by
    rw [hj, hr.pos, List.take_left]; simp [Abs.text]
  refine ⟨{ e with pos := a.text.length, out := e.out ++ a.right }, a.right, ?_, ?_, rfl, ?_⟩
  · unfold endKey
    rw [hlen]
    simp only [Option.bind_eq_bind, Option.bind_some, hd]
    have : max e.pos a.text.length = a.text.length := by rw [hr.pos]; simp [Abs.text]
    rw [this]
  · exact ⟨⟨j, by simpa [Abs.text] using hj⟩, hr.len, by simpa [Abs.text] using hr.nul, by simp, hr.hist, hr.next, hr.kept, hr.on⟩
  · intro hp _ t ht
    have h1 := shows_over (t := t) (A := promptText p ++ a.left) (w := a.right) (fun x hx => hp.1 x (by simp [Abs.text, hx]))
      (by simpa [Abs.text] using ht)
    simpa [Abs.text, Nat.add_assoc] using h1

theorem delete_ok (hr : Rel P e a) :
    ∃ e' o, deleteKey e = some e' ∧ Rel P e' { a with right := a.right.drop 1 } ∧ e'.out = e.out ++ o ∧
      Displays p a { a with right := a.right.drop 1 } o := by
  obtain ⟨j, hj⟩ := hr.buf
  have hlen : strwlen e.buf = some a.text.length := by rw [hj]; exact strwlen_eq _ hr.nul
  cases hR : a.right with
  | nil =>
    refine ⟨e, [], ?_, ?_, by simp, ?_⟩
    · unfold deleteKey
      rw [hlen]
      simp only [Option.bind_eq_bind, Option.bind_some]
      rw [if_neg (by rw [hr.pos]; simp [Abs.text, hR])]
    · have : { a with right := ([] : List Nat).drop 1 } = a := by rw [List.drop_nil, ← hR]
      rw [this]; exact hr
    · have : { a with right := ([] : List Nat).drop 1 } = a := by rw [List.drop_nil, ← hR]
      rw [this]; exact displays_refl
  | cons c R =>
    have hb : e.buf = a.left ++ c :: (R ++ 0 :: j) := by rw [hj]; simp [Abs.text, hR]
    have hm := memmove_down a.left R c j
    refine ⟨{ e with buf := a.left ++ (R ++ 0 :: 0 :: j), out := e.out ++ [27, 91, 80] }, [27, 91, 80], ?_, ?_, rfl, ?_⟩
    · unfold deleteKey
      rw [hlen]
      simp only [Option.bind_eq_bind, Option.bind_some]
      rw [if_pos (by rw [hr.pos]; simp [Abs.text, hR]), hr.pos]
      have : a.text.length - a.left.length = R.length + 1 := by simp [Abs.text, hR]
      rw [this, hb, hm]
      rfl
    · refine ⟨⟨0 :: j, by simp [Abs.text]⟩, ?_, ?_, hr.pos, hr.hist, hr.next, hr.kept, hr.on⟩
      · rw [← hr.len, hb]; simp; omega
      · refine nulFree_of_subset hr.nul ?_
        intro x hx
        simp [Abs.text, hR] at hx ⊢
        rcases hx with h | h
        · exact Or.inl h
        · exact Or.inr (Or.inr h)
    · intro hp _ t ht
      have h1 := shows_del (t := t) (A := promptText p ++ a.left) (c := c) (B := R) (by simpa [Abs.text, hR] using ht)
      simpa [Abs.text, hR] using h1

theorem backspace_ok (hr : Rel P e a) :
    ∃ e' o, backspace e = some e' ∧ Rel P e' { a with left := a.left.dropLast } ∧ e'.out = e.out ++ o ∧
      Displays p a { a with left := a.left.dropLast } o := by
  obtain ⟨j, hj⟩ := hr.buf
  have hlen : strwlen e.buf = some a.text.length := by rw [hj]; exact strwlen_eq _ hr.nul
  rcases List.eq_nil_or_concat a.left with hL | ⟨L, c, hL⟩
  · have he : { a with left := a.left.dropLast } = a := by rw [hL, List.dropLast_nil, ← hL]
    rw [he]
    refine ⟨e, [], ?_, hr, by simp, displays_refl⟩
    unfold backspace
    rw [if_neg (by rw [hr.pos, hL]; simp)]
  · rw [List.concat_eq_append] at hL
    have hb : e.buf = L ++ c :: (a.right ++ 0 :: j) := by rw [hj]; simp [Abs.text, hL]
    have hpos : e.pos = L.length + 1 := by rw [hr.pos, hL]; simp
    have hm := memmove_down L a.right c j
    have hlt : (e.pos < a.text.length) ↔ a.right ≠ [] := by
      rw [hr.pos]; simp [Abs.text, List.length_pos_iff]
    have he : { a with left := a.left.dropLast } = { a with left := L } := by rw [hL, List.dropLast_concat]
    rw [he]
    refine ⟨{ e with buf := L ++ (a.right ++ 0 :: 0 :: j), pos := L.length,
                     out := e.out ++ (if e.pos < a.text.length then [8, 27, 91, 80] else [8, 32, 8]) },
      (if e.pos < a.text.length then [8, 27, 91, 80] else [8, 32, 8]), ?_, ?_, rfl, ?_⟩
    · unfold backspace
      rw [if_pos (by omega), hlen]
      simp only [Option.bind_eq_bind, Option.bind_some]
      have : a.text.length - (e.pos - 1) = a.right.length + 1 := by rw [hpos]; simp [Abs.text, hL]
      rw [this, show e.pos - 1 = L.length by omega, hb, hm]
      rfl
    · refine ⟨⟨0 :: j, by simp [Abs.text]⟩, ?_, ?_, rfl, hr.hist, hr.next, hr.kept, hr.on⟩
      · rw [← hr.len, hb]; simp; omega
      · refine nulFree_of_subset hr.nul ?_
        intro x hx
        simp [Abs.text, hL] at hx ⊢
        rcases hx with h | h
        · exact Or.inl h
        · exact Or.inr (Or.inr h)
    · intro hp _ t ht
      have ht' : t.Shows ((promptText p ++ L) ++ c :: a.right) ((promptText p ++ L).length + 1) := by
        simpa [Abs.text, hL, Nat.add_assoc] using ht
      by_cases hR : e.pos < a.text.length
      · rw [if_pos hR]
        have h1 := shows_bs (k := 1) ht'
        have h2 := shows_del h1
        simpa [Abs.text, feeds_cons, feeds_nil] using h2
      · rw [if_neg hR]
        have hnil : a.right = [] := by
          by_cases h : a.right = []
          · exact h
          · exact absurd (hlt.mpr h) hR
        rw [hnil] at ht'
        have h1 := shows_rubout ht'
        simpa [Abs.text, hnil] using h1

theorem left_ok (hr : Rel P e a) {a' : Abs}
    (ha' : a' = if a.left = [] then a else { a with left := a.left.dropLast, right := a.left.getLastD 0 :: a.right }) :
    ∃ o, Rel P (cursorLeft e) a' ∧ (cursorLeft e).out = e.out ++ o ∧ Displays p a a' o := by
  obtain ⟨j, hj⟩ := hr.buf
  rcases List.eq_nil_or_concat a.left with hL | ⟨L, c, hL⟩
  · rw [if_pos hL] at ha'
    subst a'
    have : cursorLeft e = e := by unfold cursorLeft; rw [if_neg (by rw [hr.pos, hL]; simp)]
    rw [this]
    exact ⟨[], hr, by simp, displays_refl⟩
  · rw [List.concat_eq_append] at hL
    rw [if_neg (by rw [hL]; simp)] at ha'
    have he : a' = { a with left := L, right := c :: a.right } := by
      rw [ha', hL, List.dropLast_concat]
      simp [List.getLastD_eq_getLast?]
    clear ha'
    subst a'
    have : cursorLeft e = { e with pos := L.length, out := e.out ++ [8] } := by
      unfold cursorLeft
      rw [if_pos (by rw [hr.pos, hL]; simp)]
      have : e.pos - 1 = L.length := by rw [hr.pos, hL]; simp
      rw [this]
    rw [this]
    refine ⟨[8], ?_, rfl, ?_⟩
    · refine ⟨⟨j, by rw [hj]; simp [Abs.text, hL]⟩, hr.len, ?_, rfl, hr.hist, hr.next, hr.kept, hr.on⟩
      have := hr.nul
      simpa [Abs.text, hL] using this
    · intro hp _ t ht
      have h1 := shows_bs (k := 1) (col := (promptText p).length + L.length) (s := promptText p ++ (L ++ c :: a.right))
        (by simpa [Abs.text, hL, Nat.add_assoc] using ht)
      exact h1

theorem right_ok (hr : Rel P e a) :
    ∃ e' o, cursorRight e = some e' ∧ Rel P e' { a with left := a.left ++ a.right.take 1, right := a.right.drop 1 } ∧ e'.out = e.out ++ o ∧
      Displays p a { a with left := a.left ++ a.right.take 1, right := a.right.drop 1 } o := by
  obtain ⟨j, hj⟩ := hr.buf
  have hlen : strwlen e.buf = some a.text.length := by rw [hj]; exact strwlen_eq _ hr.nul
  cases hR : a.right with
  | nil =>
    have he : { a with left := a.left ++ ([] : List Nat).take 1, right := ([] : List Nat).drop 1 } = a := by
      rw [List.take_nil, List.append_nil, List.drop_nil, ← hR]
    rw [he]
    refine ⟨e, [], ?_, hr, by simp, displays_refl⟩
    unfold cursorRight
    rw [hlen]
    simp only [Option.bind_eq_bind, Option.bind_some]
    rw [if_neg (by rw [hr.pos]; simp [Abs.text, hR])]
  | cons c R =>
    have hb : e.buf = a.left ++ c :: (R ++ 0 :: j) := by rw [hj]; simp [Abs.text, hR]
    have hc : e.buf[e.pos]? = some c := by rw [hb, hr.pos]; simp
    refine ⟨{ e with pos := e.pos + 1, out := e.out ++ [c] }, [c], ?_, ?_, rfl, ?_⟩
    · unfold cursorRight
      rw [hlen]
      simp only [Option.bind_eq_bind, Option.bind_some]
      rw [if_pos (by rw [hr.pos]; simp [Abs.text, hR]), hc]
      rfl
    · refine ⟨⟨j, by rw [hj]; simp [Abs.text, hR]⟩, hr.len, ?_, by simp [hr.pos], hr.hist, hr.next, hr.kept, hr.on⟩
      have := hr.nul
      simpa [Abs.text, hR] using this
    · intro hp _ t ht
      have h1 := shows_put (t := t) (A := promptText p ++ a.left) (B := c :: R) (c := c) (by simpa [Abs.text, hR] using ht)
        (hp.1 c (by simp [Abs.text, hR]))
      simpa [Abs.text, feeds_cons, feeds_nil, Nat.add_assoc] using h1

theorem home_ok (hr : Rel P e a) :
    ∃ o, Rel P (home e) { a with left := [], right := a.text } ∧ (home e).out = e.out ++ o ∧
      Displays p a { a with left := [], right := a.text } o := by
  obtain ⟨j, hj⟩ := hr.buf
  refine ⟨List.replicate e.pos 8, ?_, rfl, ?_⟩
  · exact ⟨⟨j, by simpa [home, Abs.text] using hj⟩, hr.len, by simpa [Abs.text] using hr.nul, rfl, hr.hist, hr.next, hr.kept, hr.on⟩
  · intro hp _ t ht
    rw [hr.pos]
    have h1 := shows_bs (k := a.left.length) ht
    simpa [Abs.text] using h1

theorem erase_ok (hr : Rel P e a) :
    ∃ e' o, eraseLine e = some e' ∧ Rel P e' { a with left := [], right := [] } ∧ e'.out = e.out ++ o ∧
      Displays p a { a with left := [], right := [] } o ∧ e'.next = e.next ∧ e'.prev = e.prev := by
  obtain ⟨j, hj⟩ := hr.buf
  have hdisp : ∀ t : Term, t.Shows (promptText p ++ a.text) ((promptText p).length + a.left.length) →
      (t.feeds (List.replicate e.pos 8)).Shows (promptText p ++ a.text) (promptText p).length := by
    intro t ht
    rw [hr.pos]
    exact shows_bs (k := a.left.length) ht
  cases ht : a.text with
  | nil =>
    have hb : e.buf = 0 :: j := by rw [hj, ht]; rfl
    refine ⟨{ e with pos := 0, out := e.out ++ List.replicate e.pos 8 }, List.replicate e.pos 8, ?_, ?_, rfl, ?_, rfl, rfl⟩
    · unfold eraseLine; rw [hb]; simp
    · exact ⟨⟨j, hb⟩, hr.len, by intro x hx; simp [Abs.text] at hx, rfl, hr.hist, hr.next, hr.kept, hr.on⟩
    · intro _ _ t hs
      have := hdisp t hs
      rw [ht] at this
      simpa [Abs.text] using this
  | cons c r =>
    have hb : e.buf = c :: (r ++ 0 :: j) := by rw [hj, ht]; rfl
    have hc : c ≠ 0 := hr.nul c (by rw [ht]; simp)
    refine ⟨{ e with pos := 0, buf := 0 :: (r ++ 0 :: j), out := e.out ++ List.replicate e.pos 8 ++ [27, 91, 75] },
      List.replicate e.pos 8 ++ [27, 91, 75], ?_, ?_, by simp, ?_, rfl, rfl⟩
    · unfold eraseLine; rw [hb]; simp [hc]
    · refine ⟨⟨_, rfl⟩, ?_, by intro x hx; simp [Abs.text] at hx, rfl, hr.hist, hr.next, hr.kept, hr.on⟩
      rw [← hr.len, hb]; simp
    · intro _ _ t hs
      have h1 := shows_kill (hdisp t hs)
      rw [feeds_append]
      simpa [Abs.text] using h1

theorem refresh_ok (hr : Rel P e a) :
    ∃ e' o, refresh (promptChars p) e = some e' ∧ Rel P e' a ∧ e'.out = e.out ++ o ∧ Displays p a a o := by
  obtain ⟨j, hj⟩ := hr.buf
  have hlen : strwlen e.buf = some a.text.length := by rw [hj]; exact strwlen_eq _ hr.nul
  have hw : wchars e.buf = some a.text := by rw [hj]; exact wchars_eq _ hr.nul
  have hk : a.text.length - e.pos = a.right.length := by rw [hr.pos]; simp [Abs.text]
  refine ⟨{ e with out := e.out ++ [13, 10] ++ promptChars p ++ a.text ++ List.replicate a.right.length 8 },
    [13, 10] ++ promptChars p ++ a.text ++ List.replicate a.right.length 8, ?_, ?_, by simp, ?_⟩
  · unfold refresh
    rw [hlen, hw]
    simp only [Option.bind_eq_bind, Option.bind_some, hk]
  · exact ⟨hr.buf, hr.len, hr.nul, hr.pos, hr.hist, hr.next, hr.kept, hr.on⟩
  · intro hp hpr t ht
    rw [feeds_append, feeds_append, feeds_append]
    have h1 := shows_newline ht.2.2
    have h2 := shows_prompt hpr (A := []) h1
    have h3 := shows_print hp.1 (by simpa using h2)
    have h4 := shows_bs (k := a.right.length) (col := (promptText p).length + a.left.length) (by
      simpa [Abs.text, Nat.add_assoc] using h3)
    simpa [Abs.text] using h4

/-- Replacing the whole line: display. -/
theorem displays_recall {s : List Nat} {a' : Abs} {o : List Nat} (hd : Displays p a { a with left := [], right := [] } o)
    (hs : AbsPrintable a → Printable s) (hl : a'.left = s) (hrr : a'.right = []) : Displays p a a' (o ++ s) := by
  intro hp hpr t ht
  have h1 := hd hp hpr t ht
  rw [feeds_append]
  have h2 := shows_print (t := t.feeds o) (A := promptText p) (w := s) (hs hp) (by simpa [Abs.text] using h1)
  simpa [Abs.text, hl, hrr] using h2

theorem clip_nul {s : List Nat} (h : NulFree s) : NulFree (clip s) := fun x hx => h x (List.mem_of_mem_take hx)

theorem copy_line (dst s junk : List Nat) (h : NulFree s) (hd : 128 ≤ dst.length) :
    ∃ mem n, strlcpy dst (s ++ 0 :: junk) 128 = some (mem, n) ∧ Holds mem (clip s) ∧ mem.length = dst.length := by
  refine ⟨_, _, C13_strlcpy dst s junk 128 h hd, ?_, ?_⟩
  · rw [if_neg (by decide)]
    exact ⟨_, by simp only [overwrite, clip, List.append_assoc]; rfl⟩
  · rw [if_neg (by decide)]
    simp only [overwrite, List.length_append, List.length_drop, List.length_take, List.length_cons, List.length_nil]
    omega

theorem prev_ok (hr : Rel P e a) {a' : Abs}
    (ha' : a' = if a.recalled then a else match a.hist with
      | none => a
      | some h => { a with kept := clip a.text, left := clip h, right := [], recalled := true }) :
    ∃ e' o, prevKey e = some e' ∧ Rel P e' a' ∧ e'.out = e.out ++ o ∧ Displays p a a' o := by
  rcases hr.hist with ⟨hp, hh⟩ | ⟨m, h, hp, hh, ⟨j, hm⟩, hn, hlm, hP⟩
  · have : a' = a := by rw [ha', hh]; simp
    clear ha'; subst a'
    exact ⟨e, [], by unfold prevKey; rw [hp], hr, by simp, displays_refl⟩
  · by_cases hrec : a.recalled = true
    · have : a' = a := by rw [ha', hrec]; simp
      clear ha'; subst a'
      refine ⟨e, [], ?_, hr, by simp, displays_refl⟩
      unfold prevKey; rw [hp]; simp [hr.on, hrec]
    · have ha'' : a' = { a with kept := clip a.text, left := clip h, right := [], recalled := true } := by
        rw [ha', if_neg hrec, hh]
      clear ha'
      obtain ⟨jb, hjb⟩ := hr.buf
      obtain ⟨nx, n, hc1, hc2, hc3⟩ := copy_line e.next a.text jb hr.nul (by rw [hr.next]; exact Nat.le_refl _)
      rw [← hjb] at hc1
      have hrec' : a.recalled = false := by simpa using hrec
      have hr1 : Rel P { e with next := nx } a :=
        ⟨hr.buf, hr.len, hr.nul, hr.pos, hr.hist, by rw [hc3]; exact hr.next, (by intro h; rw [hrec'] at h; cases h), hr.on⟩
      obtain ⟨e1, o, he1, hre, ho, hdisp, hnx, hpv⟩ := erase_ok (p := p) hr1
      simp only at hnx hpv ho
      obtain ⟨b, n2, hb1, ⟨jb2, hb2⟩, hb3⟩ := copy_line e1.buf h j hn (by rw [hre.len]; exact hP)
      rw [← hm] at hb1
      refine ⟨{ e1 with buf := b, pos := (clip h).length, onPrev := true, out := e1.out ++ clip h }, o ++ clip h, ?_, ?_, by simp [ho], ?_⟩
      · unfold prevKey
        simp only [hp, hr.on, hrec'] at he1
        rw [hp]
        simp only [hr.on, hrec', Bool.false_eq_true, if_false, hc1, Option.bind_eq_bind, Option.bind_some, he1, hb1]
        rw [hb2, wchars_eq _ (clip_nul hn), strwlen_eq _ (clip_nul hn)]
        rfl
      · subst a'
        refine ⟨⟨jb2, by simpa [Abs.text] using hb2⟩, by rw [← hre.len, ← hb3], ?_, rfl, ?_, hre.next, ?_, rfl⟩
        · simpa [Abs.text] using clip_nul hn
        · right; exact ⟨m, h, by simp [hpv, hp], hh, ⟨j, hm⟩, hn, hlm, hP⟩
        · intro _
          refine ⟨?_, clip_nul hr.nul, by simp [hh]⟩
          simp only
          rw [hnx]
          exact hc2
      · subst a'
        exact displays_recall hdisp (fun hp x hx => hp.2.1 h hh x (List.mem_of_mem_take hx)) rfl rfl

theorem next_ok (hr : Rel P e a) {a' : Abs}
    (ha' : a' = if a.recalled then { a with hist := a.hist.map fun _ => clip a.text, left := clip a.kept, right := [], recalled := false } else a) :
    ∃ e' o, nextKey e = some e' ∧ Rel P e' a' ∧ e'.out = e.out ++ o ∧ Displays p a a' o := by
  by_cases hrec : a.recalled = true
  · obtain ⟨⟨jk, hk⟩, hkn, hhn⟩ := hr.kept hrec
    rcases hr.hist with ⟨hp, hh⟩ | ⟨m, h, hp, hh, ⟨j, hm⟩, hn, hlm, hP⟩
    · exact absurd hh hhn
    · rw [if_pos hrec, hh] at ha'
      obtain ⟨jb, hjb⟩ := hr.buf
      obtain ⟨pv, n, hc1, hc2, hc3⟩ := copy_line m a.text jb hr.nul hlm
      rw [← hjb] at hc1
      have hr1 : Rel P { e with prev := some pv } { a with hist := some (clip a.text) } :=
        ⟨hr.buf, hr.len, hr.nul, hr.pos, Or.inr ⟨pv, _, rfl, rfl, hc2, clip_nul hr.nul, by omega, hP⟩, hr.next,
          fun h => ⟨(hr.kept h).1, (hr.kept h).2.1, by simp⟩, hr.on⟩
      obtain ⟨e1, o, he1, hre, ho, hdisp, hnx, hpv⟩ := erase_ok (p := p) hr1
      simp only at hnx hpv ho
      obtain ⟨b, n2, hb1, ⟨jb2, hb2⟩, hb3⟩ := copy_line e1.buf a.kept jk hkn (by rw [hre.len]; exact hP)
      rw [← hk, ← hnx] at hb1
      refine ⟨{ e1 with buf := b, pos := (clip a.kept).length, onPrev := false, out := e1.out ++ clip a.kept }, o ++ clip a.kept, ?_, ?_, by simp [ho], ?_⟩
      · unfold nextKey
        simp only [hr.on, hrec] at he1
        rw [hp]
        simp only [hr.on, hrec, if_true, hc1, Option.bind_eq_bind, Option.bind_some, he1, hb1]
        rw [hb2, wchars_eq _ (clip_nul hkn), strwlen_eq _ (clip_nul hkn)]
        rfl
      · subst a'
        refine ⟨⟨jb2, by simpa [Abs.text] using hb2⟩, by rw [← hre.len, ← hb3], ?_, rfl, ?_, hre.next, ?_, rfl⟩
        · simpa [Abs.text] using clip_nul hkn
        · right; exact ⟨pv, clip a.text, by simp [hpv], rfl, hc2, clip_nul hr.nul, by omega, hP⟩
        · intro h; cases h
      · subst a'
        have hd' : Displays p a { a with left := [], right := [] } o := by
          intro h1 h2 t h3
          refine hdisp ⟨h1.1, ?_, h1.2.2⟩ h2 t h3
          intro h' hh'
          cases hh'
          exact fun x hx => h1.1 x (List.mem_of_mem_take hx)
        exact displays_recall hd' (fun hp x hx => hp.2.2 hrec x (List.mem_of_mem_take hx)) rfl rfl
  · rw [if_neg hrec] at ha'
    subst a'
    refine ⟨e, [], ?_, hr, by simp, displays_refl⟩
    unfold nextKey
    have : e.onPrev = false := by rw [hr.on]; simpa using hrec
    cases e.prev <;> simp [this]

end Fpm.Editline
