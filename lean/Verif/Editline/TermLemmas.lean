import Verif.Editline.Spec
/-! # Lemmas about the ideal terminal -/
namespace Fpm.Editline
open Fpm.Editline.Spec Fpm.Spec

variable {t : Term} {A B s w : List Nat} {c col k : Nat}

theorem feeds_nil : t.feeds [] = t := rfl
theorem feeds_cons (c : Nat) (cs : List Nat) : t.feeds (c :: cs) = (t.feed c).feeds cs := rfl
theorem feeds_append (a b : List Nat) : t.feeds (a ++ b) = (t.feeds a).feeds b := by simp [Term.feeds]

theorem shows_put (h : t.Shows (A ++ B) A.length) (hc : 32 ≤ c) : (t.feed c).Shows (A ++ c :: B.drop 1) (A.length + 1) := by
  obtain ⟨h1, h2, h3⟩ := h
  unfold Term.feed
  simp only [h3, if_neg (show ¬ c = 27 by omega), if_neg (show ¬ c = 8 by omega), if_neg (show ¬ c = 13 by omega),
    if_neg (show ¬ c = 10 by omega), if_pos (show c ≥ 32 from hc)]
  refine ⟨?_, by simp [h2], rfl⟩
  intro i
  simp only [h1, h2]
  rcases Nat.lt_trichotomy i A.length with hi | hi | hi
  · rw [if_neg (by omega), List.getElem?_append_left hi, List.getElem?_append_left hi]
  · subst hi; simp
  · obtain ⟨j, rfl⟩ : ∃ j, i = A.length + (j + 1) := ⟨i - A.length - 1, by omega⟩
    rw [if_neg (by omega), List.getElem?_append_right (by omega), List.getElem?_append_right (by omega)]
    simp

theorem shows_print (hw : Printable w) (h : t.Shows A A.length) : (t.feeds w).Shows (A ++ w) (A.length + w.length) := by
  induction w generalizing A t with
  | nil => simpa [feeds_nil] using h
  | cons c w ih =>
    have := shows_put (t := t) (A := A) (B := []) (c := c) (by simpa using h) (hw c (by simp))
    have := ih (A := A ++ [c]) (t := t.feed c) (fun x hx => hw x (by simp [hx])) (by simpa using this)
    rw [feeds_cons]
    simpa [Nat.add_comm, Nat.add_left_comm] using this

theorem shows_over (hw : Printable w) (h : t.Shows (A ++ w) A.length) : (t.feeds w).Shows (A ++ w) (A.length + w.length) := by
  induction w generalizing A t with
  | nil => simpa [feeds_nil] using h
  | cons c w ih =>
    have := shows_put (t := t) (A := A) (B := c :: w) (c := c) h (hw c (by simp))
    have := ih (A := A ++ [c]) (t := t.feed c) (fun x hx => hw x (by simp [hx])) (by simpa using this)
    rw [feeds_cons]
    simpa [Nat.add_comm, Nat.add_left_comm] using this

theorem shows_bs (h : t.Shows s (col + k)) : (t.feeds (List.replicate k 8)).Shows s col := by
  induction k generalizing t with
  | zero => simpa [feeds_nil] using h
  | succ k ih =>
    rw [List.replicate_succ, feeds_cons]
    apply ih
    obtain ⟨h1, h2, h3⟩ := h
    have e : t.feed 8 = { t with col := t.col - 1 } := by simp [Term.feed, h3]
    rw [e]
    exact ⟨h1, by simp only [h2]; omega, h3⟩

theorem shows_ins (h : t.Shows (A ++ B) A.length) : (t.feeds [27, 91, 64]).Shows (A ++ 32 :: B) A.length := by
  obtain ⟨h1, h2, h3⟩ := h
  simp only [feeds_cons, feeds_nil, Term.feed, h3]
  refine ⟨?_, by simpa using h2, by simp⟩
  intro i
  simp only [if_true, h1, h2]
  rcases Nat.lt_trichotomy i A.length with hi | hi | hi
  · rw [if_pos hi, List.getElem?_append_left hi, List.getElem?_append_left hi]
  · subst hi; simp
  · obtain ⟨j, rfl⟩ : ∃ j, i = A.length + (j + 1) := ⟨i - A.length - 1, by omega⟩
    rw [if_neg (by omega), if_neg (by omega), List.getElem?_append_right (by omega), List.getElem?_append_right (by omega)]
    simp only [Nat.add_sub_cancel_left, List.getElem?_cons_succ]
    rw [show A.length + (j + 1) - 1 - A.length = j by omega]

theorem shows_del (h : t.Shows (A ++ c :: B) A.length) : (t.feeds [27, 91, 80]).Shows (A ++ B) A.length := by
  obtain ⟨h1, h2, h3⟩ := h
  have e : t.feeds [27, 91, 80] = { t with line := fun i => if i < t.col then t.line i else t.line (i + 1) } := by
    simp [feeds_cons, feeds_nil, Term.feed, h3]
  rw [e]
  refine ⟨?_, h2, h3⟩
  intro i
  simp only [h1, h2]
  by_cases hi : i < A.length
  · rw [if_pos hi, List.getElem?_append_left hi, List.getElem?_append_left hi]
  · obtain ⟨j, rfl⟩ : ∃ j, i = A.length + j := ⟨i - A.length, by omega⟩
    rw [if_neg hi, List.getElem?_append_right (by omega), List.getElem?_append_right (by omega),
      show A.length + j + 1 - A.length = j + 1 by omega]
    simp

theorem shows_kill (h : t.Shows (A ++ B) A.length) : (t.feeds [27, 91, 75]).Shows A A.length := by
  obtain ⟨h1, h2, h3⟩ := h
  have e : t.feeds [27, 91, 75] = { t with line := fun i => if i < t.col then t.line i else 32 } := by
    simp [feeds_cons, feeds_nil, Term.feed, h3]
  rw [e]
  refine ⟨?_, h2, h3⟩
  intro i
  simp only [h1, h2]
  by_cases hi : i < A.length
  · rw [if_pos hi, List.getElem?_append_left hi]
  · rw [if_neg hi, List.getElem?_eq_none (Nat.le_of_not_lt hi)]; rfl

theorem shows_blank (h : t.Shows (A ++ [32]) col) : t.Shows A col := by
  obtain ⟨h1, h2, h3⟩ := h
  refine ⟨?_, h2, h3⟩
  intro i
  rw [h1]
  rcases Nat.lt_trichotomy i A.length with hi | hi | hi
  · rw [List.getElem?_append_left hi]
  · subst hi; simp
  · rw [List.getElem?_append_right (by omega), List.getElem?_eq_none (by simp; omega), List.getElem?_eq_none (by omega)]

theorem shows_rubout (h : t.Shows (A ++ [c]) (A.length + 1)) : (t.feeds [8, 32, 8]).Shows A A.length := by
  have h1 := shows_bs (k := 1) h
  have h2 := shows_put (c := 32) (B := [c]) h1 (by omega)
  simp only [List.replicate, feeds_cons, feeds_nil, List.drop_succ_cons, List.drop_zero] at h2
  have h3 := shows_bs (k := 1) (shows_blank h2)
  simpa only [List.replicate, feeds_cons, feeds_nil] using h3

theorem shows_newline (h : t.st = .ground) : (t.feeds [13, 10]).Shows [] 0 := by
  simp only [feeds_cons, feeds_nil, Term.feed, h]
  exact ⟨by simp, by simp, by simp⟩

theorem feeds_params {ps : List Nat} (h : ∀ q ∈ ps, q < 64) (hs : t.st = .csi) : t.feeds ps = t := by
  induction ps with
  | nil => rfl
  | cons q ps ih =>
    have hq := h q (by simp)
    have : t.feed q = t := by
      unfold Term.feed
      simp only [hs]
      rw [if_neg (by omega), if_neg (by omega), if_neg (by omega), if_neg (by omega)]
    rw [feeds_cons, this, ih (fun x hx => h x (by simp [hx]))]

theorem shows_prompt {p : List (Nat ⊕ List Nat)} (hp : PromptOk p) (h : t.Shows A A.length) :
    (t.feeds (promptChars p)).Shows (A ++ promptText p) (A ++ promptText p).length := by
  induction p generalizing A t with
  | nil => simpa [promptChars, promptText, feeds_nil] using h
  | cons x p ih =>
    have hp' : PromptOk p := fun y hy => hp y (by simp [hy])
    have hx := hp x (by simp)
    cases x with
    | inl c =>
      simp only at hx
      have h1 := shows_put (t := t) (A := A) (B := []) (c := c) (by simpa using h) hx
      have := ih hp' (A := A ++ [c]) (t := t.feed c) (by simpa using h1)
      simpa [promptChars, promptText, feeds_cons] using this
    | inr ps =>
      simp only at hx
      have h1 : (t.feeds (27 :: 91 :: (ps ++ [109]))).Shows A A.length := by
        obtain ⟨a, b, cc⟩ := h
        have e : (t.feed 27).feed 91 = { t with st := .csi } := by simp [Term.feed, cc]
        rw [feeds_cons, feeds_cons, feeds_append, e, feeds_params hx rfl]
        exact ⟨a, b, rfl⟩
      have := ih hp' h1
      simpa only [promptChars, promptText, List.flatMap_cons, feeds_append, List.nil_append] using this

theorem fresh_shows : Term.fresh.Shows [] 0 := ⟨by simp [Term.fresh], rfl, rfl⟩

end Fpm.Editline
