import Verif.Editline.Lemmas
/-! # Lemmas: sequences of keys -/
namespace Fpm.Editline
open Fpm.Editline.Spec Fpm.Spec

/-- The labels of the switch are the documented bindings. -/
theorem select_binding (key : Nat) : select key = match binding key with
    | none => .dflt
    | some .newline => .ret
    | some .backspace => .backspace
    | some .delete => .delete
    | some .left => .left
    | some .right => .right
    | some .home => .home
    | some .end => .end
    | some .erase => .erase
    | some .refresh => .refresh
    | some .older => .prev
    | some .newer => .next := by
  by_cases h : key ∈ bindings.map (·.1)
  · simp only [bindings, List.map_cons, List.map_nil, List.mem_cons, List.not_mem_nil, or_false] at h
    rcases h with rfl | rfl | rfl | rfl | rfl | rfl | rfl | rfl | rfl | rfl | rfl | rfl | rfl | rfl | rfl | rfl | rfl | rfl | rfl <;> rfl
  · have hb : binding key = none := by
      unfold binding
      rw [Option.map_eq_none_iff, List.find?_eq_none]
      intro x hx hxk
      exact h (List.mem_map.mpr ⟨x, hx, by simpa using hxk⟩)
    simp only [bindings, List.map_cons, List.map_nil, List.mem_cons, List.not_mem_nil, or_false, not_or] at h
    rw [hb]
    obtain ⟨h1, h2, h3, h4, h5, h6, h7, h8, h9, h10, h11, h12, h13, h14, h15, h16, h17, h18, h19⟩ := h
    unfold select
    rw [if_neg h1, if_neg (by simp [h2, h3]), if_neg (by simp [h4, h5]), if_neg (by simp [h6, h7]), if_neg (by simp [h8, h9]),
      if_neg (by simp [h10, h11]), if_neg (by simp [h12, h13]), if_neg h14, if_neg h15, if_neg (by simp [h16, h17]), if_neg (by simp [h18, h19])]

theorem binding_newline (key : Nat) : binding key = some .newline ↔ key = 13 := by
  constructor
  · intro h
    unfold binding at h
    rw [Option.map_eq_some_iff] at h
    obtain ⟨x, hx, ha⟩ := h
    have hk := List.find?_some hx
    have hm := List.mem_of_find?_eq_some hx
    simp only [decide_eq_true_eq] at hk
    rw [← hk]
    have : ∀ y ∈ bindings, y.2 = .newline → y.1 = 13 := by decide
    exact this x hm ha
  · rintro rfl; rfl

variable {P bl cap : Nat} {p : List (Nat ⊕ List Nat)} {e : Ed} {a : Abs}

theorem step_ok (hr : Rel P e a) (hbl : 1 ≤ bl) (hbl' : bl ≤ 2 ^ 32) (hcap : cap = bl - 1) (key : Nat)
    (hfit : (a.step cap key).text.length < P) :
    ∃ e' o, step bl (promptChars p) key e = some (e', decide (key = 13)) ∧ Rel P e' (a.step cap key) ∧ e'.out = e.out ++ o ∧
      Displays p a (a.step cap key) o := by
  have hnl := binding_newline key
  unfold step
  rw [select_binding]
  cases hb : binding key with
  | none =>
    have h13 : key ≠ 13 := by rintro rfl; cases hb
    obtain ⟨e', o, h1, h2, h3, h4⟩ := insert_ok (p := p) hr hbl hbl' hcap (key := key) (a' := a.step cap key) (by simp only [Abs.step, hb]) hfit
    exact ⟨e', o, by simp [h1, h13], h2, h3, h4⟩
  | some act =>
    cases act with
    | newline =>
      have h13 : key = 13 := hnl.mp hb
      obtain ⟨e', o, h1, h2, h3, h4⟩ := finish_ok (p := p) hr
      have : a.step cap key = { a with left := a.text, right := [] } := by simp only [Abs.step, hb]
      rw [this]
      exact ⟨e', o, by simp [h1, h13], h2, h3, h4⟩
    | backspace =>
      have h13 : key ≠ 13 := by rintro rfl; cases hb
      obtain ⟨e', o, h1, h2, h3, h4⟩ := backspace_ok (p := p) hr
      have : a.step cap key = { a with left := a.left.dropLast } := by simp only [Abs.step, hb]
      rw [this]
      exact ⟨e', o, by simp [h1, h13], h2, h3, h4⟩
    | delete =>
      have h13 : key ≠ 13 := by rintro rfl; cases hb
      obtain ⟨e', o, h1, h2, h3, h4⟩ := delete_ok (p := p) hr
      have : a.step cap key = { a with right := a.right.drop 1 } := by simp only [Abs.step, hb]
      rw [this]
      exact ⟨e', o, by simp [h1, h13], h2, h3, h4⟩
    | left =>
      have h13 : key ≠ 13 := by rintro rfl; cases hb
      obtain ⟨o, h2, h3, h4⟩ := left_ok (p := p) hr (a' := a.step cap key) (by simp only [Abs.step, hb])
      exact ⟨_, o, by simp [h13], h2, h3, h4⟩
    | right =>
      have h13 : key ≠ 13 := by rintro rfl; cases hb
      obtain ⟨e', o, h1, h2, h3, h4⟩ := right_ok (p := p) hr
      have : a.step cap key = { a with left := a.left ++ a.right.take 1, right := a.right.drop 1 } := by simp only [Abs.step, hb]
      rw [this]
      exact ⟨e', o, by simp [h1, h13], h2, h3, h4⟩
    | home =>
      have h13 : key ≠ 13 := by rintro rfl; cases hb
      obtain ⟨o, h2, h3, h4⟩ := home_ok (p := p) hr
      have : a.step cap key = { a with left := [], right := a.text } := by simp only [Abs.step, hb]
      rw [this]
      exact ⟨_, o, by simp [h13], h2, h3, h4⟩
    | «end» =>
      have h13 : key ≠ 13 := by rintro rfl; cases hb
      obtain ⟨e', o, h1, h2, h3, h4⟩ := end_ok (p := p) hr
      have : a.step cap key = { a with left := a.text, right := [] } := by simp only [Abs.step, hb]
      rw [this]
      exact ⟨e', o, by simp [h1, h13], h2, h3, h4⟩
    | erase =>
      have h13 : key ≠ 13 := by rintro rfl; cases hb
      obtain ⟨e', o, h1, h2, h3, h4, _⟩ := erase_ok (p := p) hr
      have : a.step cap key = { a with left := [], right := [] } := by simp only [Abs.step, hb]
      rw [this]
      exact ⟨e', o, by simp [h1, h13], h2, h3, h4⟩
    | refresh =>
      have h13 : key ≠ 13 := by rintro rfl; cases hb
      obtain ⟨e', o, h1, h2, h3, h4⟩ := refresh_ok (p := p) hr
      have : a.step cap key = a := by simp only [Abs.step, hb]
      rw [this]
      exact ⟨e', o, by simp [h1, h13], h2, h3, h4⟩
    | older =>
      have h13 : key ≠ 13 := by rintro rfl; cases hb
      obtain ⟨e', o, h1, h2, h3, h4⟩ := prev_ok (p := p) hr (a' := a.step cap key) (by simp only [Abs.step, hb]; rfl)
      exact ⟨e', o, by simp [h1, h13], h2, h3, h4⟩
    | newer =>
      have h13 : key ≠ 13 := by rintro rfl; cases hb
      obtain ⟨e', o, h1, h2, h3, h4⟩ := next_ok (p := p) hr (a' := a.step cap key) (by simp only [Abs.step, hb])
      exact ⟨e', o, by simp [h1, h13], h2, h3, h4⟩

theorem printable_sub {s u : List Nat} (h : Printable u) (hs : ∀ x ∈ s, x ∈ u) : Printable s := fun x hx => h x (hs x hx)

theorem printable_step (h : AbsPrintable a) (key : Nat) : AbsPrintable (a.step cap key) := by
  obtain ⟨h1, h2, h3⟩ := h
  unfold Abs.step
  cases hb : binding key with
  | none =>
    simp only
    split
    · rename_i hk
      refine ⟨?_, h2, h3⟩
      intro x hx
      simp only [Abs.text, List.mem_append, List.mem_singleton] at hx
      rcases hx with (hx | hx) | hx
      · exact h1 x (by simp [Abs.text, hx])
      · omega
      · exact h1 x (by simp [Abs.text, hx])
    · exact ⟨h1, h2, h3⟩
  | some act =>
    cases act with
    | newline => exact ⟨by simpa [Abs.text] using h1, h2, h3⟩
    | backspace =>
      refine ⟨printable_sub h1 ?_, h2, h3⟩
      intro x hx
      simp only [Abs.text, List.mem_append] at hx ⊢
      exact hx.imp_left (fun h => List.dropLast_subset _ h)
    | delete =>
      refine ⟨printable_sub h1 ?_, h2, h3⟩
      intro x hx
      simp only [Abs.text, List.mem_append] at hx ⊢
      exact hx.imp_right (fun h => List.mem_of_mem_drop h)
    | left =>
      simp only
      split
      · exact ⟨h1, h2, h3⟩
      · rename_i hL
        refine ⟨printable_sub h1 ?_, h2, h3⟩
        intro x hx
        simp only [Abs.text, List.mem_append, List.mem_cons] at hx ⊢
        rcases hx with hx | hx | hx
        · exact Or.inl (List.dropLast_subset _ hx)
        · left
          rw [hx, List.getLastD_eq_getLast?, List.getLast?_eq_some_getLast hL]
          exact List.getLast_mem hL
        · exact Or.inr hx
    | right =>
      refine ⟨printable_sub h1 ?_, h2, h3⟩
      intro x hx
      simp only [Abs.text, List.mem_append] at hx ⊢
      rcases hx with (hx | hx) | hx
      · exact Or.inl hx
      · exact Or.inr (List.mem_of_mem_take hx)
      · exact Or.inr (List.mem_of_mem_drop hx)
    | home => exact ⟨by simpa [Abs.text] using h1, h2, h3⟩
    | «end» => exact ⟨by simpa [Abs.text] using h1, h2, h3⟩
    | erase => exact ⟨by intro x hx; simp [Abs.text] at hx, h2, h3⟩
    | refresh => exact ⟨h1, h2, h3⟩
    | older =>
      simp only
      split
      · exact ⟨h1, h2, h3⟩
      · cases hh : a.hist with
        | none => simp only; exact ⟨h1, h2, h3⟩
        | some h =>
          simp only
          refine ⟨?_, ?_, ?_⟩
          · intro x hx
            simp only [Abs.text, List.append_nil] at hx
            exact h2 h hh x (List.mem_of_mem_take hx)
          · intro h' hh'; exact h2 h' (hh.trans hh')
          · intro _; exact printable_sub h1 (fun x hx => List.mem_of_mem_take hx)
    | newer =>
      simp only
      split
      · rename_i hrec
        refine ⟨?_, ?_, ?_⟩
        · intro x hx
          simp only [Abs.text, List.append_nil] at hx
          exact h3 hrec x (List.mem_of_mem_take hx)
        · intro h' hh'
          simp only [Option.map_eq_some_iff] at hh'
          obtain ⟨_, _, rfl⟩ := hh'
          exact printable_sub h1 (fun x hx => List.mem_of_mem_take hx)
        · intro h; cases h
      · exact ⟨h1, h2, h3⟩

/-- The line never exceeds its capacity (127 characters for recalled lines). -/
theorem length_step (m : Nat) (hm : cap ≤ m) (hh : 127 ≤ m ∨ (a.hist = none ∧ a.recalled = false)) (h : a.text.length ≤ m) (key : Nat) :
    (a.step cap key).text.length ≤ m ∧
      (a.hist = none ∧ a.recalled = false → (a.step cap key).hist = none ∧ (a.step cap key).recalled = false) := by
  have hclip : ∀ s : List Nat, (clip s).length ≤ 127 := fun s => by simp [clip]; omega
  have ht : a.text.length = a.left.length + a.right.length := by simp [Abs.text]
  unfold Abs.step
  cases hb : binding key with
  | none =>
    simp only
    split
    · refine ⟨?_, id⟩
      simp [Abs.text] at *; omega
    · exact ⟨h, id⟩
  | some act =>
    cases act with
    | newline => exact ⟨by simpa [Abs.text] using h, id⟩
    | backspace => exact ⟨by simp [Abs.text]; omega, id⟩
    | delete => exact ⟨by simp [Abs.text]; omega, id⟩
    | left =>
      simp only
      split
      · exact ⟨h, id⟩
      · rename_i hL
        have := List.length_pos_iff.mpr hL
        exact ⟨by simp [Abs.text]; omega, id⟩
    | right => exact ⟨by simp [Abs.text]; omega, id⟩
    | home => exact ⟨by simpa [Abs.text] using h, id⟩
    | «end» => exact ⟨by simpa [Abs.text] using h, id⟩
    | erase => exact ⟨by simp [Abs.text], id⟩
    | refresh => exact ⟨h, id⟩
    | older =>
      simp only
      split
      · exact ⟨h, id⟩
      · cases hk : a.hist with
        | none => simp only; exact ⟨h, fun x => ⟨hk, x.2⟩⟩
        | some hs =>
          simp only
          refine ⟨?_, fun x => by cases x.1⟩
          have := hclip hs
          rcases hh with hh | hh
          · simp only [Abs.text, List.append_nil]; omega
          · rw [hk] at hh; cases hh.1
    | newer =>
      simp only
      split
      · rename_i hrec
        refine ⟨?_, fun x => by rw [hrec] at x; cases x.2⟩
        have := hclip a.kept
        rcases hh with hh | hh
        · simp only [Abs.text, List.append_nil]; omega
        · rw [hrec] at hh; cases hh.2
      · exact ⟨h, id⟩

/-- Runs of keys, provided every text on the way fits the buffer. -/
theorem run_ok (keys : List Nat) (hbl : 1 ≤ bl) (hbl' : bl ≤ 2 ^ 32) (hcap : cap = bl - 1) :
    ∀ (e : Ed) (a : Abs), Rel P e a → (∀ n, (Abs.run cap (keys.take n) a).1.text.length < P) →
    ∃ e' o, run bl (promptChars p) keys e = some (e', (Abs.run cap keys a).2) ∧ Rel P e' (Abs.run cap keys a).1 ∧
      e'.out = e.out ++ o ∧ Displays p a (Abs.run cap keys a).1 o ∧ (AbsPrintable a → AbsPrintable (Abs.run cap keys a).1) := by
  induction keys with
  | nil => intro e a hr _; exact ⟨e, [], rfl, hr, by simp, displays_refl, id⟩
  | cons k ks ih =>
    intro e a hr hfit
    have hf1 : (a.step cap k).text.length < P := by
      have := hfit 1
      simp only [List.take_succ_cons, List.take_zero, Abs.run] at this
      split at this <;> exact this
    obtain ⟨e1, o1, h1, h2, h3, h4⟩ := step_ok (p := p) hr hbl hbl' hcap k hf1
    by_cases hk : k = 13
    · refine ⟨e1, o1, ?_, ?_, h3, ?_, ?_⟩
      · rw [run, h1]; simp [hk, Abs.run]
      · simpa [Abs.run, hk] using h2
      · simpa [Abs.run, hk] using h4
      · intro h; simpa [Abs.run, hk] using printable_step (cap := cap) h k
    · have hrun : ∀ l, Abs.run cap (k :: l) a = Abs.run cap l (a.step cap k) := by intro l; rw [Abs.run, if_neg hk]
      obtain ⟨e2, o2, g1, g2, g3, g4, g5⟩ := ih e1 (a.step cap k) h2 (by
        intro n
        have := hfit (n + 1)
        rw [List.take_succ_cons, hrun] at this
        exact this)
      refine ⟨e2, o1 ++ o2, ?_, ?_, ?_, ?_, ?_⟩
      · rw [run, h1]; simp [hk, g1, hrun]
      · rw [hrun]; exact g2
      · rw [g3, h3]; simp
      · intro ha hp t ht
        rw [feeds_append, hrun]
        exact g4 (printable_step ha k) hp _ (h4 ha hp t ht)
      · intro ha; rw [hrun]; exact g5 (printable_step ha k)

theorem length_run (keys : List Nat) (m : Nat) (hm : cap ≤ m) : ∀ (a : Abs), (127 ≤ m ∨ (a.hist = none ∧ a.recalled = false)) → a.text.length ≤ m →
    (Abs.run cap keys a).1.text.length ≤ m := by
  induction keys with
  | nil => intro a _ h; exact h
  | cons k ks ih =>
    intro a hh h
    obtain ⟨h1, h2⟩ := length_step m hm hh h k
    rw [Abs.run]
    split
    · exact h1
    · exact ih _ (hh.imp_right h2) h1

end Fpm.Editline
