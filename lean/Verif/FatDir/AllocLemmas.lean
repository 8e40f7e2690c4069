import Verif.FatDir.FindLemmas
/-!
# Free entries and writes
-/
namespace Fpm.FatDir
open Fpm.FatDir.Spec Fpm.Lfn Fpm.Lfn.Spec

theorem blank_zero : byte blank 0 = 0 := rfl

theorem free_iff (e : List Nat) : isFree e = true ↔ byte e 0 = 0xE5 ∨ byte e 0 = 0 := by unfold isFree; simp

/-! ## The end of tables -/

theorem ended_append {x y : List (List Nat)} (h : Ended (x ++ y)) : Ended y := fun a e b he => h (x ++ a) e b (by rw [he]; simp)

theorem ended_zero {e : List Nat} {t : List (List Nat)} (h : Ended (e :: t)) (h0 : byte e 0 = 0) : ∀ z ∈ t, byte z 0 = 0 := h [] e t rfl h0

theorem ended_tail {e : List Nat} {t : List (List Nat)} (h : Ended (e :: t)) : Ended t := ended_append (x := [e]) h

/-- In front of a table entries in use may be put. -/
theorem ended_used {x y : List (List Nat)} (hx : ∀ e ∈ x, byte e 0 ≠ 0) (hy : Ended y) : Ended (x ++ y) := by
  induction x with
  | nil => exact hy
  | cons x0 x ih =>
    intro a e b he h0
    cases a with
    | nil =>
      cases he
      exact absurd h0 (hx x0 (by simp))
    | cons a0 a =>
      rw [List.cons_append, List.cons_append] at he
      obtain ⟨rfl, he'⟩ := List.cons.inj he
      exact ih (fun e he => hx e (by simp [he])) a e b he' h0

theorem ended_blank {t : List (List Nat)} (h : Ended t) (m : Nat) : Ended (t ++ List.replicate m blank) := by
  intro a e b he h0 z hz
  rcases List.append_eq_append_iff.mp he with ⟨x', h1, h2⟩ | ⟨x', h1, h2⟩
  · have : z ∈ List.replicate m blank := by rw [h2]; simp [hz]
    rw [(List.mem_replicate.mp this).2]
    rfl
  · cases x' with
    | nil =>
      have : z ∈ List.replicate m blank := by rw [List.nil_append] at h2; rw [← h2]; simp [hz]
      rw [(List.mem_replicate.mp this).2]
      rfl
    | cons x0 x' =>
      rw [List.cons_append] at h2
      obtain ⟨rfl, rfl⟩ := List.cons.inj h2
      rcases List.mem_append.mp hz with hz | hz
      · exact h a e x' h1 h0 z hz
      · rw [(List.mem_replicate.mp hz).2]
        rfl

theorem rep_zero {c : Bool} {i : Nat} : ∀ {t : List (List Nat)}, (∀ x ∈ t, byte x 0 = 0) → Rep c i t []
  | [], _ => .nil (junk_nil _)
  | e :: t, h => .fin (j := []) (junk_nil _) (h e (by simp))

theorem junk_used {c : Bool} {j : List (List Nat)} (h : Junk c j) {e : List Nat} (he : e ∈ j) : isFree e = false := by
  have := (h.1 e he).used
  have : ¬ isFree e = true := by rw [free_iff]; omega
  simpa using this

/-- A table that starts with a free entry. -/
theorem free_cases {c : Bool} {i : Nat} {e : List Nat} {t : List (List Nat)} {os : List Obj} (h : Rep c i (e :: t) os) (hf : isFree e = true) :
    (byte e 0 = 0 ∧ os = []) ∨ (byte e 0 = 0xE5 ∧ Rep c (i + 1) t os) := by
  have nojunk : ∀ {j t' : List (List Nat)}, Junk c j → j ++ t' = e :: t → j = [] := by
    intro j t' hj he
    cases j with
    | nil => rfl
    | cons j0 j =>
      rw [List.cons_append] at he
      obtain ⟨rfl, -⟩ := List.cons.inj he
      have := junk_used hj (e := j0) (by simp)
      rw [hf] at this
      cases this
  have key : ∀ u, Rep c i u os → u = e :: t → (byte e 0 = 0 ∧ os = []) ∨ (byte e 0 = 0xE5 ∧ Rep c (i + 1) t os) := by
    intro u hu he
    cases hu with
    | nil hj =>
      have := nojunk hj (t' := []) (by simpa using he)
      rw [this] at he
      cases he
    | fin hj h0 =>
      rw [nojunk hj he] at he
      cases he
      exact .inl ⟨h0, rfl⟩
    | skip hj hs hr =>
      have hjn := nojunk hj he
      rw [hjn] at he hr
      cases he
      rcases (free_iff e).mp hf with h | h
      · exact .inr ⟨h, hr⟩
      · rcases hs with hs | hs
        · omega
        · exact absurd h hs.1
    | @obj _ j es s long t' os' hj hl hs hr =>
      have hjn := nojunk hj he
      subst hjn
      rw [List.nil_append] at he
      exfalso
      cases long with
      | none =>
        obtain ⟨rfl, -⟩ := hl
        cases he
        rcases (free_iff e).mp hf with h | h
        · exact hs.used.2 h
        · exact hs.used.1 h
      | some n =>
        obtain ⟨hn, hst⟩ := hl
        have hpos : 0 < parts n := by have := List.length_pos_iff.mpr hn.ne; unfold parts; omega
        obtain ⟨k, hk⟩ : ∃ k, parts n = k + 1 := ⟨parts n - 1, by omega⟩
        rw [hk] at hst
        cases hst with
        | cons hp _ =>
          cases he
          have := part_entry hn (by omega) hp
          rcases (free_iff e).mp hf with h | h
          · exact this.used.2.1 h
          · exact this.used.1 h
  exact key _ h rfl

theorem drop_free {c : Bool} : ∀ (f : List (List Nat)) {i : Nat} {y : List (List Nat)} {os : List Obj}, (∀ e ∈ f, isFree e = true) → Ended (f ++ y) → Rep c i (f ++ y) os → Rep c (i + f.length) y os
  | [], _, _, _, _, _, h => h
  | e :: f, i, y, os, hf, hd, h => by
    rw [List.length_cons, show i + (f.length + 1) = i + 1 + f.length by omega]
    refine drop_free f (fun x hx => hf x (by simp [hx])) (ended_tail hd) ?_
    rcases free_cases h (hf e (by simp)) with ⟨h0, rfl⟩ | ⟨_, hr⟩
    · exact rep_zero (ended_zero hd h0)
    · exact hr

/-- Stretched tables. -/
theorem append_blank {c : Bool} {i : Nat} {t : List (List Nat)} {os : List Obj} (h : Rep c i t os) (m : Nat) : Rep c i (t ++ List.replicate m blank) os := by
  induction h with
  | nil hj =>
    cases m with
    | zero => rw [List.replicate_zero, List.append_nil]; exact .nil hj
    | succ m => exact .fin hj rfl
  | fin hj h0 =>
    rw [List.append_assoc, List.cons_append]
    exact .fin hj h0
  | skip hj he _ ih =>
    rw [List.append_assoc, List.cons_append]
    exact .skip hj he ih
  | obj hj hl hs _ ih =>
    rw [List.append_assoc, List.append_assoc, List.cons_append]
    exact .obj hj hl hs ih

theorem used_block {j es : List (List Nat)} {s : List Nat} {long : Option (List Nat)} (hl : Long j es s long) (hs : Sfn s) : ∀ e ∈ es ++ [s], isFree e = false := by
  intro e he
  have : ¬ isFree e = true := by
    rw [free_iff]
    rcases List.mem_append.mp he with he | he
    · cases long with
      | none => rw [hl.1] at he; cases he
      | some n =>
        have := (stored_lfn hl.1 hl.2 (Nat.le_refl _) e he).used
        omega
    · rw [List.mem_singleton.mp he]
      have := hs.used
      omega
  simpa using this

/-- Where free entries start after entries in use. -/
theorem past_used {z w x f y : List (List Nat)} (hz : ∀ e ∈ z, isFree e = false) (he : z ++ w = x ++ (f ++ y)) (hf : f ≠ []) (hff : ∀ e ∈ f, isFree e = true) :
    ∃ x', x = z ++ x' ∧ w = x' ++ (f ++ y) := by
  rcases List.append_eq_append_iff.mp he with ⟨x', h1, h2⟩ | ⟨v, h1, h2⟩
  · exact ⟨x', h1, h2⟩
  · cases v with
    | nil => exact ⟨[], by rw [List.append_nil] at h1 ⊢; exact h1.symm, by simpa using h2.symm⟩
    | cons v0 v =>
      exfalso
      cases f with
      | nil => exact hf rfl
      | cons f0 f =>
        rw [List.cons_append, List.cons_append] at h2
        obtain ⟨rfl, -⟩ := List.cons.inj h2
        have h1' := hz f0 (by rw [h1]; simp)
        rw [hff f0 (by simp)] at h1'
        cases h1'

theorem last_of {z x' : List (List Nat)} {P : List Nat → Prop} (h : ∀ e, (z ++ x').getLast? = some e → P e) : ∀ e, x'.getLast? = some e → P e := fun e he => h e (by
  rw [List.getLast?_append, he]
  rfl)

/-- Free entries, with none before them, split a table. -/
theorem split_free {c : Bool} {i : Nat} {t : List (List Nat)} {os : List Obj} (h : Rep c i t os) : ∀ (x f y : List (List Nat)), t = x ++ (f ++ y) → Ended t → f ≠ [] → (∀ e ∈ f, isFree e = true) →
    (∀ e, x.getLast? = some e → isFree e = false) →
    ∃ u j a b, x = u ++ j ∧ os = a ++ b ∧ Pre c i u a ∧ Junk c j ∧ Rep c (i + x.length) (f ++ y) b := by
  induction h with
  | @nil i j hj =>
    intro x f y he hd hf hff hx
    obtain ⟨x', rfl, h⟩ := past_used (w := []) (fun e he => junk_used hj he) (by simpa using he) hf hff
    simp at h
    exact absurd h.2.1 hf
  | @fin i j e t hj h0 =>
    intro x f y he hd hf hff hx
    obtain ⟨x', rfl, h⟩ := past_used (fun e he => junk_used hj he) he hf hff
    have hd' := ended_append hd
    rw [h] at hd'
    cases x' with
    | nil =>
      rw [List.append_nil]
      refine ⟨[], j, [], [], by simp, rfl, pre_nil _ _, hj, ?_⟩
      rw [List.nil_append] at h
      rw [← h]
      exact .fin (j := []) (junk_nil _) h0
    | cons x0 x' =>
      exfalso
      rw [List.cons_append] at h
      obtain ⟨rfl, rfl⟩ := List.cons.inj h
      have hl := List.getLast?_eq_some_getLast (l := e :: x') (by simp)
      have hm := List.getLast_mem (l := e :: x') (by simp)
      have h' := last_of hx _ hl
      rw [(free_iff _).mpr (.inr ?_)] at h'
      · cases h'
      · rcases List.mem_cons.mp hm with h | h
        · rw [h]; exact h0
        · exact ended_zero hd' h0 _ (List.mem_append_left _ h)
  | @skip i j e t os hj hs hr ih =>
    intro x f y he hd hf hff hx
    obtain ⟨x', rfl, h⟩ := past_used (fun e he => junk_used hj he) he hf hff
    cases x' with
    | nil =>
      rw [List.append_nil]
      refine ⟨[], j, [], os, by simp, rfl, pre_nil _ _, hj, ?_⟩
      rw [List.nil_append] at h
      rw [← h]
      exact .skip (j := []) (junk_nil _) hs (by simpa using hr)
    | cons x0 x' =>
      rw [List.cons_append] at h
      obtain ⟨rfl, rfl⟩ := List.cons.inj h
      obtain ⟨u, j', a, b, rfl, e2, h1, h2, h3⟩ := ih x' f y rfl (ended_tail (ended_append hd)) hf hff (last_of (z := j ++ [e]) (by simpa using hx))
      refine ⟨j ++ e :: u, j', a, b, by simp, e2, pre_skip hj hs h1, h2, ?_⟩
      rw [show i + (j ++ e :: (u ++ j')).length = i + j.length + 1 + (u ++ j').length by simp; omega]
      exact h3
  | @obj i j es s long t os hj hl hs hr ih =>
    intro x f y he hd hf hff hx
    have hub := used_block hl hs
    obtain ⟨x', rfl, h⟩ := past_used (z := j ++ (es ++ [s])) (w := t) (fun e he => by
      rcases List.mem_append.mp he with he | he
      · exact junk_used hj he
      · exact hub e he) (by simpa using he) hf hff
    subst h
    obtain ⟨u, j', a, b, rfl, e2, h1, h2, h3⟩ := ih x' f y rfl (ended_append (x := j ++ (es ++ [s])) (by simpa using hd)) hf hff (last_of hx)
    refine ⟨j ++ (es ++ s :: u), j', _ :: a, b, by simp, by rw [e2]; rfl, pre_obj hj hl hs h1, h2, ?_⟩
    rw [show i + (j ++ (es ++ [s]) ++ (u ++ j')).length = i + j.length + es.length + 1 + (u ++ j').length by simp; omega]
    exact h3

/-! ## dir_alloc -/

theorem alloc_run (grow : Nat → Nat) (n : Nat) (t0 : List (List Nat)) : ∀ (r m i k : Nat), k < n → k ≤ i → i ≤ t0.length + m →
    (∀ z, i - k ≤ z → z < i → isFree ((t0 ++ List.replicate m blank).getD z []) = true) → (i - k ≠ 0 → isFree ((t0 ++ List.replicate m blank).getD (i - k - 1) []) = false) →
    (∀ p, n ≤ p + 1 → p < i → ∃ z, p + 1 - n ≤ z ∧ z ≤ p ∧ isFree ((t0 ++ List.replicate m blank).getD z []) = false) →
    ∃ m' x, allocLoop grow n r (t0 ++ List.replicate m blank) i k = (t0 ++ List.replicate m' blank, x) ∧
      (∀ p, x = some p → p < t0.length + m' ∧ n ≤ p + 1 ∧ (∀ z, p + 1 - n ≤ z → z ≤ p → isFree ((t0 ++ List.replicate m' blank).getD z []) = true) ∧
        (p + 1 - n ≠ 0 → isFree ((t0 ++ List.replicate m' blank).getD (p + 1 - n - 1) []) = false)) ∧
      (x = none → (i < t0.length → t0.length - i + 2 * n + 1 ≤ r) → (t0.length ≤ i → 2 * (n - k) + (if i < t0.length + m then 0 else 1) ≤ r) → grow (t0.length + m') = 0 ∧
        ∀ p, n ≤ p + 1 → p < t0.length + m' → ∃ z, p + 1 - n ≤ z ∧ z ≤ p ∧ isFree ((t0 ++ List.replicate m' blank).getD z []) = false) ∧
      (m' ≠ m → ∀ p, n ≤ p + 1 → p < t0.length → ∃ z, p + 1 - n ≤ z ∧ z ≤ p ∧ isFree (t0.getD z []) = false)
  | 0, m, i, k, hk, _, _, _, _, _ => by
    refine ⟨m, none, rfl, (fun p h => by cases h), fun _ h1 h2 => ?_, fun h => (h rfl).elim⟩
    by_cases h : i < t0.length
    · have := h1 h; omega
    · have := h2 (by omega); omega
  | r + 1, m, i, k, hk, hki, hi, hfr, hnf, hrun => by
    rw [allocLoop]
    by_cases hlt : i < t0.length + m
    · have hl : i < (t0 ++ List.replicate m blank).length := by simpa using hlt
      rw [List.getElem?_eq_getElem hl]
      simp only
      have hge : (t0 ++ List.replicate m blank).getD i [] = (t0 ++ List.replicate m blank)[i] := by rw [List.getD_eq_getElem?_getD, List.getElem?_eq_getElem hl]; rfl
      by_cases hf : isFree (t0 ++ List.replicate m blank)[i] = true
      · rw [if_pos hf]
        by_cases hn : k + 1 = n
        · rw [if_pos hn]
          refine ⟨m, some i, rfl, fun p hp => ?_, (fun h => by cases h), fun h => (h rfl).elim⟩
          cases hp
          refine ⟨hlt, by omega, fun z h1 h2 => ?_, fun h => ?_⟩
          · by_cases hz : z = i
            · rw [hz, hge]; exact hf
            · exact hfr z (by omega) (by omega)
          · rw [show i + 1 - n = i - k by omega] at h ⊢
            exact hnf h
        · rw [if_neg hn]
          obtain ⟨m', x, e1, h1, h2, h3⟩ := alloc_run grow n t0 r m (i + 1) (k + 1) (by omega) (by omega) (by omega) (fun z h1 h2 => by
              by_cases hz : z = i
              · rw [hz, hge]; exact hf
              · exact hfr z (by omega) (by omega)) (fun h => by
              rw [show i + 1 - (k + 1) = i - k by omega] at h ⊢
              exact hnf h) (fun p h1 h2 => by
              by_cases hp : p = i
              · exact ⟨i - k - 1, by omega, by omega, hnf (by omega)⟩
              · exact hrun p h1 (by omega))
          refine ⟨m', x, e1, h1, fun hx ha hb => h2 hx (fun h => by have := ha (by omega); omega) (fun h => ?_), h3⟩
          by_cases h' : i < t0.length
          · have := ha h'
            split <;> omega
          · have := hb (by omega)
            rw [if_pos hlt] at this
            split <;> omega
      · rw [if_neg hf]
        have hi0 : i < t0.length := Classical.byContradiction fun h => by
          rw [List.getElem_append_right (by omega)] at hf
          simp at hf
          exact absurd hf (by decide)
        obtain ⟨m', x, e1, h1, h2, h3⟩ := alloc_run grow n t0 r m (i + 1) 0 (by omega) (by omega) (by omega) (fun z h1 h2 => by omega) (fun _ => by
          rw [show i + 1 - 0 - 1 = i by omega, hge]
          simpa using hf) (fun p h1 h2 => by
          by_cases hp : p = i
          · exact ⟨i, by omega, by omega, by rw [hge]; simpa using hf⟩
          · exact hrun p h1 (by omega))
        refine ⟨m', x, e1, h1, fun hx ha hb => h2 hx (fun h => by have := ha hi0; omega) (fun h => ?_), h3⟩
        have := ha hi0
        split <;> omega
    · have hie : i = t0.length + m := by omega
      rw [List.getElem?_eq_none (by simp; omega)]
      simp only
      by_cases hg : grow (t0 ++ List.replicate m blank).length = 0
      · rw [if_pos hg]
        exact ⟨m, none, rfl, (fun p h => by cases h), fun _ _ _ => ⟨by rw [List.length_append, List.length_replicate] at hg; exact hg, fun p h1 h2 => hrun p h1 (by omega)⟩, fun h => (h rfl).elim⟩
      · rw [if_neg hg]
        have hrw : t0 ++ List.replicate m blank ++ List.replicate (grow (t0 ++ List.replicate m blank).length) blank = t0 ++ List.replicate (m + grow (t0 ++ List.replicate m blank).length) blank := by
          rw [List.append_assoc, List.replicate_append_replicate]
        rw [hrw]
        generalize hgg : grow (t0 ++ List.replicate m blank).length = g at hg
        have hgd : ∀ z, z < t0.length + m → (t0 ++ List.replicate (m + g) blank).getD z [] = (t0 ++ List.replicate m blank).getD z [] := by
          intro z hz
          rw [← List.replicate_append_replicate, ← List.append_assoc, List.getD_eq_getElem?_getD, List.getElem?_append_left (by simpa using hz), ← List.getD_eq_getElem?_getD]
        obtain ⟨m', x, e1, h1, h2, h3⟩ := alloc_run grow n t0 r (m + g) i k hk hki (by omega) (fun z h1 h2 => by rw [hgd z (by omega)]; exact hfr z h1 h2) (fun h => by rw [hgd _ (by omega)]; exact hnf h) (fun p h1 h2 => by
          obtain ⟨z, a1, a2, a3⟩ := hrun p h1 h2
          exact ⟨z, a1, a2, by rw [hgd z (by omega)]; exact a3⟩)
        refine ⟨m', x, e1, h1, fun hx ha hb => h2 hx (fun h => by omega) (fun h => ?_), fun _ p h1 h2 => ?_⟩
        rotate_left
        · obtain ⟨z, a1, a2, a3⟩ := hrun p h1 (by omega)
          rw [List.getD_eq_getElem?_getD, List.getElem?_append_left (by omega), ← List.getD_eq_getElem?_getD] at a3
          exact ⟨z, a1, a2, a3⟩
        have := hb (by omega)
        rw [if_neg hlt] at this
        rw [if_pos (by omega)]
        omega

/-- The entries found: the table with them, what is before and behind. -/
theorem alloc_spec (grow : Nat → Nat) {n : Nat} (hn : 0 < n) (t : List (List Nat)) :
    ∃ m x, dirAlloc grow t n = (t ++ List.replicate m blank, x) ∧ (x = none → grow (t.length + m) = 0 ∧ ∀ u f y, t ++ List.replicate m blank = u ++ (f ++ y) → f.length = n → ∃ e ∈ f, isFree e = false) ∧
      (m ≠ 0 → ∀ u f y, t = u ++ (f ++ y) → f.length = n → ∃ e ∈ f, isFree e = false) ∧
      ∀ p, x = some p → ∃ u f y, t ++ List.replicate m blank = u ++ (f ++ y) ∧ f.length = n ∧ p + 1 = u.length + n ∧ (∀ e ∈ f, isFree e = true) ∧ ∀ e, u.getLast? = some e → isFree e = false := by
  have h := alloc_run grow n t (t.length + 2 * n + 1) 0 0 0 hn (by omega) (by omega) (fun z _ h => by omega) (fun h => by omega) (fun p _ h => by omega)
  rw [List.replicate_zero, List.append_nil] at h
  obtain ⟨m, x, e, h1, h2, h0⟩ := h
  refine ⟨m, x, e, fun hx => ?_, fun hm u f y hs hf => ?_, fun p hp => ?_⟩
  rotate_left
  · have hlen : t.length = u.length + (f.length + y.length) := by
      have := congrArg List.length hs
      simpa using this
    obtain ⟨z, a1, a2, a3⟩ := h0 hm (u.length + n - 1) (by omega) (by omega)
    rw [hs, List.getD_eq_getElem?_getD, List.getElem?_append_right (by omega), List.getElem?_append_left (by omega), List.getElem?_eq_getElem (by omega)] at a3
    exact ⟨_, List.getElem_mem _, a3⟩
  rotate_left
  · obtain ⟨h3, h4⟩ := h2 hx (fun _ => by omega) (fun _ => by split <;> omega)
    refine ⟨h3, fun u f y hs hf => ?_⟩
    have hlen : t.length + m = u.length + (f.length + y.length) := by
      have := congrArg List.length hs
      simpa using this
    obtain ⟨z, a1, a2, a3⟩ := h4 (u.length + n - 1) (by omega) (by omega)
    rw [hs, List.getD_eq_getElem?_getD, List.getElem?_append_right (by omega), List.getElem?_append_left (by omega), List.getElem?_eq_getElem (by omega)] at a3
    exact ⟨_, List.getElem_mem _, a3⟩
  obtain ⟨h3, h4, h5, h6⟩ := h1 p hp
  generalize htt : t ++ List.replicate m blank = tt at h5 h6 ⊢
  have hlen : tt.length = t.length + m := by rw [← htt]; simp
  refine ⟨tt.take (p + 1 - n), (tt.drop (p + 1 - n)).take n, (tt.drop (p + 1 - n)).drop n, by rw [List.take_append_drop, List.take_append_drop], by simp; omega, by simp; omega, fun e he => ?_, fun e he => ?_⟩
  · obtain ⟨z, hz⟩ := List.mem_iff_getElem?.mp he
    have hzn : z < n := by
      have := (List.getElem?_eq_some_iff.mp hz).1
      simp at this
      omega
    rw [List.getElem?_take_of_lt hzn, List.getElem?_drop] at hz
    have := h5 (p + 1 - n + z) (by omega) (by omega)
    rw [List.getD_eq_getElem?_getD, hz] at this
    exact this
  · rw [List.getLast?_eq_getElem?] at he
    have hlt : (tt.take (p + 1 - n)).length = p + 1 - n := by simp; omega
    rw [hlt] at he
    have h0 : p + 1 - n ≠ 0 := by
      intro h0
      rw [h0] at he
      simp at he
    rw [List.getElem?_take_of_lt (by omega)] at he
    have := h6 h0
    rw [List.getD_eq_getElem?_getD, he] at this
    exact this

/-! ## Writes -/

/-- Writes of entries one after the other, from index `i` on. -/
def wr : Nat → List (List Nat) → List (Nat × List Nat)
  | _, [] => []
  | i, e :: es => (i, e) :: wr (i + 1) es

theorem wr_length : ∀ (es : List (List Nat)) (i : Nat), (wr i es).length = es.length
  | [], _ => rfl
  | e :: es, i => by rw [wr, List.length_cons, wr_length es, List.length_cons]

theorem wr_append : ∀ (es fs : List (List Nat)) (i : Nat), wr i (es ++ fs) = wr i es ++ wr (i + es.length) fs
  | [], _, _ => rfl
  | e :: es, fs, i => by
    rw [List.cons_append, wr, wr_append es, wr, List.cons_append, List.length_cons, show i + 1 + es.length = i + (es.length + 1) by omega]

theorem wr_take : ∀ (es : List (List Nat)) (i k : Nat), (wr i es).take k = wr i (es.take k)
  | [], i, k => by rw [wr, List.take_nil, List.take_nil, wr]
  | e :: es, i, 0 => rfl
  | e :: es, i, k + 1 => by rw [wr, List.take_succ_cons, wr_take es, List.take_succ_cons, wr]

theorem wr_write : ∀ (es f : List (List Nat)) (x y : List (List Nat)), es.length ≤ f.length → writeAll (x ++ (f ++ y)) (wr x.length es) = x ++ (es ++ (f.drop es.length ++ y))
  | [], f, x, y, _ => by simp [wr, writeAll]
  | e :: es, [], x, y, h => by simp at h
  | e :: es, f0 :: f, x, y, h => by
    rw [wr, writeAll]
    simp only
    have : (x ++ (f0 :: f ++ y)).set x.length e = (x ++ [e]) ++ (f ++ y) := by
      rw [List.set_append_right _ _ (Nat.le_refl _), Nat.sub_self]
      simp
    rw [this, show x.length + 1 = (x ++ [e]).length by simp, wr_write es f (x ++ [e]) y (by simpa using h)]
    simp

end Fpm.FatDir
