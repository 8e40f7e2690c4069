import Verif.Dir.Spec
namespace Fpm.Dir
open Fpm.Dir.Spec

variable {o : Opts} {R : Item → Item → Prop} {P : Item → Prop}

/-- The comparison is defined on `P` and decides `R`. -/
structure Decides (o : Opts) (P : Item → Prop) (R : Item → Item → Prop) : Prop where
  lt : ∀ a b, P a → P b → ∃ c, compare o a b = some c ∧ (c < 0 → R a b) ∧ (¬ c < 0 → R b a)
  trans : ∀ a b c, R a b → R b c → R a c

theorem merge_spec (h : Decides o P R) : ∀ (n : Nat) (as bs : List Item), as.length + bs.length = n →
    (∀ x ∈ as, P x) → (∀ x ∈ bs, P x) → as.Pairwise R → bs.Pairwise R →
    ∃ l, merge o as bs = some l ∧ l.Perm (as ++ bs) ∧ l.Pairwise R := by
  intro n
  induction n using Nat.strongRecOn with
  | ind n ih =>
    intro as bs hn ha hb sa sb
    cases as with
    | nil => exact ⟨bs, by rw [merge], by simp, sb⟩
    | cons a as =>
      cases bs with
      | nil => exact ⟨a :: as, by rw [merge]; simp, by simp, sa⟩
      | cons b bs =>
        obtain ⟨c, hc, h1, h2⟩ := h.lt a b (ha a (by simp)) (hb b (by simp))
        rw [merge, hc]
        simp only
        rw [List.pairwise_cons] at sa sb
        by_cases hlt : c < 0
        · rw [if_pos hlt]
          obtain ⟨l, e, p, s⟩ := ih _ (by simp only [List.length_cons] at hn ⊢; omega) as (b :: bs) rfl
            (fun x hx => ha x (by simp [hx])) hb sa.2 (List.pairwise_cons.mpr sb)
          refine ⟨a :: l, by rw [e]; rfl, by simpa using p.cons a, List.pairwise_cons.mpr ⟨?_, s⟩⟩
          intro x hx
          have hx := p.mem_iff.mp hx
          rcases List.mem_append.mp hx with hx | hx
          · exact sa.1 x hx
          · rcases List.mem_cons.mp hx with rfl | hx
            · exact h1 hlt
            · exact h.trans _ _ _ (h1 hlt) (sb.1 x hx)
        · rw [if_neg hlt]
          obtain ⟨l, e, p, s⟩ := ih _ (by simp only [List.length_cons] at hn ⊢; omega) (a :: as) bs rfl ha
            (fun x hx => hb x (by simp [hx])) (List.pairwise_cons.mpr sa) sb.2
          refine ⟨b :: l, by rw [e]; rfl, (p.cons b).trans List.perm_middle.symm, List.pairwise_cons.mpr ⟨?_, s⟩⟩
          intro x hx
          have hx := p.mem_iff.mp hx
          rcases List.mem_append.mp hx with hx | hx
          · rcases List.mem_cons.mp hx with rfl | hx
            · exact h2 hlt
            · exact h.trans _ _ _ (h2 hlt) (sa.1 x hx)
          · exact sb.1 x hx

theorem sort_spec (h : Decides o P R) (l : List Item) (hp : ∀ x ∈ l, P x) :
    ∃ l', sort o l = some l' ∧ l'.Perm l ∧ l'.Pairwise R := by
  generalize hn : l.length = n
  induction n using Nat.strongRecOn generalizing l with
  | ind n ih =>
    rw [sort]
    by_cases hl : l.length < 2
    · rw [dif_pos hl]
      refine ⟨l, rfl, .refl _, ?_⟩
      match l, hl with
      | [], _ => exact .nil
      | [a], _ => simp
    · rw [dif_neg hl]
      have hm := midLoop_lt l 0 (by omega)
      obtain ⟨a, ea, pa, sa⟩ := ih (l.take (midPoint l + 1)).length (by simp [midPoint]; omega) _
        (fun x hx => hp x (List.mem_of_mem_take hx)) rfl
      obtain ⟨b, eb, pb, sb⟩ := ih (l.drop (midPoint l + 1)).length (by simp [midPoint]; omega) _
        (fun x hx => hp x (List.mem_of_mem_drop hx)) rfl
      rw [ea, eb]
      obtain ⟨l', e, p, s⟩ := merge_spec h _ a b rfl (fun x hx => hp x (List.mem_of_mem_take (pa.mem_iff.mp hx)))
        (fun x hx => hp x (List.mem_of_mem_drop (pb.mem_iff.mp hx))) sa sb
      exact ⟨l', e, p.trans ((pa.append pb).trans (by rw [List.take_append_drop])), s⟩

theorem strcmp_spec (a b : List Nat) : (strcmp a b < 0 → a < b) ∧ (¬ strcmp a b < 0 → nameLe b a) := by
  induction a generalizing b with
  | nil => cases b with
    | nil => simp [strcmp, nameLe]
    | cons b bs => simp [strcmp]
  | cons a as ih => cases b with
    | nil => simp [strcmp, nameLe]
    | cons b bs =>
      simp only [strcmp]
      by_cases he : a = b
      · subst he
        rw [if_pos rfl]
        refine ⟨fun h => ?_, fun h => ?_⟩
        · exact List.cons_lt_cons_iff.mpr (Or.inr ⟨rfl, (ih bs).1 h⟩)
        · rcases (ih bs).2 h with h | h
          · exact Or.inl (List.cons_lt_cons_iff.mpr (Or.inr ⟨rfl, h⟩))
          · exact Or.inr (by rw [h])
      · rw [if_neg he]
        by_cases hlt : a < b
        · rw [if_pos hlt]
          exact ⟨fun _ => List.cons_lt_cons_iff.mpr (Or.inl hlt), fun h => absurd (by decide) h⟩
        · rw [if_neg hlt]
          exact ⟨fun h => absurd h (by decide), fun _ => Or.inl (List.cons_lt_cons_iff.mpr (Or.inl (by omega)))⟩

theorem nameLe_trans {a b c : List Nat} (h1 : nameLe a b) (h2 : nameLe b c) : nameLe a c := by
  rcases h1 with h1 | rfl
  · rcases h2 with h2 | rfl
    · exact Or.inl (List.lt_trans h1 h2)
    · exact Or.inl h1
  · exact h2

theorem newerFirst_trans {a b c : Item} (h1 : newerFirst a b) (h2 : newerFirst b c) : newerFirst a c := by
  rcases h1 with h1 | ⟨h1, n1⟩ <;> rcases h2 with h2 | ⟨h2, n2⟩
  · exact Or.inl (by omega)
  · exact Or.inl (by omega)
  · exact Or.inl (by omega)
  · exact Or.inr ⟨by omega, nameLe_trans n1 n2⟩

theorem decides_name (ht : o.timesort = false) : Decides o (fun _ => True) (NameOrder o.reversesort) where
  lt a b _ _ := by
    unfold compare NameOrder
    cases hr : o.reversesort with
    | false =>
      refine ⟨strcmp a.name b.name, by simp [ht], ?_, ?_⟩
      · intro h; exact Or.inl ((strcmp_spec _ _).1 h)
      · intro h; exact (strcmp_spec _ _).2 h
    | true =>
      refine ⟨strcmp b.name a.name, by simp [ht], ?_, ?_⟩
      · intro h; exact Or.inl ((strcmp_spec _ _).1 h)
      · intro h; exact (strcmp_spec _ _).2 h
  trans a b c h1 h2 := by
    unfold NameOrder at *
    cases hr : o.reversesort with
    | false => rw [hr] at h1 h2; exact nameLe_trans h1 h2
    | true => rw [hr] at h1 h2; exact nameLe_trans h2 h1

theorem int32_ok {x : Int} (h : -2147483648 ≤ x ∧ x < 2147483648) : int32 x = some x := if_pos h

theorem decides_time (ht : o.timesort = true) : Decides o (fun x => x.mtime < 2147483648) (TimeOrder o.reversesort) where
  lt a b ha hb := by
    have ea : toInt a.mtime = a.mtime := if_pos ha
    have eb : toInt b.mtime = b.mtime := if_pos hb
    unfold compare TimeOrder
    by_cases hm : a.mtime = b.mtime
    · cases hr : o.reversesort with
      | false =>
        refine ⟨strcmp a.name b.name, by simp [hm], ?_, ?_⟩
        · intro h; exact Or.inr ⟨hm, Or.inl ((strcmp_spec _ _).1 h)⟩
        · intro h; exact Or.inr ⟨hm.symm, (strcmp_spec _ _).2 h⟩
      | true =>
        refine ⟨strcmp b.name a.name, by simp [hm], ?_, ?_⟩
        · intro h; exact Or.inr ⟨hm.symm, Or.inl ((strcmp_spec _ _).1 h)⟩
        · intro h; exact Or.inr ⟨hm, (strcmp_spec _ _).2 h⟩
    · cases hr : o.reversesort with
      | false =>
        refine ⟨(b.mtime : Int) - a.mtime, by rw [if_pos rfl, if_pos ⟨ht, hm⟩, ea, eb, int32_ok (by omega)], ?_, ?_⟩
        · intro h; exact Or.inl (by omega)
        · intro h; exact Or.inl (by omega)
      | true =>
        refine ⟨(a.mtime : Int) - b.mtime, by rw [if_neg (by simp), if_pos ⟨ht, hm⟩, ea, eb, int32_ok (by omega)], ?_, ?_⟩
        · intro h; exact Or.inl (by omega)
        · intro h; exact Or.inl (by omega)
  trans a b c h1 h2 := by
    unfold TimeOrder at *
    cases hr : o.reversesort with
    | false => rw [hr] at h1 h2; exact newerFirst_trans h1 h2
    | true => rw [hr] at h1 h2; exact newerFirst_trans h2 h1

end Fpm.Dir
