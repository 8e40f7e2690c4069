import Verif.PrintfEsc.Model
import Verif.PrintfEsc.Spec

/-!
# Properties of printf escape processing (C38)
-/
namespace Fpm.PrintfEsc
open Fpm.PrintfEsc.Spec

theorem store_in (A r : List Nat) (j v : Nat) (h : j < A.length) :
    store (A ++ r) j v = some (A.set j (v % 256) ++ r) := by
  unfold store
  rw [if_pos (by rw [List.length_append]; omega), List.set_append_left _ _ h]

theorem set_tail (A tl : List Nat) (m v : Nat) (h : m < A.length) :
    A.set m v ++ tl = A.take m ++ v :: (A ++ tl).drop (m + 1) := by
  rw [List.set_eq_take_append_cons_drop, if_pos h,
    List.drop_append_of_le_length (l₁ := A) (l₂ := tl) (i := m + 1) (by omega)]
  simp

/-- Effect of one store on the picture used in the induction. -/
theorem after (A cons tl : List Nat) (j v : Nat) (hj : j ≤ A.length) (hc : cons ≠ []) (t : List Nat) :
    ((A ++ cons).set j v).take (j + 1) ++ t ++
        0 :: ((A ++ cons).set j v ++ tl).drop (j + 1 + t.length + 1) =
      A.take j ++ (v :: t) ++ 0 :: (A ++ (cons ++ tl)).drop (j + (v :: t).length + 1) := by
  have hl : 0 < cons.length := List.length_pos_iff.mpr hc
  have hlt : j < (A ++ cons).length := by rw [List.length_append]; omega
  have e1 : ((A ++ cons).set j v).take (j + 1) = A.take j ++ [v] := by
    rw [List.take_add_one, List.take_set_of_le (Nat.le_refl _), List.getElem?_set_self hlt,
      List.take_append_of_le_length hj]
    rfl
  have e2 : ((A ++ cons).set j v ++ tl).drop (j + 1 + t.length + 1) =
      (A ++ (cons ++ tl)).drop (j + 1 + t.length + 1) := by
    rw [← List.append_assoc, ← List.set_append_left _ _ hlt, List.drop_set_of_lt (by omega)]
  have e3 : j + (v :: t).length + 1 = j + 1 + t.length + 1 := by simp; omega
  rw [e1, e2, e3]
  simp

theorem octal_eq (k : Nat) (v : Nat) (A s junk : List Nat) :
    ∃ ds s' : List Nat, s = ds ++ s' ∧ ds.length ≤ k ∧ (∀ d ∈ ds, isOct d) ∧
      (ds.length = k ∨ ∀ c s'', s' = c :: s'' → isOct c = false) ∧
      octal (A ++ (s ++ 0 :: junk)) k v A.length =
        some (ds.foldl (fun v d => 8 * v + (d - 48)) v, A.length + ds.length) := by
  induction k generalizing v A s with
  | zero => exact ⟨[], s, rfl, by simp, by simp, Or.inl rfl, by simp [octal]⟩
  | succ k ih =>
    cases s with
    | nil => exact ⟨[], [], rfl, by simp, by simp, Or.inr (by simp), by simp [octal]⟩
    | cons c s =>
      by_cases hc : 48 ≤ c ∧ c ≤ 55
      · obtain ⟨ds, s', e, h1, h2, h3, h4⟩ := ih (v <<< 3 + (c - 48)) (A ++ [c]) s
        refine ⟨c :: ds, s', by simp [e], by simp; omega, ?_, ?_, ?_⟩
        · intro d hd
          rcases List.mem_cons.mp hd with rfl | hd
          · simp [isOct, hc]
          · exact h2 d hd
        · rcases h3 with h3 | h3
          · left; simp [h3]
          · exact Or.inr h3
        · rw [octal]
          have : (A ++ (c :: s ++ 0 :: junk))[A.length]? = some c := by simp
          rw [this]
          simp only []
          rw [if_pos hc]
          have e1 : A ++ (c :: s ++ 0 :: junk) = A ++ [c] ++ (s ++ 0 :: junk) := by simp
          have e2 : A.length + 1 = (A ++ [c]).length := by simp
          have e3 : v <<< 3 = 8 * v := by rw [Nat.shiftLeft_eq]; omega
          rw [e1, e2, h4, e3]
          simp; omega
      · refine ⟨[], c :: s, rfl, by simp, by simp, Or.inr ?_, ?_⟩
        · intro d s'' e
          cases e
          simp [isOct]; omega
        · rw [octal]
          have : (A ++ (c :: s ++ 0 :: junk))[A.length]? = some c := by simp
          rw [this]
          simp only []
          rw [if_neg hc]
          simp

theorem simple_spec (d : Nat) (hd : isOct d = false) :
    (d, simple d) ∈ letter ∨ (simple d = d ∧ ∀ b, (d, b) ∉ letter) := by
  unfold simple
  by_cases h1 : d = 97; · left; subst h1; decide
  by_cases h2 : d = 98; · left; subst h2; decide
  by_cases h3 : d = 102; · left; subst h3; decide
  by_cases h4 : d = 110; · left; subst h4; decide
  by_cases h5 : d = 114; · left; subst h5; decide
  by_cases h6 : d = 116; · left; subst h6; decide
  by_cases h7 : d = 118; · left; subst h7; decide
  right
  simp [h1, h2, h3, h4, h5, h6, h7, letter]

theorem escLoop_eq (n : Nat) (s : List Nat) (hn : s.length = n) (hb : ∀ c ∈ s, c ≠ 0 ∧ c < 256)
    (fuel : Nat) (hf : s.length < fuel) (A junk : List Nat) (j : Nat) (hj : j ≤ A.length) :
    ∃ t : List Nat, Unesc s t ∧ t.length ≤ s.length ∧
      escLoop fuel (A ++ (s ++ 0 :: junk)) A.length j =
        some (A.take j ++ t ++ 0 :: (A ++ (s ++ 0 :: junk)).drop (j + t.length + 1)) := by
  induction n using Nat.strongRecOn generalizing s fuel A j with
  | _ n ih =>
    subst hn
    obtain ⟨fuel, rfl⟩ : ∃ f, fuel = f + 1 := ⟨fuel - 1, by omega⟩
    -- continuing after a store
    have key : ∀ (cons s' : List Nat) (v : Nat), s = cons ++ s' → cons ≠ [] → v < 256 →
        ∃ t' : List Nat, Unesc s' t' ∧ t'.length ≤ s'.length ∧
          ((store (A ++ (s ++ 0 :: junk)) j v).bind
            (escLoop fuel · (A.length + cons.length) (j + 1))) =
          some (A.take j ++ (v :: t') ++
            0 :: (A ++ (s ++ 0 :: junk)).drop (j + (v :: t').length + 1)) := by
      intro cons s' v hs hc hv
      have hl : 0 < cons.length := List.length_pos_iff.mpr hc
      have e0 : A ++ (s ++ 0 :: junk) = (A ++ cons) ++ (s' ++ 0 :: junk) := by rw [hs]; simp
      have hjl : j < (A ++ cons).length := by rw [List.length_append]; omega
      have hsl : s.length = cons.length + s'.length := by rw [hs, List.length_append]
      have hlen : A.length + cons.length = ((A ++ cons).set j v).length := by simp
      obtain ⟨t', h1, h2, h3⟩ := ih s'.length (by omega) s' rfl
        (fun c hc => hb c (by rw [hs]; exact List.mem_append_right _ hc)) fuel (by omega)
        ((A ++ cons).set j v) (j + 1) (by simp only [List.length_set]; omega)
      refine ⟨t', h1, h2, ?_⟩
      rw [e0, store_in _ _ _ _ hjl, Nat.mod_eq_of_lt hv, Option.bind_some, hlen, h3,
        after A cons (s' ++ 0 :: junk) j v hj hc t', List.append_assoc A cons]
    cases s with
    | nil =>
      refine ⟨[], .nil, by simp, ?_⟩
      rw [escLoop]
      have : (A ++ ([] ++ 0 :: junk))[A.length]? = some 0 := by simp
      rw [this]
      simp only [if_true]
      have e0 : A ++ ([] ++ 0 :: junk) = (A ++ [0]) ++ junk := by simp
      rw [e0, store_in _ _ _ _ (by simp; omega)]
      rw [set_tail _ _ _ _ (by simp; omega), List.take_append_of_le_length hj]
      simp
    | cons c s =>
      have hc0 := hb c (List.mem_cons_self ..)
      have hget : (A ++ (c :: s ++ 0 :: junk))[A.length]? = some c := by simp
      rw [escLoop, hget]
      simp only []
      rw [if_neg hc0.1]
      by_cases h92 : c = 92
      · rw [if_neg (by simp [h92])]
        subst h92
        cases s with
        | nil =>
          refine ⟨[92], .trailing, by simp, ?_⟩
          have hget2 : (A ++ ([92] ++ 0 :: junk))[A.length + 1]? = some 0 := by
            rw [List.getElem?_append_right (by omega)]; simp
          rw [hget2]
          simp only [if_true]
          have e0 : A ++ ([92] ++ 0 :: junk) = (A ++ [92, 0]) ++ junk := by simp
          rw [e0, store_in _ _ _ _ (by simp; omega), Option.bind_some,
            store_in _ _ _ _ (by simp; omega)]
          rw [set_tail _ _ _ _ (by simp; omega), List.take_add_one,
            List.take_set_of_le (Nat.le_refl _), List.getElem?_set_self (by simp; omega),
            ← List.set_append_left _ _ (by simp; omega), List.drop_set_of_lt (by omega),
            List.take_append_of_le_length hj]
          simp
        | cons d s =>
          have hd0 := hb d (by simp)
          have hget2 : (A ++ (92 :: d :: s ++ 0 :: junk))[A.length + 1]? = some d := by
            rw [List.getElem?_append_right (by omega)]; simp
          rw [hget2]
          simp only []
          rw [if_neg hd0.1]
          by_cases hoct : 48 ≤ d ∧ d ≤ 55
          · rw [if_pos hoct]
            obtain ⟨ds, s', e, h1, h2, h3, h4⟩ := octal_eq 3 0 (A ++ [92]) (d :: s) junk
            have e1 : A ++ (92 :: d :: s ++ 0 :: junk) = A ++ [92] ++ (d :: s ++ 0 :: junk) := by simp
            have e2 : A.length + 1 = (A ++ [92]).length := by simp
            have hds : ds ≠ [] := by
              intro hh
              subst hh
              rcases h3 with h3 | h3
              · simp at h3
              · have := h3 d s (by simpa using e.symm)
                simp [isOct, hoct] at this
            rw [e2]
            rw [← e1] at h4
            rw [h4]
            simp only []
            have hv : octVal ds % 256 < 256 := Nat.mod_lt _ (by decide)
            have hs2 : 92 :: d :: s = (92 :: ds) ++ s' := by rw [e]; rfl
            obtain ⟨t', k1, k2, k3⟩ := key (92 :: ds) s' (octVal ds % 256) hs2 (by simp) hv
            refine ⟨octVal ds % 256 :: t', ?_, ?_, ?_⟩
            · rw [hs2]
              exact .octal ds s' t' hds h1 h2 h3 k1
            · rw [hs2]; simp; omega
            · have e5 : (A ++ [92]).length + ds.length = A.length + (92 :: ds).length := by
                simp; omega
              have e6 : store (A ++ (92 :: d :: s ++ 0 :: junk)) j
                  (ds.foldl (fun v d => 8 * v + (d - 48)) 0) =
                  store (A ++ (92 :: d :: s ++ 0 :: junk)) j (octVal ds % 256) := by
                unfold store octVal
                rw [Nat.mod_mod]
              rw [e5, e6, k3]
          · rw [if_neg hoct]
            have ho : isOct d = false := by simp [isOct]; omega
            have hv : simple d < 256 := by
              unfold simple; repeat' split
              all_goals first | decide | exact hd0.2
            obtain ⟨t', k1, k2, k3⟩ := key [92, d] s (simple d) rfl (by simp) hv
            refine ⟨simple d :: t', ?_, by simp; omega, ?_⟩
            · rcases simple_spec d ho with h | ⟨h, h'⟩
              · exact .letter d _ s t' h k1
              · rw [h]; exact .other d s t' ho h' k1
            · exact k3
      · rw [if_pos (by simpa using h92)]
        obtain ⟨t', k1, k2, k3⟩ := key [c] s c rfl (by simp) hc0.2
        exact ⟨c :: t', .lit c s t' h92 k1, by simp; omega, k3⟩

/-- What a string stands for is determined by the rules. -/
theorem Unesc.unique {s t t' : List Nat} (h : Unesc s t) (h' : Unesc s t') : t = t' := by
  have lm : ∀ d b, (d, b) ∈ letter → isOct d = false ∧ ∀ b', (d, b') ∈ letter → b' = b := by
    intro d b hd
    simp only [letter, List.mem_cons, Prod.mk.injEq, List.not_mem_nil, or_false] at hd
    rcases hd with ⟨rfl, rfl⟩ | ⟨rfl, rfl⟩ | ⟨rfl, rfl⟩ | ⟨rfl, rfl⟩ | ⟨rfl, rfl⟩ | ⟨rfl, rfl⟩ | ⟨rfl, rfl⟩ <;>
      exact ⟨by decide, by intro b' hb'; simpa [letter] using hb'⟩
  -- two ways of taking octal digits agree
  have om : ∀ (k : Nat) (ds ds' s s' : List Nat), ds ++ s = ds' ++ s' → ds.length ≤ k →
      ds'.length ≤ k → (∀ d ∈ ds, isOct d) → (∀ d ∈ ds', isOct d) →
      (ds.length = k ∨ ∀ c r, s = c :: r → isOct c = false) →
      (ds'.length = k ∨ ∀ c r, s' = c :: r → isOct c = false) → ds = ds' ∧ s = s' := by
    intro k ds
    induction ds generalizing k with
    | nil =>
      intro ds' s s' e _ hl _ ho hk _
      cases ds' with
      | nil => exact ⟨rfl, by simpa using e⟩
      | cons d ds' =>
        rcases hk with hk | hk
        · subst hk; simp at hl
        · have := hk d (ds' ++ s') (by simpa using e)
          have := ho d (by simp)
          simp_all
    | cons d ds ih =>
      intro ds' s s' e hl hl' ho ho' hk hk'
      cases ds' with
      | nil =>
        rcases hk' with hk' | hk'
        · subst hk'; simp at hl
        · have := hk' d (ds ++ s) (by simpa using e.symm)
          have := ho d (by simp)
          simp_all
      | cons d' ds' =>
        simp only [List.cons_append, List.cons.injEq] at e
        obtain ⟨rfl, e⟩ := e
        have := ih (k - 1) ds' s s' e (by simp at hl; omega) (by simp at hl'; omega)
          (fun x hx => ho x (by simp [hx])) (fun x hx => ho' x (by simp [hx]))
          (by rcases hk with hk | hk
              · left; simp at hk; omega
              · exact Or.inr hk)
          (by rcases hk' with hk' | hk'
              · left; simp at hk'; omega
              · exact Or.inr hk')
        exact ⟨by rw [this.1], this.2⟩
  induction h generalizing t' with
  | nil => cases h'; rfl
  | lit c s t hc _ ih =>
    cases h' with
    | lit _ _ _ _ h2 => rw [ih h2]
    | trailing => exact absurd rfl hc
    | letter => exact absurd rfl hc
    | octal => exact absurd rfl hc
    | other => exact absurd rfl hc
  | trailing =>
    generalize hs : [92] = s at h'
    cases h' with
    | nil => cases hs
    | lit c s t hc h2 => cases hs; exact absurd rfl hc
    | trailing => rfl
    | letter => cases hs
    | octal ds s t h0 => 
      simp only [List.cons_append, List.cons.injEq, true_and] at hs
      have := hs.symm
      simp only [List.append_eq_nil_iff] at this
      exact absurd this.1 h0
    | other => cases hs
  | letter d b s t hd _ ih =>
    generalize hs : 92 :: d :: s = s0 at h'
    cases h' with
    | nil => cases hs
    | lit c s t hc h2 => cases hs; exact absurd rfl hc
    | trailing => cases hs
    | letter d' b' _ _ hd' h2 =>
      cases hs
      rw [ih h2, (lm d b hd).2 b' hd']
    | octal ds s' t h0 _ ho =>
      cases ds with
      | nil => exact absurd rfl h0
      | cons x ds =>
        cases hs
        have := ho d (by simp)
        rw [(lm d b hd).1] at this
        cases this
    | other d' _ _ _ hn h2 => cases hs; exact absurd hd (hn b)
  | octal ds s t h0 hl ho hk _ ih =>
    generalize hs : 92 :: ds ++ s = s0 at h'
    cases h' with
    | nil => cases hs
    | lit c s t hc h2 => cases hs; exact absurd rfl hc
    | trailing =>
      cases ds with
      | nil => exact absurd rfl h0
      | cons x ds => cases hs
    | letter d b _ _ hd h2 =>
      cases ds with
      | nil => exact absurd rfl h0
      | cons x ds =>
        cases hs
        have := ho d (by simp)
        rw [(lm d b hd).1] at this
        cases this
    | octal ds' s' t' h0' hl' ho' hk' h2 =>
      simp only [List.cons_append, List.cons.injEq, true_and] at hs
      obtain ⟨e1, e2⟩ := om 3 ds ds' s s' hs hl hl' ho ho' hk hk'
      subst e1; subst e2
      rw [ih h2]
    | other d _ _ hn _ h2 =>
      cases ds with
      | nil => exact absurd rfl h0
      | cons x ds =>
        cases hs
        have := ho d (by simp)
        rw [hn] at this
        cases this
  | other d s t hd hn _ ih =>
    generalize hs : 92 :: d :: s = s0 at h'
    cases h' with
    | nil => cases hs
    | lit c s t hc h2 => cases hs; exact absurd rfl hc
    | trailing => cases hs
    | letter d' b' _ _ hd' h2 => cases hs; exact absurd hd' (hn b')
    | octal ds s' t h0 _ ho =>
      cases ds with
      | nil => exact absurd rfl h0
      | cons x ds =>
        cases hs
        have := ho d (by simp)
        rw [hd] at this
        cases this
    | other d' _ _ _ _ h2 => cases hs; rw [ih h2]

/-! ## C38 printf escape processing is in place, safe and complete -/

/-- For every string (any bytes, terminated, anything behind it): escape processing stays inside the
array, leaves the bytes the string stands for, terminated, at its start, and nothing else changes -
in particular nothing behind the old terminator. -/
theorem C38_escape (s junk : List Nat) (hb : ∀ c ∈ s, c ≠ 0 ∧ c < 256) :
    ∃ t : List Nat, Unesc s t ∧ t.length ≤ s.length ∧
      escape (s ++ 0 :: junk) = some (t ++ 0 :: (s ++ 0 :: junk).drop (t.length + 1)) := by
  obtain ⟨t, h1, h2, h3⟩ := escLoop_eq s.length s rfl hb ((s ++ 0 :: junk).length + 1)
    (by simp; omega) [] junk 0 (Nat.zero_le _)
  exact ⟨t, h1, h2, by simpa [escape] using h3⟩

example : Unesc [65, 92, 110, 92, 49, 48, 49, 50, 92, 113, 92] [65, 10, 65, 50, 113, 92] := by
  refine .lit 65 _ _ (by decide) (.letter 110 10 _ _ (by decide) ?_)
  refine .octal [49, 48, 49] _ _ (by decide) (by decide) (by decide) (Or.inl rfl) ?_
  exact .lit 50 _ _ (by decide) (.other 113 _ _ (by decide) (by intro b; simp [letter]) .trailing)

end Fpm.PrintfEsc
