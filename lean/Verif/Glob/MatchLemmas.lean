import Verif.Glob.Lemmas
/-!
# Loops of `pattern_match`
-/
namespace Fpm.Glob
open Fpm.Glob.Spec Fpm.TextIo Fpm.TextIo.Spec Fpm.Upcase

/-- A recursive call that is right for up to `r` groups. -/
def RecOk (r : Nat) (f : List Nat → List Nat → Nat → Option Bool) : Prop :=
  ∀ (p n zp zn : List Nat) (q : Nat) (inf : Bool), Text p → Text n → p.count 63 < 256 → q < 256 →
    ∃ b, f (str p zp) (str n zn) (skVal q inf) = some b ∧ (b = true → Term p n q inf) ∧ (Term p n q inf → groups p ≤ r → b = true)

/-- The recursive call, and how many groups it and its caller can handle. -/
def CallOk : Nat → Option (List Nat → List Nat → Nat → Option Bool) → Prop
  | 0, none => True
  | r + 1, some f => RecOk r f
  | _, _ => False

/-- What the inner loop finds. -/
def SegOk (l : Nat) (p n : List Nat) : Seg → Prop
  | .ret true => Matches p n
  | .ret false => l < groups p
  | .brk nchr => (Matches p n → l < groups p) ∧ (nchr = 0 → n.length ≤ lits p) ∧ (n = [] → nchr = 0)
  | .ub => False

theorem groups_lit {c : Nat} (h : isWild c = false) (p : List Nat) : groups (c :: p) = groups p := by
  simp [groups, h]

theorem raw_head (n zn : List Nat) (hn : Text n) : ∃ b r, str n zn = b :: r ∧ (b = 0 ↔ n = []) := by
  cases n with
  | nil => exact ⟨0, zn, str_nil zn, by simp⟩
  | cons c n =>
    obtain ⟨h1, h2, -⟩ := text_tail hn
    obtain ⟨b, r, e, hb⟩ := str_head h1 n zn
    refine ⟨b, r, e, ?_⟩
    constructor
    · intro h0; exfalso; omega
    · intro h0; cases h0

theorem wild_spec {l : Nat} {rec : Option (List Nat → List Nat → Nat → Option Bool)} (hr : CallOk l rec) (c : Nat) (p n zp zn : List Nat)
    (hc : isWild c = true) (hp : Text (c :: p)) (hn : Text n) (hq : (c :: p).count 63 < 256) :
    SegOk l (c :: p) n (wild rec (str (c :: p) zp) (str n zn)) := by
  obtain ⟨p', q', inf', e, ht, h1, h2, h3, h4, -, h5, -⟩ := term_spec (c :: p) zp n 0 false hp (by omega)
  have hg := h5 (by simpa using hc)
  rw [term_zero] at ht
  unfold wild
  match l, rec, hr with
  | 0, none, _ =>
    show 0 < groups (c :: p)
    omega
  | r + 1, some f, hr =>
    simp only
    rw [show (0 : Nat) = skVal 0 false from rfl, e]
    simp only
    obtain ⟨b, eb, hb1, hb2⟩ := hr p' n zp zn q' inf' h1 hn h3 h2
    rw [eb]
    cases b with
    | true => exact ht.mpr (hb1 rfl)
    | false =>
      simp only
      obtain ⟨b, t, es, hz⟩ := raw_head n zn hn
      rw [es]
      refine ⟨fun hm => ?_, fun h0 => ?_, hz.mpr⟩
      · apply Classical.byContradiction
        intro hl
        exact absurd (hb2 (ht.mp hm) (by omega)) (by decide)
      · rw [hz.mp h0]
        simp

theorem seg_lit (rec : Option (List Nat → List Nat → Nat → Option Bool)) (k : Nat) (b : Nat) (p nptr : List Nat) (h : ¬ (b = 63 ∨ b = 42)) :
    seg rec (k + 1) (b :: p) nptr =
      match getAchar (b :: p), getAchar nptr with
      | some (pchr, pptr), some (nchr, nptr) =>
        if pchr ≠ nchr then .brk nchr
        else if pchr = 0 then .ret true
        else seg rec k pptr nptr
      | _, _ => .ub := by
  rw [seg, if_neg h]
  rfl

theorem seg_spec {l : Nat} {rec : Option (List Nat → List Nat → Nat → Option Bool)} (hr : CallOk l rec) (zp zn : List Nat) (p n : List Nat) (k : Nat)
    (hp : Text p) (hn : Text n) (hq : p.count 63 < 256) (hk : p.length < k) : SegOk l p n (seg rec k (str p zp) (str n zn)) := by
  induction p generalizing n k with
  | nil =>
    obtain ⟨k, rfl⟩ : ∃ j, k = j + 1 := ⟨k - 1, by omega⟩
    rw [str_nil, seg_lit _ _ _ _ _ (by decide), ← str_nil, getAchar_nil]
    cases n with
    | nil =>
      rw [getAchar_nil]
      exact .nil
    | cons x n =>
      obtain ⟨h1, h2, -⟩ := text_tail hn
      rw [getAchar_cons h1]
      simp only
      rw [if_pos (Ne.symm (U_ne h2))]
      refine ⟨fun h => ?_, fun h => absurd h (U_ne h2), fun h => by cases h⟩
      exact absurd (matches_nil.mp h) (by simp)
  | cons c p ihp =>
    obtain ⟨k, rfl⟩ : ∃ j, k = j + 1 := ⟨k - 1, by omega⟩
    obtain ⟨h1, h2, h3⟩ := text_tail hp
    obtain ⟨b, r, e, hb⟩ := str_head h1 p zp
    by_cases hw : isWild c = true
    · have hw2 := isWild_iff.mp hw
      have hs := wild_spec hr c p n zp zn hw hp hn hq
      rw [e] at hs ⊢
      rw [seg, if_pos (by omega)]
      exact hs
    · have hw2 : ¬ (c = 63 ∨ c = 42) := fun h => hw (isWild_iff.mpr h)
      have hw3 : isWild c = false := by simpa using hw
      rw [e, seg_lit _ _ _ _ _ (by omega), ← e, getAchar_cons h1]
      have hc1 : c ≠ 63 := by omega
      have hc2 : c ≠ 42 := by omega
      cases n with
      | nil =>
        rw [getAchar_nil]
        simp only
        rw [if_pos (U_ne h2)]
        refine ⟨fun h => ?_, fun _ => by simp, fun _ => rfl⟩
        obtain ⟨x, m, e, -⟩ := (matches_lit hc1 hc2).mp h
        cases e
      | cons x n =>
        obtain ⟨g1, g2, g3⟩ := text_tail hn
        rw [getAchar_cons g1]
        simp only
        by_cases hu : U c = U x
        · rw [if_neg (by simpa using hu), if_neg (U_ne h2)]
          have hcnt : p.count 63 < 256 := by
            have := List.count_le_count_cons (a := 63) (b := c) (l := p)
            omega
          have ih := ihp n k h3 g3 hcnt (by simp at hk; omega)
          have hsc := (sameCase_iff h1 g1).mp hu
          have hm : Matches (c :: p) (x :: n) ↔ Matches p n := by
            constructor
            · intro h
              obtain ⟨y, m, e, -, h'⟩ := (matches_lit hc1 hc2).mp h
              cases e
              exact h'
            · exact fun h => .lit hc1 hc2 hsc h
          have hl : lits (c :: p) = lits p + 1 := by simp [lits, hw3]
          generalize seg rec k (str p zp) (str n zn) = s at ih
          match s, ih with
          | .ret true, ih => exact hm.mpr ih
          | .ret false, ih =>
            show l < groups (c :: p)
            rw [groups_lit hw3]
            exact ih
          | .brk nchr, ih =>
            refine ⟨fun h => (groups_lit hw3 p).symm ▸ ih.1 (hm.mp h), fun h => ?_, fun h => by cases h⟩
            have := ih.2.1 h
            simp [hl]
            omega
        · rw [if_pos hu]
          refine ⟨fun h => ?_, fun h => absurd h (U_ne g2), fun h => by cases h⟩
          obtain ⟨y, m, e, hs, -⟩ := (matches_lit hc1 hc2).mp h
          cases e
          exact absurd ((sameCase_iff h1 g1).mpr hs) hu

theorem tries_spec {l : Nat} {rec : Option (List Nat → List Nat → Nat → Option Bool)} (hr : CallOk l rec) (p zp : List Nat) (skip : Nat)
    (hp : Text p) (hq : p.count 63 < 256) : ∀ (k : Nat) (n zn : List Nat), Text n → n.length < k →
    ∃ b, tries rec (str p zp) skip k (str n zn) = some b ∧
      (b = true → ∃ j, j ≤ n.length ∧ (skip = 0 → j = 0) ∧ Matches p (n.drop j)) ∧
      ((∃ j, j ≤ n.length ∧ (skip = 0 → j = 0) ∧ Matches p (n.drop j)) → groups p ≤ l → b = true)
  | 0, _, _, _, hk => absurd hk (by omega)
  | k + 1, n, zn, hn, hk => by
    have hs := seg_spec hr zp zn p n ((str p zp).length + 1) hp hn hq (by have := str_length p zp; omega)
    rw [tries]
    generalize seg rec ((str p zp).length + 1) (str p zp) (str n zn) = s at hs
    match s, hs with
    | .ret true, hs => exact ⟨true, rfl, fun _ => ⟨0, by omega, fun _ => rfl, hs⟩, fun _ _ => rfl⟩
    | .ret false, hs =>
      refine ⟨false, rfl, (fun h => by cases h), fun _ hg => ?_⟩
      have : l < groups p := hs
      omega
    | .brk nchr, ⟨s1, s2, s3⟩ =>
      simp only
      have stop : ∀ j, j ≤ n.length → (skip = 0 ∨ nchr = 0 → j = 0 ∨ n.length ≤ lits p) → Matches p (n.drop j) → groups p ≤ l → (skip = 0 ∨ nchr = 0) → False := by
        intro j hj h hm hg ho
        by_cases hj0 : j = 0
        · subst hj0
          have := s1 (by simpa using hm)
          omega
        · have h2 := (h ho).resolve_left hj0
          have h3 := lits_le hm
          rw [List.length_drop] at h3
          omega
      have fin : ∃ b, some false = some b ∧ (b = true → ∃ j, j ≤ n.length ∧ (skip = 0 → j = 0) ∧ Matches p (n.drop j)) ∧
          ((skip = 0 ∨ nchr = 0) → (∃ j, j ≤ n.length ∧ (skip = 0 → j = 0) ∧ Matches p (n.drop j)) → groups p ≤ l → b = true) := by
        refine ⟨false, rfl, (fun h => by cases h), ?_⟩
        rintro ho ⟨j, hj, hj0, hm⟩ hg
        exfalso
        refine stop j hj (fun ho => ?_) hm hg ho
        rcases ho with h | h
        · exact .inl (hj0 h)
        · exact .inr (s2 h)
      cases n with
      | nil =>
        rw [getAchar_nil]
        simp only
        have h0 := s3 rfl
        rw [if_neg (by simp [h0])]
        obtain ⟨b, e, f1, f2⟩ := fin
        exact ⟨b, e, f1, f2 (.inr h0)⟩
      | cons x n =>
        obtain ⟨g1, g2, g3⟩ := text_tail hn
        rw [getAchar_cons g1]
        simp only
        by_cases hc : skip ≠ 0 ∧ nchr ≠ 0
        · rw [if_pos hc]
          obtain ⟨b, e, f1, f2⟩ := tries_spec hr p zp skip hp hq k n zn g3 (by simp at hk; omega)
          refine ⟨b, e, fun hb => ?_, ?_⟩
          · obtain ⟨j, hj, -, hm⟩ := f1 hb
            exact ⟨j + 1, by simp; omega, fun h => absurd h hc.1, by simpa using hm⟩
          · rintro ⟨j, hj, hj0, hm⟩ hg
            cases j with
            | zero =>
              have := s1 (by simpa using hm)
              omega
            | succ j => exact f2 ⟨j, by simp at hj; omega, fun h => absurd h hc.1, by simpa using hm⟩ hg
        · rw [if_neg hc]
          obtain ⟨b, e, f1, f2⟩ := fin
          refine ⟨b, e, f1, f2 ?_⟩
          by_cases h : skip = 0
          · exact .inl h
          · exact .inr (Classical.byContradiction fun h' => hc ⟨h, h'⟩)

theorem body_spec {l : Nat} {rec : Option (List Nat → List Nat → Nat → Option Bool)} (hr : CallOk l rec) : RecOk l (body rec) := by
  intro p n zp zn q inf hp hn hc hq
  have e1 : skVal q inf % 256 = q := by unfold skVal; cases inf <;> simp <;> omega
  have e2 : skVal q inf - q = if inf then 256 else 0 := by unfold skVal; omega
  unfold body
  rw [e1, skip_spec q n zn hn]
  by_cases hl : q ≤ n.length
  · rw [if_pos hl]
    simp only
    obtain ⟨b, r, es, hz⟩ := raw_head p zp hp
    rw [es]
    simp only
    rw [e2]
    by_cases hs : b = 0 ∧ (if inf then 256 else 0) ≠ 0
    · rw [if_pos hs]
      have hi : inf = true := by cases inf <;> simp_all
      have hp0 := hz.mp hs.1
      refine ⟨true, rfl, fun _ => ?_, fun _ _ => rfl⟩
      subst hi hp0
      exact ⟨hl, by rw [if_pos rfl]; exact ⟨n.length, hl, Nat.le_refl _, by simpa using Matches.nil⟩⟩
    · rw [if_neg hs, ← es]
      obtain ⟨b, e, f1, f2⟩ := tries_spec hr p zp (if inf then 256 else 0) hp hc ((str (n.drop q) zn).length + 1) (n.drop q) zn (text_drop hn q)
        (by have := str_length (n.drop q) zn; omega)
      have iff : (∃ j, j ≤ (n.drop q).length ∧ ((if inf then 256 else 0) = 0 → j = 0) ∧ Matches p ((n.drop q).drop j)) ↔ Term p n q inf := by
        unfold Term
        simp only [List.length_drop, List.drop_drop]
        cases inf with
        | false =>
          simp only [Bool.false_eq_true, if_false]
          constructor
          · rintro ⟨j, h1, h2, h3⟩
            rw [h2 trivial] at h3
            exact ⟨hl, h3⟩
          · rintro ⟨-, h⟩
            exact ⟨0, by omega, fun _ => rfl, h⟩
        | true =>
          simp only [if_true]
          constructor
          · rintro ⟨j, h1, -, h3⟩
            exact ⟨hl, q + j, by omega, by omega, h3⟩
          · rintro ⟨-, j, h1, h2, h3⟩
            refine ⟨j - q, by omega, fun h => absurd h (by decide), ?_⟩
            rw [show q + (j - q) = j from by omega]
            exact h3
      exact ⟨b, e, fun h => iff.mp (f1 h), fun h => f2 (iff.mpr h)⟩
  · rw [if_neg hl]
    exact ⟨false, rfl, (fun h => by cases h), fun h => absurd h.1 hl⟩

theorem match_spec : ∀ r, RecOk r (patternMatch r)
  | 0 => by rw [patternMatch]; exact body_spec (l := 0) (rec := none) trivial
  | r + 1 => by rw [patternMatch]; exact body_spec (l := r + 1) (rec := some _) (match_spec r)

end Fpm.Glob
