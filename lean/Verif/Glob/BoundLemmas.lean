import Verif.Glob.Lemmas
import Verif.TextIo.Props
/-!
# `pattern_match` on arbitrary bytes: bounds and termination
-/
namespace Fpm.Glob
open Fpm.Glob.Spec Fpm.TextIo Fpm.Upcase

theorem trail_zero : ∀ (nf uc : Nat) (p : List Nat) (v : Nat) (r : List Nat), 0 ∈ p → trailBytes nf uc p = some (some (v, r)) → 0 ∈ r ∧ r.length ≤ p.length
  | 0, uc, p, v, r, h, e => by
    rw [trailBytes] at e
    cases e
    exact ⟨h, by omega⟩
  | nf + 1, uc, [], v, r, h, e => by cases h
  | nf + 1, uc, b :: p, v, r, h, e => by
    rw [trailBytes] at e
    by_cases hb : b &&& 0xC0 ≠ 0x80
    · rw [if_pos hb] at e
      cases e
    · rw [if_neg hb] at e
      have hb0 : b ≠ 0 := by
        rintro rfl
        exact hb (by decide)
      have hp : 0 ∈ p := by
        rcases List.mem_cons.mp h with h | h
        · exact absurd h.symm hb0
        · exact h
      have := trail_zero nf _ p v r hp e
      exact ⟨this.1, by simp; omega⟩

theorem tchar_zero {s : List Nat} {c : Nat} {r : List Nat} (h : 0 ∈ s) (e : tchar2uni s = some (some (c, r))) (hc : c ≠ 0) : 0 ∈ r ∧ r.length < s.length := by
  cases s with
  | nil => cases h
  | cons b p =>
    have hz : b ≠ 0 → 0 ∈ p := by
      intro hb
      rcases List.mem_cons.mp h with h | h
      · exact absurd h.symm hb
      · exact h
    rw [tchar2uni] at e
    by_cases hb : b &&& 0x80 = 0
    · rw [if_pos hb] at e
      cases e
      exact ⟨hz hc, by simp⟩
    · rw [if_neg hb] at e
      have hp := hz (by rintro rfl; exact hb (by decide))
      split at e
      · cases e
      · split at e
        · cases e
        · cases e
        · rename_i v p' ht
          cases hv : packUni v with
          | none => rw [hv] at e; cases e
          | some w =>
            rw [hv] at e
            cases e
            have := trail_zero _ _ _ _ _ hp ht
            exact ⟨this.1, by simp; omega⟩

theorem getAchar_zero {s : List Nat} (h : 0 ∈ s) : ∃ c r, getAchar s = some (c, r) ∧ (c ≠ 0 → 0 ∈ r ∧ r.length < s.length) := by
  have hd := C57_in_bounds s h
  unfold getAchar
  match ht : tchar2uni s, hd with
  | some none, _ => exact ⟨0, s, rfl, fun h => absurd rfl h⟩
  | some (some (c, r)), _ =>
    obtain ⟨w, hw, -, h0, -⟩ := C73_upcase c
    simp only
    rw [hw]
    refine ⟨w, r, rfl, fun hne => ?_⟩
    exact tchar_zero h ht fun hc => hne (h0.mpr hc)

/-- First byte is a wildcard. -/
def WildHead (p : List Nat) : Prop := p.head? = some 63 ∨ p.head? = some 42

/-- Defined whenever both strings end, unless a wildcard follows an asterisk. -/
def DefOk (f : List Nat → List Nat → Nat → Option Bool) : Prop :=
  ∀ (p n : List Nat) (sk : Nat), 0 ∈ p → 0 ∈ n → (WildHead p → sk < 256) → f p n sk ≠ none

theorem term_def : ∀ (p : List Nat) (sk : Nat), 0 ∈ p → ∃ sk' p', term p sk = some (sk', p') ∧ 0 ∈ p' ∧ ¬ WildHead p'
  | [], _, h => by cases h
  | b :: p, sk, h => by
    rw [term]
    by_cases h1 : b = 63
    · rw [if_pos h1]
      exact term_def p _ ((List.mem_cons.mp h).resolve_left (by omega))
    · rw [if_neg h1]
      by_cases h2 : b = 42
      · rw [if_pos h2]
        exact term_def p _ ((List.mem_cons.mp h).resolve_left (by omega))
      · rw [if_neg h2]
        exact ⟨sk, b :: p, rfl, h, by simp [WildHead, h1, h2]⟩

/-- The inner loop is defined; if it goes on to the next character of the name there is one. -/
def SegDef (p n : List Nat) : Seg → Prop
  | .ret _ => True
  | .brk nchr => nchr ≠ 0 → WildHead p ∨ ∃ c r, getAchar n = some (c, r) ∧ c ≠ 0
  | .ub => False

theorem wild_def {rec : Option (List Nat → List Nat → Nat → Option Bool)} (hr : ∀ f, rec = some f → DefOk f) {p n : List Nat} (hp : 0 ∈ p) (hn : 0 ∈ n) (hw : WildHead p) :
    SegDef p n (wild rec p n) := by
  unfold wild
  cases rec with
  | none => exact trivial
  | some f =>
    simp only
    obtain ⟨sk, p', e, h1, h2⟩ := term_def p 0 hp
    rw [e]
    simp only
    have hd := hr f rfl p' n sk h1 hn fun h => absurd h h2
    match hf : f p' n sk, hd with
    | some true, _ => exact trivial
    | some false, _ =>
      simp only
      cases n with
      | nil => cases hn
      | cons b n => exact fun _ => .inl hw

theorem seg_def {rec : Option (List Nat → List Nat → Nat → Option Bool)} (hr : ∀ f, rec = some f → DefOk f) (k : Nat) (p n : List Nat)
    (hp : 0 ∈ p) (hn : 0 ∈ n) (hk : p.length < k) : SegDef p n (seg rec k p n) := by
  induction k generalizing p n with
  | zero => omega
  | succ k ih =>
    cases p with
    | nil => cases hp
    | cons b p =>
      rw [seg]
      by_cases hw : b = 63 ∨ b = 42
      · rw [if_pos hw]
        exact wild_def hr hp hn (by simpa [WildHead] using hw)
      · rw [if_neg hw]
        obtain ⟨pc, pr, e1, h1⟩ := getAchar_zero hp
        obtain ⟨nc, nr, e2, h2⟩ := getAchar_zero hn
        rw [e1, e2]
        simp only
        by_cases hne : pc ≠ nc
        · rw [if_pos hne]
          exact fun h => .inr ⟨nc, nr, e2, h⟩
        · rw [if_neg hne]
          by_cases h0 : pc = 0
          · rw [if_pos h0]
            exact trivial
          · rw [if_neg h0]
            have hpn : pc = nc := Classical.byContradiction hne
            have h1 := h1 h0
            have hs := ih pr nr h1.1 (h2 (by omega)).1 (by omega)
            generalize seg rec k pr nr = s at hs
            match s, hs with
            | .ret _, _ => exact trivial
            | .brk c, _ => exact fun _ => .inr ⟨nc, nr, e2, by omega⟩

theorem tries_def {rec : Option (List Nat → List Nat → Nat → Option Bool)} (hr : ∀ f, rec = some f → DefOk f) {p : List Nat} (hp : 0 ∈ p) (skip : Nat) (hw : WildHead p → skip = 0)
    (k : Nat) (n : List Nat) (hn : 0 ∈ n) (hk : n.length < k) : tries rec p skip k n ≠ none := by
  induction k generalizing n with
  | zero => omega
  | succ k ih =>
    have hs := seg_def hr (p.length + 1) p n hp hn (by omega)
    rw [tries]
    generalize seg rec (p.length + 1) p n = s at hs
    match s, hs with
    | .ret b, _ => exact fun h => by cases h
    | .brk nchr, hs =>
      simp only
      obtain ⟨c, r, e, h1⟩ := getAchar_zero hn
      rw [e]
      simp only
      by_cases hc : skip ≠ 0 ∧ nchr ≠ 0
      · rw [if_pos hc]
        rcases hs hc.2 with h | ⟨c', r', e', h⟩
        · exact absurd (hw h) hc.1
        · rw [e] at e'
          cases e'
          have := h1 h
          exact ih r this.1 (by omega)
      · rw [if_neg hc]
        exact fun h => by cases h

theorem skip_def : ∀ (k : Nat) (n : List Nat), 0 ∈ n → ∃ o, skipChars k n = some o ∧ ∀ m, o = some m → 0 ∈ m
  | 0, n, h => ⟨some n, rfl, fun m e => by cases e; exact h⟩
  | k + 1, n, h => by
    obtain ⟨c, r, e, h1⟩ := getAchar_zero h
    rw [skipChars, e]
    simp only
    by_cases hc : c = 0
    · rw [if_pos hc]
      exact ⟨none, rfl, fun m e => by cases e⟩
    · rw [if_neg hc]
      exact skip_def k r (h1 hc).1

theorem body_def {rec : Option (List Nat → List Nat → Nat → Option Bool)} (hr : ∀ f, rec = some f → DefOk f) : DefOk (body rec) := by
  intro p n sk hp hn hw
  unfold body
  obtain ⟨o, e, ho⟩ := skip_def (sk % 256) n hn
  rw [e]
  cases o with
  | none => exact fun h => by cases h
  | some m =>
    simp only
    cases p with
    | nil => cases hp
    | cons b p =>
      simp only
      split
      · exact fun h => by cases h
      · exact tries_def hr hp _ (fun h => by have := hw h; omega) _ m (ho m rfl) (by omega)

theorem match_def : ∀ r, DefOk (patternMatch r)
  | 0 => by rw [patternMatch]; exact body_def fun f h => by cases h
  | r + 1 => by rw [patternMatch]; exact body_def fun f h => by cases h; exact match_def r

end Fpm.Glob
