import Verif.Glob.Spec
import Verif.TextIo.Lemmas
import Verif.Upcase.Props
import Verif.Fat.BitLemmas
/-!
# `pattern_match` on code points
-/
namespace Fpm.Glob
open Fpm.Glob.Spec Fpm.TextIo Fpm.TextIo.Spec Fpm.Upcase

/-- The string as it is in memory. -/
def str (cs z : List Nat) : List Nat := text cs ++ 0 :: z

theorem str_cons (c : Nat) (cs z : List Nat) : str (c :: cs) z = uenc c ++ str cs z := by
  simp [str, text]

theorem str_nil (z : List Nat) : str [] z = 0 :: z := by simp [str, text]

/-- Upper case of a code point. -/
def U (c : Nat) : Nat := (wtoupper (utf16 c)).getD 0

theorem U_some (c : Nat) : wtoupper (utf16 c) = some (U c) := by
  obtain ⟨w, h, -⟩ := C73_upcase (utf16 c)
  unfold U
  rw [h]
  rfl

theorem utf16_zero {c : Nat} (h : utf16 c = 0) : c = 0 := by
  unfold utf16 at h
  split at h <;> omega

theorem U_ne {c : Nat} (h : c ≠ 0) : U c ≠ 0 := by
  obtain ⟨w, h1, -, h2, -⟩ := C73_upcase (utf16 c)
  have h3 := U_some c
  rw [h1] at h3
  cases h3
  intro h0
  exact h (utf16_zero (h2.mp h0))

theorem getAchar_nil (z : List Nat) : getAchar (str [] z) = some (0, z) := by
  rw [str_nil]
  have h1 : tchar2uni (0 :: z) = some (some (0, z)) := tchar2uni_enc 0 (by unfold Scalar; decide) z
  have h2 : wtoupper 0 = some 0 := by decide +kernel
  unfold getAchar
  rw [h1]
  simp only
  rw [h2]
  rfl

theorem getAchar_cons {c : Nat} (h : Scalar c) (cs z : List Nat) : getAchar (str (c :: cs) z) = some (U c, str cs z) := by
  rw [str_cons]
  unfold getAchar
  rw [tchar2uni_enc c h]
  simp only
  rw [U_some]
  rfl

theorem sameCase_iff {a b : Nat} (ha : Scalar a) (hb : Scalar b) : U a = U b ↔ SameCase a b := by
  obtain ⟨wa, ha1, -, -, -, -, -, ha2⟩ := C73_upcase (utf16 a)
  obtain ⟨wb, hb1, -, -, -, -, -, hb2⟩ := C73_upcase (utf16 b)
  have ea := U_some a
  have eb := U_some b
  constructor
  · intro h
    rw [ha1] at ea
    rw [hb1] at eb
    cases ea
    cases eb
    have h16 : utf16 a < 0x10000 ↔ utf16 b < 0x10000 := by rw [← ha2, ← hb2, h]
    by_cases h1 : a < 0x10000
    · have u1 : utf16 a = a := by unfold utf16; rw [if_pos h1]
      have h2 : b < 0x10000 := by
        apply Classical.byContradiction
        intro h2
        have := h16.mp (by omega)
        unfold utf16 at this
        rw [if_neg h2] at this
        omega
      have u2 : utf16 b = b := by unfold utf16; rw [if_pos h2]
      refine .inr ⟨h1, h2, ?_⟩
      rw [u1] at ha1
      rw [u2] at hb1
      rw [ha1, hb1, h]
    · have h2 : ¬ b < 0x10000 := by
        intro h2
        have := h16.mpr (by unfold utf16; rw [if_pos h2]; exact h2)
        unfold utf16 at this
        rw [if_neg h1] at this
        omega
      have w1 : wtoupper (utf16 a) = some (utf16 a) := by
        unfold wtoupper
        rw [if_neg]
        unfold utf16
        rw [if_neg h1]
        omega
      have w2 : wtoupper (utf16 b) = some (utf16 b) := by
        unfold wtoupper
        rw [if_neg]
        unfold utf16
        rw [if_neg h2]
        omega
      rw [ha1] at w1
      rw [hb1] at w2
      have hu : utf16 a = utf16 b := by
        rw [← Option.some.inj w1, ← Option.some.inj w2]
        exact h
      refine .inl ?_
      unfold utf16 at hu
      rw [if_neg h1, if_neg h2] at hu
      have := ha.1
      have := hb.1
      omega
  · rintro (rfl | ⟨h1, h2, h⟩)
    · rfl
    · have u1 : utf16 a = a := by unfold utf16; rw [if_pos h1]
      have u2 : utf16 b = b := by unfold utf16; rw [if_pos h2]
      unfold U
      rw [u1, u2, h]

/-- First byte of a string. -/
theorem str_head {c : Nat} (h : Scalar c) (cs z : List Nat) : ∃ b r, str (c :: cs) z = b :: r ∧ (b = c ∧ r = str cs z ∨ 128 ≤ b ∧ 128 ≤ c) := by
  have := h.1
  rw [str_cons]
  unfold uenc
  split
  · exact ⟨c, _, rfl, .inl ⟨rfl, rfl⟩⟩
  · split
    · exact ⟨_, _, rfl, .inr ⟨by omega, by omega⟩⟩
    · split
      · exact ⟨_, _, rfl, .inr ⟨by omega, by omega⟩⟩
      · exact ⟨_, _, rfl, .inr ⟨by omega, by omega⟩⟩

theorem str_length (cs z : List Nat) : cs.length < (str cs z).length := by
  induction cs with
  | nil => simp [str_nil]
  | cons c cs ih =>
    rw [str_cons, List.length_append, List.length_cons]
    have : 0 < (uenc c).length := by unfold uenc; split <;> (try split) <;> (try split) <;> simp
    omega

theorem skip_spec : ∀ (k : Nat) (n z : List Nat), Text n → skipChars k (str n z) = some (if k ≤ n.length then some (str (n.drop k) z) else none)
  | 0, n, z, _ => by simp [skipChars]
  | k + 1, [], z, _ => by
    rw [skipChars, getAchar_nil]
    rfl
  | k + 1, c :: n, z, h => by
    have hc := h c (by simp)
    rw [skipChars, getAchar_cons hc.1]
    simp only
    rw [if_neg (U_ne hc.2), skip_spec k n z fun x hx => h x (by simp [hx])]
    simp

/-! ## Facts about the specification -/

theorem text_tail {c : Nat} {p : List Nat} (h : Text (c :: p)) : Scalar c ∧ c ≠ 0 ∧ Text p :=
  ⟨(h c (by simp)).1, (h c (by simp)).2, fun x hx => h x (by simp [hx])⟩

theorem text_drop {n : List Nat} (h : Text n) (k : Nat) : Text (n.drop k) := fun x hx => h x (List.mem_of_mem_drop hx)

theorem matches_nil {n : List Nat} : Matches [] n ↔ n = [] := by
  constructor
  · intro h; cases h; rfl
  · rintro rfl; exact .nil

theorem matches_one {p n : List Nat} : Matches (63 :: p) n ↔ ∃ x m, n = x :: m ∧ Matches p m := by
  constructor
  · intro h
    cases h with
    | one x h => exact ⟨x, _, rfl, h⟩
    | lit h1 => exact absurd rfl h1
  · rintro ⟨x, m, rfl, h⟩
    exact .one x h

theorem matches_any {p n : List Nat} : Matches (42 :: p) n ↔ ∃ j, j ≤ n.length ∧ Matches p (n.drop j) := by
  constructor
  · intro h
    cases h with
    | any xs h => exact ⟨xs.length, by simp, by simpa using h⟩
    | lit _ h2 => exact absurd rfl h2
  · rintro ⟨j, hj, h⟩
    have := Matches.any (n.take j) h
    rwa [List.take_append_drop] at this

theorem matches_lit {c : Nat} {p n : List Nat} (h1 : c ≠ 63) (h2 : c ≠ 42) : Matches (c :: p) n ↔ ∃ x m, n = x :: m ∧ SameCase c x ∧ Matches p m := by
  constructor
  · intro h
    cases h with
    | one x h => exact absurd rfl h1
    | any x h => exact absurd rfl h2
    | lit _ _ h h' => exact ⟨_, _, rfl, h, h'⟩
  · rintro ⟨x, m, rfl, h, h'⟩
    exact .lit h1 h2 h h'

/-- What a term with `q` question marks and perhaps an asterisk means in front of `p`. -/
def Term (p n : List Nat) (q : Nat) (inf : Bool) : Prop :=
  q ≤ n.length ∧ if inf then ∃ j, q ≤ j ∧ j ≤ n.length ∧ Matches p (n.drop j) else Matches p (n.drop q)

theorem term_zero {p n : List Nat} : Term p n 0 false ↔ Matches p n := by simp [Term]

theorem term_one {p n : List Nat} {q : Nat} {inf : Bool} : Term (63 :: p) n q inf ↔ Term p n (q + 1) inf := by
  unfold Term
  cases inf with
  | false =>
    simp only [Bool.false_eq_true, if_false]
    constructor
    · rintro ⟨h, hm⟩
      obtain ⟨x, m, e, hm⟩ := matches_one.mp hm
      have hl := congrArg List.length e
      simp at hl
      refine ⟨by omega, ?_⟩
      rw [← List.drop_drop, e]
      exact hm
    · rintro ⟨h, hm⟩
      refine ⟨by omega, matches_one.mpr ⟨n[q], n.drop (q + 1), List.drop_eq_getElem_cons (by omega), hm⟩⟩
  | true =>
    simp only [if_true]
    constructor
    · rintro ⟨h, j, h1, h2, hm⟩
      obtain ⟨x, m, e, hm⟩ := matches_one.mp hm
      have hl := congrArg List.length e
      simp at hl
      refine ⟨by omega, j + 1, by omega, by omega, ?_⟩
      rw [← List.drop_drop, e]
      exact hm
    · rintro ⟨h, j, h1, h2, hm⟩
      obtain ⟨j', rfl⟩ : ∃ j', j = j' + 1 := ⟨j - 1, by omega⟩
      exact ⟨by omega, j', by omega, by omega, matches_one.mpr ⟨n[j'], n.drop (j' + 1), List.drop_eq_getElem_cons (by omega), hm⟩⟩

theorem term_any {p n : List Nat} {q : Nat} {inf : Bool} : Term (42 :: p) n q inf ↔ Term p n q true := by
  unfold Term
  simp only [if_true]
  cases inf with
  | false =>
    simp only [Bool.false_eq_true, if_false]
    constructor
    · rintro ⟨h, hm⟩
      obtain ⟨j, hj, hm⟩ := matches_any.mp hm
      rw [List.length_drop] at hj
      rw [List.drop_drop] at hm
      exact ⟨h, q + j, by omega, by omega, hm⟩
    · rintro ⟨h, j, h1, h2, hm⟩
      refine ⟨h, matches_any.mpr ⟨j - q, by rw [List.length_drop]; omega, ?_⟩⟩
      rw [List.drop_drop, show q + (j - q) = j from by omega]
      exact hm
  | true =>
    simp only [if_true]
    constructor
    · rintro ⟨h, j, h1, h2, hm⟩
      obtain ⟨i, hi, hm⟩ := matches_any.mp hm
      rw [List.length_drop] at hi
      rw [List.drop_drop] at hm
      exact ⟨h, j + i, by omega, by omega, hm⟩
    · rintro ⟨h, j, h1, h2, hm⟩
      exact ⟨h, j, h1, h2, matches_any.mpr ⟨0, by omega, by simpa using hm⟩⟩

/-- Literal characters in front of the first wildcard. -/
def lits : List Nat → Nat
  | [] => 0
  | c :: p => if isWild c then 0 else lits p + 1

theorem lits_le {p : List Nat} : ∀ {n : List Nat}, Matches p n → lits p ≤ n.length := by
  induction p with
  | nil => intro n _; simp [lits]
  | cons c p ih =>
    intro n h
    unfold lits
    by_cases hw : isWild c
    · rw [if_pos hw]; omega
    · rw [if_neg hw]
      simp [isWild] at hw
      obtain ⟨x, m, rfl, -, h'⟩ := (matches_lit hw.1 hw.2).mp h
      have := ih h'
      simp
      omega

theorem isWild_iff {c : Nat} : isWild c = true ↔ c = 63 ∨ c = 42 := by simp [isWild]

/-- Value of `sk` after some question marks and perhaps asterisks. -/
def skVal (q : Nat) (inf : Bool) : Nat := q + if inf then 256 else 0

theorem sk_or {q : Nat} (h : q < 256) (inf : Bool) : skVal q inf ||| 0x100 = skVal q true := by
  have e : ∀ q, q < 256 → q ||| 256 = q + 256 := by
    intro q hq
    have := Nat.shiftLeft_add_eq_or_of_lt (b := q) (i := 8) (by omega) 1
    rw [Nat.or_comm, show (256 : Nat) = 1 <<< 8 from rfl, ← this]
    omega
  cases inf with
  | false => simp [skVal, e q h]
  | true =>
    simp only [skVal, if_true]
    rw [← e q h, Nat.or_assoc, Nat.or_self]

/-- The analysis of a term. -/
theorem term_spec : ∀ (p z n : List Nat) (q : Nat) (inf : Bool), Text p → q + p.count 63 < 256 →
    ∃ p' q' inf', term (str p z) (skVal q inf) = some (skVal q' inf', str p' z) ∧ (Term p n q inf ↔ Term p' n q' inf') ∧ Text p' ∧ q' < 256 ∧ p'.count 63 < 256 ∧
      p'.head?.any isWild = false ∧ p'.length ≤ p.length ∧ (p.head?.any isWild = true → groups p = groups p' + 1) ∧ (p.head?.any isWild = false → p' = p)
  | [], z, n, q, inf, ht, hq => by
    refine ⟨[], q, inf, ?_, Iff.rfl, ht, by simp at hq; omega, by simp, rfl, by simp, fun h => by simp at h, fun _ => rfl⟩
    rw [str_nil, term, if_neg (by decide), if_neg (by decide)]
  | c :: p, z, n, q, inf, ht, hq => by
    obtain ⟨h1, h2, h3⟩ := text_tail ht
    by_cases hw : isWild c
    · obtain ⟨b, r, e, hb⟩ := str_head h1 p z
      have hc : c < 128 := by rcases isWild_iff.mp hw with rfl | rfl <;> decide
      obtain ⟨rfl, rfl⟩ : b = c ∧ r = str p z := by
        rcases hb with h | h
        · exact h
        · omega
      rw [e]
      have grp : ∀ p', (p.head?.any isWild = true → groups p = groups p' + 1) → (p.head?.any isWild = false → p' = p) → groups (b :: p) = groups p' + 1 := by
        intro p' hg1 hg2
        rw [groups]
        by_cases hp : p.head?.any isWild = true
        · rw [hg1 hp]
          simp [hp]
        · have hp' : p.head?.any isWild = false := by simpa using hp
          rw [hg2 hp']
          simp [hp', hw]
      rcases isWild_iff.mp hw with rfl | rfl
      · have hcnt : (63 :: p).count 63 = p.count 63 + 1 := by simp
        obtain ⟨p', q', inf', e', ht', a, b, c, d, l, g1, g2⟩ := term_spec p z n (q + 1) inf h3 (by omega)
        refine ⟨p', q', inf', ?_, term_one.trans ht', a, b, c, d, by simp; omega, fun _ => grp p' g1 g2, fun h => by simp [isWild] at h⟩
        rw [term, if_pos rfl, ← e']
        congr 1
        unfold skVal
        omega
      · have hcnt : (42 :: p).count 63 = p.count 63 := by simp
        obtain ⟨p', q', inf', e', ht', a, b, c, d, l, g1, g2⟩ := term_spec p z n q true h3 (by omega)
        refine ⟨p', q', inf', ?_, term_any.trans ht', a, b, c, d, by simp; omega, fun _ => grp p' g1 g2, fun h => by simp [isWild] at h⟩
        rw [term, if_neg (by decide), if_pos rfl, sk_or (by omega)]
        exact e'
    · have hw' : ¬ (c = 63 ∨ c = 42) := fun h => hw (isWild_iff.mpr h)
      refine ⟨c :: p, q, inf, ?_, Iff.rfl, ht, by omega, by omega, by simpa using hw, by simp, fun h => by simp [hw] at h, fun _ => rfl⟩
      obtain ⟨b, r, e, hb⟩ := str_head h1 p z
      rw [e, term, if_neg (by omega), if_neg (by omega)]

end Fpm.Glob
