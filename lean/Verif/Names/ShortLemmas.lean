import Verif.Names.Model
import Verif.Names.Spec
import Verif.Lfn.Lemmas
/-!
# The loop that makes the short name
-/
namespace Fpm.Names
open Fpm.Names.Spec Fpm.Lfn Fpm.Lfn.Spec

/-- Units the first loop lets through. -/
def LfnUnit (u : Nat) : Prop := 32 ≤ u ∧ u < 0x10000 ∧ u ∉ [34, 42, 47, 58, 60, 62, 63, 92, 124, 127]

theorem get_unit {buf n : List Nat} (hb : Holds buf n) {p : Nat} (hp : p < n.length) : buf[p]? = some n[p] := by
  rw [holds_get hb (by omega)]
  simp [spread, hp]

theorem get_end {buf n : List Nat} (hb : Holds buf n) : buf[n.length]? = some 0 := by
  rw [holds_get hb (by omega), spread_end]

theorem char83_iff {u : Nat} (h : LfnUnit u) : Char83 u ↔ u ≠ 32 ∧ u ≠ 46 ∧ ¬ (u > 126 ∨ u ∈ illegalShort) := by
  obtain ⟨h1, h2, h3⟩ := h
  unfold Char83 illegalShort
  simp only [List.mem_cons, List.not_mem_nil, or_false, not_or] at h3 ⊢
  omega

theorem or3 {l : Nat} (h : l = 0 ∨ l = 4) : l ||| 3 = l + 3 ∧ (l + 3) ||| 3 = l + 3 := by rcases h with rfl | rfl <;> decide

theorem up_eq (c : Nat) : (if isLower c then c - 32 else c) = up c := by
  unfold isLower up
  simp

theorem up_form {c : Nat} (h : Char83 c) : FormByte (up c) := by
  right
  unfold Char83 up at *
  simp only [List.mem_cons, List.not_mem_nil, or_false, not_or] at h ⊢
  by_cases hc : 97 ≤ c ∧ c ≤ 122
  · rw [if_pos hc, if_neg (by omega)]
    omega
  · rw [if_neg hc, if_neg hc]
    omega

/-- Case flags of a field. -/
def caps (l : List Nat) : Nat := (if hasUpper l then 2 else 0) + if hasLower l then 1 else 0

theorem caps_lt (l : List Nat) : caps l < 4 := by unfold caps; split <;> split <;> omega

theorem caps_snoc (l : List Nat) (c t : Nat) :
    (if isLower c then (t * 4 + caps l) ||| 1 else if isUpper c then (t * 4 + caps l) ||| 2 else t * 4 + caps l) = t * 4 + caps (l ++ [c]) := by
  have hu : hasUpper (l ++ [c]) = (hasUpper l || isUpper c) := by simp [hasUpper, isUpper]
  have hl : hasLower (l ++ [c]) = (hasLower l || isLower c) := by simp [hasLower, isLower]
  have hx : ¬ (isUpper c = true ∧ isLower c = true) := by
    unfold isUpper isLower
    simp
    omega
  have key : ∀ x < 4, (t * 4 + x) ||| 1 = t * 4 + (x ||| 1) ∧ (t * 4 + x) ||| 2 = t * 4 + (x ||| 2) := by
    intro x hx
    have s : ∀ y < 4, t * 4 + y = t <<< 2 ||| y := by
      intro y hy
      rw [← Nat.shiftLeft_add_eq_or_of_lt (by omega) t, Nat.shiftLeft_eq]
    have o : ∀ x < 4, x ||| 1 < 4 ∧ x ||| 2 < 4 := by decide
    rw [s x hx, s _ (o x hx).1, s _ (o x hx).2, Nat.or_assoc, Nat.or_assoc]
    exact ⟨rfl, rfl⟩
  rw [(key _ (caps_lt l)).1, (key _ (caps_lt l)).2]
  unfold caps
  rw [hu, hl]
  cases h1 : hasUpper l <;> cases h2 : hasLower l <;> cases h3 : isUpper c <;> cases h4 : isLower c <;> simp_all

/-- The directory form so far. -/
def FnOk (fn : List Nat) : Prop := fn.length = 11 ∧ ∀ c ∈ fn, FormByte c

theorem fnOk_set {fn : List Nat} (h : FnOk fn) (i : Nat) {c : Nat} (hc : FormByte c) : FnOk (fn.set i c) := by
  refine ⟨by rw [List.length_set]; exact h.1, fun x hx => ?_⟩
  rcases List.mem_or_eq_of_mem_set hx with h1 | h1
  · exact h.2 x h1
  · exact h1 ▸ hc

theorem shortChar_form {u : Nat} (hu : LfnUnit u) (h1 : u ≠ 32) (h2 : u ≠ 46) (b cf : Nat) : FormByte (shortChar u b cf).2.2 := by
  unfold shortChar
  by_cases h : u > 126 ∨ u ∈ illegalShort
  · rw [if_pos h]
    show FormByte 95
    decide
  · rw [if_neg h]
    show FormByte (if isLower u then u - 32 else u)
    rw [up_eq]
    exact up_form ((char83_iff hu).mpr ⟨h1, h2, h⟩)

/-- The loop ends, with legal characters, and never takes back that the form is lossy. -/
theorem shortLoop_def {buf n : List Nat} (hb : Holds buf n) (hu : ∀ u ∈ n, LfnUnit u) {d : Nat} (hd : d = 0 ∨ 0 < d ∧ d ≤ n.length ∧ n[d - 1]? = some 46) {l : Nat} (hl : l = 0 ∨ l = 4) :
    ∀ (k si i : Nat) (s : Short), si ≤ n.length → n.length - si < k → (s.ni = 8 ∨ s.ni = 11) → FnOk s.fn → (s.cf = l ∨ s.cf = l + 3) →
      ∃ s', shortLoop buf d k si i s = some s' ∧ FnOk s'.fn ∧ (s'.cf = l ∨ s'.cf = l + 3) ∧ (s.cf = l + 3 → s'.cf = l + 3)
  | 0, _, _, _, _, hk, _, _, _ => by omega
  | k + 1, si, i, s, hsi, hk, hni, hfn, hcf => by
    have o1 : s.cf ||| 3 = l + 3 := by rcases hcf with h | h <;> rw [h] <;> simp [or3 hl]
    rw [shortLoop]
    by_cases he : si = n.length
    · subst he
      rw [get_end hb]
      simp only
      rw [if_pos trivial]
      exact ⟨s, rfl, hfn, hcf, id⟩
    · have hlt : si < n.length := by omega
      rw [get_unit hb hlt]
      simp only
      have hun := hu _ (List.getElem_mem hlt)
      rw [if_neg (by have := hun.1; omega)]
      by_cases h1 : n[si] = 32 ∨ n[si] = 46 ∧ si + 1 ≠ d
      · rw [if_pos h1]
        obtain ⟨s', e, a, b, c⟩ := shortLoop_def hb hu hd hl k (si + 1) i { s with cf := s.cf ||| 3 } (by omega) (by omega) hni hfn (.inr o1)
        exact ⟨s', e, a, b, fun _ => c o1⟩
      · rw [if_neg h1]
        by_cases h2 : i ≥ s.ni ∨ si + 1 = d
        · rw [if_pos h2]
          unfold field
          by_cases h3 : s.ni = 11
          · rw [if_pos h3]
            exact ⟨_, rfl, hfn, .inr o1, fun _ => o1⟩
          · rw [if_neg h3]
            have o2 : (if si + 1 ≠ d then s.cf ||| 3 else s.cf) = l ∨ (if si + 1 ≠ d then s.cf ||| 3 else s.cf) = l + 3 := by
              split
              · exact .inr o1
              · exact hcf
            have o3 : s.cf = l + 3 → (if si + 1 ≠ d then s.cf ||| 3 else s.cf) = l + 3 := by
              intro h
              split
              · exact o1
              · exact h
            by_cases h4 : si + 1 > d
            · rw [if_pos h4]
              exact ⟨_, rfl, hfn, o2, o3⟩
            · rw [if_neg h4]
              obtain ⟨s', e, a, b, c⟩ := shortLoop_def hb hu hd hl k d 8 { s with cf := if si + 1 ≠ d then s.cf ||| 3 else s.cf, ni := 11, b := s.b * 4 % 256 } (by omega) (by omega) (.inr rfl) hfn o2
              exact ⟨s', e, a, b, fun h => c (o3 h)⟩
        · rw [if_neg h2, if_pos (by have := hfn.1; omega)]
          have h46 : n[si] ≠ 46 := by omega
          have o4 : (shortChar n[si] s.b s.cf).2.1 = l ∨ (shortChar n[si] s.b s.cf).2.1 = l + 3 := by
            unfold shortChar
            split
            · exact .inr o1
            · exact hcf
          have o5 : s.cf = l + 3 → (shortChar n[si] s.b s.cf).2.1 = l + 3 := by
            intro h
            unfold shortChar
            split
            · exact o1
            · exact h
          obtain ⟨s', e, a, b, c⟩ := shortLoop_def hb hu hd hl k (si + 1) (i + 1)
            { s with b := (shortChar n[si] s.b s.cf).1, cf := (shortChar n[si] s.b s.cf).2.1, fn := s.fn.set i (shortChar n[si] s.b s.cf).2.2 } (by omega) (by omega) hni
            (fnOk_set hfn i (shortChar_form hun (by omega) h46 _ _)) o4
          exact ⟨s', e, a, b, fun h => c (o5 h)⟩

/-- A character of a field. -/
theorem step_char {buf n : List Nat} (hb : Holds buf n) {d k si i : Nat} {s : Short} (hlt : si < n.length) (hc : Char83 n[si]) (hi : i < s.ni) (hd : si + 1 ≠ d) (hf : i < s.fn.length) :
    shortLoop buf d (k + 1) si i s = shortLoop buf d k (si + 1) (i + 1)
      { s with b := (if isLower n[si] then s.b ||| 1 else if isUpper n[si] then s.b ||| 2 else s.b), fn := s.fn.set i (up n[si]) } := by
  have hx : n[si] ≠ 0 ∧ n[si] ≠ 32 ∧ n[si] ≠ 46 ∧ ¬ (n[si] > 126 ∨ n[si] ∈ illegalShort) := by
    unfold Char83 illegalShort at *
    simp only [List.mem_cons, List.not_mem_nil, or_false, not_or] at hc ⊢
    omega
  rw [shortLoop, get_unit hb hlt]
  simp only
  rw [if_neg hx.1, if_neg (by omega), if_neg (by omega), if_pos hf]
  unfold shortChar
  rw [if_neg hx.2.2.2]
  simp only [up_eq]

/-- A character that makes the form lossy. -/
theorem step_bad {buf n : List Nat} (hb : Holds buf n) (hu : ∀ u ∈ n, LfnUnit u) {d : Nat} (hd : d = 0 ∨ 0 < d ∧ d ≤ n.length ∧ n[d - 1]? = some 46) {l : Nat} (hl : l = 0 ∨ l = 4)
    {k si i : Nat} {s : Short} (hlt : si < n.length) (hc : ¬ (Char83 n[si] ∧ i < s.ni)) (hsd : si + 1 ≠ d) (hk : n.length - si < k) (hni : s.ni = 8 ∨ s.ni = 11) (hfn : FnOk s.fn) (hcf : s.cf = l) :
    ∃ s', shortLoop buf d k si i s = some s' ∧ s'.cf = l + 3 := by
  obtain ⟨k, rfl⟩ : ∃ j, k = j + 1 := ⟨k - 1, by omega⟩
  have hun := hu _ (List.getElem_mem hlt)
  have o1 : s.cf ||| 3 = l + 3 := by rw [hcf, (or3 hl).1]
  rw [shortLoop, get_unit hb hlt]
  simp only
  rw [if_neg (by have := hun.1; omega)]
  by_cases h1 : n[si] = 32 ∨ n[si] = 46 ∧ si + 1 ≠ d
  · rw [if_pos h1]
    obtain ⟨s', e, a, b, c⟩ := shortLoop_def hb hu hd hl k (si + 1) i { s with cf := s.cf ||| 3 } (by omega) (by omega) hni hfn (.inr o1)
    exact ⟨s', e, c o1⟩
  · rw [if_neg h1]
    by_cases h2 : i ≥ s.ni ∨ si + 1 = d
    · rw [if_pos h2]
      unfold field
      by_cases h3 : s.ni = 11
      · rw [if_pos h3]
        exact ⟨_, rfl, o1⟩
      · rw [if_neg h3]
        by_cases h4 : si + 1 > d
        · rw [if_pos h4]
          refine ⟨_, rfl, ?_⟩
          simp only
          rw [if_pos hsd, o1]
        · rw [if_neg h4]
          have o2 : (if si + 1 ≠ d then s.cf ||| 3 else s.cf) = l + 3 := by rw [if_pos hsd, o1]
          obtain ⟨s', e, a, b, c⟩ := shortLoop_def hb hu hd hl k d 8 { s with cf := if si + 1 ≠ d then s.cf ||| 3 else s.cf, ni := 11, b := s.b * 4 % 256 } (by omega) (by omega) (.inr rfl) hfn (.inr o2)
          exact ⟨s', e, c o2⟩
    · rw [if_neg h2, if_pos (by have := hfn.1; omega)]
      have h46 : n[si] ≠ 46 := by omega
      have hbad : n[si] > 126 ∨ n[si] ∈ illegalShort := by
        by_cases hx : n[si] > 126 ∨ n[si] ∈ illegalShort
        · exact hx
        · exact absurd ⟨(char83_iff hun).mpr ⟨by omega, h46, hx⟩, by omega⟩ hc
      have o4 : (shortChar n[si] s.b s.cf).2.1 = l + 3 := by
        unfold shortChar
        rw [if_pos hbad, o1]
      obtain ⟨s', e, a, b, c⟩ := shortLoop_def hb hu hd hl k (si + 1) (i + 1)
        { s with b := (shortChar n[si] s.b s.cf).1, cf := (shortChar n[si] s.b s.cf).2.1, fn := s.fn.set i (shortChar n[si] s.b s.cf).2.2 } (by omega) (by omega) hni
        (fnOk_set hfn i (shortChar_form hun (by omega) h46 _ _)) (.inr o4)
      exact ⟨s', e, c o4⟩

theorem set_pad (l : List Nat) (q : List Nat) (m c : Nat) (x : Nat) (hx : x = l.length) :
    (l ++ List.replicate (m + 1) 32 ++ q).set x c = l ++ [c] ++ List.replicate m 32 ++ q := by
  subst hx
  simp [List.replicate_succ, List.append_assoc]

theorem fnOk_parts {p done q : List Nat} {m : Nat} (hp : ∀ c ∈ p, FormByte c) (hq : ∀ c ∈ q, FormByte c) (hd : ∀ c ∈ done, Char83 c) (hl : p.length + done.length + m + q.length = 11) :
    FnOk (p ++ done.map up ++ List.replicate m 32 ++ q) := by
  refine ⟨by simp; omega, fun c hc => ?_⟩
  simp only [List.mem_append, List.mem_map, List.mem_replicate] at hc
  rcases hc with ((h | ⟨a, h, rfl⟩) | ⟨_, rfl⟩) | h
  · exact hp c h
  · exact up_form (hd a h)
  · left; rfl
  · exact hq c h

/-- A field: `p` and `q` are the bytes before and after it, `w` its width, `z` the characters that belong to it, starting at index `o` of the name. -/
theorem field_run {buf n : List Nat} (hb : Holds buf n) (hu : ∀ u ∈ n, LfnUnit u) {d : Nat} (hd : d = 0 ∨ 0 < d ∧ d ≤ n.length ∧ n[d - 1]? = some 46) {l : Nat} (hl : l = 0 ∨ l = 4)
    {p q z : List Nat} {o w t k : Nat} {ni : Nat} (hni : ni = p.length + w) (hni2 : ni = 8 ∨ ni = 11) (hp : ∀ c ∈ p, FormByte c) (hq : ∀ c ∈ q, FormByte c) (hlen : p.length + w + q.length = 11)
    (ho : o + z.length ≤ n.length) (hz : ∀ j (h : j < z.length), n[o + j]? = some z[j]) (hdz : ∀ j < z.length, o + j + 1 ≠ d) (hk : n.length - (o + z.length) < k) :
    ∀ (rest done : List Nat), z = done ++ rest → (∀ c ∈ done, Char83 c) → done.length ≤ w →
      (¬ ((∀ c ∈ z, Char83 c) ∧ z.length ≤ w) ∧
        ∃ s', shortLoop buf d (rest.length + k) (o + done.length) (p.length + done.length) ⟨ni, t * 4 + caps done, l, p ++ done.map up ++ List.replicate (w - done.length) 32 ++ q⟩ = some s' ∧ s'.cf = l + 3) ∨
      (((∀ c ∈ z, Char83 c) ∧ z.length ≤ w) ∧
        shortLoop buf d (rest.length + k) (o + done.length) (p.length + done.length) ⟨ni, t * 4 + caps done, l, p ++ done.map up ++ List.replicate (w - done.length) 32 ++ q⟩ =
        shortLoop buf d k (o + z.length) (p.length + z.length) ⟨ni, t * 4 + caps z, l, p ++ z.map up ++ List.replicate (w - z.length) 32 ++ q⟩) := by
  intro rest
  induction rest with
  | nil =>
    intro done he hc hw
    rw [List.append_nil] at he
    subst he
    right
    exact ⟨⟨hc, hw⟩, by rw [List.length_nil, Nat.zero_add]⟩
  | cons c rest ih =>
    intro done he hc hw
    have hzl : z.length = done.length + rest.length + 1 := by rw [he]; simp; omega
    have hlt : o + done.length < n.length := by omega
    have hget : n[o + done.length] = c := by
      have h1 := hz done.length (by omega)
      rw [List.getElem?_eq_getElem hlt] at h1
      have h2 : z[done.length]? = some c := by rw [he]; simp
      rw [List.getElem?_eq_getElem (by omega)] at h2
      simp only [Option.some.injEq] at h1 h2
      rw [h1, h2]
    have hsd := hdz done.length (by omega)
    by_cases hg : Char83 c ∧ done.length < w
    · have hfn : FnOk (p ++ done.map up ++ List.replicate (w - done.length) 32 ++ q) := fnOk_parts hp hq hc (by omega)
      have e1 : p ++ done.map up ++ List.replicate (w - done.length) 32 ++ q = (p ++ done.map up) ++ List.replicate ((w - done.length - 1) + 1) 32 ++ q := by
        rw [show w - done.length - 1 + 1 = w - done.length by omega]
      have e2 : (p ++ done.map up ++ List.replicate (w - done.length) 32 ++ q).set (p.length + done.length) (up c) =
          p ++ (done ++ [c]).map up ++ List.replicate (w - (done ++ [c]).length) 32 ++ q := by
        rw [e1, set_pad _ _ _ _ _ (by simp)]
        simp [Nat.sub_sub]
      have step := step_char (k := rest.length + k) (i := p.length + done.length) (s := ⟨ni, t * 4 + caps done, l, p ++ done.map up ++ List.replicate (w - done.length) 32 ++ q⟩)
        hb hlt (by rw [hget]; exact hg.1) (by simp only; omega) hsd (by have := hfn.1; simp only; omega)
      rw [show (c :: rest).length + k = rest.length + k + 1 by simp; omega, step, hget]
      simp only
      rw [caps_snoc, e2]
      have := ih (done ++ [c]) (by rw [he]; simp) (by
        intro x hx
        rcases List.mem_append.mp hx with h | h
        · exact hc x h
        · rw [List.mem_singleton.mp h]; exact hg.1) (by simp; omega)
      rw [show o + (done ++ [c]).length = o + done.length + 1 by simp; omega, show p.length + (done ++ [c]).length = p.length + done.length + 1 by simp; omega] at this
      exact this
    · left
      refine ⟨fun ⟨h1, h2⟩ => hg ⟨h1 c (by rw [he]; simp), by omega⟩, ?_⟩
      exact step_bad hb hu hd hl hlt (by rw [hget]; simp only; intro h; exact hg ⟨h.1, by omega⟩) hsd (by simp; omega) hni2 (fnOk_parts hp hq hc (by omega)) rfl

end Fpm.Names
