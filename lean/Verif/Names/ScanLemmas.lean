import Verif.Names.FormLemmas
import Verif.TextIo.DecLemmas
import Verif.Glob.BoundLemmas
/-!
# Reading a segment of a path
-/
namespace Fpm.Names
open Fpm.Names.Spec Fpm.Lfn Fpm.Lfn.Spec Fpm.TextIo Fpm.TextIo.Spec

/-- UTF-16 units of a character. -/
def unit (c : Nat) : List Nat := if c < 0x10000 then [c] else [0xD800 + (c - 0x10000) / 1024, 0xDC00 + (c - 0x10000) % 1024]

theorem units_cons (c : Nat) (cs : List Nat) : units (c :: cs) = unit c ++ units cs := by simp [units, unit]

theorem units_nil : units [] = [] := rfl

theorem units_append (a b : List Nat) : units (a ++ b) = units a ++ units b := by simp [units]

theorem unit_lfn {c : Nat} (h : NameChar c) : ∀ u ∈ unit c, LfnUnit u := by
  obtain ⟨⟨h1, h2⟩, h3, h4⟩ := h
  unfold unit LfnUnit
  intro u hu
  split at hu
  · rw [List.mem_singleton.mp hu]
    exact ⟨h3, by omega, h4⟩
  · simp only [List.mem_cons, List.not_mem_nil, or_false, not_or] at hu ⊢
    omega

theorem units_lfn {cs : List Nat} (h : ∀ c ∈ cs, NameChar c) : ∀ u ∈ units cs, LfnUnit u := by
  intro u hu
  obtain ⟨c, hc, hu⟩ := List.mem_flatMap.mp hu
  exact unit_lfn (h c hc) u hu

/-- The buffer starts with the units. -/
def Starts (buf n : List Nat) : Prop := buf.length = 256 ∧ n <+: buf

theorem starts_set {buf n : List Nat} (h : Starts buf n) (hl : n.length < 256) (c : Nat) : Starts (buf.set n.length c) (n ++ [c]) := by
  obtain ⟨h1, t, rfl⟩ := h
  refine ⟨by simpa using h1, ?_⟩
  cases t with
  | nil => simp at h1; omega
  | cons x t => exact ⟨t, by simp⟩

theorem store_some {buf : List Nat} {i : Nat} (h : i < buf.length) (c : Nat) : store buf i c = some (buf.set i c) := by
  unfold store
  rw [if_pos h]

theorem isSep_iff {c : Nat} : isSep c = true ↔ c = 47 ∨ c = 92 := by simp [isSep]

theorem utf16_small {c : Nat} (h : c < 0x10000) : utf16 c = c := by unfold utf16; rw [if_pos h]

theorem utf16_split {c : Nat} (h : Scalar c) (hc : ¬ c < 0x10000) :
    utf16 c ≥ 0x10000 ∧ utf16 c / 65536 = 0xD800 + (c - 0x10000) / 1024 ∧ utf16 c % 65536 = 0xDC00 + (c - 0x10000) % 1024 := by
  unfold utf16
  rw [if_neg hc]
  have := h.1
  omega

/-- What one round does with a character of the name. -/
theorem scan_char {k : Nat} {p r buf done : List Nat} {c : Nat} (hs : Scalar c) (ht : tchar2uni p = some (some (utf16 c, r))) (hb : Starts buf done) (hd : done.length ≤ 255) :
    (NameChar c → if (done ++ unit c).length ≤ 255 then ∃ buf', Starts buf' (done ++ unit c) ∧ scan (k + 1) p buf done.length = scan k r buf' (done ++ unit c).length else scan (k + 1) p buf done.length = .bad) ∧
    (c < 32 ∨ c = 47 ∨ c = 92 → scan (k + 1) p buf done.length = .done buf done.length c r) ∧
    (¬ NameChar c → ¬ (c < 32 ∨ c = 47 ∨ c = 92) → scan (k + 1) p buf done.length = .bad) := by
  by_cases hc : c < 0x10000
  · have e : scan (k + 1) p buf done.length = if c < 32 ∨ isSep c then .done buf done.length c r else if c ∈ illegal then .bad else if done.length ≥ 255 then .bad else scan k r (buf.set done.length c) (done.length + 1) := by
      rw [scan, ht]
      simp only
      unfold high
      rw [utf16_small hc, if_neg (by omega)]
      simp only
      rw [Nat.mod_eq_of_lt hc, store_some (by have := hb.1; omega)]
    rw [e]
    refine ⟨fun hn => ?_, fun ht => ?_, fun hn ht => ?_⟩
    · have hl := unit_lfn hn c (by simp [unit, hc])
      have hu : unit c = [c] := by simp [unit, hc]
      obtain ⟨h1, h2, h3⟩ := hl
      simp only [List.mem_cons, List.not_mem_nil, or_false, not_or] at h3
      rw [if_neg (c := c < 32 ∨ isSep c) (by rw [isSep_iff]; omega), if_neg (c := c ∈ illegal) (by simp [illegal]; omega), hu]
      by_cases hl : (done ++ [c]).length ≤ 255
      · rw [if_pos hl]
        simp at hl
        rw [if_neg (by omega)]
        exact ⟨_, starts_set hb (by omega) c, by simp⟩
      · rw [if_neg hl]
        simp at hl
        rw [if_pos (by omega)]
    · rw [if_pos (by rw [isSep_iff]; omega)]
    · rw [if_neg (by rw [isSep_iff]; omega)]
      have : c ∈ illegal := by
        unfold NameChar at hn
        unfold illegal
        have hm : c ∈ [34, 42, 47, 58, 60, 62, 63, 92, 124, 127] := Classical.byContradiction fun h => hn ⟨hs, by omega, h⟩
        simp only [List.mem_cons, List.not_mem_nil, or_false] at hm ⊢
        omega
      rw [if_pos this]
  · obtain ⟨e1, e2, e3⟩ := utf16_split hs hc
    have hb1 := hs.1
    have hu : unit c = [0xD800 + (c - 0x10000) / 1024] ++ [0xDC00 + (c - 0x10000) % 1024] := by simp [unit, hc]
    have hb2 := starts_set hb (by omega) (0xD800 + (c - 0x10000) / 1024)
    have e : scan (k + 1) p buf done.length = if done.length + 1 ≥ 255 then .bad else
        scan k r ((buf.set done.length (0xD800 + (c - 0x10000) / 1024)).set (done.length + 1) (0xDC00 + (c - 0x10000) % 1024)) (done.length + 1 + 1) := by
      rw [scan, ht]
      simp only
      unfold high
      rw [if_pos e1, e2, e3, store_some (by have := hb.1; omega)]
      simp only [Option.map_some]
      rw [if_neg (by rw [isSep_iff]; omega), if_neg (by simp [illegal]; omega)]
      split
      · rfl
      · rw [store_some (by have := hb2.1; omega)]
    rw [e]
    refine ⟨fun hn => ?_, fun ht => by omega, fun hn ht => ?_⟩
    · by_cases hl : (done ++ unit c).length ≤ 255
      · rw [if_pos hl]
        rw [hu] at hl ⊢
        simp at hl
        rw [if_neg (by omega)]
        have hb3 := starts_set hb2 (by simp; omega) (0xDC00 + (c - 0x10000) % 1024)
        rw [show (done ++ [0xD800 + (c - 0x10000) / 1024]).length = done.length + 1 by simp] at hb3
        refine ⟨_, by rw [← List.append_assoc]; exact hb3, by simp⟩
      · rw [if_neg hl]
        rw [hu] at hl
        simp at hl
        rw [if_pos (by omega)]
    · exact absurd ⟨hs, by omega, by simp only [List.mem_cons, List.not_mem_nil, or_false]; omega⟩ hn

/-- Any bytes with a zero among them. -/
theorem scan_any : ∀ (k : Nat) (p buf done : List Nat), 0 ∈ p → (∀ b ∈ p, b < 256) → p.length < k → Starts buf done → done.length ≤ 255 →
    scan k p buf done.length = .bad ∨ ∃ seg cs wc r buf', p = seg ++ wc :: r ∧ Spells seg cs ∧ (∀ c ∈ cs, NameChar c) ∧ (wc < 32 ∨ wc = 47 ∨ wc = 92) ∧
      (done ++ units cs).length ≤ 255 ∧ Starts buf' (done ++ units cs) ∧ scan k p buf done.length = .done buf' (done ++ units cs).length wc r
  | 0, _, _, _, _, _, hk, _, _ => by omega
  | k + 1, p, buf, done, h0, hb, hk, hs, hd => by
    cases ht : tchar2uni p with
    | none => exact absurd ht (tchar2uni_ne_none p (.inl h0))
    | some x =>
      cases x with
      | none => left; rw [scan, ht]
      | some x =>
        obtain ⟨w, r⟩ := x
        obtain ⟨c, hc, rfl, o, ho, hsp⟩ := tchar2uni_sound p hb w r ht
        obtain ⟨f1, f2, f3⟩ := scan_char (k := k) hc ht hs hd
        by_cases h1 : NameChar c
        · have g := f1 h1
          split at g
          · rename_i hl
            obtain ⟨buf', hb', e⟩ := g
            have hne : utf16 c ≠ 0 := by
              have := h1.2.1
              unfold utf16
              split <;> omega
            have hz := Fpm.Glob.tchar_zero h0 ht hne
            have ih := scan_any k r buf' (done ++ unit c) hz.1 (fun b hbr => hb b (by rw [ho]; exact List.mem_append_right _ hbr)) (by omega) hb' hl
            rw [e]
            rcases ih with ih | ⟨seg, cs, wc, r', buf'', e1, e2, e3, e4, e5, e6, e7⟩
            · exact .inl ih
            · right
              refine ⟨o ++ seg, c :: cs, wc, r', buf'', by rw [ho, e1]; simp, .cons hsp e2, ?_, e4, ?_, ?_, ?_⟩
              · intro x hx
                rcases List.mem_cons.mp hx with rfl | hx
                · exact h1
                · exact e3 x hx
              · rw [units_cons, ← List.append_assoc]; exact e5
              · rw [units_cons, ← List.append_assoc]; exact e6
              · rw [units_cons, ← List.append_assoc]; exact e7
          · exact .inl g
        · by_cases h2 : c < 32 ∨ c = 47 ∨ c = 92
          · right
            have hoe : o = [c] := by
              rcases hsp with rfl | h
              · unfold uenc; rw [if_pos (by omega)]
              · omega
            refine ⟨[], [], c, r, buf, by rw [ho, hoe]; rfl, .nil, by simp, h2, by simpa [units_nil] using hd, by simpa [units_nil] using hs, ?_⟩
            rw [f2 h2, units_nil, List.append_nil]
          · exact .inl (f3 h1 h2)

theorem name_scalar {c : Nat} (h : NameChar c) : Scalar c := h.1

/-- Correct text, up to a terminator or separator. -/
theorem scan_text : ∀ (cs : List Nat) (k : Nat) (buf done : List Nat) (wc : Nat) (r : List Nat), (∀ c ∈ cs, NameChar c) → (wc < 32 ∨ wc = 47 ∨ wc = 92) → cs.length < k → Starts buf done → done.length ≤ 255 →
    if (done ++ units cs).length ≤ 255 then ∃ buf', Starts buf' (done ++ units cs) ∧ scan k (text cs ++ wc :: r) buf done.length = .done buf' (done ++ units cs).length wc r
    else scan k (text cs ++ wc :: r) buf done.length = .bad
  | [], k, buf, done, wc, r, _, hw, hk, hs, hd => by
    obtain ⟨k, rfl⟩ : ∃ j, k = j + 1 := ⟨k - 1, by simp at hk; omega⟩
    rw [units_nil, List.append_nil, if_pos hd]
    have hsc : Scalar wc := ⟨by omega, by omega⟩
    have ht := tchar2uni_enc wc hsc r
    have he : uenc wc = [wc] := by unfold uenc; rw [if_pos (by omega)]
    rw [he] at ht
    exact ⟨buf, hs, (scan_char hsc ht hs hd).2.1 hw⟩
  | c :: cs, k, buf, done, wc, r, hc, hw, hk, hs, hd => by
    obtain ⟨k, rfl⟩ : ∃ j, k = j + 1 := ⟨k - 1, by simp at hk; omega⟩
    have hn := hc c (by simp)
    have ht := tchar2uni_enc c hn.1 (text cs ++ wc :: r)
    have g := (scan_char (k := k) hn.1 ht hs hd).1 hn
    rw [show text (c :: cs) ++ wc :: r = uenc c ++ (text cs ++ wc :: r) by simp [text], units_cons, ← List.append_assoc]
    split at g
    · rename_i hl
      obtain ⟨buf', hb', e⟩ := g
      rw [e]
      exact scan_text cs k buf' _ wc r (fun x hx => hc x (by simp [hx])) hw (by simp at hk; omega) hb' hl
    · rename_i hl
      rw [if_neg (by simp only [List.length_append] at hl ⊢; omega)]
      exact g

/-! ## The rest -/

theorem trimmed_append (cs : List Nat) : ∃ z, cs = trimmed cs ++ z ∧ ∀ c ∈ z, c = 32 ∨ c = 46 := by
  refine ⟨(cs.reverse.takeWhile fun c => c = 32 || c = 46).reverse, ?_, ?_⟩
  · unfold trimmed
    rw [← List.reverse_append, List.takeWhile_append_dropWhile, List.reverse_reverse]
  · intro c hc
    have key : ∀ l : List Nat, ∀ c ∈ l.takeWhile fun c => decide (c = 32) || decide (c = 46), c = 32 ∨ c = 46 := by
      intro l
      induction l with
      | nil => simp
      | cons x l ih =>
        intro c hc
        rw [List.takeWhile_cons] at hc
        split at hc
        · rename_i hx
          rcases List.mem_cons.mp hc with rfl | hc
          · simpa using hx
          · exact ih c hc
        · cases hc
    exact key _ c (List.mem_reverse.mp hc)

theorem trimmed_end (cs : List Nat) (c : Nat) (h : (trimmed cs).getLast? = some c) : c ≠ 32 ∧ c ≠ 46 := by
  unfold trimmed at h
  rw [List.getLast?_reverse] at h
  have := List.head?_dropWhile_not (p := fun c => decide (c = 32) || decide (c = 46)) (l := cs.reverse)
  rw [h] at this
  simpa using this

theorem units_trail {z : List Nat} (h : ∀ c ∈ z, c = 32 ∨ c = 46) : units z = z := by
  induction z with
  | nil => rfl
  | cons c z ih =>
    have hc := h c (by simp)
    rw [units_cons, ih (fun x hx => h x (by simp [hx]))]
    unfold unit
    rw [if_pos (by omega)]
    rfl

theorem unit_last {c : Nat} (hc : c ≠ 32 ∧ c ≠ 46) : ∃ a u, unit c = a ++ [u] ∧ u ≠ 32 ∧ u ≠ 46 := by
  unfold unit
  split
  · exact ⟨[], c, rfl, hc⟩
  · exact ⟨[_], _, rfl, by omega, by omega⟩

theorem endsWell_trimmed (cs : List Nat) : EndsWell (units (trimmed cs)) := by
  intro u hu
  rcases List.eq_nil_or_concat (trimmed cs) with e | ⟨m, c, e⟩
  · rw [e] at hu
    cases hu
  · have hc := trimmed_end cs c (by rw [e]; simp)
    obtain ⟨a, v, h1, h2⟩ := unit_last hc
    rw [e, List.concat_eq_append, units_append, units_cons, units_nil, List.append_nil, h1, ← List.append_assoc, List.getLast?_append] at hu
    simp at hu
    exact hu ▸ h2

theorem trim_spec {buf n : List Nat} (hw : EndsWell n) : ∀ (z : List Nat), (∀ c ∈ z, c = 32 ∨ c = 46) → ∀ t, buf = n ++ z.reverse ++ t → trim buf (n ++ z.reverse).length = some n.length
  | [], _, t, e => by
    rw [List.reverse_nil, List.append_nil]
    rw [List.reverse_nil, List.append_nil] at e
    rcases List.eq_nil_or_concat n with h | ⟨m, c, h⟩
    · subst h; rfl
    · rw [List.concat_eq_append] at h
      subst h
      have hc := hw c (by simp)
      rw [show (m ++ [c]).length = m.length + 1 by simp, trim, show buf[m.length]? = some c by rw [e]; simp]
      simp only
      rw [if_pos hc]
  | c :: z, hz, t, e => by
    have hc := hz c (by simp)
    have hl : (n ++ (c :: z).reverse).length = (n ++ z.reverse).length + 1 := by simp; omega
    have e' : buf = n ++ z.reverse ++ c :: t := by rw [e]; simp
    rw [hl, trim, show buf[(n ++ z.reverse).length]? = some c by rw [e']; simp]
    simp only
    rw [if_neg (by omega)]
    exact trim_spec hw z (fun x hx => hz x (by simp [hx])) _ e'

theorem skipSep_spec : ∀ (s : List Nat) (b : Nat) (z : List Nat), (∀ c ∈ s, c = 47 ∨ c = 92) → b ≠ 47 → b ≠ 92 → skipSep (s ++ b :: z) = some (b :: z)
  | [], b, z, _, h1, h2 => by
    rw [List.nil_append, skipSep, if_neg (by rw [isSep_iff]; omega)]
  | c :: s, b, z, h, h1, h2 => by
    rw [List.cons_append, skipSep, if_pos (isSep_iff.mpr (h c (by simp)))]
    exact skipSep_spec s b z (fun x hx => h x (by simp [hx])) h1 h2

/-- What follows the segment. -/
theorem tail_spec {t rest : List Nat} {last : Bool} (h : Tail t last rest) : ∃ wc r, t = wc :: r ∧ (wc < 32 ∨ wc = 47 ∨ wc = 92) ∧ segEnd wc r = some (if last then 4 else 0, rest) := by
  cases h with
  | fin hb =>
    refine ⟨_, _, rfl, .inl hb, ?_⟩
    unfold segEnd
    rw [if_pos hb]
    rfl
  | @sep s b z hs hc h1 h2 =>
    cases s with
    | nil => exact absurd rfl hs
    | cons c s =>
      have hc0 := hc c (by simp)
      refine ⟨c, s ++ b :: z, rfl, .inr hc0, ?_⟩
      unfold segEnd
      rw [if_neg (by omega), skipSep_spec s b z (fun x hx => hc x (by simp [hx])) h1 h2]
      simp

/-- Some tail follows in any path with a zero. -/
theorem tail_exists {wc : Nat} {r : List Nat} (h : wc < 32 ∨ wc = 47 ∨ wc = 92) (h0 : 0 ∈ wc :: r) : ∃ last rest, Tail (wc :: r) last rest := by
  by_cases hw : wc < 32
  · exact ⟨_, _, .fin hw⟩
  · have key : ∀ r : List Nat, 0 ∈ r → ∃ s b z, r = s ++ b :: z ∧ (∀ c ∈ s, c = 47 ∨ c = 92) ∧ b ≠ 47 ∧ b ≠ 92 := by
      intro r
      induction r with
      | nil => intro h; cases h
      | cons x r ih =>
        intro h0
        by_cases hx : x = 47 ∨ x = 92
        · obtain ⟨s, b, z, e, h1, h2⟩ := ih (by
            rcases List.mem_cons.mp h0 with h | h
            · omega
            · exact h)
          refine ⟨x :: s, b, z, by rw [e]; rfl, ?_, h2⟩
          intro c hc
          rcases List.mem_cons.mp hc with rfl | hc
          · exact hx
          · exact h1 c hc
        · exact ⟨[], x, r, rfl, by simp, by omega, by omega⟩
    obtain ⟨s, b, z, e, h1, h2, h3⟩ := key r (by
      rcases List.mem_cons.mp h0 with h | h
      · omega
      · exact h)
    refine ⟨decide (b < 32), b :: z, ?_⟩
    rw [e]
    exact Tail.sep (s := wc :: s) (by simp) (by
      intro c hc
      rcases List.mem_cons.mp hc with rfl | hc
      · omega
      · exact h1 c hc) h2 h3

theorem isDot_spec {buf cs : List Nat} (h : ∀ c ∈ cs, NameChar c) (hs : Starts buf (units cs)) : isDot buf (units cs).length = true ↔ cs = [46] ∨ cs = [46, 46] := by
  obtain ⟨hl, t, rfl⟩ := hs
  have hu : ∀ c, NameChar c → (unit c = [c] ∧ c < 0x10000) ∨ (∃ u v, unit c = [u, v] ∧ 0xD800 ≤ u ∧ ¬ c < 0x10000) := by
    intro c hc
    unfold unit
    split
    · exact .inl ⟨rfl, by assumption⟩
    · exact .inr ⟨_, _, rfl, by omega, by assumption⟩
  have hne : ∀ c, unit c ≠ [] := by
    intro c
    unfold unit
    split <;> simp
  unfold isDot
  constructor
  · intro hd
    match cs, h with
    | [], _ => simp [units_nil] at hd
    | [c], h =>
      rcases hu c (h c (by simp)) with ⟨e, _⟩ | ⟨u, v, e, h1, h2⟩
      · simp [units_cons, units_nil, e] at hd ⊢
        exact hd
      · simp [units_cons, units_nil, e] at hd
        omega
    | [c, d], h =>
      rcases hu c (h c (by simp)) with ⟨e, _⟩ | ⟨u, v, e, h1, h2⟩
      · rcases hu d (h d (by simp)) with ⟨e', _⟩ | ⟨u', v', e', _⟩
        · simp [units_cons, units_nil, e, e'] at hd ⊢
          exact ⟨hd.2, hd.1⟩
        · simp [units_cons, units_nil, e, e'] at hd
      · have := List.length_pos_iff.mpr (hne d)
        simp [units_cons, units_nil, e] at hd
        omega
    | c :: d :: e :: cs, _ =>
      have h1 := List.length_pos_iff.mpr (hne c)
      have h2 := List.length_pos_iff.mpr (hne d)
      have h3 := List.length_pos_iff.mpr (hne e)
      simp [units_cons] at hd
      omega
  · rintro (rfl | rfl) <;> simp [units]

theorem holds_set {buf n : List Nat} (h : Starts buf n) (hl : n.length ≤ 255) : Holds (buf.set n.length 0) n := by
  have := starts_set h (by omega) 0
  exact ⟨this.1, this.2⟩

/-- From the end of the first loop to the result. -/
theorem finish {buf cs : List Nat} (h : ∀ c ∈ cs, NameChar c) (hs : Starts buf (units cs)) (hl : (units cs).length ≤ 255) (last : Bool) (rest : List Nat) :
    (Good cs ∧ ∃ buf' fn fl, (if isDot buf (units cs).length then dotName buf (units cs).length (if last then 4 else 0) rest else plainName buf (units cs).length (if last then 4 else 0) rest) = .ok buf' fn fl rest ∧ Named cs last buf' fn fl) ∨
    (¬ Good cs ∧ (if isDot buf (units cs).length then dotName buf (units cs).length (if last then 4 else 0) rest else plainName buf (units cs).length (if last then 4 else 0) rest) = .bad) := by
  by_cases hd : cs = [46] ∨ cs = [46, 46]
  · left
    rw [if_pos ((isDot_spec h hs).mpr hd)]
    have hu : units cs = cs := units_trail (by rcases hd with rfl | rfl <;> simp)
    refine ⟨⟨hl, by rcases hd with h | h <;> simp [h]⟩, ?_⟩
    unfold dotName
    rw [store_some (by have := hs.1; omega)]
    refine ⟨_, _, _, rfl, ⟨fun _ => ⟨by rw [hu] at hs ⊢; exact holds_set hs (by rcases hd with rfl | rfl <;> simp), ?_, ?_⟩, fun h => absurd hd h⟩⟩
    · rcases hd with rfl | rfl <;> simp [units, pad]
    · cases last <;> decide
  · rw [if_neg (fun h' => hd ((isDot_spec h hs).mp h'))]
    obtain ⟨z, hz, hzc⟩ := trimmed_append cs
    have hn : ∀ c ∈ trimmed cs, NameChar c := fun c hc => h c (by rw [hz]; exact List.mem_append_left _ hc)
    have hw := endsWell_trimmed cs
    have huz := units_trail hzc
    have hcs : units cs = units (trimmed cs) ++ z := by
      conv => lhs; rw [hz]
      rw [units_append, huz]
    obtain ⟨hlen, t, ht⟩ := hs
    have htrim := trim_spec (n := units (trimmed cs)) (buf := buf) hw z.reverse (by intro c hc; exact hzc c (List.mem_reverse.mp hc)) t (by rw [List.reverse_reverse, ← hcs, ht])
    rw [List.reverse_reverse, ← hcs] at htrim
    have hle : (units (trimmed cs)).length ≤ 255 := by
      rw [hcs] at hl
      simp at hl
      omega
    unfold plainName
    rw [htrim]
    simp only
    rw [store_some (by omega)]
    simp only
    by_cases he : trimmed cs = []
    · right
      refine ⟨?_, by rw [he]; rfl⟩
      rintro ⟨_, h1 | h1 | h1⟩
      · exact hd (.inl h1)
      · exact hd (.inr h1)
      · exact h1 he
    · left
      have hne : units (trimmed cs) ≠ [] := by
        cases hx : trimmed cs with
        | nil => exact absurd hx he
        | cons c m =>
          rw [units_cons]
          unfold unit
          split <;> simp
      have hst : Starts buf (units (trimmed cs)) := ⟨hlen, ⟨z ++ t, by rw [← List.append_assoc, ← hcs, ht]⟩⟩
      have hh := holds_set hst hle
      rw [if_neg (by have := List.length_pos_iff.mpr hne; omega)]
      obtain ⟨fn, fl, e, hf, hfl⟩ := mkShort_spec hh (units_lfn hn) hne hw (last := last) rfl rest
      exact ⟨⟨hl, .inr (.inr he)⟩, _, fn, fl, e, ⟨fun h => absurd h hd, fun _ => ⟨he, hh, hf, hfl⟩⟩⟩

end Fpm.Names
