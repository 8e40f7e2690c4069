import Verif.Gpio.Spec
/-!
# C110: the command gpio
-/
namespace Fpm.Gpio
open Fpm.Gpio.Spec

/-! ## Numbers -/

theorem weight_digit {c : Nat} (h : Hexadecimal c) : digitOf c = weight c ∧ digitOf c < 16 := by
  unfold digitOf weight
  rcases h with ⟨h1, h2⟩ | ⟨h1, h2⟩ | ⟨h1, h2⟩
  · rw [if_pos ⟨h1, h2⟩, if_pos (by omega)]; omega
  · rw [if_neg (by omega), if_pos (by omega), if_neg (by omega), if_neg (by omega)]; omega
  · rw [if_neg (by omega), if_neg (by omega), if_pos (by omega), if_neg (by omega), if_pos (by omega)]; omega

theorem decimal_digit {c : Nat} (h : Decimal c) : digitOf c = weight c ∧ digitOf c < 10 := by
  have := (weight_digit (.inl h)).1
  refine ⟨this, ?_⟩
  rw [this]
  obtain ⟨h1, h2⟩ := h
  unfold weight
  rw [if_pos (by omega)]; omega

theorem octal_digit {c : Nat} (h : Octal c) : digitOf c = weight c ∧ digitOf c < 8 := by
  obtain ⟨h1, h2⟩ := h
  have := (decimal_digit ⟨h1, by omega⟩).1
  refine ⟨this, ?_⟩
  rw [this]
  unfold weight
  rw [if_pos (by omega)]; omega

/-- What can follow a number. -/
def Stops (rest : List Nat) : Prop := rest = [] ∨ (∃ u, rest = 45 :: u) ∨ ∃ u, rest = 61 :: u

theorem stop_digits {rest : List Nat} (h : Stops rest) {base : Nat} (hb : base ≤ 36) : rest.takeWhile (fun c => digitOf c < base) = [] := by
  have e1 : digitOf 45 = 36 := rfl
  have e2 : digitOf 61 = 36 := rfl
  rcases h with rfl | ⟨u, rfl⟩ | ⟨u, rfl⟩
  · rfl
  · rw [List.takeWhile_cons_of_neg]; rw [e1]; simp; omega
  · rw [List.takeWhile_cons_of_neg]; rw [e2]; simp; omega

theorem fold_value (base : Nat) : ∀ (ds : List Nat) (v : Nat), (∀ c ∈ ds, digitOf c = weight c) → ds.foldl (fun v c => base * v + digitOf c) v = v * base ^ ds.length + value base ds
  | [], v, _ => by simp [value]
  | d :: ds, v, h => by
    rw [List.foldl_cons, fold_value base ds _ (fun c hc => h c (by simp [hc])), h d (by simp), value, List.length_cons, Nat.pow_succ, Nat.add_mul, Nat.mul_comm base v, Nat.mul_assoc, Nat.mul_comm base, Nat.add_assoc]

theorem take_digits {p : Nat → Bool} : ∀ (ds rest : List Nat), (∀ c ∈ ds, p c = true) → rest.takeWhile p = [] → (ds ++ rest).takeWhile p = ds
  | [], rest, _, h => h
  | d :: ds, rest, h1, h => by
    rw [List.cons_append, List.takeWhile_cons_of_pos (h1 d (by simp)), take_digits ds rest (fun c hc => h1 c (by simp [hc])) h]

theorem digits_value {base : Nat} (hb : base ≤ 36) {ds rest : List Nat} (h : ∀ c ∈ ds, digitOf c = weight c ∧ digitOf c < base) (hr : Stops rest) : digits base (ds ++ rest) = value base ds := by
  unfold digits
  rw [take_digits ds rest (fun c hc => by simpa using (h c hc).2) (stop_digits hr hb), fold_value base ds 0 (fun c hc => (h c hc).1)]
  omega

theorem magnitude_oct {s : List Nat} (h : ∀ x u, s = x :: u → x ≠ 120 ∧ x ≠ 88) : magnitude (48 :: s) = digits 8 s := by
  unfold magnitude
  split
  · rename_i h1; injection h1 with _ h1; exact absurd rfl (h _ _ h1).1
  · rename_i h1; injection h1 with _ h1; exact absurd rfl (h _ _ h1).2
  · rename_i h1; injection h1 with _ h1; rw [h1]
  · rename_i h3; exact absurd rfl (h3 s)

theorem magnitude_dec {d : Nat} {s : List Nat} (h : d ≠ 48) : magnitude (d :: s) = digits 10 (d :: s) := by
  unfold magnitude
  split
  · rename_i h1; injection h1 with h1; exact absurd h1 h
  · rename_i h1; injection h1 with h1; exact absurd h1 h
  · rename_i h1; injection h1 with h1; exact absurd h1 h
  · rfl

theorem stops_head {rest : List Nat} (h : Stops rest) {x : Nat} {u : List Nat} (e : rest = x :: u) : x = 45 ∨ x = 61 := by
  rcases h with rfl | ⟨u, rfl⟩ | ⟨u, rfl⟩
  · cases e
  · injection e with e; exact .inl e.symm
  · injection e with e; exact .inr e.symm

theorem magnitude_numeral {t : List Nat} {n : Nat} (h : Numeral t n) {rest : List Nat} (hr : Stops rest) : magnitude (t ++ rest) = n := by
  cases h with
  | dec d ds h1 h2 h3 =>
    rw [List.cons_append, magnitude_dec (by omega), ← List.cons_append]
    refine digits_value (by decide) (fun c hc => ?_) hr
    rcases List.mem_cons.1 hc with rfl | hc
    · exact decimal_digit ⟨by omega, h2⟩
    · exact decimal_digit (h3 c hc)
  | oct ds h1 =>
    rw [List.cons_append, magnitude_oct]
    · exact digits_value (by decide) (fun c hc => octal_digit (h1 c hc)) hr
    · intro x u e
      cases ds with
      | nil => rcases stops_head hr e with rfl | rfl <;> decide
      | cons d ds =>
        injection e with e
        obtain ⟨h2, h3⟩ := h1 d (by simp)
        omega
  | hex x d ds h1 h2 =>
    have e : magnitude ((48 :: x :: d :: ds) ++ rest) = digits 16 ((d :: ds) ++ rest) := by
      rcases h1 with rfl | rfl <;> rfl
    rw [e]
    exact digits_value (by decide) (fun c hc => weight_digit (h2 c hc)) hr

/-- Characters of a number. -/
theorem numeral_chars {t : List Nat} {n : Nat} (h : Numeral t n) : (∀ c ∈ t, c ≠ 45 ∧ c ≠ 61) ∧ ∃ d s, t = d :: s ∧ 48 ≤ d ∧ d ≤ 57 := by
  cases h with
  | dec d ds h1 h2 h3 =>
    refine ⟨fun c hc => ?_, d, ds, rfl, by omega, h2⟩
    rcases List.mem_cons.1 hc with rfl | hc
    · omega
    · obtain ⟨h4, h5⟩ := h3 c hc; omega
  | oct ds h1 =>
    refine ⟨fun c hc => ?_, 48, ds, rfl, by omega, by omega⟩
    rcases List.mem_cons.1 hc with rfl | hc
    · decide
    · obtain ⟨h4, h5⟩ := h1 c hc; omega
  | hex x d ds h1 h2 =>
    refine ⟨fun c hc => ?_, 48, _, rfl, by omega, by omega⟩
    rcases List.mem_cons.1 hc with rfl | hc
    · decide
    rcases List.mem_cons.1 hc with rfl | hc
    · omega
    · rcases h2 c hc with ⟨h4, h5⟩ | ⟨h4, h5⟩ | ⟨h4, h5⟩ <;> omega

theorem strtoul_digit {d : Nat} {s : List Nat} (h1 : 48 ≤ d) (h2 : d ≤ 57) : strtoul (d :: s) = ranged false (magnitude (d :: s)) := by
  have e : (d :: s).dropWhile isSpace = d :: s := by
    rw [List.dropWhile_cons_of_neg]
    unfold isSpace
    simp
    omega
  unfold strtoul
  rw [e]
  split
  · rename_i h; injection h with h; omega
  · rename_i h; injection h with h; omega
  · rfl

theorem strtoul_numeral {t : List Nat} {n : Nat} (h : Numeral t n) (hn : n < 2 ^ 32) {rest : List Nat} (hr : Stops rest) : strtoul (t ++ rest) = (n, false) := by
  obtain ⟨-, d, s, rfl, h1, h2⟩ := numeral_chars h
  rw [List.cons_append, strtoul_digit h1 h2, ← List.cons_append, magnitude_numeral h hr]
  unfold ranged
  rw [if_neg (by omega)]
  rfl

theorem behind_found {x : Nat} : ∀ {t u : List Nat}, (∀ c ∈ t, c ≠ x) → behind x (t ++ x :: u) = some u
  | [], u, _ => by unfold behind; exact if_pos rfl
  | c :: t, u, h => by
    rw [List.cons_append, behind, if_neg (h c (by simp))]
    exact behind_found (fun c hc => h c (by simp [hc]))

theorem behind_none {x : Nat} : ∀ {t : List Nat}, (∀ c ∈ t, c ≠ x) → behind x t = none
  | [], _ => rfl
  | c :: t, h => by
    rw [behind, if_neg (h c (by simp))]
    exact behind_none (fun c hc => h c (by simp [hc]))

/-- What can follow the pins. -/
def Ends (rest : List Nat) : Prop := rest = [] ∨ ∃ u v, rest = 61 :: u ∧ Numeral u v

theorem ends_stops {rest : List Nat} (h : Ends rest) : Stops rest := by
  rcases h with rfl | ⟨u, v, rfl, -⟩
  · exact .inl rfl
  · exact .inr (.inr ⟨u, rfl⟩)

theorem ends_dash {rest : List Nat} (h : Ends rest) : ∀ c ∈ rest, c ≠ 45 := by
  rcases h with rfl | ⟨u, v, rfl, h⟩
  · simp
  · intro c hc
    rcases List.mem_cons.1 hc with rfl | hc
    · decide
    · exact ((numeral_chars h).1 c hc).1

theorem range_pins {t : List Nat} {a b : Nat} (h : Spec.Pins t a b) {rest : List Nat} (hr : Ends rest) : range (t ++ rest) = .inr (a, b) := by
  cases h with
  | one _ _ h hn =>
    unfold range
    rw [strtoul_numeral h (by omega) (ends_stops hr), if_neg (show ¬ false = true by decide), behind_none]
    intro c hc
    rcases List.mem_append.1 hc with hc | hc
    · exact ((numeral_chars h).1 c hc).1
    · exact ends_dash hr c hc
  | more t u _ _ h1 h2 ha hb =>
    unfold range
    rw [List.append_assoc, List.cons_append, strtoul_numeral h1 ha (.inr (.inl ⟨_, rfl⟩)), if_neg (show ¬ false = true by decide), behind_found (fun c hc => ((numeral_chars h1).1 c hc).1)]
    dsimp only
    rw [strtoul_numeral h2 (by omega) (ends_stops hr)]
    rfl

theorem pins_equal {t : List Nat} {a b : Nat} (h : Spec.Pins t a b) : ∀ c ∈ t, c ≠ 61 := by
  cases h with
  | one _ _ h hn => exact fun c hc => ((numeral_chars h).1 c hc).2
  | more t u _ _ h1 h2 ha hb =>
    intro c hc
    rcases List.mem_append.1 hc with hc | hc
    · exact ((numeral_chars h1).1 c hc).2
    rcases List.mem_cons.1 hc with rfl | hc
    · decide
    · exact ((numeral_chars h2).1 c hc).2

theorem pins_first {t : List Nat} {a b : Nat} (h : Spec.Pins t a b) : ∃ d s, t = d :: s ∧ 48 ≤ d ∧ d ≤ 57 := by
  cases h with
  | one _ _ h hn => exact (numeral_chars h).2
  | more t u _ _ h1 h2 ha hb =>
    obtain ⟨d, s, rfl, h3⟩ := (numeral_chars h1).2
    exact ⟨d, _, rfl, h3⟩

theorem pins_below {t : List Nat} {a b : Nat} (h : Spec.Pins t a b) : b < 30 := by
  cases h <;> assumption

/-! ## Loops -/

theorem each_spec (f : Pin → Pin) : ∀ (n i : Nat) (p : Nat → Pin), n = 0 ∨ i + n ≤ 30 → eachLoop f n i p = some fun k => if i ≤ k ∧ k < i + n then f (p k) else p k
  | 0, i, p, _ => by
    unfold eachLoop
    congr 1
    funext k
    rw [if_neg (by omega)]
  | n + 1, i, p, h => by
    have h : i + (n + 1) ≤ 30 := h.resolve_left (by omega)
    rw [eachLoop, if_pos (show i < PINS by show i < 30; omega), each_spec f n (i + 1) _ (by omega)]
    congr 1
    funext k
    by_cases hk : k = i
    · subst hk
      rw [if_neg (by omega), if_pos rfl, if_pos (by omega)]
    · rw [if_neg hk]
      by_cases hx : i + 1 ≤ k ∧ k < i + 1 + n
      · rw [if_pos hx, if_pos (by omega)]
      · rw [if_neg hx, if_neg (by omega)]

theorem get_spec (env : Sense) (p : Nat → Pin) : ∀ (n i : Nat), n = 0 ∨ i + n ≤ 30 → getLoop env p n i = some ((List.range' i n).flatMap fun i => if env p i then [32, 49] else [32, 48])
  | 0, _, _ => rfl
  | n + 1, i, h => by
    have h : i + (n + 1) ≤ 30 := h.resolve_left (by omega)
    rw [getLoop, if_pos (show i < PINS by show i < 30; omega), get_spec env p n (i + 1) (by omega), List.range'_succ, List.flatMap_cons]
    show some (32 :: bit (env p i) ++ _) = _
    cases env p i <;> rfl

theorem filter_range (a b : Nat) (hb : b < 30) : ∀ (m i : Nat), i + m = 30 → (List.range' i m).filter (fun k => decide (Among a b k)) = if i ≤ a then List.range' a (b + 1 - a) else List.range' i (b + 1 - i)
  | 0, i, h => by
    rw [show b + 1 - i = 0 by omega]
    split
    · rw [show b + 1 - a = 0 by omega]; rfl
    · rfl
  | m + 1, i, h => by
    rw [List.range'_succ, List.filter_cons, filter_range a b hb m (i + 1) (by omega)]
    by_cases h1 : i < a
    · rw [if_pos (show i + 1 ≤ a from h1), if_pos (show i ≤ a by omega), if_neg]
      intro x
      have := (of_decide_eq_true x).1
      omega
    · rw [if_neg (show ¬ i + 1 ≤ a by omega)]
      have e : (if i ≤ a then List.range' a (b + 1 - a) else List.range' i (b + 1 - i)) = List.range' i (b + 1 - i) := by
        split
        · rw [show i = a by omega]
        · rfl
      rw [e]
      by_cases h2 : i ≤ b
      · rw [if_pos (decide_eq_true (show Among a b i from ⟨by omega, h2⟩)), show b + 1 - i = (b + 1 - (i + 1)) + 1 by omega, List.range'_succ]
      · rw [if_neg (fun x => h2 (of_decide_eq_true x).2), show b + 1 - i = 0 by omega, show b + 1 - (i + 1) = 0 by omega]; rfl

theorem among_iff {a b k : Nat} : (a ≤ k ∧ k < a + (b + 1 - a)) ↔ Among a b k := by
  unfold Among
  omega

theorem heading : ∀ i < 30, asc "gpio " ++ small i ++ asc ": " = asc s!"gpio {i}: " := by decide +kernel

theorem line_spec (env : Sense) (p : Nat → Pin) (i : Nat) (hi : i < 30) : showLine env p i = lineOf env p i := by
  unfold showLine lineOf showSignal
  rw [heading i hi]
  have e1 : asc " out 1" = asc " out " ++ [49] := by decide +kernel
  have e2 : asc " out 0" = asc " out " ++ [48] := by decide +kernel
  have e3 : asc " in 1" = asc " in " ++ [49] := by decide +kernel
  have e4 : asc " in 0" = asc " in " ++ [48] := by decide +kernel
  have e5 : asc "unused\r\n" = asc "unused" ++ asc "\r\n" := by decide +kernel
  cases hf : (p i).func <;> cases ho : (p i).out <;> cases hv : env p i <;> simp [bit, e1, e2, e3, e4, e5]

theorem show_spec (env : Sense) (p : Nat → Pin) : ∀ (n i : Nat), i + n ≤ 30 → showLoop env p n i = (List.range' i n).flatMap (lineOf env p)
  | 0, _, _ => rfl
  | n + 1, i, h => by
    rw [showLoop, line_spec env p i (by omega), show_spec env p n (i + 1) (by omega), List.range'_succ, List.flatMap_cons]

/-! ## The command -/

/-- One argument. -/
theorem one_argument (env : Sense) (m : Mode) (p : Nat → Pin) {t : List Nat} {w : Word} (h : Spelled t w) (hg : ∀ a b v, w = .assign a b v → m = .getset) : ∃ o m' p', argument env m p t = some (o, m', p') ∧ Step env w m p o m' p' := by
  have notword : ∀ {a b : Nat} {t rest : List Nat}, Spec.Pins t a b → argument env m p (t ++ rest) = if m = .getset then (getSet env p (t ++ rest)).map fun r => (r.1, m, r.2) else (configure p (t ++ rest) m).map fun r => (r.1, m, r.2) := by
    intro a b t rest ht
    obtain ⟨d, s, rfl, h1, h2⟩ := pins_first ht
    have ne : ∀ (x : Nat) (l : List Nat), 57 < x → d :: s ++ rest ≠ x :: l := fun x l hx e => by
      injection e with e; omega
    unfold argument
    rw [show asc "info" = [105, 110, 102, 111] from rfl, show asc "out" = [111, 117, 116] from rfl, show asc "in" = [105, 110] from rfl, show asc "pu" = [112, 117] from rfl, show asc "pd" = [112, 100] from rfl,
      if_neg (ne 105 [110, 102, 111] (by decide)), if_neg (ne 111 [117, 116] (by decide)), if_neg (ne 105 [110] (by decide)), if_neg (ne 112 [117] (by decide)), if_neg (ne 112 [100] (by decide))]
  cases h with
  | info =>
    refine ⟨_, m, p, if_pos rfl, ?_⟩
    have e : showAll env p = (List.range 30).flatMap (lineOf env p) := by
      rw [List.range_eq_range']
      exact show_spec env p 30 0 (by decide)
    rw [e]
    exact .info m p
  | out => exact ⟨_, _, _, rfl, .mode m .out p⟩
  | inp => exact ⟨_, _, _, rfl, .mode m .inp p⟩
  | pu => exact ⟨_, _, _, rfl, .mode m .pu p⟩
  | pd => exact ⟨_, _, _, rfl, .mode m .pd p⟩
  | pins _ a b ht =>
    have hb := pins_below ht
    have hr := range_pins ht (rest := []) (.inl rfl)
    have hw := notword (rest := []) ht
    rw [List.append_nil] at hr hw
    by_cases hm : m = .getset
    · subst hm
      refine ⟨_, .getset, p, ?_, .get a b p⟩
      rw [hw, if_pos rfl]
      unfold getSet
      rw [hr, behind_none (pins_equal ht)]
      show ((getLoop env p (b + 1 - a) a).map _).map _ = _
      rw [get_spec env p (b + 1 - a) a (by omega), List.range_eq_range', filter_range a b hb 30 0 (by decide), if_pos (Nat.zero_le a)]
      rfl
    · refine ⟨[], m, fun k => if a ≤ k ∧ k < a + (b + 1 - a) then setup m (p k) else p k, ?_, .setup a b m p _ hm (fun i hi => ?_) (fun i hi => if_neg (fun x => hi (among_iff.1 x)))⟩
      · rw [hw, if_neg hm]
        unfold configure
        rw [hr]
        show ((eachLoop (setup m) (b + 1 - a) a p).map _).map _ = _
        rw [each_spec (setup m) (b + 1 - a) a p (by omega)]
        rfl
      · rw [if_pos (among_iff.2 hi)]
        cases m with
        | getset => exact absurd rfl hm
        | out => exact ⟨rfl, rfl, rfl, rfl, rfl⟩
        | _ => exact ⟨rfl, rfl, rfl, rfl, rfl⟩
  | assign t u a b v ht hu hv =>
    have hb := pins_below ht
    have hm := hg a b _ rfl
    subst hm
    have hr := range_pins ht (rest := 61 :: u) (.inr ⟨u, v, rfl, hu⟩)
    refine ⟨[], .getset, fun k => if a ≤ k ∧ k < a + (b + 1 - a) then { p k with level := decide (v ≠ 0) } else p k, ?_, .assign a b _ p _ (fun i hi => if_pos (among_iff.2 hi)) (fun i hi => if_neg (fun x => hi (among_iff.1 x)))⟩
    rw [notword ht, if_pos rfl]
    unfold getSet
    have hs := strtoul_numeral hu hv (rest := []) (.inl rfl)
    rw [List.append_nil] at hs
    rw [hr, behind_found (pins_equal ht)]
    show (if (strtoul u).2 = true then _ else ((eachLoop (fun q => { q with level := decide ((strtoul u).1 ≠ 0) }) (b + 1 - a) a p).map _)).map _ = _
    rw [hs, if_neg (show ¬ false = true by decide), each_spec _ (b + 1 - a) a p (by omega)]
    rfl

inductive Spelling : List (List Nat) → List Word → Prop
  | nil : Spelling [] []
  | cons (t w ts ws) : Spelled t w → Spelling ts ws → Spelling (t :: ts) (w :: ws)

theorem arguments_spec (env : Sense) : ∀ {ts : List (List Nat)} {ws : List Word}, Spelling ts ws → ∀ (m : Mode) (p : Nat → Pin), Good m ws → ∃ o p', arguments env m p ts = some (o, p') ∧ Steps env ws m p o p' := by
  intro ts ws h
  induction h with
  | nil => exact fun m p _ => ⟨[], p, rfl, .nil m p⟩
  | cons t w ts ws ht _ ih =>
    intro m p hg
    obtain ⟨o, m', p', h1, h2⟩ := one_argument env m p ht (fun a b v e => by subst e; exact hg.1)
    have hg' : Good m' ws := by
      cases h2 <;> first | exact hg | exact hg.2
    obtain ⟨o', p'', h3, h4⟩ := ih m' p' hg'
    refine ⟨o ++ o', p'', ?_, .cons _ _ _ _ _ _ _ _ _ h2 h4⟩
    unfold arguments
    rw [h1, Option.bind_some, h3]
    rfl

/-- Arguments as in the usage message: the command does with the pins what they say, and nothing else. -/
theorem C110_gpio_partial (env : Sense) (p : Nat → Pin) (ts : List (List Nat)) (ws : List Word) (h : Spelling ts ws) (hn : ws ≠ []) (hg : Good .getset ws) : ∃ o p', gpio env p ts = some (o, p') ∧ Steps env ws .getset p o p' := by
  obtain ⟨o, p', h1, h2⟩ := arguments_spec env h .getset p hg
  refine ⟨o, p', ?_, h2⟩
  unfold gpio
  rw [if_neg]
  · exact h1
  · cases h with
    | nil => exact absurd rfl hn
    | cons => exact fun e => by cases e

/-- Without arguments: all pins are shown. -/
theorem C110_all (env : Sense) (p : Nat → Pin) : gpio env p [] = some ((List.range 30).flatMap (lineOf env p), p) := by
  show some (showAll env p, p) = _
  rw [List.range_eq_range']
  show some (showLoop env p 30 0, p) = _
  rw [show_spec env p 30 0 (by decide)]

/-! ## What is not as it should be -/

/-- The claim: no other argument changes a pin, and there is none for which the command has no defined result. -/
def C110_full : Prop := ∀ (env : Sense) (p : Nat → Pin) (t : List Nat), t.head? ≠ some 45 → (¬ ∃ w, Spelled t w) → ∃ o, gpio env p [t] = some (o, p)

theorem spelled_first {t : List Nat} {w : Word} (h : Spelled t w) : ∃ d s, t = d :: s ∧ (48 ≤ d ∧ d ≤ 57 ∨ d = 105 ∨ d = 111 ∨ d = 112) := by
  cases h with
  | info => exact ⟨105, _, rfl, by omega⟩
  | out => exact ⟨111, _, rfl, by omega⟩
  | inp => exact ⟨105, _, rfl, by omega⟩
  | pu => exact ⟨112, _, rfl, by omega⟩
  | pd => exact ⟨112, _, rfl, by omega⟩
  | pins _ a b ht => obtain ⟨d, s, rfl, h⟩ := pins_first ht; exact ⟨d, s, rfl, .inl h⟩
  | assign t u a b v ht _ _ => obtain ⟨d, s, rfl, h⟩ := pins_first ht; exact ⟨d, _, rfl, .inl h⟩

/-- A pin as it is after reset. -/
def unused : Pin := ⟨false, false, .null, false, true⟩

/-- `gpio x=1` sets pin 0. -/
theorem C110_word (env : Sense) (p : Nat → Pin) : gpio env p [asc "x=1"] = some ([], fun k => if k = 0 then { p k with level := true } else p k) := rfl

/-- `gpio 1=-5` sets the pins 1 to 5: the sign is taken for a range. -/
theorem C110_sign (env : Sense) (p : Nat → Pin) : gpio env p [asc "1=-5"] = some ([], fun k => if 1 ≤ k ∧ k ≤ 5 then { p k with level := true } else p k) := by
  have e : gpio env p [asc "1=-5"] = ((eachLoop (fun q => { q with level := true }) 5 1 p).map fun p' => ([], p')) := by
    have h1 : range (asc "1=-5") = .inr (1, 5) := by decide +kernel
    have h2 : behind 61 (asc "1=-5") = some [45, 53] := by decide +kernel
    have h3 : strtoul [45, 53] = (4294967291, false) := by decide +kernel
    have h4 : argument env .getset p (asc "1=-5") = (getSet env p (asc "1=-5")).map fun r => (r.1, .getset, r.2) := by
      unfold argument
      rw [if_neg (by decide +kernel), if_neg (by decide +kernel), if_neg (by decide +kernel), if_neg (by decide +kernel), if_neg (by decide +kernel), if_pos rfl]
    unfold gpio
    rw [if_neg (fun x => by cases x)]
    unfold arguments
    rw [h4]
    unfold getSet
    rw [h1, h2]
    dsimp only
    rw [h3]
    rfl
  rw [e, each_spec _ 5 1 p (by decide)]
  show some (_, _) = some (_, _)
  congr 2
  funext k
  by_cases h : 1 ≤ k ∧ k ≤ 5
  · rw [if_pos h, if_pos (by omega)]
  · rw [if_neg h, if_neg (by omega)]

/-- A level behind the pins is ignored while pins are configured: `gpio out 1=1` is `gpio out 1`. -/
theorem C110_ignored (p : Nat → Pin) (m : Mode) {t u : List Nat} {a b v : Nat} (ht : Spec.Pins t a b) (hu : Numeral u v) : configure p (t ++ 61 :: u) m = configure p t m := by
  have h := range_pins ht (rest := []) (.inl rfl)
  rw [List.append_nil] at h
  unfold configure
  rw [h, range_pins ht (.inr ⟨u, v, rfl, hu⟩)]

/-- Pins that the chip does not have. -/
theorem C110_outside (env : Sense) (p : Nat → Pin) {t u : List Nat} {n v : Nat} (ht : Numeral t n) (hn : 30 ≤ n) (hn' : n < 2 ^ 32) (hu : Numeral u v) (hv : v < 2 ^ 32) : gpio env p [t] = none ∧ gpio env p [t ++ 61 :: u] = none := by
  have hd : ∀ rest, Ends rest → range (t ++ rest) = .inr (n, n) := by
    intro rest hr
    unfold range
    rw [strtoul_numeral ht hn' (ends_stops hr), if_neg (show ¬ false = true by decide), behind_none]
    intro c hc
    rcases List.mem_append.1 hc with hc | hc
    · exact ((numeral_chars ht).1 c hc).1
    · exact ends_dash hr c hc
  have hword : ∀ rest, argument env .getset p (t ++ rest) = (getSet env p (t ++ rest)).map fun r => (r.1, .getset, r.2) := by
    intro rest
    obtain ⟨-, d, s, rfl, h1, h2⟩ := numeral_chars ht
    have ne : ∀ (x : Nat) (l : List Nat), 57 < x → d :: s ++ rest ≠ x :: l := fun x l hx e => by
      injection e with e; omega
    unfold argument
    rw [show asc "info" = [105, 110, 102, 111] from rfl, show asc "out" = [111, 117, 116] from rfl, show asc "in" = [105, 110] from rfl, show asc "pu" = [112, 117] from rfl, show asc "pd" = [112, 100] from rfl,
      if_neg (ne 105 [110, 102, 111] (by decide)), if_neg (ne 111 [117, 116] (by decide)), if_neg (ne 105 [110] (by decide)), if_neg (ne 112 [117] (by decide)), if_neg (ne 112 [100] (by decide)), if_pos rfl]
  have hlim : ¬ n < PINS := by show ¬ n < 30; omega
  have e1 : n + 1 - n = 1 := by omega
  constructor
  · have h1 := hd [] (.inl rfl)
    have h2 := hword []
    rw [List.append_nil] at h1 h2
    show (argument env .getset p t).bind _ = _
    rw [h2]
    unfold getSet
    rw [h1, behind_none (fun c hc => ((numeral_chars ht).1 c hc).2)]
    show (((getLoop env p (n + 1 - n) n).map _).map _).bind _ = none
    rw [e1, getLoop, if_neg hlim]
    rfl
  · have hs := strtoul_numeral hu hv (rest := []) (.inl rfl)
    rw [List.append_nil] at hs
    show (argument env .getset p (t ++ 61 :: u)).bind _ = _
    rw [hword]
    unfold getSet
    rw [hd _ (.inr ⟨u, v, rfl, hu⟩), behind_found (fun c hc => ((numeral_chars ht).1 c hc).2)]
    show (Option.map _ (if (strtoul u).2 = true then _ else ((eachLoop _ (n + 1 - n) n p).map _))).bind _ = none
    rw [hs, if_neg (show ¬ false = true by decide), e1, eachLoop, if_neg hlim]
    rfl

theorem strtoul_huge {t : List Nat} {n : Nat} (h : Numeral t n) (hn : 2 ^ 32 ≤ n) {rest : List Nat} (hr : Stops rest) : (strtoul (t ++ rest)).2 = true := by
  obtain ⟨-, d, s, rfl, h1, h2⟩ := numeral_chars h
  rw [List.cons_append, strtoul_digit h1 h2, ← List.cons_append, magnitude_numeral h hr]
  unfold ranged
  rw [if_pos hn]

/-- Arguments that begin with a digit. -/
theorem argument_digit (env : Sense) (m : Mode) (p : Nat → Pin) {d : Nat} {s : List Nat} (h : d ≤ 57) :
    argument env m p (d :: s) = if m = .getset then (getSet env p (d :: s)).map fun r => (r.1, m, r.2) else (configure p (d :: s) m).map fun r => (r.1, m, r.2) := by
  have ne : ∀ (x : Nat) (l : List Nat), 57 < x → d :: s ≠ x :: l := fun x l hx e => by
    injection e with e; omega
  unfold argument
  rw [show asc "info" = [105, 110, 102, 111] from rfl, show asc "out" = [111, 117, 116] from rfl, show asc "in" = [105, 110] from rfl, show asc "pu" = [112, 117] from rfl, show asc "pd" = [112, 100] from rfl,
    if_neg (ne 105 [110, 102, 111] (by decide)), if_neg (ne 111 [117, 116] (by decide)), if_neg (ne 105 [110] (by decide)), if_neg (ne 112 [117] (by decide)), if_neg (ne 112 [100] (by decide))]

/-- A message leaves the pins as they are, in each mode. -/
theorem argument_message (env : Sense) (m : Mode) (p : Nat → Pin) {d : Nat} {s msg : List Nat} (h : d ≤ 57) (hr : range (d :: s) = .inl msg) : argument env m p (d :: s) = some (msg, m, p) := by
  rw [argument_digit env m p h]
  split
  · unfold getSet; rw [hr]; rfl
  · unfold configure; rw [hr]; rfl

/-- Numbers that do not fit in 32 bits are refused with a message, and pins stay as they are: as a pin (in each mode, with or without a level). -/
theorem C110_huge_pin (env : Sense) (m : Mode) (p : Nat → Pin) {t rest : List Nat} {n : Nat} (ht : Numeral t n) (hn : 2 ^ 32 ≤ n) (hr : rest = [] ∨ (∃ u, rest = 45 :: u) ∨ ∃ u, rest = 61 :: u) :
    argument env m p (t ++ rest) = some (asc "\r\nBad pin: " ++ (t ++ rest) ++ asc "\r\n", m, p) := by
  have e : range (t ++ rest) = .inl (asc "\r\nBad pin: " ++ (t ++ rest) ++ asc "\r\n") := by
    unfold range
    rw [if_pos (strtoul_huge ht hn hr)]
  obtain ⟨-, d, s, rfl, h1, h2⟩ := numeral_chars ht
  exact argument_message env m p h2 e

/-- As the end of a range. -/
theorem C110_huge_limit (env : Sense) (m : Mode) (p : Nat → Pin) {t u rest : List Nat} {a b : Nat} (ht : Numeral t a) (ha : a < 2 ^ 32) (hu : Numeral u b) (hb : 2 ^ 32 ≤ b) (hr : rest = [] ∨ ∃ w, rest = 61 :: w) :
    argument env m p (t ++ 45 :: (u ++ rest)) = some (asc "\r\nBad limit: " ++ (t ++ 45 :: (u ++ rest)) ++ asc "\r\n", m, p) := by
  have e : range (t ++ 45 :: (u ++ rest)) = .inl (asc "\r\nBad limit: " ++ (t ++ 45 :: (u ++ rest)) ++ asc "\r\n") := by
    unfold range
    rw [strtoul_numeral ht ha (.inr (.inl ⟨_, rfl⟩)), if_neg (show ¬ false = true by decide), behind_found (fun c hc => ((numeral_chars ht).1 c hc).1)]
    dsimp only
    rw [if_pos (strtoul_huge hu hb (hr.elim .inl fun h => .inr (.inr h)))]
  obtain ⟨-, d, s, rfl, h1, h2⟩ := numeral_chars ht
  exact argument_message env m p h2 e

/-- As a level. -/
theorem C110_huge_level (env : Sense) (p : Nat → Pin) {t u : List Nat} {a b v : Nat} (ht : Spec.Pins t a b) (hu : Numeral u v) (hv : 2 ^ 32 ≤ v) :
    argument env .getset p (t ++ 61 :: u) = some (asc "\r\nBad value: " ++ (t ++ 61 :: u) ++ asc "\r\n", .getset, p) := by
  have hs := strtoul_huge hu hv (rest := []) (.inl rfl)
  rw [List.append_nil] at hs
  have e : getSet env p (t ++ 61 :: u) = some (asc "\r\nBad value: " ++ (t ++ 61 :: u) ++ asc "\r\n", p) := by
    unfold getSet
    rw [range_pins ht (.inr ⟨u, v, rfl, hu⟩), behind_found (pins_equal ht)]
    dsimp only
    rw [if_pos hs]
  obtain ⟨d, s, rfl, h1, h2⟩ := pins_first ht
  rw [List.cons_append] at e ⊢
  rw [argument_digit env .getset p h2, if_pos rfl, e]
  rfl

theorem C110_violated : ¬ C110_full := by
  intro h
  obtain ⟨o, h1⟩ := h (fun _ _ => false) (fun _ => unused) (asc "x=1") (by decide +kernel) (fun ⟨w, hw⟩ => by
    obtain ⟨d, s, e, h⟩ := spelled_first hw
    have e : (120 :: [61, 49] : List Nat) = d :: s := e
    injection e with e
    omega)
  rw [C110_word] at h1
  have := congrArg (fun r => r.2 0) (Option.some.inj h1)
  have this : ({ unused with level := true } : Pin) = unused := this
  exact absurd this (by decide)

/-! ## Examples -/

example : Numeral (asc "4294967296") 4294967296 ∧ 2 ^ 32 ≤ 4294967296 := by
  refine ⟨?_, by decide⟩
  have h := Numeral.dec 52 [50, 57, 52, 57, 54, 55, 50, 57, 54] (by decide) (by decide) (fun c hc => by
    simp only [List.mem_cons, List.not_mem_nil, or_false] at hc
    unfold Decimal
    omega)
  exact h

example : Spelling [asc "3-5=1", asc "0x1d", asc "out", asc "07"] [.assign 3 5 true, .pins 29 29, .mode .out, .pins 7 7] := by
  refine .cons _ _ _ _ ?_ (.cons _ _ _ _ ?_ (.cons _ _ _ _ .out (.cons _ _ _ _ ?_ .nil)))
  · exact .assign [51, 45, 53] [49] 3 5 1 (.more [51] [53] 3 5 (.dec 51 [] (by decide) (by decide) (by simp)) (.dec 53 [] (by decide) (by decide) (by simp)) (by decide) (by decide)) (.dec 49 [] (by decide) (by decide) (by simp)) (by decide)
  · refine .pins [48, 120, 49, 100] 29 29 (.one _ _ (.hex 120 49 [100] (.inl rfl) (fun c hc => ?_)) (by decide))
    simp only [List.mem_cons, List.not_mem_nil, or_false] at hc
    rcases hc with rfl | rfl
    · exact .inl ⟨by decide, by decide⟩
    · exact .inr (.inl ⟨by decide, by decide⟩)
  · refine .pins [48, 55] 7 7 (.one _ _ (.oct [55] (fun c hc => ?_)) (by decide))
    rw [List.mem_singleton.1 hc]
    exact ⟨by decide, by decide⟩

example : Good .getset [.assign 3 5 true, .pins 29 29, .mode .out, .pins 7 7] := ⟨rfl, trivial⟩

end Fpm.Gpio
