import Verif.Printf.Spec
/-!
# The format, step by step
-/
namespace Fpm.Printf
open Fpm.Printf.Spec

variable {D : Type}

theorem conv_cases {c : Nat} (h : (kindOf c).isSome) : c ∈ [99, 115, 100, 105, 111, 117, 120, 88, 101, 69, 102, 103, 71] := by
  unfold kindOf at h
  split at h
  · simp [*]
  split at h
  · simp [*]
  split at h
  · rename_i h2; simp only [List.mem_cons, List.not_mem_nil, or_false] at h2 ⊢; omega
  split at h
  · rename_i h2; simp only [List.mem_cons, List.not_mem_nil, or_false] at h2 ⊢; omega
  · cases h

/-- The character of conversion is none of those before it. -/
structure Letter (c : Nat) : Prop where
  skip1 : ¬ (c = 0 ∨ c ∈ skip1)
  skip2 : ¬ (c = 0 ∨ c ∈ skip2)
  flag : isFlag c = false
  digit : isDigit c = false
  star : c ≠ 42
  dot : c ≠ 46
  percent : c ≠ 37
  zero : c ≠ 0
  long : c ≠ 108

theorem letter {c : Nat} (h : (kindOf c).isSome) : Letter c := by
  have h := conv_cases h
  simp only [List.mem_cons, List.not_mem_nil, or_false] at h
  rcases h with h | h | h | h | h | h | h | h | h | h | h | h | h <;> subst h <;> exact ⟨by decide, by decide, by decide, by decide, by decide, by decide, by decide, by decide, by decide⟩

theorem digit_skip2 {c : Nat} (h : isDigit c) : c = 0 ∨ c ∈ skip2 := by
  unfold isDigit at h
  have h := of_decide_eq_true h
  obtain ⟨n, hn, rfl⟩ : ∃ n, n < 10 ∧ c = 48 + n := ⟨c - 48, by omega, by omega⟩
  have : ∀ n < 10, (48 + n = 0 ∨ 48 + n ∈ skip2) := by decide
  exact this n hn

/-- A digit other than zero is no flag. -/
theorem digit_flag {c : Nat} (h : isDigit c) (h0 : c ≠ 48) : isFlag c = false ∧ ¬ (c = 0 ∨ c ∈ skip1) := by
  unfold isDigit at h
  have h := of_decide_eq_true h
  obtain ⟨n, hn, rfl⟩ : ∃ n, n < 10 ∧ c = 48 + n := ⟨c - 48, by omega, by omega⟩
  have : ∀ n < 10, 48 + n ≠ 48 → (isFlag (48 + n) = false ∧ ¬ (48 + n = 0 ∨ 48 + n ∈ skip1)) := by decide
  exact this n hn h0

theorem flag_skip1 {c : Nat} (h : isFlag c) : c = 0 ∨ c ∈ skip1 := by
  unfold isFlag at h
  exact .inr (of_decide_eq_true h)

theorem find_percent {t : List Nat} (h : Plain t) (mid r : List Nat) : find mid (t ++ 37 :: 37 :: r) = .percent (mid ++ t ++ [37]) r := by
  induction t generalizing mid with
  | nil => unfold find; simp
  | cons c t ih =>
    have hc := h c (by simp)
    show find mid (c :: (t ++ 37 :: 37 :: r)) = _
    unfold find
    rw [if_neg hc.1, if_neg hc.2, ih (fun x hx => h x (by simp [hx]))]
    simp

theorem find_spec {t : List Nat} (h : Plain t) (mid r : List Nat) {c : Nat} (hc : c ≠ 37) : find mid (t ++ 37 :: c :: r) = .spec (mid ++ t ++ [37]) (c :: r) := by
  induction t generalizing mid with
  | nil => unfold find; simp [hc]
  | cons x t ih =>
    have hx := h x (by simp)
    show find mid (x :: (t ++ 37 :: c :: r)) = _
    unfold find
    rw [if_neg hx.1, if_neg hx.2, ih (fun x hx => h x (by simp [hx]))]
    simp

theorem find_finish {t : List Nat} (h : Plain t) (mid r : List Nat) : find mid (t ++ 0 :: r) = .finish (mid ++ t) (0 :: r) := by
  induction t generalizing mid with
  | nil => unfold find; simp
  | cons x t ih =>
    have hx := h x (by simp)
    show find mid (x :: (t ++ 0 :: r)) = _
    unfold find
    rw [if_neg hx.1, if_neg hx.2, ih (fun x hx => h x (by simp [hx]))]
    simp

theorem skip_spec {set s : List Nat} (h : ∀ c ∈ s, c = 0 ∨ c ∈ set) (mid r : List Nat) {c : Nat} (hc : ¬ (c = 0 ∨ c ∈ set)) : skip set mid (s ++ c :: r) = some (mid ++ s, c :: r) := by
  induction s generalizing mid with
  | nil => unfold skip; simp only [List.nil_append, List.append_nil, if_neg hc]
  | cons x s ih =>
    show skip set mid (x :: (s ++ c :: r)) = _
    unfold skip
    rw [if_pos (h x (by simp)), ih (fun x hx => h x (by simp [hx]))]
    simp

theorem shown_skip2 {p : Num} (h : p.Well) : ∀ c ∈ p.shown, c = 0 ∨ c ∈ skip2 := by
  cases p with
  | none => intro c hc; cases hc
  | digits ds => exact fun c hc => digit_skip2 (h.2 c hc)
  | star => intro c hc; rw [List.eq_of_mem_singleton hc]; decide

/-- Taking the value of a `*`. -/
def starG (L : Lib D) (p : Num) (args : List (List Nat)) : Got Int :=
  match p with
  | .star => getInt L args
  | _ => .ok 0 args

theorem star_spec (L : Lib D) {p : Num} (h : p.Well) {r : List Nat} (hr : r.head? ≠ some 42) (args : List (List Nat)) : star L (p.shown ++ r) args = starG L p args := by
  cases p with
  | none => exact if_neg hr
  | star => exact if_pos rfl
  | digits ds =>
    obtain ⟨h1, h2⟩ := h
    cases ds with
    | nil => exact absurd rfl h1
    | cons c ds =>
      refine if_neg ?_
      intro hx
      injection hx with hx
      have := h2 c (by simp)
      subst hx
      exact absurd this (by decide)

/-- What follows after a width or precision has been taken. -/
def after (s : State) (g : Got Int) (k : Int → List (List Nat) → Step) : Step :=
  match g with
  | .ok v as => k v as
  | .err t => .stop (.done 1 (s.out ++ t))
  | .null => .stop (.fault .null)

theorem third_spec (L : Lib D) (s : State) (mid r : List Nat) {p : Num} (h : p.Well) {c : Nat} (hc : Letter c) (fw pr : Int) :
    third L s mid (p.shown ++ c :: r) fw pr = convert L s (mid ++ p.shown) (c :: r) fw pr := by
  unfold third
  rw [skip_spec (shown_skip2 h) mid r hc.skip2]
  show (if (c :: r).head? = some 0 then _ else _) = _
  rw [if_neg (fun hx => hc.zero (by injection hx))]

theorem precise_spec (L : Lib D) (s : State) (mid r : List Nat) {p : Num} (h : p.Well) {c : Nat} (hc : Letter c) (fw : Int) :
    precise L s mid (p.shown ++ c :: r) fw = after s (starG L p s.args) fun pr as => convert L { s with args := as } (mid ++ p.shown) (c :: r) fw pr := by
  have hn : ∃ x y, p.shown ++ c :: r = x :: y := by
    cases hp : p.shown with
    | nil => exact ⟨_, _, rfl⟩
    | cons x y => exact ⟨_, _, rfl⟩
  obtain ⟨x, y, hxy⟩ := hn
  unfold precise
  rw [hxy]
  show (match star L (x :: y) s.args with | .ok precision as => third L { s with args := as } mid (x :: y) fw precision | .err t => _ | .null => _) = _
  rw [← hxy, star_spec L h (fun hx => hc.star (by injection hx))]
  unfold after
  cases starG L p s.args with
  | ok v as => exact third_spec L _ mid r h hc fw v
  | err t => rfl
  | null => rfl

theorem second_spec (L : Lib D) (s : State) (mid r : List Nat) {w : Num} (hw : w.Well) {p : Option Num} (hp : ∀ q, p = some q → q.Well) {c : Nat} (hc : Letter c) (fw : Int) :
    second L s mid (w.shown ++ (precShown p ++ c :: r)) fw = after s (starG L (p.getD .none) s.args) fun pr as => convert L { s with args := as } (mid ++ (w.shown ++ precShown p)) (c :: r) fw pr := by
  unfold second
  cases p with
  | none =>
    show (match skip skip2 mid (w.shown ++ c :: r) with | none => _ | some (mid', r') => _) = _
    rw [skip_spec (shown_skip2 hw) mid r hc.skip2]
    show (if (c :: r).head? = some 46 then _ else _) = _
    rw [if_neg (fun hx => hc.dot (by injection hx))]
    have := precise_spec L s (mid ++ w.shown) r (p := .none) trivial hc fw
    rw [show (Num.none.shown ++ c :: r) = c :: r from rfl, show (mid ++ w.shown ++ Num.none.shown) = mid ++ w.shown by simp [Num.shown]] at this
    rw [this]
    simp [precShown]
  | some p =>
    show (match skip skip2 mid (w.shown ++ 46 :: (p.shown ++ c :: r)) with | none => _ | some (mid', r') => _) = _
    rw [skip_spec (shown_skip2 hw) mid _ (show ¬ (46 = 0 ∨ 46 ∈ skip2) by decide)]
    show (if (46 :: (p.shown ++ c :: r)).head? = some 46 then precise L s (mid ++ w.shown ++ [46]) (p.shown ++ c :: r) fw else _) = _
    rw [if_pos (show (46 :: (p.shown ++ c :: r)).head? = some 46 from rfl), precise_spec L s (mid ++ w.shown ++ [46]) r (hp p rfl) hc fw]
    simp [precShown]

theorem head_first {w : Num} (hw : w.Well) (h0 : ∀ ds, w = .digits ds → ds.head? ≠ some 48) {p : Option Num} {c : Nat} (hc : Letter c) (l r : List Nat) (hl : l = [] ∨ l = [108]) :
    ∃ x y, w.shown ++ (precShown p ++ (l ++ c :: r)) = x :: y ∧ isFlag x = false ∧ ¬ (x = 0 ∨ x ∈ skip1) ∧ x ≠ 37 := by
  cases w with
  | star => exact ⟨42, _, rfl, by decide, by decide, by decide⟩
  | digits ds =>
    obtain ⟨h1, h2⟩ := hw
    cases ds with
    | nil => exact absurd rfl h1
    | cons d ds =>
      have hd := h2 d (by simp)
      obtain ⟨h3, h4⟩ := digit_flag hd (fun hx => h0 _ rfl (by rw [hx]; rfl))
      refine ⟨d, _, rfl, h3, h4, ?_⟩
      intro hx
      subst hx
      exact absurd hd (by decide)
  | none =>
    cases p with
    | some p => exact ⟨46, _, rfl, by decide, by decide, by decide⟩
    | none =>
      rcases hl with hl | hl <;> subst hl
      · exact ⟨c, r, rfl, hc.flag, hc.skip1, hc.percent⟩
      · exact ⟨108, _, rfl, by decide, by decide, by decide⟩

theorem first_spec (L : Lib D) (s : State) (mid r : List Nat) {d : Dir} (h : d.Well) (hl : d.long = false) :
    first L s mid (d.tail ++ r) = after s (starG L d.width s.args) fun fw as => after s (starG L (d.prec.getD .none) as) fun pr as' => convert L { s with args := as' } (mid ++ (d.flags ++ (d.width.shown ++ precShown d.prec))) (d.conv :: r) fw pr := by
  have hc := letter h.conv
  have e : d.tail ++ r = d.flags ++ (d.width.shown ++ (precShown d.prec ++ d.conv :: r)) := by
    unfold Dir.tail
    rw [hl]
    simp
  obtain ⟨x, y, hxy, -, hx, -⟩ := head_first h.width h.zero (p := d.prec) hc [] r (.inl rfl)
  have hxy : d.width.shown ++ (precShown d.prec ++ d.conv :: r) = x :: y := hxy
  unfold first
  rw [e, hxy, skip_spec (fun c hc => flag_skip1 (h.flags c hc)) mid y hx, ← hxy]
  show (match star L (d.width.shown ++ (precShown d.prec ++ d.conv :: r)) s.args with | .ok fw as => second L { s with args := as } (mid ++ d.flags) _ fw | .err t => _ | .null => _) = _
  rw [star_spec L h.width (by
    cases d.prec with
    | none => exact fun hx => hc.star (by injection hx)
    | some p => exact fun hx => by injection hx with hx; cases hx)]
  generalize starG L d.width s.args = g
  unfold after
  cases g with
  | err t => rfl
  | null => rfl
  | ok v as =>
    show second L { s with args := as } (mid ++ d.flags) (d.width.shown ++ (precShown d.prec ++ d.conv :: r)) v = _
    rw [second_spec L _ _ r h.width h.prec hc v]
    show after _ (starG L (d.prec.getD .none) as) _ = _
    unfold after
    simp only [List.append_assoc]

/-! ## The directive as `fpm_printf` sees it -/

theorem takeWhile_all {p : Nat → Bool} {s : List Nat} (h : ∀ c ∈ s, p c) (r : List Nat) : (s ++ r).takeWhile p = s ++ r.takeWhile p ∧ (s ++ r).dropWhile p = r.dropWhile p := by
  induction s with
  | nil => exact ⟨rfl, rfl⟩
  | cons c s ih =>
    obtain ⟨h1, h2⟩ := ih (fun x hx => h x (by simp [hx]))
    constructor
    · show ((c :: (s ++ r)).takeWhile p) = _
      rw [List.takeWhile_cons_of_pos (h c (by simp)), h1]
      rfl
    · show ((c :: (s ++ r)).dropWhile p) = _
      rw [List.dropWhile_cons_of_pos (h c (by simp)), h2]

theorem while_stop {p : Nat → Bool} {s : List Nat} (h : ∀ c ∈ s, p c) {c : Nat} (hc : p c = false) (r : List Nat) : (s ++ c :: r).takeWhile p = s ∧ (s ++ c :: r).dropWhile p = c :: r := by
  obtain ⟨h1, h2⟩ := takeWhile_all h (c :: r)
  rw [h1, h2]
  exact ⟨by simp [List.takeWhile_cons, hc], by simp [List.dropWhile_cons, hc]⟩

theorem num_at {w : Num} (hw : w.Well) {c : Nat} (h1 : isDigit c = false) (h2 : c ≠ 42) (r : List Nat) : numAt (w.shown ++ c :: r) = (w, c :: r) := by
  unfold numAt
  cases w with
  | star => rw [if_pos (show (Num.star.shown ++ c :: r).head? = some 42 from rfl)]; rfl
  | none =>
    show (if (c :: r).head? = some 42 then _ else if (c :: r).takeWhile isDigit = [] then _ else _) = _
    rw [if_neg (fun hx => h2 (by injection hx)), if_pos (by simp [List.takeWhile_cons, h1])]
    rfl
  | digits ds =>
    obtain ⟨k1, k2⟩ := hw
    obtain ⟨k3, k4⟩ := while_stop k2 h1 r
    rw [show (Num.digits ds).shown = ds from rfl, k3, k4, if_neg, if_neg k1]
    cases ds with
    | nil => exact absurd rfl k1
    | cons d ds =>
      intro hx
      injection hx with hx
      have := k2 d (by simp)
      subst hx
      exact absurd this (by decide)

theorem dir_at {d : Dir} (h : d.Well) : dirAt d.tail = some (d, []) := by
  have hc := letter h.conv
  obtain ⟨fl, w, p, l, c⟩ := d
  have hc : Letter c := hc
  have hk : (kindOf c).isSome := h.conv
  obtain ⟨x, y, hxy, hx, -, -⟩ := head_first h.width h.zero (p := p) hc (if l then [108] else []) [] (by cases l <;> simp)
  have hxy : w.shown ++ (precShown p ++ ((if l then [108] else []) ++ [c])) = x :: y := hxy
  obtain ⟨k1, k2⟩ := while_stop (s := fl) h.flags hx y
  have et : Dir.tail ⟨fl, w, p, l, c⟩ = fl ++ x :: y := by rw [← hxy]; rfl
  unfold dirAt
  rw [et, k1, k2, ← hxy]
  -- the character behind width
  have hl : ∃ a b, ((if l then [108] else []) ++ [c] : List Nat) = a :: b ∧ isDigit a = false ∧ a ≠ 42 ∧ a ≠ 46 := by
    cases l with
    | true => exact ⟨108, [c], rfl, by decide, by decide, by decide⟩
    | false => exact ⟨c, [], rfl, hc.digit, hc.star, hc.dot⟩
  obtain ⟨a, b, hab, a1, a2, a3⟩ := hl
  have hw : numAt (w.shown ++ (precShown p ++ ((if l then [108] else []) ++ [c]))) = (w, precShown p ++ ((if l then [108] else []) ++ [c])) := by
    cases p with
    | none =>
      show numAt (w.shown ++ ((if l then [108] else []) ++ [c])) = (w, (if l then [108] else []) ++ [c])
      rw [hab]; exact num_at h.width a1 a2 b
    | some p => exact num_at h.width (by decide) (by decide) _
  rw [hw]
  have hp : (if (precShown p ++ ((if l then [108] else []) ++ [c])).head? = some 46 then (some (numAt (precShown p ++ ((if l then [108] else []) ++ [c])).tail).1, (numAt (precShown p ++ ((if l then [108] else []) ++ [c])).tail).2) else (none, precShown p ++ ((if l then [108] else []) ++ [c])) : Option Num × List Nat) = (p, (if l then [108] else []) ++ [c]) := by
    cases p with
    | none =>
      show (if (((if l then [108] else []) ++ [c] : List Nat)).head? = some 46 then _ else (none, ((if l then [108] else []) ++ [c] : List Nat))) = _
      rw [hab, if_neg (fun hx => a3 (by injection hx))]
    | some p =>
      refine (if_pos rfl).trans ?_
      show (some (numAt (p.shown ++ ((if l then [108] else []) ++ [c]))).1, (numAt (p.shown ++ ((if l then [108] else []) ++ [c]))).2) = _
      rw [hab, num_at (h.prec p rfl) a1 a2 b]
  simp only [hp]
  cases l with
  | true => simp [hk]
  | false => simp [hc.long, hk]

theorem plain_percent {t : List Nat} (h : Plain t) (r : List Nat) : (t ++ 37 :: r).takeWhile (· ≠ 37) = t ∧ (t ++ 37 :: r).dropWhile (· ≠ 37) = 37 :: r :=
  while_stop (p := fun c => decide (c ≠ 37)) (fun c hc => by simp [(h c hc).2]) (by decide) r

theorem cprintf_spec (render : Dir → List Int → Val D → List Nat) {t : List Nat} (ht : Plain t) {d : Dir} (h : d.Well) (is : List Int) (v : Val D) (h1 : stars d = is.length) (h2 : kindOf d.conv = some (Spec.Val.kind v)) (h3 : d.long = true ↔ Spec.Val.kind v = .long) :
    cprintf render (t ++ 37 :: d.tail) is v = some (t ++ render d is v) := by
  unfold cprintf
  obtain ⟨k1, k2⟩ := plain_percent ht d.tail
  rw [k1, k2]
  show (match dirAt d.tail with | some (d, []) => _ | _ => _) = _
  rw [dir_at h]
  exact if_pos ⟨h1, h2, h3⟩

/-! ## Arguments -/

theorem number_char (c : Nat) (hc : c ≠ 0) (a : List Nat) : isNumber (c :: a) = true ↔ (isDigit c ∨ c = 43 ∨ c = 45 ∨ c = 46) := by
  unfold isNumber isDigit Number
  simp only [List.getD_cons_zero, decide_eq_true_eq, List.mem_cons, List.not_mem_nil, or_false]
  omega

theorem long_spec (L : Lib D) {a : List Nat} (h : 0 ∉ a) (as : List (List Nat)) : getLong L (a :: as) = (match numeric L a with | some v => .ok v as | none => .err (complaint L a)) := by
  unfold getLong
  have num : ∀ x, isNumber x = true → (if isNumber x then (if (L.strtol x).2.1 = false then Got.err (x ++ ascii ": illegal number\n") else if (L.strtol x).2.2 then .err (x ++ ascii ": value out of bounds\n") else .ok (L.strtol x).1 as) else .ok (asciicode x) as) =
      (match (if (L.strtol x).2.1 ∧ (L.strtol x).2.2 = false then some (L.strtol x).1 else none : Option Int) with | some v => Got.ok v as | none => .err (complaint L x)) := by
    intro x hx
    rw [if_pos hx]
    unfold complaint
    cases h1 : (L.strtol x).2.1 <;> cases h2 : (L.strtol x).2.2 <;> simp
  cases a with
  | nil => exact num [] (by decide)
  | cons c a =>
    have hc : c ≠ 0 := fun hx => h (by simp [hx])
    have hn := number_char c hc a
    unfold numeric
    dsimp only
    by_cases hd : isDigit c ∨ c = 43 ∨ c = 45 ∨ c = 46
    · rw [num _ (hn.2 hd), if_pos hd]
    · rw [if_neg (fun hx => hd (hn.1 hx)), if_neg hd]
      unfold asciicode
      by_cases hq : c = 39 ∨ c = 34
      · rw [if_pos hq, if_pos (show (c :: a).getD 0 0 = 39 ∨ (c :: a).getD 0 0 = 34 from hq)]
        rfl
      · rw [if_neg hq, if_neg (show ¬ ((c :: a).getD 0 0 = 39 ∨ (c :: a).getD 0 0 = 34) from hq)]
        rfl

theorem double_spec (L : Lib D) {args : List (List Nat)} (h : ∀ a ∈ args, 0 ∉ a) : value L .dbl args = .ok (.dbl (getDouble L args).1, (getDouble L args).2) := by
  match args with
  | [] => rfl
  | [] :: as => rfl
  | (c :: a) :: as =>
    have hc : c ≠ 0 := fun hx => h (c :: a) (by simp) (by simp [hx])
    have hn := number_char c hc a
    unfold value getDouble asciicode
    by_cases hd : isDigit c ∨ c = 43 ∨ c = 45 ∨ c = 46
    · simp only [if_pos hd, if_pos (hn.2 hd)]
    · simp only [if_neg hd, if_neg (fun hx => hd (hn.1 hx))]
      by_cases hq : c = 39 ∨ c = 34
      · simp only [if_pos hq, if_pos (show (c :: a).getD 0 0 = 39 ∨ (c :: a).getD 0 0 = 34 from hq)]
        rfl
      · simp only [if_neg hq, if_neg (show ¬ ((c :: a).getD 0 0 = 39 ∨ (c :: a).getD 0 0 = 34) from hq)]
        rfl

/-- A `*` takes its argument as described. -/
theorem starred_spec (L : Lib D) (p : Num) {args : List (List Nat)} (h : ∀ a ∈ args, 0 ∉ a) :
    (∀ ws as, starred L p args = .ok (ws, as) → ∃ v, starG L p args = .ok v as ∧ (if v ≠ 0 then [v] else []) = ws ∧ ws.length = (match p with | .star => 1 | _ => 0) ∧ ∀ a ∈ as, 0 ∉ a) ∧
    (∀ x, starred L p args = .bad x → starG L p args = .err x) := by
  cases p with
  | none => exact ⟨fun ws as hx => by cases hx; exact ⟨0, rfl, rfl, rfl, h⟩, fun x hx => by cases hx⟩
  | digits ds => exact ⟨fun ws as hx => by cases hx; exact ⟨0, rfl, rfl, rfl, h⟩, fun x hx => by cases hx⟩
  | star =>
    cases args with
    | nil => exact ⟨fun ws as hx => (by cases hx), fun x hx => (by cases hx)⟩
    | cons a as =>
      have hl := long_spec L (h a (by simp)) as
      unfold starred starG getInt
      simp only
      rw [hl]
      cases hn : numeric L a with
      | none => exact ⟨fun ws as hx => (by cases hx), fun x hx => (by cases hx; rfl)⟩
      | some v =>
        simp only
        by_cases hv : v = 0 ∨ v > 65535
        · rw [if_pos hv]
          exact ⟨fun ws as hx => (by cases hx), fun x hx => (by cases hx)⟩
        · rw [if_neg hv, if_neg (fun hx => hv (.inr hx))]
          exact ⟨fun ws as' hx => (by cases hx; exact ⟨v, rfl, if_pos (fun hx => hv (.inl hx)), rfl, fun a ha => h a (by simp [ha])⟩), fun x hx => (by cases hx)⟩

end Fpm.Printf
