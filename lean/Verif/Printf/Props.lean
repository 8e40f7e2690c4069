import Verif.Printf.Lemmas
/-!
# C107: the printf application
-/
namespace Fpm.Printf
open Fpm.Printf.Spec

variable {D : Type}

theorem tail_zero {d : Dir} (h : d.Well) : 0 ∉ d.tail := by
  have num : ∀ p : Num, p.Well → 0 ∉ p.shown := by
    intro p hp hx
    cases p with
    | none => cases hx
    | star => exact absurd (List.eq_of_mem_singleton hx) (by decide)
    | digits ds => exact absurd (hp.2 0 hx) (by decide)
  unfold Dir.tail
  simp only [List.mem_append, not_or]
  refine ⟨fun hx => absurd (h.flags 0 hx) (by decide), num _ h.width, ?_, ?_, fun hx => (letter h.conv).zero (List.eq_of_mem_singleton hx).symm⟩
  · cases hp : d.prec with
    | none => intro hx; cases hx
    | some p => intro hx; rcases List.mem_cons.1 hx with hx | hx; · cases hx
                exact num p (h.prec p hp) hx
  · cases d.long <;> decide

theorem cstr_all {s : List Nat} (h : 0 ∉ s) : cstr s = s := by
  have := (takeWhile_all (p := fun c => decide (c ≠ 0)) (s := s) (fun c hc => by simp; rintro rfl; exact h hc) []).1
  simpa [cstr] using this

theorem tail_head {d : Dir} (h : d.Well) (r : List Nat) : ∃ x y, d.tail ++ r = x :: y ∧ x ≠ 37 := by
  obtain ⟨fl, w, p, l, c⟩ := d
  cases fl with
  | cons f fl =>
    refine ⟨f, _, rfl, ?_⟩
    rintro rfl
    exact absurd (h.flags 37 (by simp)) (by decide)
  | nil =>
    obtain ⟨x, y, h1, -, -, h2⟩ := head_first h.width h.zero (p := p) (letter h.conv) (if l then [108] else []) r (by cases l <;> simp)
    refine ⟨x, y, ?_, h2⟩
    rw [← h1]
    unfold Dir.tail
    simp

/-- The format for `long`. -/
theorem long_well {d : Dir} (h : d.Well) (l : Bool) : ({ d with long := l } : Dir).Well := ⟨h.flags, h.width, h.zero, h.prec, h.conv⟩

theorem mklong_spec {t : List Nat} {d : Dir} (hl : d.long = false) (h1 : t.length + d.tail.length ≤ 61) (h2 : d.conv ≠ 88) :
    mklong (t ++ 37 :: d.tail) d.conv = some (t ++ 37 :: ({ d with long := true } : Dir).tail) := by
  unfold mklong
  rw [if_pos (by simp; omega), if_neg h2]
  congr 1
  have e : t ++ 37 :: d.tail = (t ++ 37 :: (d.flags ++ (d.width.shown ++ precShown d.prec))) ++ [d.conv] := by
    unfold Dir.tail
    rw [hl]
    simp
  rw [e, show ∀ x : List Nat, (x ++ [d.conv]).take ((x ++ [d.conv]).length - 1) = x by intro x; simp]
  unfold Dir.tail
  simp

theorem value_args (L : Lib D) (k : Kind) {args as : List (List Nat)} {v : Val D} (h : value L k args = .ok (v, as)) : Spec.Val.kind v = k ∧ ∃ n, as = args.drop n := by
  cases k <;> cases args with
  | nil => unfold value at h; cases h; exact ⟨rfl, 0, rfl⟩
  | cons a args => ?_
  all_goals unfold value at h
  · cases h; exact ⟨rfl, 1, rfl⟩
  · cases h; exact ⟨rfl, 1, rfl⟩
  · dsimp only at h
    cases hn : numeric L a with
    | none => rw [hn] at h; cases h
    | some x => rw [hn] at h; cases h; exact ⟨rfl, 1, rfl⟩
  · cases a <;> cases h <;> exact ⟨rfl, 1, rfl⟩

theorem convert_spec (L : Lib D) {render : Dir → List Int → Val D → List Nat} (hL : L.printf = cprintf render) (s : State) {mid t : List Nat} {d : Dir} (ht : Plain t) (hd : d.Well) (hl : d.long = false) (hf : mid ++ [d.conv] = t ++ 37 :: d.tail)
    {fw pr : Int} (his : stars d = (ints fw pr).length) (hz : ∀ a ∈ s.args, 0 ∉ a) {k : Kind} (hk : kindOf d.conv = some k) (hb : ¬ (k = .long ∧ (61 < t.length + d.tail.length ∨ d.conv = 88))) (next : Nat) (r : List Nat) :
    (∀ v as, value L k s.args = .ok (v, as) → convert L s mid (d.conv :: next :: r) fw pr = .go { pre := s.pre ++ (t ++ 37 :: d.tail), mid := [], rest := next :: r, args := as, out := s.out ++ (t ++ render { d with long := decide (k = .long) } (ints fw pr) v), fin := false }) ∧
    (∀ x, value L k s.args = .bad x → convert L s mid (d.conv :: next :: r) fw pr = .stop (.done 1 (s.out ++ x))) := by
  have hz0 : 0 ∉ t ++ 37 :: d.tail := by
    simp only [List.mem_append, List.mem_cons, not_or]
    exact ⟨fun hx => (ht 0 hx).1 rfl, by decide, tail_zero hd⟩
  have em : ∀ (s' : State) (f : List Nat) (v : Val D), f = t ++ 37 :: ({ d with long := decide (k = .long) } : Dir).tail → Spec.Val.kind v = k → emit L s' f fw pr v = .go { s' with out := s'.out ++ (t ++ render { d with long := decide (k = .long) } (ints fw pr) v) } := by
    intro s' f v h1 h2
    unfold emit
    rw [hL, h1, cprintf_spec render ht (d := { d with long := decide (k = .long) }) (long_well hd _) (ints fw pr) v his (by rw [h2]; exact hk) (by rw [h2]; exact decide_eq_true_iff)]
  have same : k ≠ .long → t ++ 37 :: d.tail = t ++ 37 :: ({ d with long := decide (k = .long) } : Dir).tail := by
    intro hx
    rw [decide_eq_false hx]
    unfold Dir.tail
    rw [hl]
  unfold convert
  dsimp only
  rw [List.append_assoc s.pre mid, hf, cstr_all hz0]
  unfold kindOf at hk
  by_cases c1 : d.conv = 99
  · rw [if_pos c1] at hk ⊢
    cases hk
    rw [em _ _ _ (same (by decide)) rfl]
    constructor
    · intro v as hv
      cases ha : s.args with
      | nil => rw [ha] at hv; cases hv; rfl
      | cons a as => rw [ha] at hv; cases hv; rfl
    · intro x hx
      cases ha : s.args with
      | nil => rw [ha] at hx; cases hx
      | cons a as => rw [ha] at hx; cases hx
  rw [if_neg c1] at hk ⊢
  by_cases c2 : d.conv = 115
  · rw [if_pos c2] at hk ⊢
    cases hk
    rw [em _ _ _ (same (by decide)) rfl]
    constructor
    · intro v as hv
      cases ha : s.args with
      | nil => rw [ha] at hv; cases hv; rfl
      | cons a as => rw [ha] at hv; cases hv; rfl
    · intro x hx
      cases ha : s.args with
      | nil => rw [ha] at hx; cases hx
      | cons a as => rw [ha] at hx; cases hx
  rw [if_neg c2] at hk ⊢
  by_cases c3 : d.conv ∈ [100, 105, 111, 117, 120, 88]
  · rw [if_pos c3] at hk ⊢
    cases hk
    have hb : t.length + d.tail.length ≤ 61 ∧ d.conv ≠ 88 := by
      constructor
      · exact Nat.le_of_not_lt fun hx => hb ⟨rfl, .inl hx⟩
      · exact fun hx => hb ⟨rfl, .inr hx⟩
    rw [mklong_spec hl hb.1 hb.2]
    dsimp only
    cases ha : s.args with
    | nil =>
      constructor
      · intro v as hv
        cases hv
        show emit L _ _ fw pr (.long 0) = _
        exact em _ _ _ rfl rfl
      · intro x hx; cases hx
    | cons a as =>
      rw [long_spec L (hz a (by rw [ha]; simp)) as]
      unfold value
      dsimp only
      cases hn : numeric L a with
      | none => exact ⟨fun v as hv => (by cases hv), fun x hx => (by cases hx; rfl)⟩
      | some n =>
        constructor
        · intro v as hv
          cases hv
          show emit L _ _ fw pr (.long n) = _
          exact em _ _ _ rfl rfl
        · intro x hx; cases hx
  rw [if_neg c3] at hk ⊢
  by_cases c4 : d.conv ∈ [101, 69, 102, 103, 71]
  · rw [if_pos c4] at hk ⊢
    cases hk
    rw [double_spec L hz, em _ _ _ (same (by decide)) rfl]
    exact ⟨fun v as hv => (by cases hv; rfl), fun x hx => (by cases hx)⟩
  · rw [if_neg c4] at hk; cases hk

theorem ints_append (fw pr : Int) (ws ps : List Int) (h1 : (if fw ≠ 0 then [fw] else []) = ws) (h2 : (if pr ≠ 0 then [pr] else []) = ps) : ints fw pr = ws ++ ps := by
  unfold ints
  rw [h1, h2]

/-- One directive with the text before. -/
theorem dir_step (L : Lib D) {render : Dir → List Int → Val D → List Nat} (hL : L.printf = cprintf render) (s : State) (hm : s.mid = []) {t : List Nat} {d : Dir} (hw : (Item.dir t d).Well) (hz : ∀ a ∈ s.args, 0 ∉ a) {next : Nat} {r : List Nat} (hr : s.rest = (Item.dir t d).shown ++ next :: r) :
    (∀ o as, directive L render t d s.args = .ok (o, as) → (∀ a ∈ as, 0 ∉ a) ∧ step L s = .go { pre := s.pre ++ (Item.dir t d).shown, mid := [], rest := next :: r, args := as, out := s.out ++ o, fin := false }) ∧
    (∀ x, directive L render t d s.args = .bad x → step L s = .stop (.done 1 (s.out ++ x))) := by
  obtain ⟨ht, hd, hl⟩ := hw
  obtain ⟨x, y, hxy, hx⟩ := tail_head hd (next :: r)
  have hs : step L s = first L s (t ++ [37]) (d.tail ++ next :: r) := by
    unfold step
    rw [hm, hr, show (Item.dir t d).shown ++ next :: r = t ++ 37 :: x :: y by rw [← hxy]; simp [Item.shown], find_spec ht [] y hx, ← hxy]
    rfl
  rw [hs, first_spec L s _ (next :: r) hd hl]
  obtain ⟨s1, s2⟩ := starred_spec L d.width hz
  unfold directive
  cases hst : starred L d.width s.args with
  | odd => exact ⟨fun o as h => (by cases h), fun x h => (by cases h)⟩
  | bad e =>
    rw [s2 e hst]
    exact ⟨fun o as h => (by cases h), fun x h => (by cases h; rfl)⟩
  | ok p1 =>
    obtain ⟨ws, as1⟩ := p1
    obtain ⟨fw, k1, k2, k3, k4⟩ := s1 ws as1 hst
    rw [k1]
    dsimp only [after]
    obtain ⟨s3, s4⟩ := starred_spec L (d.prec.getD .none) k4
    cases hst2 : starred L (d.prec.getD .none) as1 with
    | odd => exact ⟨fun o as h => (by cases h), fun x h => (by cases h)⟩
    | bad e =>
      rw [s4 e hst2]
      exact ⟨fun o as h => (by cases h), fun x h => (by cases h; rfl)⟩
    | ok p2 =>
      obtain ⟨ps, as2⟩ := p2
      obtain ⟨pr, j1, j2, j3, j4⟩ := s3 ps as2 hst2
      rw [j1]
      dsimp only
      cases hk : kindOf d.conv with
      | none => exact ⟨fun o as h => (by cases h), fun x h => (by cases h)⟩
      | some k =>
        dsimp only
        by_cases hb : k = .long ∧ (61 < t.length + d.tail.length ∨ d.conv = 88)
        · rw [if_pos hb]
          exact ⟨fun o as h => (by cases h), fun x h => (by cases h)⟩
        rw [if_neg hb]
        have hi := ints_append fw pr ws ps k2 j2
        have hst : stars d = (ints fw pr).length := by
          rw [hi, List.length_append, k3, j3]
          unfold stars
          cases d.prec with
          | none => rfl
          | some p => cases p <;> rfl
        obtain ⟨v1, v2⟩ := convert_spec L hL { s with args := as2 } (mid := t ++ [37] ++ (d.flags ++ (d.width.shown ++ precShown d.prec))) ht hd hl (by unfold Dir.tail; rw [hl]; simp) hst j4 hk hb next r
        cases hv : value L k as2 with
        | odd => exact ⟨fun o as h => (by cases h), fun x h => (by cases h)⟩
        | bad e => exact ⟨fun o as h => (by cases h), fun x h => (by cases h; exact v2 e hv)⟩
        | ok p3 =>
          obtain ⟨v, as3⟩ := p3
          refine ⟨fun o as h => ?_, fun x h => (by cases h)⟩
          cases h
          obtain ⟨-, n, hn⟩ := value_args L k hv
          refine ⟨fun a ha => j4 a (by rw [hn] at ha; exact List.mem_of_mem_drop ha), ?_⟩
          rw [v1 v as3 hv, hi]
          rfl

/-- `%%` with the text before. -/
theorem percent_step (L : Lib D) (s : State) (hm : s.mid = []) {t : List Nat} (hw : (Item.percent t).Well) {r : List Nat} (hr : s.rest = (Item.percent t).shown ++ r) :
    step L s = .go { s with pre := s.pre ++ (t ++ [37]) ++ [0], mid := [], rest := r, out := s.out ++ (t ++ [37]) } := by
  have hz : 0 ∉ t ++ [37] := by
    simp only [List.mem_append, List.mem_singleton, not_or]
    exact ⟨fun hx => (hw 0 hx).1 rfl, by decide⟩
  unfold step
  rw [hm, hr, show (Item.percent t).shown ++ r = t ++ 37 :: 37 :: r by simp [Item.shown], find_percent hw [] r]
  dsimp only
  rw [List.nil_append, cstr_all hz]

theorem rest_cons (is : List Item) (t junk : List Nat) : ∃ x y, shown is ++ (t ++ 0 :: junk) = x :: y := by
  cases h : shown is ++ (t ++ 0 :: junk) with
  | nil => simp at h
  | cons x y => exact ⟨x, y, rfl⟩

/-- The format, used once. -/
theorem pass_spec (L : Lib D) {render : Dir → List Int → Val D → List Nat} (hL : L.printf = cprintf render) (t junk : List Nat) : ∀ (is : List Item) (s : State), s.mid = [] → s.rest = shown is ++ (t ++ 0 :: junk) → (∀ i ∈ is, i.Well) → (∀ a ∈ s.args, 0 ∉ a) →
    (∀ o as, pass L render is s.args s.out = .ok (o, as) → (∀ a ∈ as, 0 ∉ a) ∧ ∃ k s', (∀ n, run L (k + n) s = run L n s') ∧ s'.mid = [] ∧ s'.rest = t ++ 0 :: junk ∧ s'.args = as ∧ s'.out = o ∧ ((∀ i ∈ is, i.isDir = true) → s'.pre = s.pre ++ shown is ∧ (is ≠ [] → s'.fin = false)) ∧ (s.fin = false → s'.fin = false)) ∧
    (∀ x, pass L render is s.args s.out = .bad x → ∃ k, ∀ n, run L (k + n) s = some (.done 1 x))
  | [], s, hm, hr, _, hz => ⟨fun o as h => (by cases h; exact ⟨hz, 0, s, fun n => (by rw [Nat.zero_add]), hm, hr, rfl, rfl, fun _ => ⟨(by simp [shown]), fun h => absurd rfl h⟩, id⟩), fun x h => (by cases h)⟩
  | .percent u :: is, s, hm, hr, hw, hz => by
    have hst := percent_step L s hm (t := u) (hw _ (by simp)) (r := shown is ++ (t ++ 0 :: junk)) (by rw [hr]; simp [shown])
    obtain ⟨h1, h2⟩ := pass_spec L hL t junk is { s with pre := s.pre ++ (u ++ [37]) ++ [0], mid := [], rest := shown is ++ (t ++ 0 :: junk), out := s.out ++ (u ++ [37]) } rfl rfl (fun i hi => hw i (by simp [hi])) hz
    have one : ∀ n, run L (n + 1) s = run L n { s with pre := s.pre ++ (u ++ [37]) ++ [0], mid := [], rest := shown is ++ (t ++ 0 :: junk), out := s.out ++ (u ++ [37]) } := by
      intro n
      unfold run
      rw [hst]
      cases n <;> rfl
    constructor
    · intro o as h
      obtain ⟨k0, k, s', e, e1, e2, e3, e4, -, e6⟩ := h1 o as h
      refine ⟨k0, k + 1, s', fun n => ?_, e1, e2, e3, e4, fun hx => ?_, e6⟩
      · rw [show k + 1 + n = (k + n) + 1 by omega, one, e]
      · exact absurd (hx (.percent u) (by simp)) (by simp [Item.isDir])
    · intro x h
      obtain ⟨k, e⟩ := h2 x h
      exact ⟨k + 1, fun n => (by rw [show k + 1 + n = (k + n) + 1 by omega, one, e])⟩
  | .dir u d :: is, s, hm, hr, hw, hz => by
    obtain ⟨x0, y0, hxy⟩ := rest_cons is t junk
    obtain ⟨d1, d2⟩ := dir_step L hL s hm (t := u) (d := d) (hw _ (by simp)) hz (next := x0) (r := y0) (by rw [hr, ← hxy]; simp [shown])
    unfold pass
    cases hd : directive L render u d s.args with
    | odd => exact ⟨fun o as h => (by cases h), fun x h => (by cases h)⟩
    | bad e =>
      refine ⟨fun o as h => (by cases h), fun x h => ?_⟩
      cases h
      refine ⟨1, fun n => ?_⟩
      rw [Nat.add_comm]
      unfold run
      rw [d2 e hd]
    | ok p =>
      obtain ⟨o1, as1⟩ := p
      obtain ⟨z1, hst⟩ := d1 o1 as1 hd
      obtain ⟨h1, h2⟩ := pass_spec L hL t junk is { pre := s.pre ++ (Item.dir u d).shown, mid := [], rest := x0 :: y0, args := as1, out := s.out ++ o1, fin := false } rfl hxy.symm (fun i hi => hw i (by simp [hi])) z1
      have one : ∀ n, run L (n + 1) s = run L n { pre := s.pre ++ (Item.dir u d).shown, mid := [], rest := x0 :: y0, args := as1, out := s.out ++ o1, fin := false } := by
        intro n
        unfold run
        rw [hst]
        cases n <;> rfl
      dsimp only
      constructor
      · intro o as h
        obtain ⟨k0, k, s', e, e1, e2, e3, e4, e5, e6⟩ := h1 o as h
        refine ⟨k0, k + 1, s', fun n => ?_, e1, e2, e3, e4, fun hx => ?_, fun _ => e6 rfl⟩
        · rw [show k + 1 + n = (k + n) + 1 by omega, one, e]
        · obtain ⟨q1, -⟩ := e5 (fun i hi => hx i (by simp [hi]))
          refine ⟨?_, fun _ => e6 rfl⟩
          rw [q1]
          simp [shown]
      · intro x h
        obtain ⟨k, e⟩ := h2 x h
        exact ⟨k + 1, fun n => (by rw [show k + 1 + n = (k + n) + 1 by omega, one, e])⟩

theorem finish_step (L : Lib D) (s : State) (hm : s.mid = []) {t junk : List Nat} (ht : Plain t) (hr : s.rest = t ++ 0 :: junk) : step L s = finish s t (0 :: junk) := by
  unfold step
  rw [hm, hr, find_finish ht [] junk]
  rfl

theorem prints_spec (L : Lib D) {render : Dir → List Int → Val D → List Nat} (hL : L.printf = cprintf render) {t junk : List Nat} (ht : Plain t) {is : List Item} (hw : ∀ i ∈ is, i.Well) {args : List (List Nat)} {out : List Nat} {r : Res} (hp : Prints L render is t args out r) :
    ∀ fin : Bool, (fin = true → is ≠ [] ∧ ∀ i ∈ is, i.isDir = true) → (∀ a ∈ args, 0 ∉ a) → ∃ k, ∀ n, run L (k + n) ⟨[], [], shown is ++ (t ++ 0 :: junk), args, out, fin⟩ = some r := by
  have hc : cstr t = t := cstr_all fun hx => (ht 0 hx).1 rfl
  induction hp with
  | bad h => exact fun fin hf hz => (pass_spec L hL t junk is _ rfl rfl hw hz).2 _ h
  | @last args out o h =>
    intro fin hf hz
    obtain ⟨-, k, s', e, e1, e2, e3, e4, e5, e6⟩ := (pass_spec L hL t junk is ⟨[], [], shown is ++ (t ++ 0 :: junk), args, out, fin⟩ rfl rfl hw hz).1 _ _ h
    have hfin : s'.fin = false := by
      cases fin with
      | false => exact e6 rfl
      | true => exact (e5 (hf rfl).2).2 (hf rfl).1
    refine ⟨k + 1, fun n => ?_⟩
    rw [show k + 1 + n = k + (n + 1) by omega, e]
    unfold run
    rw [finish_step L s' e1 ht e2]
    unfold finish
    rw [hfin, e3, e4, hc]
    rfl
  | @text args out o as h hne hi =>
    intro fin hf hz
    subst hi
    cases h
    have hfin : fin = false := by
      cases fin with
      | false => rfl
      | true => exact absurd rfl (hf rfl).1
    subst hfin
    refine ⟨2, fun n => ?_⟩
    rw [Nat.add_comm]
    unfold run
    rw [finish_step L _ rfl ht rfl]
    unfold finish
    rw [if_neg (show ¬ false = true by decide), if_neg hne]
    dsimp only
    unfold run
    rw [finish_step L _ rfl ht (by rfl)]
    unfold finish
    rw [if_pos rfl, hc]
  | @again args out o as r h hne hi hd _ ih =>
    intro fin hf hz
    obtain ⟨z1, k, s', e, e1, e2, e3, e4, e5, e6⟩ := (pass_spec L hL t junk is ⟨[], [], shown is ++ (t ++ 0 :: junk), args, out, fin⟩ rfl rfl hw hz).1 _ _ h
    obtain ⟨hpre, hfin⟩ := e5 hd
    have hfin := hfin hi
    obtain ⟨k2, e7⟩ := ih true (fun _ => ⟨hi, hd⟩) z1
    refine ⟨k + 1 + k2, fun n => ?_⟩
    rw [show k + 1 + k2 + n = k + ((k2 + n) + 1) by omega, e]
    unfold run
    rw [finish_step L s' e1 ht e2]
    unfold finish
    rw [hfin, e3, e4, hc, if_neg (by decide), if_neg hne]
    dsimp only
    rw [hpre, ← e7 n]
    simp

/-- Text, directives and arguments are printed as described (Spec.lean). -/
theorem C107_prints_partial (L : Lib D) {render : Dir → List Int → Val D → List Nat} (hL : L.printf = cprintf render) {buf t junk : List Nat} {is : List Item} (hb : PrintfEsc.escape buf = some (shown is ++ (t ++ 0 :: junk))) (ht : Plain t) (hw : ∀ i ∈ is, i.Well)
    {args : List (List Nat)} (hz : ∀ a ∈ args, 0 ∉ a) {r : Res} (hp : Prints L render is t args [] r) : ∃ k, ∀ n, k ≤ n → main L n buf args = some r := by
  obtain ⟨k, h⟩ := prints_spec L hL ht (junk := junk) hw hp false (fun h => by cases h) hz
  refine ⟨k, fun n hn => ?_⟩
  unfold main
  rw [hb]
  dsimp only
  rw [show n = k + (n - k) by omega]
  exact h (n - k)

/-! ## What goes wrong -/

/-- The command ends without fault, whatever its arguments are. -/
def C107_full : Prop := ∀ (D : Type) (L : Lib D) (render : Dir → List Int → Val D → List Nat), L.printf = cprintf render → ∀ (buf : List Nat) (args : List (List Nat)), 0 ∉ buf → (∀ a ∈ args, 0 ∉ a) → ∃ n code out, main L n (buf ++ [0]) args = some (.done code out)

theorem run_mono (L : Lib D) : ∀ (n : Nat) (s : State) (r : Res), run L n s = some r → run L (n + 1) s = some r
  | 0, _, _, h => by cases h
  | n + 1, s, r, h => by
    unfold run at h ⊢
    cases hs : step L s with
    | stop x => rw [hs] at h; exact h
    | go s' => rw [hs] at h; exact run_mono L n s' r h

theorem run_le (L : Lib D) {n : Nat} {s : State} {r : Res} (h : run L n s = some r) (m : Nat) : run L (n + m) s = some r := by
  induction m with
  | zero => exact h
  | succ m ih => exact run_mono L (n + m) s r ih

theorem run_same (L : Lib D) {n m : Nat} {s : State} {r r' : Res} (h : run L n s = some r) (h' : run L m s = some r') : r = r' := by
  have h1 := run_le L h m
  have h2 := run_le L h' n
  rw [Nat.add_comm, h1] at h2
  exact Option.some.inj h2

/-- More rounds do not change the outcome. -/
theorem main_same (L : Lib D) {n m : Nat} {buf : List Nat} {args : List (List Nat)} {r r' : Res} (h : main L n buf args = some r) (h' : main L m buf args = some r') : r = r' := by
  unfold main at h h'
  cases hb : PrintfEsc.escape buf with
  | none => rw [hb] at h h'; cases h; cases h'; rfl
  | some b => rw [hb] at h h'; exact run_same L h h'

/-- `printf %` reads behind the end of its argument. -/
theorem C107_percent (L : Lib D) (args : List (List Nat)) : main L 1 [37, 0] args = some (.fault .over) := rfl

/-- `printf %% x` does so when it begins anew, as the format has been changed. -/
theorem C107_reuse (L : Lib D) (a : List Nat) (as : List (List Nat)) : main L 3 [37, 37, 0] (a :: as) = some (.fault .over) := rfl

/-- `printf %*d`, without arguments or with width 0, calls `fpm_printf` without the width. -/
theorem C107_star (L : Lib D) {render : Dir → List Int → Val D → List Nat} (hL : L.printf = cprintf render) : main L 1 [37, 42, 100, 0] [] = some (.fault .args) := by
  show (match (match L.printf [37, 42, 108, 100] [] (.long 0) with | none => Step.stop (.fault .args) | some t => .go _) with | .stop r => some r | .go s' => run L 0 s') = _
  rw [hL]
  rfl

/-- `printf %*d 70000`: the message about the number uses the argument behind it, which is not there. -/
theorem C107_width (L : Lib D) (hs : L.strtol [55, 48, 48, 48, 48] = (70000, true, false)) : main L 1 [37, 42, 100, 0] [[55, 48, 48, 48, 48]] = some (.fault .null) := by
  show (match (match (match (if (L.strtol [55, 48, 48, 48, 48]).2.1 = false then Got.err ([55, 48, 48, 48, 48] ++ ascii ": illegal number\n") else if (L.strtol [55, 48, 48, 48, 48]).2.2 then .err ([55, 48, 48, 48, 48] ++ ascii ": value out of bounds\n") else .ok (L.strtol [55, 48, 48, 48, 48]).1 []) with
    | .ok v as => (if v > 65535 then (match as with | [] => Got.null | b :: _ => .err (b ++ ascii ": value out of bounds\n")) else .ok v as) | g => g) with
    | .ok fieldwidth as => second L { (⟨[], [], [37, 42, 100, 0], [[55, 48, 48, 48, 48]], [], false⟩ : State) with args := as } [37] [42, 100, 0] fieldwidth | .err t => .stop (.done 1 ([] ++ t)) | .null => .stop (.fault .null)) with | .stop r => some r | .go s' => run L 0 s') = _
  rw [hs]
  rfl

/-- A text of more than 60 characters before `%d` is written behind the end of the array `buf`. -/
theorem C107_long (L : Lib D) (t : List Nat) (ht : ∀ c ∈ t, c ≠ 0 ∧ c ≠ 37) (hl : 60 < t.length) (junk : List Nat) (args : List (List Nat)) (out : List Nat) (pre : List Nat) (fin : Bool) : run L 1 ⟨pre, [], t ++ 37 :: 100 :: 0 :: junk, args, out, fin⟩ = some (.fault .buf) := by
  have h1 : step L ⟨pre, [], t ++ 37 :: 100 :: 0 :: junk, args, out, fin⟩ = first L ⟨pre, [], t ++ 37 :: 100 :: 0 :: junk, args, out, fin⟩ (t ++ [37]) (100 :: 0 :: junk) := by
    unfold step
    dsimp only
    rw [find_spec (show Plain t from ht) [] (0 :: junk) (show (100 : Nat) ≠ 37 by decide)]
    rfl
  have h2 := first_spec L ⟨pre, [], t ++ 37 :: 100 :: 0 :: junk, args, out, fin⟩ (t ++ [37]) (0 :: junk) (d := ⟨[], .none, none, false, 100⟩) ⟨fun c hc => (by cases hc), trivial, fun ds h => (by cases h), fun p h => (by cases h), rfl⟩ rfl
  have h3 : cstr (t ++ [37] ++ [100]) = t ++ [37] ++ [100] := cstr_all (by
    simp only [List.mem_append, List.mem_singleton, not_or]
    exact ⟨⟨fun hx => (ht 0 hx).1 rfl, by decide⟩, by decide⟩)
  unfold run
  rw [h1]
  have h2 := h2
  rw [show (Dir.tail ⟨[], .none, none, false, 100⟩ ++ 0 :: junk) = 100 :: 0 :: junk from rfl] at h2
  rw [h2]
  dsimp only [after, starG, Option.getD]
  unfold convert
  dsimp only
  rw [if_neg (by decide), if_neg (by decide), if_pos (by decide), show t ++ [37] ++ ([] ++ (Num.none.shown ++ precShown none)) = t ++ [37] by simp [Num.shown, precShown], h3]
  unfold mklong
  rw [if_neg (by simp; omega)]

theorem C107_violated : ¬ C107_full := by
  intro h
  obtain ⟨n, code, out, h1⟩ := h Unit ⟨fun _ => (0, true, false), fun _ => (), fun _ => (), cprintf (fun _ _ _ => [])⟩ (fun _ _ _ => []) rfl [37] [] (by decide) (by simp)
  have := main_same _ h1 (C107_percent _ [])
  cases this

/-! ## It ends -/

theorem skip_le {set : List Nat} : ∀ (r mid mid' r' : List Nat), skip set mid r = some (mid', r') → r'.length ≤ r.length
  | [], _, _, _, h => by cases h
  | c :: r, mid, mid', r', h => by
    unfold skip at h
    split at h
    · have := skip_le r _ _ _ h
      simp only [List.length_cons]; omega
    · cases h; exact Nat.le_refl _

theorem getLong_le (L : Lib D) (args as : List (List Nat)) (v : Int) (h : getLong L args = .ok v as) : as.length ≤ args.length ∧ (args ≠ [] → as.length < args.length) := by
  cases args with
  | nil => cases h; exact ⟨Nat.le_refl _, fun h => absurd rfl h⟩
  | cons a args =>
    unfold getLong at h
    dsimp only at h
    split at h
    · split at h
      · cases h
      split at h
      · cases h
      · cases h; simp
    · cases h; simp

theorem star_le (L : Lib D) (r : List Nat) (args as : List (List Nat)) (v : Int) (h : star L r args = .ok v as) : as.length ≤ args.length := by
  unfold star at h
  split at h
  · unfold getInt at h
    cases hg : getLong L args with
    | ok v' as' =>
      rw [hg] at h
      dsimp only at h
      split at h
      · cases as' with
        | nil => cases h
        | cons b bs => cases h
      · cases h; exact (getLong_le L args as v hg).1
    | err t => rw [hg] at h; cases h
    | null => rw [hg] at h; cases h
  · cases h; exact Nat.le_refl _

/-- What a conversion does to the arguments and the rest of the format. -/
def Less (s s' : State) (args : List (List Nat)) (r : List Nat) : Prop := s'.fin = false ∧ s'.rest.length < r.length ∧ s'.args.length ≤ args.length ∧ (args ≠ [] → s'.args.length < args.length)

theorem emit_go (L : Lib D) {s s' : State} {f : List Nat} {fw pr : Int} {v : Val D} (h : emit L s f fw pr v = .go s') : s'.fin = s.fin ∧ s'.rest = s.rest ∧ s'.args = s.args := by
  unfold emit at h
  split at h
  · cases h
  · cases h; exact ⟨rfl, rfl, rfl⟩

theorem convert_less (L : Lib D) {s s' : State} {mid r : List Nat} {fw pr : Int} (h : convert L s mid r fw pr = .go s') : Less s s' s.args r := by
  unfold convert at h
  split at h
  · rename_i c n r'
    dsimp only at h
    have fin : ∀ (as : List (List Nat)) (f : List Nat) (v : Val D), emit L { pre := s.pre ++ mid ++ [c], mid := [], rest := n :: r', args := as, out := s.out, fin := false } f fw pr v = .go s' → as.length ≤ s.args.length → (s.args ≠ [] → as.length < s.args.length) → Less s s' s.args (c :: n :: r') := by
      intro as f v he h1 h2
      obtain ⟨e1, e2, e3⟩ := emit_go L he
      refine ⟨e1, ?_, ?_, ?_⟩
      · rw [e2]; simp
      · rw [e3]; exact h1
      · rw [e3]; exact h2
    split at h
    · refine fin _ _ _ h ?_ ?_ <;> cases s.args <;> simp [getChr]
    split at h
    · refine fin _ _ _ h ?_ ?_ <;> cases s.args <;> simp [getStr]
    split at h
    · split at h
      · cases h
      · split at h
        · rename_i v as hg
          exact fin _ _ _ h (getLong_le L _ _ _ hg).1 (getLong_le L _ _ _ hg).2
        · cases h
        · cases h
    split at h
    · refine fin _ _ _ h ?_ ?_ <;> cases s.args <;> simp [getDouble]
    · cases h
  · cases h

theorem first_less (L : Lib D) {s s' : State} {mid r : List Nat} (h : first L s mid r = .go s') : s'.fin = false ∧ s'.rest.length < r.length ∧ s'.args.length ≤ s.args.length ∧ (s.args ≠ [] → s'.args.length < s.args.length) := by
  unfold first at h
  split at h
  · cases h
  rename_i m1 r1 hs1
  have l1 := skip_le _ _ _ _ hs1
  split at h
  · rename_i fw as1 hst
    have a1 := star_le L _ _ _ _ hst
    have key : ∀ (m2 r2 : List Nat), r2.length ≤ r.length → precise L { s with args := as1 } m2 r2 fw = .go s' → s'.fin = false ∧ s'.rest.length < r.length ∧ s'.args.length ≤ s.args.length ∧ (s.args ≠ [] → s'.args.length < s.args.length) := by
      intro m2 r2 l2 h
      unfold precise at h
      split at h
      · cases h
      split at h
      · rename_i pr as2 hst2
        have a2 := star_le L _ _ _ _ hst2
        have a2 : as2.length ≤ as1.length := a2
        unfold third at h
        split at h
        · cases h
        rename_i m3 r3 hs3
        have l3 := skip_le _ _ _ _ hs3
        split at h
        · cases h
        · obtain ⟨q1, q2, q3, q4⟩ := convert_less L h
          have q3 : s'.args.length ≤ as2.length := q3
          have q4 : as2 ≠ [] → s'.args.length < as2.length := q4
          refine ⟨q1, by omega, by omega, fun hne => ?_⟩
          by_cases h2 : as2 = []
          · subst h2
            have : s.args.length ≠ 0 := fun hx => hne (List.length_eq_zero_iff.1 hx)
            simp only [List.length_nil] at q3
            omega
          · have := q4 h2
            omega
      · cases h
      · cases h
    unfold second at h
    split at h
    · cases h
    rename_i m2 r2 hs2
    have l2 := skip_le _ _ _ _ hs2
    split at h
    · exact key _ _ (by simp; omega) h
    · exact key _ _ (by omega) h
  · cases h
  · cases h

theorem find_le : ∀ (r mid : List Nat), (∀ m' r', find mid r = .percent m' r' → r'.length < r.length) ∧ (∀ m' r', find mid r = .spec m' r' → r'.length ≤ r.length)
  | [], mid => ⟨fun m' r' h => (by cases h), fun m' r' h => (by cases h)⟩
  | c :: r, mid => by
    unfold find
    split
    · exact ⟨fun m' r' h => (by cases h), fun m' r' h => (by cases h)⟩
    split
    · split
      · exact ⟨fun m' r' h => (by cases h), fun m' r' h => (by cases h)⟩
      · split
        · exact ⟨fun m' r' h => (by cases h; simp only [List.length_cons]; omega), fun m' r' h => (by cases h)⟩
        · exact ⟨fun m' r' h => (by cases h), fun m' r' h => (by cases h; simp only [List.length_cons]; omega)⟩
    · obtain ⟨h1, h2⟩ := find_le r (mid ++ [c])
      exact ⟨fun m' r' h => (by have := h1 m' r' h; simp only [List.length_cons]; omega), fun m' r' h => (by have := h2 m' r' h; simp only [List.length_cons]; omega)⟩

/-- Every run comes to an end. -/
theorem run_ends (L : Lib D) : ∀ (a b : Nat) (s : State), (s.fin = true → s.args ≠ []) → 2 * s.args.length + (if s.fin then 0 else 1) ≤ a → s.rest.length ≤ b → ∃ n r, run L n s = some r := by
  intro a
  induction a using Nat.strongRecOn with
  | ind a iha =>
    intro b
    induction b using Nat.strongRecOn with
    | ind b ihb =>
      intro s hf ha hb
      cases hs : step L s with
      | stop r => exact ⟨1, r, (by unfold run; rw [hs])⟩
      | go s' =>
        have suff : (∃ n r, run L n s' = some r) → ∃ n r, run L n s = some r := fun ⟨n, r, h⟩ => ⟨n + 1, r, (by unfold run; rw [hs]; exact h)⟩
        apply suff
        unfold step at hs
        split at hs
        · cases hs
        · rename_i m r hfd
          unfold finish at hs
          split at hs
          · cases hs
          rename_i hfin
          split at hs
          · cases hs
          rename_i hne
          cases hs
          rw [if_neg hfin] at ha
          exact iha (2 * s.args.length) (by omega) _ _ (fun _ => hne) (by simp) (Nat.le_refl _)
        · rename_i m r hfd
          have := (find_le _ _).1 _ _ hfd
          cases hs
          exact ihb r.length (by omega) _ hf ha (Nat.le_refl _)
        · rename_i m r hfd
          have h0 := (find_le _ _).2 _ _ hfd
          obtain ⟨h1, h2, h3, h4⟩ := first_less L hs
          by_cases hne : s.args = []
          · have hfin : s.fin = false := by
              cases hx : s.fin with
              | false => rfl
              | true => exact absurd hne (hf hx)
            rw [hfin] at ha
            refine ihb s'.rest.length (by omega) s' (fun h => by rw [h1] at h; cases h) ?_ (Nat.le_refl _)
            rw [h1]
            simp only [Bool.false_eq_true, if_false] at ha ⊢
            omega
          · have h4 := h4 hne
            have : 2 * s.args.length ≤ a := by omega
            refine iha (2 * s'.args.length + 1) (by omega) s'.rest.length s' (fun h => by rw [h1] at h; cases h) ?_ (Nat.le_refl _)
            rw [h1]
            simp

/-- The command comes to an end, with or without fault, for every library, format and arguments. -/
theorem C107_ends (L : Lib D) (buf : List Nat) (args : List (List Nat)) : ∃ n r, main L n buf args = some r := by
  unfold main
  cases PrintfEsc.escape buf with
  | none => exact ⟨0, _, rfl⟩
  | some b => exact run_ends L _ _ ⟨[], [], b, args, [], false⟩ (fun h => by cases h) (Nat.le_refl _) (Nat.le_refl _)

/-! ## An example: `printf "%s is %-*d%%\n" a 5 x` -/

def lib : Lib Unit := ⟨fun s => ((s.foldl (fun n c => 10 * n + (c - 48)) 0 : Nat), s.all isDigit, false), fun _ => (), fun _ => (), cprintf fun d is v => match v with | .str s => s | .long n => List.replicate (is.headD 0).toNat 32 ++ [n.toNat] | _ => []⟩

def items : List Item := [.dir [] ⟨[], .none, none, false, 115⟩, .dir [32, 105, 115, 32] ⟨[45], .star, none, false, 100⟩, .percent []]

example : ∃ r, Prints lib (fun d is v => match v with | .str s => s | .long n => List.replicate (is.headD 0).toNat 32 ++ [n.toNat] | _ => []) items [10] [[97], [53], [120]] [] r ∧ r = .done 0 ([97, 32, 105, 115, 32, 32, 32, 32, 32, 32, 120, 37, 10]) ∧
    PrintfEsc.escape [37, 115, 32, 105, 115, 32, 37, 45, 42, 100, 37, 37, 92, 110, 0] = some (shown items ++ ([10] ++ 0 :: [0])) :=
  ⟨_, .last rfl, rfl, by decide⟩

example : ∀ i ∈ items, i.Well := by
  intro i hi
  simp only [items, List.mem_cons, List.not_mem_nil, or_false] at hi
  rcases hi with rfl | rfl | rfl
  · exact ⟨fun c h => (by cases h), ⟨fun c h => (by cases h), trivial, fun ds h => (by cases h), fun p h => (by cases h), rfl⟩, rfl⟩
  · refine ⟨by unfold Plain; decide, ⟨by decide, trivial, fun ds h => (by cases h), fun p h => (by cases h), rfl⟩, rfl⟩
  · exact fun c h => (by cases h)

end Fpm.Printf
