import Verif.Getopt.ItemLemmas
/-! # Lemmas: whole command lines and arbitrary ones -/
namespace Fpm.Getopt
open Spec

theorem render_ne {res st table} {it : Item} (h : Item.Ok res st table it) :
    ∃ x xs, it.render = x :: xs ∧ x ≠ [45, 45] := by
  cases it with
  | plain s =>
    refine ⟨s, [], rfl, ?_⟩
    rintro rfl
    rcases h with h | h <;> simp at h
  | shorts fs tl =>
    refine ⟨_, _, rfl, ?_⟩
    intro e
    simp only [List.cons.injEq, true_and] at e
    exact h.2.1 45 (by rw [e]; rfl) rfl
  | long i t v =>
    obtain ⟨_, _, o, _, h⟩ := h
    cases v with
    | bare => exact ⟨_, _, rfl, by simpa using h.1⟩
    | eq v => exact ⟨_, _, rfl, by simp⟩
    | next e v =>
      refine ⟨_, _, rfl, ?_⟩
      cases e with
      | true => simp [eqs]
      | false => simpa [eqs] using h.1 rfl

theorem events_ne {res st table} {it : Item} (h : Item.Ok res st table it) : it.events table ≠ [] := by
  cases it with
  | plain s => simp [Item.events]
  | shorts fs tl =>
    cases tl with
    | none => have := h.2.2.1; simp [Tail.spell] at this; simp [Item.events, this]
    | attached c e v => simp [Item.events]
    | next c e v => simp [Item.events]
  | long i t v =>
    obtain ⟨_, _, o, ho, _⟩ := h
    simp [Item.events, ho]

theorem items_run {st : ShortTable} (hst : st.Ok) {table : List LongOpt} (items : List Item) :
    ∀ (A rest : List Str) (s : St), A ≠ [] → (∀ it ∈ items, it.Ok (DenotesClear table) st table) → Between s A.length →
      ∃ s', calls (A ++ (items.flatMap Item.render ++ rest)) (some st.text) (some table) (items.flatMap (Item.events table)).length s =
          some (items.flatMap (Item.events table), s') ∧
        Between s' (A.length + (items.flatMap Item.render).length) := by
  induction items with
  | nil => intro A rest s _ _ hs; exact ⟨s, rfl, hs⟩
  | cons it items ih =>
    intro A rest s hA hok hs
    have hpos : 0 < A.length := List.length_pos_iff.mpr hA
    have harg : ∀ k < it.render.length,
        (A ++ ((it :: items).flatMap Item.render ++ rest))[A.length + k]? = it.render[k]? := by
      intro k hk
      rw [List.getElem?_append_right (by omega), show A.length + k - A.length = k by omega, List.flatMap_cons,
        List.append_assoc, List.getElem?_append_left hk]
    have hone : ∃ s', calls (A ++ ((it :: items).flatMap Item.render ++ rest)) (some st.text) (some table) (it.events table).length s =
        some (it.events table, s') ∧ Between s' (A.length + it.render.length) := by
      have hi := hok it (by simp)
      cases it with
      | plain x =>
        have hx := harg 0 (by simp [Item.render])
        exact item_plain hst _ hpos hi (by simpa [Item.render] using hx) s hs
      | shorts fs tl => exact item_shorts hst _ hpos hi harg s hs
      | long i t v =>
        obtain ⟨s', h1, h2, _, h4⟩ := item_long hst hpos hi harg s hs
        refine ⟨s', ?_, h4⟩
        rw [← h2]
        exact calls_succ h1 rfl
    obtain ⟨s1, h1, h2⟩ := hone
    obtain ⟨s2, h3, h4⟩ := ih (A ++ it.render) rest s1 (by simp [hA]) (fun i hi => hok i (by simp [hi])) (by simpa using h2)
    refine ⟨s2, ?_, ?_⟩
    · rw [show (it :: items).flatMap (Item.events table) = it.events table ++ items.flatMap (Item.events table) from rfl,
        List.length_append]
      refine calls_append h1 ?_
      rw [← h3]
      simp [List.flatMap_cons, List.append_assoc]
    · have : A.length + ((it :: items).flatMap Item.render).length = (A ++ it.render).length + (items.flatMap Item.render).length := by
        simp [List.flatMap_cons]; omega
      rw [this]; exact h4

theorem getopt_end {st : ShortTable} {lo : Option (List LongOpt)} {argv : List Str} {s : St} (e : Option (List Str)) {pos : Nat}
    (hpos : 0 < pos) (hs : Between s pos) (harg : argv.drop pos = ending e) (hlen : pos ≤ argv.length) :
    ∃ s', getopt argv (some st.text) lo s = some s' ∧ s'.ret = -1 ∧ s'.ind = pos + (if e.isSome then 1 else 0) := by
  obtain ⟨h1, h2⟩ := hs
  have hget : argv[pos]? = (ending e)[0]? := by
    rw [← harg, List.getElem?_drop]; rfl
  unfold getopt
  rw [if_neg (by rintro (h | ⟨h, _⟩ | h)
                 · omega
                 · cases h
                 · omega)]
  rw [h1, hget]
  cases e with
  | none =>
    rw [if_neg (by simp [ending]), if_neg (by omega), parseArg, h1, hget]
    exact ⟨_, rfl, rfl, by simp⟩
  | some rest =>
    rw [if_pos (by simp [ending])]
    exact ⟨_, rfl, rfl, by simp⟩

/-- The first call starts at the first argument, provided neither the program name nor that
argument is `--`. -/
theorem getopt_fresh {so : Option Str} {lo : Option (List LongOpt)} {argv : List Str} {s : St} (h0 : s.ind = 0) (hne : argv ≠ [])
    (h1 : argv[0]? ≠ some [45, 45]) (h2 : argv[1]? ≠ some [45, 45]) :
    getopt argv so lo s = getopt argv so lo { s with ind := 1, whr := 1 } ∨ (so = none ∧ lo = none) := by
  by_cases hb : so = none ∧ lo = none
  · exact Or.inr hb
  left
  have hl : 0 < argv.length := List.length_pos_iff.mpr hne
  unfold getopt
  rw [if_neg (by rintro (h | h | h)
                 · omega
                 · exact hb h
                 · omega),
    if_neg (by rw [h0]; exact h1), if_pos h0, if_neg (by rintro (h | h | h)
                                                         · omega
                                                         · exact hb h
                                                         · simp only at h; omega), if_neg (by simpa using h2),
    if_neg (by simp)]

/-! ## Arbitrary command lines -/

theorem strchr_suffix {c : Nat} {s cp : Str} (h : strchr c s = some cp) (hc : c ≠ 0) : ∃ r, cp = c :: r := by
  induction s with
  | nil => simp [strchr, hc] at h
  | cons x s ih =>
    rw [strchr] at h
    split at h
    · rename_i hx; cases h; exact ⟨s, by rw [hx]⟩
    · exact ih h

theorem finish_ind (s : St) (lm : Option (Nat × LongOpt)) (k : Nat) :
    (finish s lm k).whr = s.whr ∧ (finish s lm k).ind = (if s.whr = 1 then s.ind + 1 + k else s.ind) := by
  unfold finish
  cases lm with
  | none => split <;> simp
  | some x => obtain ⟨i, o⟩ := x; cases ho : o.flag <;> split <;> simp [ho]

/-- Progress made by a call that handles an argument. -/
def Progress (cur : Str) (s s' : St) : Prop :=
  s.ind < s'.ind ∨ (s'.ind = s.ind ∧ s.whr < s'.whr ∧ s'.whr ≤ cur.length)

/-- Positions where parsing may be resumed safely. -/
def Valid (argv : List Str) (s : St) : Prop :=
  s.whr = 1 ∨ argv.length ≤ s.ind ∨ ∃ cur, argv[s.ind]? = some cur ∧ (s.whr < cur.length ∨ cur = [45, 45])

theorem chr_some {s : Str} {i : Nat} (h : i ≤ s.length) : ∃ c, chr s i = some c := by
  unfold chr
  split
  · exact ⟨0, rfl⟩
  · exact ⟨s[i]'(by omega), List.getElem?_eq_getElem (by omega)⟩

theorem chr_lt {s : Str} {i c : Nat} (h : chr s i = some c) (hc : c ≠ 0) : i < s.length ∧ s[i]? = some c := by
  unfold chr at h
  split at h
  · cases h; exact absurd rfl hc
  · refine ⟨?_, h⟩
    rcases Nat.lt_or_ge i s.length with hl | hl
    · exact hl
    · rw [List.getElem?_eq_none hl] at h; cases h

theorem getArg_progress {argv : List Str} {cur : Str} {s s' : St} {ha : Int} {possible : Str} {lm : Option (Nat × LongOpt)} {cp : Nat} {b : Bool}
    (h : getArg argv cur s ha possible lm cp b = some s') :
    s.ind < s'.ind ∨ (s'.ind = s.ind ∧ s.whr < s'.whr ∧ s'.whr ≤ cur.length) := by
  unfold getArg at h
  simp only at h
  generalize (if possible.head? = some 61 then possible.tail else possible) = q at h
  split at h
  · cases h; left; rw [(finish_ind _ _ _).2]; simp
  · split at h
    · split at h
      · cases h; left; rw [(finish_ind _ _ _).2]; simp
      · split at h
        · cases h; left; simp only
          split <;> simp
        · split at h
          · cases h
          · cases h; left; rw [(finish_ind _ _ _).2]; simp; omega
    · split at h
      · split at h
        · cases h
        · rename_i c hc
          cases h
          rw [(finish_ind _ _ _).2, (finish_ind _ _ _).1]
          by_cases h0 : c = 0
          · simp [h0]
          · have hl := chr_lt hc h0
            simp only [if_neg h0]
            split
            · left; omega
            · right; exact ⟨rfl, by omega, by omega⟩
      · cases h; left; rw [(finish_ind _ _ _).2]; simp

theorem getArg_total {argv : List Str} {cur : Str} {s : St} {ha : Int} {possible : Str} {lm : Option (Nat × LongOpt)} {cp : Nat} {b : Bool}
    (hw : lm = none → s.whr < cur.length) :
    ∃ s', getArg argv cur s ha possible lm cp b = some s' ∧
      (s'.whr = 1 ∨ argv.length ≤ s'.ind ∨ (s'.ind = s.ind ∧ s'.whr < cur.length)) := by
  unfold getArg
  simp only
  generalize (if possible.head? = some 61 then possible.tail else possible) = q
  split
  · exact ⟨_, rfl, Or.inl (by rw [(finish_ind _ _ _).1])⟩
  · split
    · split
      · exact ⟨_, rfl, Or.inl (by rw [(finish_ind _ _ _).1])⟩
      · split
        · rename_i h
          refine ⟨_, rfl, Or.inr (Or.inl ?_)⟩
          have : (if s.silent = true then s else { s with opt := if lm.isSome = true then if b = true then 58 else 63 else (cp : Int) }).ind = s.ind := by
            split <;> rfl
          simp only [this]; omega
        · rename_i h
          rw [List.getElem?_eq_getElem (by omega)]
          exact ⟨_, rfl, Or.inl (by rw [(finish_ind _ _ _).1])⟩
    · cases lm with
      | none =>
        obtain ⟨c, hc⟩ := chr_some (s := cur) (i := s.whr + 1) (by have := hw rfl; omega)
        simp only [hc]
        refine ⟨_, rfl, ?_⟩
        rw [(finish_ind _ _ _).1, (finish_ind _ _ _).2]
        simp only
        by_cases h0 : c = 0
        · left; rw [if_pos h0]
        · simp only [if_neg h0]
          by_cases h1 : s.whr + 1 = 1
          · left; exact h1
          · right; right
            rw [if_neg h1]
            exact ⟨rfl, (chr_lt hc h0).1⟩
      | some x => exact ⟨_, rfl, Or.inl (by rw [(finish_ind _ _ _).1])⟩

theorem shortOpt_progress {argv : List Str} {cur : Str} {s s' : St} {so : Option Str} {b : Bool}
    (h : shortOpt argv cur so b s = some s') : Progress cur s s' := by
  unfold shortOpt at h
  split at h
  · exact getArg_progress h
  · split at h
    · cases h
    · split at h
      · split at h
        · cases h
        · rename_i c2 hc2
          cases h
          unfold Progress
          by_cases h0 : c2 = 0
          · simp [h0]
          · simp only [if_neg h0]
            exact Or.inr ⟨trivial, by omega, Nat.le_of_lt (chr_lt hc2 h0).1⟩
      · split at h
        · cases h
        · split at h
          · split at h
            · cases h
            · have := getArg_progress h; exact this
          · have := getArg_progress h; exact this

theorem shortOpt_total {argv : List Str} {cur : Str} {s : St} {so : Option Str} {b : Bool}
    (h0 : 0 ∉ cur) (hw : s.whr < cur.length) :
    ∃ s', shortOpt argv cur so b s = some s' ∧
      (s'.whr = 1 ∨ argv.length ≤ s'.ind ∨ (s'.ind = s.ind ∧ s'.whr < cur.length)) := by
  unfold shortOpt
  cases so with
  | none => exact getArg_total (fun _ => hw)
  | some so =>
    have hc : chr cur s.whr = some (cur[s.whr]) := by
      unfold chr; rw [if_neg (by omega), List.getElem?_eq_getElem hw]
    have hne : cur[s.whr] ≠ 0 := fun h => h0 (h ▸ List.getElem_mem hw)
    simp only [hc]
    cases hs : strchr cur[s.whr] so with
    | none =>
      obtain ⟨c2, hc2⟩ := chr_some (s := cur) (i := s.whr + 1) (by omega)
      simp only [hc2]
      refine ⟨_, rfl, ?_⟩
      by_cases h2 : c2 = 0
      · left; simp [h2]
      · right; right
        simp only [if_neg h2]
        exact ⟨trivial, (chr_lt hc2 h2).1⟩
    | some cp =>
      obtain ⟨r, hr⟩ := strchr_suffix hs hne
      obtain ⟨c1, hc1⟩ := chr_some (s := cp) (i := 1) (by rw [hr]; simp)
      simp only [hc1]
      split
      · rename_i h58
        have := (chr_lt hc1 (by omega)).1
        obtain ⟨c2, hc2⟩ := chr_some (s := cp) (i := 2) (by omega)
        simp only [hc2]
        exact getArg_total (fun _ => hw)
      · exact getArg_total (fun _ => hw)

theorem longOpt_progress {argv : List Str} {cur : Str} {s s' : St} {table : List LongOpt} {b : Bool} (hw : s.whr = 1)
    (hl : 2 ≤ cur.length) (h : longOpt argv cur table b s = some s') : Progress cur s s' := by
  unfold longOpt at h
  simp only at h
  split at h
  · cases h
  · cases h; exact Or.inr ⟨rfl, by simp [hw], hl⟩
  · cases h; left; simp
  · split at h
    · cases h
    · rcases getArg_progress h with h1 | ⟨h1, h2, h3⟩
      · exact Or.inl h1
      · exact Or.inr ⟨h1, by simp only at h2; omega, h3⟩

theorem splitEq_before (r : Str) : r.take (splitEq r).1 = beforeEq r ∧ (splitEq r).1 ≤ r.length := by
  unfold splitEq beforeEq
  induction r with
  | nil => simp [strchr]
  | cons x r ih =>
    rw [strchr]
    by_cases hx : x = 61
    · simp [hx]
    · simp only [if_neg hx]
      cases hs : strchr 61 r with
      | none =>
        rw [hs] at ih
        simp only at ih ⊢
        rw [List.takeWhile_cons]
        simp only [ne_eq, hx, not_false_eq_true, decide_true, if_true, List.length_cons, List.take_succ_cons]
        exact ⟨by rw [ih.1], by omega⟩
      | some y =>
        rw [hs] at ih
        simp only at ih ⊢
        have hy : y.length ≤ r.length := by
          have : ∀ (c : Nat) (a b : Str), strchr c a = some b → b.length ≤ a.length := by
            intro c a b h
            induction a with
            | nil =>
              rw [strchr] at h
              split at h
              · cases h; simp
              · cases h
            | cons z a ih =>
              rw [strchr] at h
              split at h
              · cases h; simp
              · have := ih h; simp; omega
          exact this 61 r y hs
        rw [List.takeWhile_cons]
        simp only [ne_eq, hx, not_false_eq_true, decide_true, if_true, List.length_cons]
        rw [show r.length + 1 - y.length = (r.length - y.length) + 1 by omega, List.take_succ_cons]
        exact ⟨by rw [ih.1], by omega⟩

theorem findLong_total (t r : Str) (table : List LongOpt) (i : Nat) (m : Option Nat) (hm : ∀ j, m = some j → j < i) :
    ∃ f, findLong (t ++ r) t.length table i m = some f ∧ (∀ j, f = .found j → j < i + table.length) ∧
      ((m.isSome ∨ ∃ o ∈ table, t <+: o.name) → f ≠ .none) := by
  induction table generalizing i m with
  | nil =>
    cases m with
    | none => exact ⟨_, rfl, by simp, by simp⟩
    | some j => exact ⟨_, rfl, by intro k hk; cases hk; have := hm j rfl; simp; omega, by simp⟩
  | cons o os ih =>
    rw [findLong_cons, same_prefix]
    by_cases hp : t <+: o.name
    · rw [decide_eq_true hp]
      simp only
      split
      · exact ⟨_, rfl, by intro j hj; cases hj; simp, by simp⟩
      · cases m with
        | some j => exact ⟨_, rfl, by simp, by simp⟩
        | none =>
          obtain ⟨f, h1, h2, h3⟩ := ih (i + 1) (some i) (by intro j hj; cases hj; omega)
          exact ⟨f, h1, fun j hj => by have := h2 j hj; simp; omega, fun _ => h3 (Or.inl rfl)⟩
    · rw [decide_eq_false hp]
      simp only
      obtain ⟨f, h1, h2, h3⟩ := ih (i + 1) m (by intro j hj; have := hm j hj; omega)
      refine ⟨f, h1, fun j hj => by have := h2 j hj; simp; omega, fun h => h3 ?_⟩
      rcases h with h | ⟨o', ho', hp'⟩
      · exact Or.inl h
      · rcases List.mem_cons.mp ho' with rfl | ho'
        · exact absurd hp' hp
        · exact Or.inr ⟨o', ho', hp'⟩

theorem longOpt_total {argv : List Str} {r : Str} {s : St} {table : List LongOpt} {b : Bool}
    (hk : ∃ o ∈ table, beforeEq r <+: o.name) :
    ∃ s', longOpt argv (45 :: 45 :: r) table b s = some s' ∧
      (s'.whr = 1 ∨ argv.length ≤ s'.ind ∨ (s'.ind = s.ind ∧ (s'.whr < (45 :: 45 :: r).length ∨ r = []))) := by
  obtain ⟨h1, h2⟩ := splitEq_before r
  have hlen : (beforeEq r).length = (splitEq r).1 := by rw [← h1, List.length_take]; omega
  obtain ⟨f, g1, g2, g3⟩ := findLong_total (beforeEq r) (r.drop (splitEq r).1) table 0 none (by simp)
  rw [hlen, ← h1, List.take_append_drop] at g1
  unfold longOpt
  simp only [List.drop_succ_cons, List.drop_zero, g1]
  cases f with
  | none => exact absurd rfl (g3 (Or.inr hk))
  | ambiguous =>
    refine ⟨_, rfl, Or.inr (Or.inr ⟨rfl, ?_⟩)⟩
    cases r with
    | nil => exact Or.inr rfl
    | cons x r => left; simp
  | found i =>
    have := g2 i rfl
    simp only [List.getElem?_eq_getElem (show i < table.length by omega)]
    obtain ⟨s', h3, h4⟩ := getArg_total (argv := argv) (cur := 45 :: 45 :: r) (s := { s with whr := 2 })
      (ha := table[i].hasArg) (possible := (splitEq r).2) (lm := some (i, table[i])) (cp := 0) (b := b) (fun h => by cases h)
    refine ⟨s', h3, ?_⟩
    rcases h4 with h4 | h4 | ⟨h4, h5⟩
    · exact Or.inl h4
    · exact Or.inr (Or.inl h4)
    · exact Or.inr (Or.inr ⟨h4, Or.inl h5⟩)

theorem same_dd_true {cur : Str} (h : same 2 cur [45, 45] = some true) : ∃ r, cur = 45 :: 45 :: r := by
  match cur, h with
  | [], h => simp [same] at h
  | [x], h => simp only [same] at h; split at h <;> cases h
  | x :: y :: r, h =>
    simp only [same] at h
    by_cases hx : x = 45
    · by_cases hy : y = 45
      · exact ⟨r, by rw [hx, hy]⟩
      · rw [if_pos hx, if_neg hy] at h; cases h
    · rw [if_neg hx] at h; cases h

theorem parseArg_progress {argv : List Str} {so : Option Str} {lo : Option (List LongOpt)} {b : Bool} {s s' : St}
    (h : parseArg argv so lo b s = some s') :
    s'.ret = -1 ∨ ∃ cur, argv[s.ind]? = some cur ∧ Progress cur s s' := by
  unfold parseArg at h
  split at h
  · cases h; left; rfl
  · rename_i cur hcur
    refine Or.inr ⟨cur, hcur, ?_⟩
    split at h
    · cases h; left; simp
    · split at h
      · cases h
      · rename_i table hsame
        split at h
        · rename_i hw
          refine longOpt_progress hw ?_ h
          obtain ⟨r, hr⟩ := same_dd_true hsame
          rw [hr]; simp
        · exact shortOpt_progress h
      · exact shortOpt_progress h

/-- Every call that does not report the end makes progress. -/
theorem getopt_progress {argv : List Str} {so : Option Str} {lo : Option (List LongOpt)} {s s' : St}
    (h : getopt argv so lo s = some s') :
    s'.ret = -1 ∨ s.ind < s'.ind ∨ ∃ cur, argv[s.ind]? = some cur ∧ s'.ind = s.ind ∧ s.whr < s'.whr ∧ s'.whr ≤ cur.length := by
  unfold getopt at h
  split at h
  · cases h; left; rfl
  split at h
  · cases h; left; rfl
  rcases parseArg_progress h with h | ⟨cur, hcur, hp⟩
  · exact Or.inl h
  · right
    by_cases h0 : s.ind = 0
    · rw [if_pos h0] at hp
      left
      rcases hp with hp | ⟨hp, _⟩ <;> simp only at hp <;> omega
    · rw [if_neg h0] at hp hcur
      rcases hp with hp | hp
      · exact Or.inl hp
      · exact Or.inr ⟨cur, hcur, hp⟩

theorem parseArg_total {argv : List Str} {so : Option Str} {lo : Option (List LongOpt)} {b : Bool} {s : St}
    (h0 : ∀ a ∈ argv, 0 ∉ a) (hk : ∀ a ∈ argv.tail, Known lo a) (hpos : 0 < s.ind) (hv : Valid argv s)
    (hne : argv[s.ind]? = some [45, 45] → s.whr = 1) :
    ∃ s', parseArg argv so lo b s = some s' ∧ Valid argv s' := by
  unfold parseArg
  cases hcur : argv[s.ind]? with
  | none =>
    exact ⟨_, rfl, Or.inr (Or.inl (by simpa using hcur))⟩
  | some cur =>
    have hmem := List.mem_of_getElem? hcur
    have hmt : cur ∈ argv.tail := by
      obtain ⟨n, hn⟩ : ∃ n, s.ind = n + 1 := ⟨s.ind - 1, by omega⟩
      rw [hn, ← List.getElem?_tail] at hcur
      exact List.mem_of_getElem? hcur
    have hlt := (List.getElem?_eq_some_iff.mp hcur).1
    simp only
    split
    · rename_i hp; exact ⟨_, rfl, Or.inl hp.1⟩
    · rename_i hp
      have hw : s.whr < cur.length := by
        rcases hv with h | h | ⟨cur', h, h'⟩
        · match cur, hp with
          | [], hp => exact absurd ⟨h, Or.inl (by simp)⟩ hp
          | [x], hp => exact absurd ⟨h, Or.inr rfl⟩ hp
          | _ :: _ :: _, _ => simp [h]
        · omega
        · rw [hcur] at h; cases h
          rcases h' with h' | rfl
          · exact h'
          · rw [hne hcur]; simp
      have lift : ∀ {s'}, (s'.whr = 1 ∨ argv.length ≤ s'.ind ∨ (s'.ind = s.ind ∧ (s'.whr < cur.length ∨ cur = [45, 45]))) → Valid argv s' := by
        intro s' h
        rcases h with h | h | ⟨h, h'⟩
        · exact Or.inl h
        · exact Or.inr (Or.inl h)
        · exact Or.inr (Or.inr ⟨cur, by rw [h]; exact hcur, h'⟩)
      have short : ∃ s', shortOpt argv cur so b s = some s' ∧ Valid argv s' := by
        obtain ⟨s', h1, h2⟩ := shortOpt_total (argv := argv) (so := so) (b := b) (h0 cur hmem) hw
        exact ⟨s', h1, lift (h2.imp_right fun h => h.imp_right fun h => ⟨h.1, Or.inl h.2⟩)⟩
      by_cases hdd : ∃ r, cur = 45 :: 45 :: r
      · obtain ⟨r, rfl⟩ := hdd
        cases lo with
        | none => exact short
        | some table =>
          have : same 2 (45 :: 45 :: r) [45, 45] = some true := by simp [same]
          simp only [this]
          split
          · obtain ⟨s', h1, h2⟩ := longOpt_total (argv := argv) (s := s) (b := b)
              (hk _ hmt table r rfl rfl)
            exact ⟨s', h1, lift (h2.imp_right fun h => h.imp_right fun h => ⟨h.1, h.2.imp_right fun h => by rw [h]⟩)⟩
          · exact short
      · have : same 2 cur [45, 45] = some false := same_dd_false (by simpa using hdd)
        cases lo with
        | none => exact short
        | some table => simpa only [this] using short

theorem getopt_total {argv : List Str} {so : Option Str} {lo : Option (List LongOpt)} {s : St}
    (h0 : ∀ a ∈ argv, 0 ∉ a) (hk : ∀ a ∈ argv.tail, Known lo a) (hv : s.ind = 0 ∨ Valid argv s) :
    ∃ s', getopt argv so lo s = some s' ∧ (s'.ret = -1 ∨ Valid argv s') := by
  unfold getopt
  split
  · exact ⟨_, rfl, Or.inl rfl⟩
  split
  · exact ⟨_, rfl, Or.inl rfl⟩
  rename_i hdd
  by_cases hi : s.ind = 0
  · rw [if_pos hi]
    obtain ⟨s', h1, h2⟩ := parseArg_total (so := (so.map skipOrder).map skipColon) (b := hasColon (so.map skipOrder)) h0 hk
      (s := { s with ind := 1, whr := 1 }) (by simp) (Or.inl rfl) (fun _ => rfl)
    exact ⟨s', h1, Or.inr h2⟩
  · rw [if_neg hi]
    obtain ⟨s', h1, h2⟩ := parseArg_total (so := (so.map skipOrder).map skipColon) (b := hasColon (so.map skipOrder)) h0 hk
      (s := s) (by omega) (hv.resolve_left hi) (fun h => absurd h hdd)
    exact ⟨s', h1, Or.inr h2⟩

end Fpm.Getopt
