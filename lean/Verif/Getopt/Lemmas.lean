import Verif.Getopt.Spec
/-! # Lemmas for option parsing -/
namespace Fpm.Getopt
open Spec

theorem same_prefix (t r name : Str) : same t.length (t ++ r) name = some (decide (t <+: name)) := by
  induction t generalizing name with
  | nil => simp [same]
  | cons x t ih =>
    cases name with
    | nil => simp [same]
    | cons y name =>
      simp only [List.length_cons, List.cons_append, same]
      by_cases h : x = y
      · subst h; rw [if_pos rfl, ih]; simp [List.cons_prefix_cons]
      · rw [if_neg h]; simp [List.cons_prefix_cons, h]

theorem findLong_cons (text : Str) (n : Nat) (o : LongOpt) (os : List LongOpt) (i : Nat) (m : Option Nat) :
    findLong text n (o :: os) i m = match same n text o.name with
      | none => none
      | some false => findLong text n os (i + 1) m
      | some true =>
        if n = o.name.length then some (.found i)
        else match m with
          | some _ => some .ambiguous
          | none => findLong text n os (i + 1) (some i) := by
  rw [findLong.eq_def] <;> rfl

/-- Entries without the prefix are skipped. -/
theorem findLong_skip {t r : Str} (A os : List LongOpt) (i : Nat) (m : Option Nat) (h : ∀ a ∈ A, ¬ t <+: a.name) :
    findLong (t ++ r) t.length (A ++ os) i m = findLong (t ++ r) t.length os (i + A.length) m := by
  induction A generalizing i with
  | nil => simp
  | cons a A ih =>
    rw [List.cons_append, findLong_cons, same_prefix, decide_eq_false (h a (by simp))]
    simp only
    rw [ih (i + 1) (fun b hb => h b (by simp [hb]))]
    simp [Nat.add_comm, Nat.add_left_comm]

theorem findLong_exact {t r : Str} (o : LongOpt) (os : List LongOpt) (i : Nat) (m : Option Nat) (h : o.name = t) :
    findLong (t ++ r) t.length (o :: os) i m = some (.found i) := by
  subst h
  rw [findLong_cons, same_prefix, decide_eq_true (List.prefix_refl _)]
  simp

theorem findLong_prefix {t r : Str} (o : LongOpt) (os : List LongOpt) (i : Nat) (h : t <+: o.name) (hne : o.name ≠ t) :
    findLong (t ++ r) t.length (o :: os) i none = findLong (t ++ r) t.length os (i + 1) (some i) := by
  rw [findLong_cons, same_prefix, decide_eq_true h]
  simp only
  rw [if_neg (fun hl => hne (h.eq_of_length hl).symm)]

theorem findLong_ambig {t r : Str} (o : LongOpt) (os : List LongOpt) (i j : Nat) (h : t <+: o.name) (hne : o.name ≠ t) :
    findLong (t ++ r) t.length (o :: os) i (some j) = some .ambiguous := by
  rw [findLong_cons, same_prefix, decide_eq_true h]
  simp only
  rw [if_neg (fun hl => hne (h.eq_of_length hl).symm)]

/-- The first entry with the prefix, if any. -/
theorem split_prefix (t : Str) (l : List LongOpt) :
    (∀ a ∈ l, ¬ t <+: a.name) ∨ ∃ A o B, l = A ++ o :: B ∧ t <+: o.name ∧ ∀ a ∈ A, ¬ t <+: a.name := by
  induction l with
  | nil => simp
  | cons x l ih =>
    by_cases hx : t <+: x.name
    · exact Or.inr ⟨[], x, l, rfl, hx, by simp⟩
    · rcases ih with h | ⟨A, o, B, rfl, h1, h2⟩
      · left; intro a ha
        rcases List.mem_cons.mp ha with rfl | ha
        · exact hx
        · exact h a ha
      · refine Or.inr ⟨x :: A, o, B, rfl, h1, ?_⟩
        intro a ha
        rcases List.mem_cons.mp ha with rfl | ha
        · exact hx
        · exact h2 a ha

theorem findLong_denotes {table : List LongOpt} {t : Str} {i : Nat} (r : Str) (h : DenotesClear table t i) :
    findLong (t ++ r) t.length table 0 none = some (.found i) := by
  obtain ⟨⟨o, ho, h⟩, hclear⟩ := h
  have hi : i < table.length := by
    rcases Nat.lt_or_ge i table.length with h | h
    · exact h
    · rw [List.getElem?_eq_none h] at ho; cases ho
  have hsplit : table = table.take i ++ o :: table.drop (i + 1) := by
    have : o = table[i] := by rw [List.getElem?_eq_getElem hi] at ho; exact (Option.some.inj ho).symm
    rw [this, List.getElem_cons_drop, List.take_append_drop]
  have hlen : (table.take i).length = i := by rw [List.length_take]; omega
  have hget : ∀ j < i, table[j]? = (table.take i)[j]? := by
    intro j hj; rw [List.getElem?_take_of_lt hj]
  rcases h with ⟨h1, h2⟩ | ⟨h1, h2, h3⟩
  · -- exact name
    rcases split_prefix t (table.take i) with hA | ⟨A, p, B, hA, hp, hA'⟩
    · rw [hsplit, findLong_skip _ _ _ _ hA, findLong_exact _ _ _ _ h1, hlen]; simp
    · have hlen' : A.length + 1 + B.length = i := by
        have := congrArg List.length hA; rw [hlen] at this; simp at this; omega
      have hB : ∀ b ∈ B, ¬ t <+: b.name := by
        intro b hb hpre
        obtain ⟨k, hk, hbk⟩ := List.getElem_of_mem hb
        have e1 : table[A.length]? = some p := by
          rw [hget _ (by omega), hA]; simp
        have e2 : table[A.length + 1 + k]? = some b := by
          rw [hget _ (by omega), hA, List.getElem?_append_right (by omega)]
          rw [show A.length + 1 + k - A.length = k + 1 by omega, List.getElem?_cons_succ, List.getElem?_eq_getElem hk, hbk]
        have := hclear _ _ _ _ (by omega) (by omega) e1 e2 hp hpre
        omega
      have hpt : p.name ≠ t := h2 A.length (by omega) p (by rw [hget _ (by omega), hA]; simp)
      rw [hsplit, hA, List.append_assoc, findLong_skip _ _ _ _ hA', List.cons_append, findLong_prefix _ _ _ hp hpt,
        findLong_skip _ _ _ _ hB, findLong_exact _ _ _ _ h1]
      congr 2; omega
  · have hA : ∀ a ∈ table.take i, ¬ t <+: a.name := by
      intro a ha hpre
      obtain ⟨k, hk, hak⟩ := List.getElem_of_mem ha
      rw [hlen] at hk
      have := h3 k a (by rw [hget k hk, List.getElem?_eq_getElem (by omega), hak]) hpre
      omega
    have hB : ∀ b ∈ table.drop (i + 1), ¬ t <+: b.name := by
      intro b hb hpre
      obtain ⟨k, hk, hbk⟩ := List.getElem_of_mem hb
      have : table[i + 1 + k]? = some b := by
        rw [← List.getElem?_drop, List.getElem?_eq_getElem hk, hbk]
      have := h3 _ b this hpre
      omega
    rw [hsplit, findLong_skip _ _ _ _ hA, findLong_prefix _ _ _ h2 (h1 o (by rw [hsplit]; simp))]
    have := findLong_skip (t := t) (r := r) (table.drop (i + 1)) [] (0 + (table.take i).length + 1) (some (0 + (table.take i).length)) hB
    rw [List.append_nil] at this
    rw [this, findLong, hlen]; simp

theorem findLong_unknown {table : List LongOpt} {t : Str} (r : Str) (h : ∀ o ∈ table, ¬ t <+: o.name) :
    findLong (t ++ r) t.length table 0 none = some .none := by
  have := findLong_skip (t := t) (r := r) table [] 0 none h
  rw [List.append_nil] at this
  rw [this, findLong]

theorem findLong_ambiguous {table : List LongOpt} {t : Str} (r : Str) (h : ∀ o ∈ table, o.name ≠ t)
    {A B C : List LongOpt} {o o' : LongOpt} (hs : table = A ++ o :: (B ++ o' :: C)) (h1 : t <+: o.name) (h2 : t <+: o'.name) :
    findLong (t ++ r) t.length table 0 none = some .ambiguous := by
  have key : ∀ (l : List LongOpt) (i j : Nat), (∀ o ∈ l, o.name ≠ t) → (∃ o ∈ l, t <+: o.name) →
      findLong (t ++ r) t.length l i (some j) = some .ambiguous := by
    intro l i j hl hex
    rcases split_prefix t l with hA | ⟨A, p, B, rfl, hp, hA'⟩
    · obtain ⟨o, ho, hp⟩ := hex; exact absurd hp (hA o ho)
    · rw [findLong_skip _ _ _ _ hA', findLong_ambig _ _ _ _ hp (hl p (by simp))]
  rcases split_prefix t table with hA | ⟨X, p, Y, hX, hp, hX'⟩
  · exact absurd h1 (hA o (by rw [hs]; simp))
  · rw [hX, findLong_skip _ _ _ _ hX', findLong_prefix _ _ _ hp (h p (by rw [hX]; simp))]
    apply key
    · intro q hq; exact h q (by rw [hX]; simp [hq])
    · -- the second match is in `Y`
      rw [hX] at hs
      rcases List.append_eq_append_iff.mp hs with ⟨Z, e1, e2⟩ | ⟨Z, e1, e2⟩
      · cases Z with
        | nil =>
          simp only [List.nil_append, List.cons.injEq] at e2
          exact ⟨o', by rw [e2.2]; simp, h2⟩
        | cons z Z =>
          simp only [List.cons_append, List.cons.injEq] at e2
          exact ⟨o, by rw [e2.2]; simp, h1⟩
      · cases Z with
        | nil =>
          simp only [List.nil_append, List.cons.injEq] at e2
          exact ⟨o', by rw [← e2.2]; simp, h2⟩
        | cons z Z =>
          simp only [List.cons_append, List.cons.injEq] at e2
          exact absurd h1 (hX' o (by rw [e1, e2.1]; simp))

theorem chr_mid (A : Str) (c : Nat) (B : Str) : chr (A ++ c :: B) A.length = some c := by
  unfold chr
  rw [if_neg (by simp), List.getElem?_append_right (Nat.le_refl _)]; simp

theorem chr_end (A : Str) : chr A A.length = some 0 := by simp [chr]

theorem chr_mid' {A : Str} {c : Nat} {B : Str} {k : Nat} (h : k = A.length) : chr (A ++ c :: B) k = some c := by
  subst h; exact chr_mid A c B

theorem declText_head {ds : List (Nat × Kind)} (h : ∀ d ∈ ds, d.1 ≠ 0 ∧ d.1 ≠ 58) : (declText ds).head? ≠ some 58 := by
  cases ds with
  | nil => simp [declText]
  | cons d ds => simp [declText]; exact (h d (by simp)).2

theorem strchr_colons {c : Nat} (hc : c ≠ 58) (k : Kind) (r : Str) : strchr c (k.colons ++ r) = strchr c r := by
  have h : ¬ 58 = c := fun h => hc h.symm
  cases k <;> simp [Kind.colons, strchr, h]

theorem strchr_decl {ds : List (Nat × Kind)} (h : ∀ d ∈ ds, d.1 ≠ 0 ∧ d.1 ≠ 58) {c : Nat} {k : Kind}
    (hk : (ds.find? (·.1 = c)).map (·.2) = some k) :
    ∃ rest, strchr c (declText ds) = some (c :: (k.colons ++ rest)) ∧ rest.head? ≠ some 58 := by
  induction ds with
  | nil => simp at hk
  | cons d ds ih =>
    obtain ⟨x, kx⟩ := d
    simp only [declText, strchr]
    rw [List.find?_cons] at hk
    by_cases hx : x = c
    · subst hx
      simp at hk; subst hk
      rw [if_pos rfl]
      exact ⟨declText ds, rfl, declText_head (fun d hd => h d (by simp [hd]))⟩
    · simp [hx] at hk
      rw [if_neg hx]
      have hc : c ≠ 58 := by
        obtain ⟨y, kk⟩ := hk
        have := List.find?_some kk
        have hm := List.mem_of_find?_eq_some kk
        simp at this
        have h2 := (h _ (List.mem_cons_of_mem _ hm)).2
        simp only at h2; omega
      rw [strchr_colons hc]
      exact ih (fun d hd => h d (by simp [hd])) (by simpa using hk)

theorem kind_ne {t : ShortTable} (h : t.Ok) {c : Nat} {k : Kind} (hk : t.kind c = some k) : c ≠ 0 ∧ c ≠ 58 := by
  unfold ShortTable.kind at hk
  simp only [Option.map_eq_some_iff] at hk
  obtain ⟨⟨y, kk⟩, h1, _⟩ := hk
  have := List.find?_some h1
  have hm := h.1 _ (List.mem_of_find?_eq_some h1)
  simp at this; subst this; exact hm

/-- The option string without its leading marks. -/
theorem strip {t : ShortTable} (h : t.Ok) :
    (if t.text.head? = some 45 ∨ t.text.head? = some 43 then t.text.tail else t.text) =
      (if t.colon then [58] else []) ++ declText t.decls := by
  obtain ⟨h1, h2, h3⟩ := h
  unfold ShortTable.text
  cases ho : t.order with
  | some o =>
    rcases h2 o ho with rfl | rfl <;> simp
  | none =>
    cases hc : t.colon with
    | true => simp
    | false =>
      cases hd : t.decls with
      | nil => simp [declText]
      | cons d ds =>
        have := h3 ho hc d ds hd
        simp [declText, this.1, this.2]

theorem strip2 {t : ShortTable} (h : t.Ok) :
    hasColon (some ((if t.colon then [58] else []) ++ declText t.decls)) = t.colon ∧
    (if ((if t.colon then [58] else []) ++ declText t.decls).head? = some 58 then
      ((if t.colon then [58] else []) ++ declText t.decls).tail
      else (if t.colon then [58] else []) ++ declText t.decls) = declText t.decls := by
  have hd := declText_head h.1
  cases hc : t.colon with
  | true => simp [hasColon]
  | false =>
    simp only [Bool.false_eq_true, if_false, List.nil_append, if_neg hd, and_true, hasColon]
    simpa using hd

/-- The call in the middle of a command line. -/
theorem getopt_at {t : ShortTable} (ht : t.Ok) {argv : List Str} (lo : Option (List LongOpt)) {s : St} {cur : Str}
    (hpos : 0 < s.ind) (hcur : argv[s.ind]? = some cur) (hne : cur ≠ [45, 45]) :
    getopt argv (some t.text) lo s =
      if s.whr = 1 ∧ (cur.head? ≠ some 45 ∨ cur.tail = []) then
        some { s with arg := some cur, ind := s.ind + 1, opt := 1, ret := 1 }
      else match lo, same 2 cur [45, 45] with
        | some _, none => none
        | some table, some true => if s.whr = 1 then longOpt argv cur table t.colon s
            else shortOpt argv cur (some (declText t.decls)) t.colon s
        | _, _ => shortOpt argv cur (some (declText t.decls)) t.colon s := by
  have hlt : s.ind < argv.length := by
    rcases Nat.lt_or_ge s.ind argv.length with h | h
    · exact h
    · rw [List.getElem?_eq_none h] at hcur; cases hcur
  unfold getopt
  rw [if_neg (by rintro (h | ⟨h, _⟩ | h); · omega
                 · cases h
                 · omega), if_neg (by rw [hcur]; simpa using hne)]
  rw [if_neg (show ¬ s.ind = 0 by omega), Option.map_some, Option.map_some, skipOrder, strip ht, (strip2 ht).1, skipColon, (strip2 ht).2, parseArg, hcur]
  rfl

theorem same_dd_false {cur : Str} (h : ∀ r, cur ≠ 45 :: 45 :: r) : same 2 cur [45, 45] = some false := by
  match cur with
  | [] => rfl
  | [x] => simp only [same]; split <;> rfl
  | x :: y :: r =>
    simp only [same]
    by_cases hx : x = 45
    · by_cases hy : y = 45
      · subst hx hy; exact absurd rfl (h r)
      · rw [if_pos hx, if_neg hy]
    · rw [if_neg hx]

theorem getopt_short {t : ShortTable} (ht : t.Ok) {argv : List Str} (lo : Option (List LongOpt)) {s : St} {cur : Str}
    (hpos : 0 < s.ind) (hcur : argv[s.ind]? = some cur) (h : ∀ r, cur ≠ 45 :: 45 :: r)
    (hp : s.whr ≠ 1 ∨ (cur.head? = some 45 ∧ cur.tail ≠ [])) :
    getopt argv (some t.text) lo s = shortOpt argv cur (some (declText t.decls)) t.colon s := by
  rw [getopt_at ht lo hpos hcur (h []), same_dd_false h]
  rw [if_neg (by rintro ⟨a, b⟩; rcases hp with hp | ⟨h1, h2⟩
                 · exact hp a
                 · rcases b with b | b
                   · exact b h1
                   · exact h2 b)]
  cases lo <;> rfl

theorem getopt_long {t : ShortTable} (ht : t.Ok) {argv : List Str} (table : List LongOpt) {s : St} {r : Str}
    (hpos : 0 < s.ind) (hcur : argv[s.ind]? = some (45 :: 45 :: r)) (hr : r ≠ []) (hw : s.whr = 1) :
    getopt argv (some t.text) (some table) s = longOpt argv (45 :: 45 :: r) table t.colon s := by
  rw [getopt_at ht _ hpos hcur (by simpa using hr), if_neg (by simp)]
  have : same 2 (45 :: 45 :: r) [45, 45] = some true := by simp [same]
  rw [this]; simp [hw]

end Fpm.Getopt
