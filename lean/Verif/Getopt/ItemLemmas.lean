import Verif.Getopt.Lemmas
/-! # Lemmas: one item of a command line -/
namespace Fpm.Getopt
open Spec

/-- The character `c` at position `k` of the current argument, a flag. -/
theorem short_flag {t : ShortTable} (ht : t.Ok) {argv : List Str} {cur A B : Str} {c : Nat} {s : St}
    (hk : t.kind c = some .no) (hcur : cur = A ++ c :: B) (hw : s.whr = A.length) :
    shortOpt argv cur (some (declText t.decls)) t.colon s =
      some (finish { s with opt := c, whr := if B.headD 0 = 0 then 1 else s.whr + 1, arg := none } none 0) := by
  obtain ⟨rest, h1, h2⟩ := strchr_decl ht.1 hk
  unfold shortOpt
  simp only [hcur, chr_mid' hw, h1, Kind.colons, List.nil_append]
  have hc1 : ∃ d, chr (c :: rest) 1 = some d ∧ d ≠ 58 := by
    cases rest with
    | nil => exact ⟨0, by simp [chr], by decide⟩
    | cons d rest => exact ⟨d, by simp [chr], by simpa using h2⟩
  obtain ⟨d, hd, hd58⟩ := hc1
  simp only [hd, if_neg hd58, getArg]
  rw [if_neg (by decide), if_neg (by decide)]
  cases B with
  | nil =>
    have : chr (A ++ [c]) (s.whr + 1) = some 0 := by
      have := chr_end (A ++ [c]); rw [hw]; simpa using this
    simp [this]
  | cons x B =>
    have : chr (A ++ c :: x :: B) (s.whr + 1) = some x := by
      have := chr_mid (A ++ [c]) x B; rw [hw]; simpa using this
    simp [this]

/-- The rest of an argument, without the optional equals sign. -/
theorem strip_eq (e : Bool) (v : Str) (h : e = false → v.head? ≠ some 61) :
    (if (eqs e ++ v).head? = some 61 then (eqs e ++ v).tail else eqs e ++ v) = v := by
  cases e with
  | true => simp [eqs]
  | false => simp only [eqs, Bool.false_eq_true, if_false, List.nil_append]; rw [if_neg (h rfl)]

/-- An option with an argument at position `k`. -/
theorem short_arg {t : ShortTable} (ht : t.Ok) {argv : List Str} {cur A : Str} {c : Nat} {e : Bool} {v : Str} {s : St} {k : Kind}
    (hk : t.kind c = some k) (hkn : k ≠ .no) (hcur : cur = A ++ c :: (eqs e ++ v)) (hw : s.whr = A.length) :
    shortOpt argv cur (some (declText t.decls)) t.colon s =
      getArg argv cur { s with opt := c } (if k = .optional then 2 else 1) (eqs e ++ v) none c t.colon := by
  obtain ⟨rest, h1, h2⟩ := strchr_decl ht.1 hk
  unfold shortOpt
  simp only [hcur, chr_mid' hw, h1]
  have hdrop : (A ++ c :: (eqs e ++ v)).drop (s.whr + 1) = eqs e ++ v := by
    rw [hw, List.drop_append]; simp
  rw [hdrop]
  cases k with
  | no => exact absurd rfl hkn
  | required =>
    have hc1 : chr (c :: (Kind.required.colons ++ rest)) 1 = some 58 := by simp [chr, Kind.colons]
    have hc2 : ∃ d, chr (c :: (Kind.required.colons ++ rest)) 2 = some d ∧ d ≠ 58 := by
      cases rest with
      | nil => exact ⟨0, by simp [chr, Kind.colons], by decide⟩
      | cons d rest => exact ⟨d, by simp [chr, Kind.colons], by simpa using h2⟩
    obtain ⟨d, hd, hd58⟩ := hc2
    simp [hc1, hd, if_neg hd58]
  | optional =>
    have hc1 : chr (c :: (Kind.optional.colons ++ rest)) 1 = some 58 := by simp [chr, Kind.colons]
    have hc2 : chr (c :: (Kind.optional.colons ++ rest)) 2 = some 58 := by simp [chr, Kind.colons]
    simp [hc1, hc2]

/-- A state between two items. -/
def Between (s : St) (pos : Nat) : Prop := s.ind = pos ∧ s.whr = 1

theorem calls_succ {argv : List Str} {so : Option Str} {lo : Option (List LongOpt)} {k : Nat} {s s' : St} {es : List Event} {s'' : St}
    (h1 : getopt argv so lo { s with writes := [] } = some s') (h2 : calls argv so lo k s' = some (es, s'')) :
    calls argv so lo (k + 1) s = some (⟨s'.ret, s'.arg, s'.writes.head?⟩ :: es, s'') := by
  rw [calls, h1]; simp only [h2]

theorem calls_append {argv : List Str} {so : Option Str} {lo : Option (List LongOpt)} {k j : Nat} {s s' s'' : St} {es fs : List Event}
    (h1 : calls argv so lo k s = some (es, s')) (h2 : calls argv so lo j s' = some (fs, s'')) :
    calls argv so lo (k + j) s = some (es ++ fs, s'') := by
  induction k generalizing s es with
  | zero => rw [calls] at h1; cases h1; simpa using h2
  | succ k ih =>
    rw [calls] at h1
    cases hg : getopt argv so lo { s with writes := [] } with
    | none => rw [hg] at h1; cases h1
    | some t =>
      rw [hg] at h1
      simp only at h1
      cases hc : calls argv so lo k t with
      | none => rw [hc] at h1; cases h1
      | some x =>
        obtain ⟨es', u⟩ := x
        rw [hc] at h1
        simp only [Option.some.injEq, Prod.mk.injEq] at h1
        obtain ⟨rfl, rfl⟩ := h1
        rw [show k + 1 + j = (k + j) + 1 by omega]
        exact calls_succ hg (ih hc)

/-- Flags of a cluster: `done` are read, `fs` are to be read, `more` follows. -/
theorem cluster_flags {t : ShortTable} (ht : t.Ok) {argv : List Str} (lo : Option (List LongOpt)) {cur : Str} {pos : Nat}
    (hpos : 0 < pos) (hcur : argv[pos]? = some cur) (hd : ∀ r, cur ≠ 45 :: 45 :: r) (fs : List Nat) :
    ∀ (done more : Str) (s : St), cur = 45 :: (done ++ fs ++ more) → (∀ c ∈ fs, t.kind c = some .no) →
      s.ind = pos → s.whr = 1 + done.length → fs ++ more ≠ [] → (∀ c, more.head? = some c → c ≠ 0) →
      ∃ s', calls argv (some t.text) lo fs.length s = some (fs.map (fun c => ⟨c, none, none⟩), s') ∧
        (more = [] → Between s' (pos + 1)) ∧
        (more ≠ [] → s'.ind = pos ∧ s'.whr = 1 + done.length + fs.length) := by
  induction fs with
  | nil =>
    intro done more s hc hf hi hw hne hm
    exact ⟨s, rfl, fun h => absurd (by simpa using h) hne, fun _ => ⟨hi, by simpa using hw⟩⟩
  | cons c fs ih =>
    intro done more s hc hf hi hw hne hm
    have hk := hf c (by simp)
    have hshort : getopt argv (some t.text) lo { s with writes := [] } =
        shortOpt argv cur (some (declText t.decls)) t.colon { s with writes := [] } := by
      apply getopt_short ht lo (by simpa [hi] using hpos) (by simpa [hi] using hcur) hd
      right
      rw [hc]
      simp
    have hflag := short_flag ht (argv := argv) (cur := cur) (A := 45 :: done) (B := fs ++ more) (c := c)
      (s := { s with writes := [] }) hk (by rw [hc]; simp) (by simp [hw]; omega)
    cases hB : fs ++ more with
    | nil =>
      obtain ⟨rfl, rfl⟩ := List.append_eq_nil_iff.mp hB
      simp only [List.append_nil, List.headD_nil, if_true] at hflag
      refine ⟨_, calls_succ (hshort.trans hflag) rfl, fun _ => ?_, fun h => absurd rfl h⟩
      simp [finish, Between, hi]
    | cons x B =>
      have hx : x ≠ 0 := by
        cases fs with
        | nil => exact hm x (by simp at hB; rw [hB]; rfl)
        | cons y fs =>
          simp at hB; rw [← hB.1]
          exact (kind_ne ht (hf y (by simp))).1
      rw [hB, List.headD_cons, if_neg hx] at hflag
      have hw1 : s.whr + 1 ≠ 1 := by omega
      have hfin : finish { ret := s.ret, opt := (c : Int), arg := none, longIndex := s.longIndex, ind := s.ind, silent := s.silent, whr := s.whr + 1, writes := [] } none 0 =
          { ret := (c : Int), opt := (c : Int), arg := none, longIndex := s.longIndex, ind := s.ind, silent := s.silent, whr := s.whr + 1, writes := [] } := by
        simp only [finish, if_neg hw1]
      rw [hfin] at hflag
      obtain ⟨s', h1, h2, h3⟩ := ih (done ++ [c]) more _ (by rw [hc]; simp) (fun c' h => hf c' (by simp [h]))
        (show St.ind { ret := (c : Int), opt := (c : Int), arg := none, longIndex := s.longIndex, ind := s.ind, silent := s.silent, whr := s.whr + 1, writes := [] } = pos from hi)
        (by simp [hw]; omega) (by rw [hB]; simp) hm
      refine ⟨s', calls_succ (hshort.trans hflag) h1, h2, fun h => ?_⟩
      have := h3 h
      refine ⟨this.1, ?_⟩
      rw [this.2]; simp; omega

theorem spell_head {t : ShortTable} (ht : t.Ok) {res table fs tl} (h : Item.Ok res t table (.shorts fs tl)) :
    ∀ c, tl.spell.1.head? = some c → c ≠ 0 := by
  intro c hc
  obtain ⟨_, _, _, h4⟩ := h
  cases tl with
  | none => simp [Tail.spell] at hc
  | attached d e v =>
    simp [Tail.spell] at hc; subst hc
    simp only at h4
    rcases h4.1 with h5 | h5
    · exact (kind_ne ht h5.1).1
    · exact (kind_ne ht h5).1
  | next d e v =>
    simp [Tail.spell] at hc; subst hc
    exact (kind_ne ht h4).1

/-- One cluster. -/
theorem item_shorts {t : ShortTable} (ht : t.Ok) {argv : List Str} (lo : Option (List LongOpt)) {res table fs tl} {pos : Nat}
    (hpos : 0 < pos) (hok : Item.Ok res t table (.shorts fs tl))
    (hargv : ∀ k < (Item.render (.shorts fs tl)).length, argv[pos + k]? = (Item.render (.shorts fs tl))[k]?)
    (s : St) (hs : Between s pos) :
    ∃ s', calls argv (some t.text) lo (Item.events table (.shorts fs tl)).length s =
        some (Item.events table (.shorts fs tl), s') ∧ Between s' (pos + (Item.render (.shorts fs tl)).length) := by
  have hsp := spell_head ht hok
  obtain ⟨h1, h2, h3, h4⟩ := hok
  have hcur : argv[pos]? = some (45 :: (fs ++ tl.spell.1)) := by
    have := hargv 0 (by simp [Item.render]); simpa [Item.render] using this
  have hd : ∀ r, 45 :: (fs ++ tl.spell.1) ≠ 45 :: 45 :: r := by
    intro r hr
    simp only [List.cons.injEq, true_and] at hr
    exact h2 45 (by rw [hr]; rfl) rfl
  obtain ⟨s1, c1, c2, c3⟩ := cluster_flags ht lo hpos hcur hd fs [] tl.spell.1 s (by simp) h1 hs.1 (by simp [hs.2]) h3 hsp
  cases tl with
  | none =>
    refine ⟨s1, by simpa [Item.events] using c1, ?_⟩
    have := c2 rfl
    simpa [Item.render, Tail.spell] using this
  | attached c e v =>
    obtain ⟨i1, w1⟩ := c3 (by simp [Tail.spell])
    simp only [Tail.spell] at hcur hd h2 h3 h4
    have hshort : getopt argv (some t.text) lo { s1 with writes := [] } = _ :=
      getopt_short ht lo (s := { s1 with writes := [] }) (by simpa [i1] using hpos) (by simpa [i1] using hcur) hd
        (Or.inr ⟨rfl, by simp⟩)
    have hkk : ∃ k, t.kind c = some k ∧ k ≠ .no ∧ (k = .required ∧ v ≠ [] ∨ k = .optional) := by
      rcases h4.1 with ⟨a, b⟩ | a
      · exact ⟨.required, a, by decide, Or.inl ⟨rfl, b⟩⟩
      · exact ⟨.optional, a, by decide, Or.inr rfl⟩
    obtain ⟨k, hk1, hk2, hk3⟩ := hkk
    have harg := short_arg ht (argv := argv) (cur := 45 :: (fs ++ c :: (eqs e ++ v))) (A := 45 :: fs) (c := c) (e := e) (v := v)
      (s := { s1 with writes := [] }) hk1 hk2 (by simp) (by simp [w1]; omega)
    have hstrip := strip_eq e v h4.2
    have hres : getopt argv (some t.text) lo { s1 with writes := [] } =
        some (finish { s1 with opt := (c : Int), arg := nonEmpty v, whr := 1, writes := [] } none 0) := by
      rw [hshort, harg]
      unfold getArg
      rcases hk3 with ⟨rfl, hv⟩ | rfl
      · simp only [if_neg (show ¬ (if Kind.required = Kind.optional then (2 : Int) else 1) = 2 by decide),
          if_pos (show (if Kind.required = Kind.optional then (2 : Int) else 1) = 1 by decide), hstrip, ne_eq, hv,
          not_false_eq_true, if_true, nonEmpty, if_false]
      · simp only [if_true, hstrip, nonEmpty]
    refine ⟨finish { s1 with opt := (c : Int), arg := nonEmpty v, whr := 1, writes := [] } none 0, ?_, ?_⟩
    · have := calls_append c1 (calls_succ (k := 0) (es := []) (s'' := _) hres rfl)
      simp only [Item.events, List.length_append, List.length_map, List.length_cons, List.length_nil]
      refine this.trans ?_
      simp [finish]
    · simp [Between, finish, Item.render, Tail.spell, i1]
  | next c e v =>
    obtain ⟨i1, w1⟩ := c3 (by simp [Tail.spell])
    have hnext : argv[pos + 1]? = some v := by
      have := hargv 1 (by simp [Item.render, Tail.spell]); simpa [Item.render, Tail.spell] using this
    have hlt : pos + 1 < argv.length := by
      rcases Nat.lt_or_ge (pos + 1) argv.length with h | h
      · exact h
      · rw [List.getElem?_eq_none h] at hnext; cases hnext
    simp only [Tail.spell] at hcur hd h2 h3 h4
    have hshort : getopt argv (some t.text) lo { s1 with writes := [] } = _ :=
      getopt_short ht lo (s := { s1 with writes := [] }) (by simpa [i1] using hpos) (by simpa [i1] using hcur) hd
        (Or.inr ⟨rfl, by simp⟩)
    have harg := short_arg ht (argv := argv) (cur := 45 :: (fs ++ c :: eqs e)) (A := 45 :: fs) (c := c) (e := e) (v := [])
      (s := { s1 with writes := [] }) h4 (by decide) (by simp) (by simp [w1]; omega)
    have hstrip := strip_eq e [] (by simp)
    have hres : getopt argv (some t.text) lo { s1 with writes := [] } =
        some (finish { s1 with opt := (c : Int), arg := some v, whr := 1, writes := [] } none 1) := by
      rw [hshort, harg]
      unfold getArg
      simp only [if_neg (show ¬ (if Kind.required = Kind.optional then (2 : Int) else 1) = 2 by decide),
          if_pos (show (if Kind.required = Kind.optional then (2 : Int) else 1) = 1 by decide), hstrip, ne_eq, not_true,
          if_false, i1]
      rw [if_neg (by omega), hnext]
    refine ⟨finish { s1 with opt := (c : Int), arg := some v, whr := 1, writes := [] } none 1, ?_, ?_⟩
    · have := calls_append c1 (calls_succ (k := 0) (es := []) (s'' := _) hres rfl)
      simp only [Item.events, List.length_append, List.length_map, List.length_cons, List.length_nil]
      refine this.trans ?_
      simp [finish]
    · simp [Between, finish, Item.render, Tail.spell, i1]

theorem item_plain {t : ShortTable} (ht : t.Ok) {argv : List Str} (lo : Option (List LongOpt)) {res table} {x : Str} {pos : Nat}
    (hpos : 0 < pos) (hok : Item.Ok res t table (.plain x)) (hargv : argv[pos]? = some x) (s : St) (hs : Between s pos) :
    ∃ s', calls argv (some t.text) lo 1 s = some (Item.events table (.plain x), s') ∧ Between s' (pos + 1) := by
  obtain ⟨h1, h2⟩ := hs
  have hne : x ≠ [45, 45] := by
    rintro rfl
    rcases hok with h | h
    · simp at h
    · simp at h
  have hg : getopt argv (some t.text) lo { s with writes := [] } =
      some { s with arg := some x, ind := s.ind + 1, opt := 1, ret := 1, writes := [] } := by
    rw [getopt_at ht lo (s := { s with writes := [] }) (by simpa [h1] using hpos) (by simpa [h1] using hargv) hne]
    have hc : x.head? ≠ some 45 ∨ x.tail = [] := by
      rcases hok with rfl | h
      · right; rfl
      · left; exact h
    rw [if_pos ⟨h2, hc⟩]
  exact ⟨_, calls_succ hg rfl, by simp [Between, h1, h2]⟩

theorem strchr_none {t : Str} (h : 61 ∉ t) : strchr 61 t = none := by
  induction t with
  | nil => simp [strchr]
  | cons x t ih =>
    simp only [List.mem_cons, not_or] at h
    rw [strchr, if_neg (fun e => h.1 e.symm), ih h.2]

theorem strchr_some {t : Str} (h : 61 ∉ t) (v : Str) : strchr 61 (t ++ 61 :: v) = some (61 :: v) := by
  induction t with
  | nil => simp [strchr]
  | cons x t ih =>
    simp only [List.mem_cons, not_or] at h
    rw [List.cons_append, strchr, if_neg (fun e => h.1 e.symm), ih h.2]

/-- The argument part of a long option: nothing, or an equals sign and text. -/
theorem longOpt_found {argv : List Str} {table : List LongOpt} {t r : Str} {i : Nat} {o : LongOpt} {colon : Bool} {s : St}
    (h61 : 61 ∉ t) (hr : r = [] ∨ ∃ v, r = 61 :: v) (hd : DenotesClear table t i) (ho : table[i]? = some o) :
    longOpt argv (45 :: 45 :: (t ++ r)) table colon s =
      getArg argv (45 :: 45 :: (t ++ r)) { s with whr := 2 } o.hasArg r (some (i, o)) 0 colon := by
  unfold longOpt
  have hf := findLong_denotes r hd
  have hsp : splitEq (t ++ r) = (t.length, r) := by
    unfold splitEq
    rcases hr with rfl | ⟨v, rfl⟩
    · rw [List.append_nil, strchr_none h61]
    · rw [strchr_some h61]; simp
  simp only [List.drop_succ_cons, List.drop_zero, hsp, hf, ho]

theorem finish_long {s : St} {i : Nat} {o : LongOpt} (k : Nat) (arg : Option Str) (hw : s.writes = []) :
    (⟨(finish { s with arg := arg, whr := 1 } (some (i, o)) k).ret, (finish { s with arg := arg, whr := 1 } (some (i, o)) k).arg,
      (finish { s with arg := arg, whr := 1 } (some (i, o)) k).writes.head?⟩ : Event) = longEvent o arg ∧
    Between (finish { s with arg := arg, whr := 1 } (some (i, o)) k) (s.ind + 1 + k) ∧
    (finish { s with arg := arg, whr := 1 } (some (i, o)) k).longIndex = i := by
  unfold finish longEvent
  cases ho : o.flag <;> simp [ho, Between, hw]

/-- One long option: the call, its report and the index. -/
theorem item_long {st : ShortTable} (hst : st.Ok) {argv : List Str} {table : List LongOpt} {i : Nat} {t : Str} {v : LongVal} {pos : Nat}
    (hpos : 0 < pos) (hok : Item.Ok (DenotesClear table) st table (.long i t v))
    (hargv : ∀ k < (Item.render (.long i t v)).length, argv[pos + k]? = (Item.render (.long i t v))[k]?)
    (s : St) (hs : Between s pos) :
    ∃ s', getopt argv (some st.text) (some table) { s with writes := [] } = some s' ∧
        [⟨s'.ret, s'.arg, s'.writes.head?⟩] = Item.events table (.long i t v) ∧ s'.longIndex = i ∧
        Between s' (pos + (Item.render (.long i t v)).length) := by
  obtain ⟨hd, h61, o, ho, hv⟩ := hok
  obtain ⟨hi, hw⟩ := hs
  have kinds : o.hasArg = 1 ∧ longKind o = .required ∨ o.hasArg = 2 ∧ longKind o = .optional ∨
      (o.hasArg ≠ 1 ∧ o.hasArg ≠ 2) ∧ longKind o = .no := by
    unfold longKind
    by_cases h1 : o.hasArg = 1
    · simp [h1]
    · by_cases h2 : o.hasArg = 2
      · simp [h2]
      · simp [h1, h2]
  -- all spellings
  have main : ∀ (r : Str), (r = [] ∨ ∃ v, r = 61 :: v) → t ++ r ≠ [] → argv[pos]? = some (45 :: 45 :: (t ++ r)) →
      getopt argv (some st.text) (some table) { s with writes := [] } =
        getArg argv (45 :: 45 :: (t ++ r)) { s with whr := 2, writes := [] } o.hasArg r (some (i, o)) 0 st.colon := by
    intro r hr hne hcur
    rw [getopt_long hst table (s := { s with writes := [] }) (by simpa [hi] using hpos) (by simpa [hi] using hcur) hne hw,
      longOpt_found h61 hr hd ho]
  have hfin : ∀ (arg : Option Str) (k : Nat),
      (⟨(finish { s with whr := 1, writes := [], arg := arg } (some (i, o)) k).ret, (finish { s with whr := 1, writes := [], arg := arg } (some (i, o)) k).arg,
        (finish { s with whr := 1, writes := [], arg := arg } (some (i, o)) k).writes.head?⟩ : Event) = longEvent o arg ∧
      (finish { s with whr := 1, writes := [], arg := arg } (some (i, o)) k).longIndex = i ∧
      Between (finish { s with whr := 1, writes := [], arg := arg } (some (i, o)) k) (pos + 1 + k) := by
    intro arg k
    have := finish_long (s := { s with writes := [] }) (i := i) (o := o) k arg rfl
    rw [← hi]
    exact ⟨this.1, this.2.2, this.2.1⟩
  cases v with
  | bare =>
    obtain ⟨hne, hkind⟩ := hv
    have hcur : argv[pos]? = some (45 :: 45 :: (t ++ [])) := by
      have := hargv 0 (by simp [Item.render]); simpa [Item.render] using this
    have hres : getopt argv (some st.text) (some table) { s with writes := [] } =
        some (finish { s with whr := 1, writes := [], arg := none } (some (i, o)) 0) := by
      rw [main [] (Or.inl rfl) (by simpa using hne) hcur]
      unfold getArg
      rcases kinds with ⟨h1, h2⟩ | ⟨h1, h2⟩ | ⟨⟨h1, h1'⟩, h2⟩
      · exact absurd h2 hkind
      · rw [if_pos h1]; simp
      · rw [if_neg h1', if_neg h1]
    obtain ⟨f1, f2, f3⟩ := hfin none 0
    refine ⟨_, hres, ?_, f2, f3⟩
    rw [f1]; simp [Item.events, ho]
  | eq v =>
    have hcur : argv[pos]? = some (45 :: 45 :: (t ++ 61 :: v)) := by
      have := hargv 0 (by simp [Item.render]); simpa [Item.render] using this
    have hres : getopt argv (some st.text) (some table) { s with writes := [] } =
        some (finish { s with whr := 1, writes := [], arg := if longKind o = .no then none else nonEmpty v } (some (i, o)) 0) := by
      rw [main (61 :: v) (Or.inr ⟨v, rfl⟩) (by simp) hcur]
      unfold getArg
      rcases kinds with ⟨h1, h2⟩ | ⟨h1, h2⟩ | ⟨⟨h1, h1'⟩, h2⟩
      · have := hv h2
        rw [if_neg (by omega), if_pos h1]
        simp [this, h2, nonEmpty]
      · rw [if_pos h1]; simp [h2, nonEmpty]
      · rw [if_neg h1', if_neg h1]; simp [h2]
    obtain ⟨f1, f2, f3⟩ := hfin (if longKind o = .no then none else nonEmpty v) 0
    refine ⟨_, hres, ?_, f2, f3⟩
    rw [f1]; simp [Item.events, ho]
  | next e v =>
    obtain ⟨hne, hkind⟩ := hv
    have hcur : argv[pos]? = some (45 :: 45 :: (t ++ eqs e)) := by
      have := hargv 0 (by simp [Item.render]); simpa [Item.render] using this
    have hnext : argv[pos + 1]? = some v := by
      have := hargv 1 (by simp [Item.render]); simpa [Item.render] using this
    have hlt : pos + 1 < argv.length := by
      rcases Nat.lt_or_ge (pos + 1) argv.length with h | h
      · exact h
      · rw [List.getElem?_eq_none h] at hnext; cases hnext
    have hres : getopt argv (some st.text) (some table) { s with writes := [] } =
        some (finish { s with whr := 1, writes := [], arg := some v } (some (i, o)) 1) := by
      rw [main (eqs e) (by cases e <;> simp [eqs]) (by
        cases e with
        | true => simp [eqs]
        | false => simpa [eqs] using hne rfl) hcur]
      unfold getArg
      rcases kinds with ⟨h1, h2⟩ | ⟨h1, h2⟩ | ⟨⟨h1, h1'⟩, h2⟩
      · have hstrip := strip_eq e [] (by simp)
        rw [List.append_nil] at hstrip
        rw [if_neg (by omega), if_pos h1]
        simp only [hstrip, ne_eq, not_true, if_false, hi]
        rw [if_neg (by omega), hnext]
      · rw [h2] at hkind; cases hkind
      · rw [h2] at hkind; cases hkind
    obtain ⟨f1, f2, f3⟩ := hfin (some v) 1
    refine ⟨_, hres, ?_, f2, f3⟩
    rw [f1]; simp [Item.events, ho]

end Fpm.Getopt
