import Verif.Getopt.LoopLemmas
/-! # Properties C22-C25: option parsing -/
namespace Fpm.Getopt
open Spec

/-! ## Data for examples -/

private def exTable : ShortTable := ⟨none, false, [(97, .no), (98, .no), (111, .required), (112, .optional)]⟩
private def exLong : List LongOpt := [⟨[104, 101, 108, 112], 0, none, 104⟩, ⟨[111, 117, 116], 1, some 7, 5⟩]
private def exSt : St := { ind := 0, whr := 0 }

private theorem exTable_ok : exTable.Ok := by
  refine ⟨by decide, ?_, ?_⟩
  · intro o h; cases h
  intro _ _ d ds h
  cases h
  decide

/-! ## C22 -/

/-- A loop of calls reports exactly the events, then the end with the index at `stop`. -/
def ParsesTo (argv : List Str) (so : Option Str) (lo : Option (List LongOpt)) (s0 : St) (es : List Event) (stop : Nat) : Prop :=
  ∃ s s', calls argv so lo es.length s0 = some (es, s) ∧ getopt argv so lo s = some s' ∧ s'.ret = -1 ∧ s'.ind = stop

/-- Index at the end of the options. -/
def stopAt (items : List Item) (e : Option (List Str)) : Nat :=
  1 + (items.flatMap Item.render).length + (if e.isSome then 1 else 0)

/-- C22: every command line made of declared options, plain arguments, and `--`. -/
def C22_full : Prop := ∀ (st : ShortTable) (table : List LongOpt) (items : List Item) (e : Option (List Str)) (prog : Str) (s0 : St),
  st.Ok → (∀ it ∈ items, it.Ok (Denotes table) st table) → prog ≠ [45, 45] → s0.ind = 0 →
  ParsesTo (prog :: (items.flatMap Item.render ++ ending e)) (some st.text) (some table) s0
    (items.flatMap (Item.events table)) (stopAt items e)

/-- **C22 is violated**: `--` is not recognised as first argument: with a single long option
`--help`, `prog -- x` is parsed as `prog --help x`. -/
theorem C22_violated : ¬ C22_full := by
  intro h
  obtain ⟨s, s', h1, h2, h3, _⟩ := h exTable [⟨[104, 101, 108, 112], 0, none, 104⟩] [] (some [[120]]) [112] exSt exTable_ok (by simp) (by decide) rfl
  simp only [List.flatMap_nil, List.length_nil, calls, Option.some.injEq, Prod.mk.injEq, true_and] at h1
  subst h1
  have : (getopt ([112] :: ([] ++ ending (some [[120]]))) (some exTable.text) (some [⟨[104, 101, 108, 112], 0, none, 104⟩]) exSt).map (·.ret) = some 104 := by
    decide +kernel
  rw [show ([112] :: (([] : List Item).flatMap Item.render ++ ending (some [[120]]))) = ([112] :: ([] ++ ending (some [[120]]))) from rfl] at h2
  rw [h2] at this
  simp [h3] at this

/-- The same statement with the two restrictions the code needs: `--` is not the first argument,
and a long option given by its exact name is not preceded by two options that merely have it as
prefix. -/
theorem C22_parse_partial (st : ShortTable) (table : List LongOpt) (items : List Item) (e : Option (List Str)) (prog : Str) (s0 : St)
    (hst : st.Ok) (hok : ∀ it ∈ items, it.Ok (DenotesClear table) st table) (hp : prog ≠ [45, 45]) (hne : items ≠ [] ∨ e = none)
    (h0 : s0.ind = 0) :
    ParsesTo (prog :: (items.flatMap Item.render ++ ending e)) (some st.text) (some table) s0
      (items.flatMap (Item.events table)) (stopAt items e) := by
  have fresh : ∀ s : St, s.ind = 0 →
      getopt (prog :: (items.flatMap Item.render ++ ending e)) (some st.text) (some table) s =
      getopt (prog :: (items.flatMap Item.render ++ ending e)) (some st.text) (some table) { s with ind := 1, whr := 1 } := by
    intro s hs
    refine (getopt_fresh hs (by simp) (by simpa using hp) ?_).resolve_right (by simp)
    cases items with
    | nil =>
      have := hne.resolve_left (by simp)
      subst this
      simp [ending]
    | cons it items =>
      obtain ⟨x, xs, hx, hxn⟩ := render_ne (hok it (by simp))
      simp [List.flatMap_cons, hx, hxn]
  obtain ⟨s, h1, h2⟩ := items_run hst items [prog] (ending e) { s0 with ind := 1, whr := 1 } (by simp) hok ⟨rfl, rfl⟩
  have hend := getopt_end (st := st) (lo := some table) (argv := prog :: (items.flatMap Item.render ++ ending e)) (s := s) e
    (pos := 1 + (items.flatMap Item.render).length) (by omega) h2
    (by rw [Nat.add_comm]; simp) (by simp; omega)
  obtain ⟨s', h3, h4, h5⟩ := hend
  cases items with
  | nil =>
    simp only [List.flatMap_nil, List.length_nil, calls, Option.some.injEq, Prod.mk.injEq, true_and] at h1
    subst h1
    refine ⟨s0, s', rfl, ?_, h4, h5⟩
    rw [fresh s0 h0]; exact h3
  | cons it items =>
    refine ⟨s, s', ?_, h3, h4, h5⟩
    have hev : ∃ k, ((it :: items).flatMap (Item.events table)).length = k + 1 := by
      have := List.length_pos_iff.mpr (events_ne (hok it (by simp)))
      exact ⟨((it :: items).flatMap (Item.events table)).length - 1, by simp only [List.flatMap_cons, List.length_append]; omega⟩
    obtain ⟨k, hk⟩ := hev
    rw [hk] at h1 ⊢
    rw [← h1]
    simp only [List.singleton_append, calls]
    rw [fresh { s0 with writes := [] } h0]

/-- `prog -ab -o x --he f -- y` -/
private def exItems : List Item :=
  [.shorts [97, 98] .none, .shorts [] (.next 111 false [120]), .long 0 [104, 101] .bare, .plain [102]]

example : exTable.Ok ∧ (∀ it ∈ exItems, it.Ok (DenotesClear exLong) exTable exLong) ∧ exItems ≠ [] ∧
    exItems.flatMap Item.render = [[45, 97, 98], [45, 111], [120], [45, 45, 104, 101], [102]] ∧
    exItems.flatMap (Item.events exLong) =
      [⟨97, none, none⟩, ⟨98, none, none⟩, ⟨111, some [120], none⟩, ⟨104, none, none⟩, ⟨1, some [102], none⟩] := by
  refine ⟨exTable_ok, ?_, by decide, by decide, by decide⟩
  intro it hit
  simp only [exItems, List.mem_cons, List.not_mem_nil, or_false] at hit
  rcases hit with rfl | rfl | rfl | rfl
  · refine ⟨by decide, ?_, by decide, trivial⟩
    intro c hc; simp [Tail.spell] at hc; omega
  · refine ⟨by decide, ?_, by decide, ?_⟩
    · intro c hc; simp [Tail.spell] at hc; omega
    · show exTable.kind 111 = some .required
      decide
  · refine ⟨⟨⟨_, rfl, Or.inr ⟨by decide, ?_, ?_⟩⟩, by omega⟩, by decide, _, rfl, by decide, by decide⟩
    · exact ⟨[108, 112], rfl⟩
    · intro j o' hj hpre
      match j, hj with
      | 0, _ => rfl
      | 1, hj => cases hj; exact absurd hpre (by decide)
      | j + 2, hj => simp [exLong] at hj
  · right; decide

/-! ## C23 -/

/-- A cluster as separate options. -/
def separate (fs : List Nat) (tl : Tail) : List Item :=
  fs.map (fun c => .shorts [c] .none) ++ (match tl with | .none => [] | tl => [.shorts [] tl])

/-- **C23**: a cluster of flags, possibly ended by an option with an argument, is parsed like the
separate options: both command lines parse, and report the same events. -/
theorem C23_cluster (st : ShortTable) (table : List LongOpt) (fs : List Nat) (tl : Tail) (before after : List Item) (e : Option (List Str))
    (prog : Str) (s0 s1 : St) (hst : st.Ok) (hb : ∀ it ∈ before, it.Ok (DenotesClear table) st table)
    (ha : ∀ it ∈ after, it.Ok (DenotesClear table) st table) (hc : Item.Ok (DenotesClear table) st table (.shorts fs tl))
    (hdash : 45 ∉ fs) (htl : tl.spell.1.head? ≠ some 45)
    (hp : prog ≠ [45, 45]) (h0 : s0.ind = 0) (h1 : s1.ind = 0) :
    ∃ es, ParsesTo (prog :: ((before ++ .shorts fs tl :: after).flatMap Item.render ++ ending e)) (some st.text) (some table) s0 es
        (stopAt (before ++ .shorts fs tl :: after) e) ∧
      ParsesTo (prog :: ((before ++ (separate fs tl ++ after)).flatMap Item.render ++ ending e)) (some st.text) (some table) s1 es
        (stopAt (before ++ (separate fs tl ++ after)) e) := by
  have hsep : ∀ it ∈ separate fs tl, it.Ok (DenotesClear table) st table := by
    intro it hit
    rcases List.mem_append.mp hit with hit | hit
    · obtain ⟨c, hcm, rfl⟩ := List.mem_map.mp hit
      refine ⟨by intro d hd; simp at hd; subst hd; exact hc.1 d hcm, ?_, by simp, trivial⟩
      intro d hd
      simp [Tail.spell] at hd
      subst hd
      rintro rfl
      exact hdash hcm
    · cases tl with
      | none => simp at hit
      | attached c eq v =>
        simp at hit; subst hit
        exact ⟨by simp, fun d hd => by rintro rfl; exact htl hd, by simp [Tail.spell], hc.2.2.2⟩
      | next c eq v =>
        simp at hit; subst hit
        exact ⟨by simp, fun d hd => by rintro rfl; exact htl hd, by simp [Tail.spell], hc.2.2.2⟩
  have hne : separate fs tl ≠ [] := by
    cases tl with
    | none => have := hc.2.2.1; simp [Tail.spell] at this; simp [separate, this]
    | attached c eq v => simp [separate]
    | next c eq v => simp [separate]
  have hev : (separate fs tl).flatMap (Item.events table) = Item.events table (.shorts fs tl) := by
    have hfs : ∀ gs : List Nat, (gs.map (fun c => Item.shorts [c] .none)).flatMap (Item.events table) =
        gs.map (fun (c : Nat) => (⟨(c : Int), none, none⟩ : Event)) := by
      intro gs
      induction gs with
      | nil => rfl
      | cons c gs ih =>
        rw [List.map_cons, List.flatMap_cons, List.map_cons, ih]
        rfl
    unfold separate
    rw [List.flatMap_append, hfs]
    cases tl <;> simp [Item.events]
  refine ⟨(before ++ .shorts fs tl :: after).flatMap (Item.events table), ?_, ?_⟩
  · refine C22_parse_partial st table _ e prog s0 hst ?_ hp (by simp) h0
    intro it hit
    rcases List.mem_append.mp hit with hit | hit
    · exact hb it hit
    · rcases List.mem_cons.mp hit with rfl | hit
      · exact hc
      · exact ha it hit
  · have : (before ++ .shorts fs tl :: after).flatMap (Item.events table) = (before ++ (separate fs tl ++ after)).flatMap (Item.events table) := by
      simp only [List.flatMap_append, List.flatMap_cons, hev]
    rw [this]
    refine C22_parse_partial st table _ e prog s1 hst ?_ hp (by simp [hne]) h1
    intro it hit
    rcases List.mem_append.mp hit with hit | hit
    · exact hb it hit
    · rcases List.mem_append.mp hit with hit | hit
      · exact hsep it hit
      · exact ha it hit

/-- `-abofile` and `-a -b -ofile` -/
example : Item.Ok (DenotesClear exLong) exTable exLong (.shorts [97, 98] (.attached 111 false [102])) ∧
    45 ∉ [97, 98] ∧ (Tail.attached 111 false [102]).spell.1.head? ≠ some 45 ∧
    (separate [97, 98] (.attached 111 false [102])).flatMap Item.render = [[45, 97], [45, 98], [45, 111, 102]] := by
  refine ⟨⟨by decide, ?_, by decide, Or.inl ⟨by decide, by decide⟩, by decide⟩, by decide, by decide, by decide⟩
  intro c hc; simp [Tail.spell] at hc; omega

/-! ## C24 -/

/-- C24: wherever it stands, a long option resolves to the entry its text denotes. -/
def C24_full : Prop := ∀ (st : ShortTable) (table : List LongOpt) (argv : List Str) (i : Nat) (t : Str) (v : LongVal) (s : St),
  st.Ok → Item.Ok (Denotes table) st table (.long i t v) → 0 < s.ind → s.whr = 1 →
  (∀ k < (Item.render (.long i t v)).length, argv[s.ind + k]? = (Item.render (.long i t v))[k]?) →
  ∃ s', getopt argv (some st.text) (some table) { s with writes := [] } = some s' ∧ s'.longIndex = i ∧
    [⟨s'.ret, s'.arg, s'.writes.head?⟩] = Item.events table (.long i t v)

/-- Table of long options `verbose`, `version`, `ver`. -/
private def verTable : List LongOpt :=
  [⟨[118, 101, 114, 98, 111, 115, 101], 0, none, 1⟩, ⟨[118, 101, 114, 115, 105, 111, 110], 0, none, 2⟩, ⟨[118, 101, 114], 0, none, 3⟩]

/-- **C24 is violated**: with the options `verbose`, `version` and `ver` (in this order), `--ver`
is reported as ambiguous. -/
theorem C24_violated : ¬ C24_full := by
  intro h
  obtain ⟨s', h1, h2, h3⟩ := h exTable verTable [[112], [45, 45, 118, 101, 114]] 2 [118, 101, 114] .bare
    { ind := 1, whr := 1 } exTable_ok ⟨⟨_, rfl, Or.inl ⟨rfl, by
      intro j hj o' ho'
      match j, ho' with
      | 0, ho' => cases ho'; decide
      | 1, ho' => cases ho'; decide
      | j + 2, _ => omega⟩⟩, by decide, _, rfl, by decide, by decide⟩ (by decide) rfl (by
      intro k hk
      match k, hk with
      | 0, _ => rfl)
  have : (getopt [[112], [45, 45, 118, 101, 114]] (some exTable.text) (some verTable) { ind := 1, whr := 1, writes := [] }).map (·.ret) = some 63 := by
    decide +kernel
  simp only at h1
  rw [h1] at this
  have h3' : s'.ret = 3 := by
    simp [Item.events, verTable, longEvent] at h3
    exact h3.1
  simp [h3'] at this

/-- `--name`, `--name=value` and `--name value` resolve to the entry of that exact name, or the
only one with that prefix, unless two options before that entry have the text as prefix; the
index of the following argument is the next one. -/
theorem C24_resolve_partial (st : ShortTable) (table : List LongOpt) (argv : List Str) (i : Nat) (t : Str) (v : LongVal) (s : St)
    (hst : st.Ok) (hok : Item.Ok (DenotesClear table) st table (.long i t v)) (hpos : 0 < s.ind) (hw : s.whr = 1)
    (hargv : ∀ k < (Item.render (.long i t v)).length, argv[s.ind + k]? = (Item.render (.long i t v))[k]?) :
    ∃ s', getopt argv (some st.text) (some table) { s with writes := [] } = some s' ∧ s'.longIndex = i ∧
      [⟨s'.ret, s'.arg, s'.writes.head?⟩] = Item.events table (.long i t v) ∧
      s'.ind = s.ind + (Item.render (.long i t v)).length ∧ s'.whr = 1 := by
  obtain ⟨s', h1, h2, h3, h4⟩ := item_long hst hpos hok hargv s ⟨rfl, hw⟩
  exact ⟨s', h1, h3, h2, h4.1, h4.2⟩

example : Item.Ok (DenotesClear exLong) exTable exLong (.long 1 [111] (.eq [120])) ∧
    Item.events exLong (.long 1 [111] (.eq [120])) = [⟨0, some [120], some (7, 5)⟩] := by
  refine ⟨⟨⟨⟨_, rfl, Or.inr ⟨by decide, ⟨[117, 116], rfl⟩, ?_⟩⟩, by omega⟩, by decide, _, rfl, by decide⟩, by decide⟩
  intro j o' hj hpre
  match j, hj with
  | 0, hj => cases hj; exact absurd hpre (by decide)
  | 1, _ => rfl
  | j + 2, hj => simp [exLong] at hj

/-- Text of a long option: `t`, or `t` and a value. -/
def LongText (t r : Str) : Prop := 61 ∉ t ∧ t ++ r ≠ [] ∧ (r = [] ∨ ∃ v, r = 61 :: v)

theorem splitEq_text {t r : Str} (h : LongText t r) : (splitEq (t ++ r)).1 = t.length := by
  obtain ⟨h1, h2⟩ := splitEq_before (t ++ r)
  have hb : beforeEq (t ++ r) = t := by
    unfold beforeEq
    have ht : ∀ x ∈ t, decide (x ≠ 61) = true := by
      intro x hx; simp; rintro rfl; exact h.1 hx
    rw [List.takeWhile_append_of_pos ht]
    rcases h.2.2 with rfl | ⟨v, rfl⟩ <;> simp
  rw [hb] at h1
  have := congrArg List.length h1
  rw [List.length_take] at this
  omega

/-- Unknown long options are rejected with `?`. -/
theorem C24_unknown (st : ShortTable) (table : List LongOpt) (argv : List Str) (t r : Str) (s : St) (hst : st.Ok)
    (ht : LongText t r) (hpos : 0 < s.ind) (hw : s.whr = 1) (hcur : argv[s.ind]? = some (45 :: 45 :: (t ++ r)))
    (h : ∀ o ∈ table, ¬ t <+: o.name) :
    ∃ s', getopt argv (some st.text) (some table) s = some s' ∧ s'.ret = 63 ∧ s'.opt = 63 := by
  rw [getopt_long hst table hpos hcur ht.2.1 hw]
  unfold longOpt
  simp only [List.drop_succ_cons, List.drop_zero, splitEq_text ht, findLong_unknown r h]
  exact ⟨_, rfl, rfl, rfl⟩

example : LongText [122] [] ∧ ∀ o ∈ exLong, ¬ [122] <+: o.name := by
  refine ⟨⟨by decide, by decide, Or.inl rfl⟩, by decide⟩

/-- Ambiguous long options are rejected with `?`. -/
theorem C24_ambiguous (st : ShortTable) (table : List LongOpt) (argv : List Str) (t r : Str) (s : St) (hst : st.Ok)
    (ht : LongText t r) (hpos : 0 < s.ind) (hw : s.whr = 1) (hcur : argv[s.ind]? = some (45 :: 45 :: (t ++ r)))
    (h : ∀ o ∈ table, o.name ≠ t) {j k : Nat} {o o' : LongOpt} (hjk : j < k) (hj : table[j]? = some o) (hk : table[k]? = some o')
    (h1 : t <+: o.name) (h2 : t <+: o'.name) :
    ∃ s', getopt argv (some st.text) (some table) s = some s' ∧ s'.ret = 63 ∧ s'.opt = 63 := by
  have hsplit : ∃ A B C, table = A ++ o :: (B ++ o' :: C) := by
    obtain ⟨hjl, hj⟩ := List.getElem?_eq_some_iff.mp hj
    obtain ⟨hkl, hk⟩ := List.getElem?_eq_some_iff.mp hk
    refine ⟨table.take j, (table.drop (j + 1)).take (k - j - 1), table.drop (k + 1), ?_⟩
    have e1 : (table.drop (j + 1)).take (k - j - 1) ++ o' :: table.drop (k + 1) = table.drop (j + 1) := by
      have : o' :: table.drop (k + 1) = (table.drop (j + 1)).drop (k - j - 1) := by
        rw [List.drop_drop, show j + 1 + (k - j - 1) = k by omega, ← hk, List.getElem_cons_drop]
      rw [this, List.take_append_drop]
    rw [e1, ← hj, List.getElem_cons_drop, List.take_append_drop]
  obtain ⟨A, B, C, hs⟩ := hsplit
  rw [getopt_long hst table hpos hcur ht.2.1 hw]
  unfold longOpt
  simp only [List.drop_succ_cons, List.drop_zero, splitEq_text ht, findLong_ambiguous r h hs h1 h2]
  exact ⟨_, rfl, rfl, rfl⟩

example : LongText [118, 101] [61, 49] ∧ (∀ o ∈ verTable, o.name ≠ [118, 101]) ∧
    (∀ o ∈ verTable, [118, 101] <+: o.name) := by
  refine ⟨⟨by decide, by decide, Or.inr ⟨_, rfl⟩⟩, by decide, by decide⟩

/-! ## C25 -/

/-- Arguments of a C program: a program name, no NUL inside strings. -/
def ArgvOk (argv : List Str) : Prop := argv ≠ [] ∧ ∀ a ∈ argv, 0 ∉ a

/-- C25, first part: a loop of calls ends without reading outside the strings. -/
def C25_safe_full : Prop := ∀ (argv : List Str) (so : Option Str) (lo : Option (List LongOpt)) (s : St),
  ArgvOk argv → s.ind = 0 → ∃ k s', loop argv so lo k s = some (some s')

/-- C25, second part: after a rejected long option the next argument is parsed from its first
character. -/
def C25_recover_full : Prop := ∀ (argv : List Str) (so : Option Str) (table : List LongOpt) (s s' : St) (t : Str),
  ArgvOk argv → 0 < s.ind → s.whr = 1 → argv[s.ind]? = some (45 :: 45 :: t) → t ≠ [] →
  getopt argv so (some table) s = some s' → s'.ret = 63 → s'.ind = s.ind + 1 ∧ s'.whr = 1

/-- **C25 is violated**: `prog --zz x` with the only long option `help` reads beyond the end of the
second argument. -/
theorem C25_safe_violated : ¬ C25_safe_full := by
  intro h
  obtain ⟨k, s', hk⟩ := h [[112], [45, 45, 122, 122], [120]] (some [104]) (some [⟨[104, 101, 108, 112], 0, none, 104⟩]) exSt
    ⟨by simp, by decide⟩ rfl
  match k, hk with
  | 0, hk => cases hk
  | 1, hk =>
    have : (loop [[112], [45, 45, 122, 122], [120]] (some [104]) (some [⟨[104, 101, 108, 112], 0, none, 104⟩]) 1 exSt).map (·.map (·.ret)) = some none := by
      decide +kernel
    rw [hk] at this; cases this
  | k + 2, hk =>
    have h1 : getopt [[112], [45, 45, 122, 122], [120]] (some [104]) (some [⟨[104, 101, 108, 112], 0, none, 104⟩]) exSt =
        some { ind := 2, whr := 2, ret := 63, opt := 63 } := by decide +kernel
    have h2 : getopt [[112], [45, 45, 122, 122], [120]] (some [104]) (some [⟨[104, 101, 108, 112], 0, none, 104⟩])
        { ind := 2, whr := 2, ret := 63, opt := 63 } = none := by decide +kernel
    rw [loop, h1] at hk
    simp only [if_neg (show ¬ (63 : Int) = -1 by decide)] at hk
    rw [loop, h2] at hk
    cases hk

/-- **C25 is violated**: after the unknown option `--zz`, parsing resumes at the third character of
the next argument. -/
theorem C25_recover_violated : ¬ C25_recover_full := by
  intro h
  have := h [[112], [45, 45, 122, 122], [45, 97, 98]] (some [97, 98]) [⟨[104, 101, 108, 112], 0, none, 104⟩] { ind := 1, whr := 1 }
    { ind := 2, whr := 2, ret := 63, opt := 63 } [122, 122] ⟨by simp, by decide⟩ (by decide) rfl rfl (by decide) (by decide +kernel) rfl
  simp at this

/-- A loop of calls ends, whatever the arguments, the option tables and the initial state: it
reports the end or leaves its strings after finitely many calls. -/
theorem C25_terminates (argv : List Str) (so : Option Str) (lo : Option (List LongOpt)) (s : St) :
    ∃ k, loop argv so lo k s ≠ some none := by
  -- outer induction on the arguments left, inner on the characters left
  have key : ∀ n m (s : St), argv.length + 1 - s.ind ≤ n → (argv[s.ind]?.getD []).length + 1 - s.whr ≤ m →
      ∃ k, loop argv so lo k s ≠ some none := by
    intro n
    induction n with
    | zero =>
      intro m s hn _
      refine ⟨1, ?_⟩
      rw [loop]
      have : getopt argv so lo s = some { s with ret := -1 } := by
        unfold getopt
        rw [if_pos (by right; right; omega)]
      simp [this]
    | succ n ihn =>
      intro m
      induction m with
      | zero =>
        intro s hn hm
        cases hg : getopt argv so lo s with
        | none => exact ⟨1, by simp [loop, hg]⟩
        | some s' =>
          rcases getopt_progress hg with h | h | ⟨cur, hcur, h1, h2, h3⟩
          · exact ⟨1, by simp [loop, hg, h]⟩
          · obtain ⟨k, hk⟩ := ihn _ s' (by omega) (Nat.le_refl _)
            refine ⟨k + 1, ?_⟩
            rw [loop, hg]
            simp only
            split
            · simp
            · exact hk
          · rw [hcur] at hm; simp at hm; omega
      | succ m ihm =>
        intro s hn hm
        cases hg : getopt argv so lo s with
        | none => exact ⟨1, by simp [loop, hg]⟩
        | some s' =>
          have step : ∀ k, loop argv so lo k s' ≠ some none → ∃ k, loop argv so lo k s ≠ some none := by
            intro k hk
            refine ⟨k + 1, ?_⟩
            rw [loop, hg]
            simp only
            split
            · simp
            · exact hk
          rcases getopt_progress hg with h | h | ⟨cur, hcur, h1, h2, h3⟩
          · exact ⟨1, by simp [loop, hg, h]⟩
          · obtain ⟨k, hk⟩ := ihn _ s' (by omega) (Nat.le_refl _)
            exact step k hk
          · obtain ⟨k, hk⟩ := ihm s' (by omega) (by rw [hcur] at hm; rw [h1, hcur]; simp at hm ⊢; omega)
            exact step k hk
  exact key _ _ s (Nat.le_refl _) (Nat.le_refl _)

/-- A loop of calls ends without reading outside its strings, for all arguments (unknown short
options, missing values, ambiguous prefixes included) except that every argument starting with
`--` has to have the prefix of some long option, if there are long options.  Missing: unknown long
options, for which the claim is false. -/
theorem C25_safe_partial (argv : List Str) (so : Option Str) (lo : Option (List LongOpt)) (s : St)
    (h : ArgvOk argv) (hi : s.ind = 0) (hk : ∀ a ∈ argv.tail, Known lo a) :
    ∃ k s', loop argv so lo k s = some (some s') := by
  have safe : ∀ k (s : St), (s.ind = 0 ∨ Valid argv s) → loop argv so lo k s ≠ none := by
    intro k
    induction k with
    | zero => intro s _; simp [loop]
    | succ k ih =>
      intro s hs
      obtain ⟨s', h1, h2⟩ := getopt_total (so := so) h.2 hk hs
      rw [loop, h1]
      simp only
      split
      · simp
      · rename_i hr
        exact ih s' (Or.inr (h2.resolve_left hr))
  obtain ⟨k, hk⟩ := C25_terminates argv so lo s
  have := safe k s (Or.inl hi)
  cases hl : loop argv so lo k s with
  | none => exact absurd hl this
  | some o =>
    cases o with
    | none => exact absurd hl hk
    | some s' => exact ⟨k, s', hl⟩

/-- `prog -zo --h --o` with the options `help` and `out`. -/
example : ArgvOk [[112], [45, 122, 111], [45, 45, 104], [45, 45, 111]] ∧
    ∀ a ∈ [[112], [45, 122, 111], [45, 45, 104], [45, 45, 111]].tail, Known (some exLong) a := by
  refine ⟨⟨by simp, by decide⟩, ?_⟩
  intro a ha table r ht hr
  cases ht
  simp only [List.tail_cons, List.mem_cons, List.not_mem_nil, or_false] at ha
  rcases ha with rfl | rfl | rfl <;> simp at hr <;> subst hr <;> decide

/-- After an unknown short option, parsing goes on with the next character of the cluster, or with
the first character of the next argument. -/
theorem C25_short_recovers (st : ShortTable) (lo : Option (List LongOpt)) (argv : List Str) (s : St) (a b : Str) (c : Nat) (hst : st.Ok)
    (hpos : 0 < s.ind) (hcur : argv[s.ind]? = some (45 :: (a ++ c :: b))) (hw : s.whr = a.length + 1)
    (hc0 : 0 ∉ b) (hcol : c ≠ 58) (hc1 : c ≠ 0) (hdash : (a ++ [c]).head? ≠ some 45) (hunk : st.kind c = none) :
    ∃ s', getopt argv (some st.text) lo s = some s' ∧ s'.ret = 63 ∧
      ((b = [] ∧ s'.ind = s.ind + 1 ∧ s'.whr = 1) ∨ (b ≠ [] ∧ s'.ind = s.ind ∧ s'.whr = s.whr + 1)) := by
  have hs : strchr c (declText st.decls) = none := by
    have hall : ∀ d ∈ st.decls, d.1 ≠ c := by
      intro d hd hdc
      unfold ShortTable.kind at hunk
      rw [Option.map_eq_none_iff, List.find?_eq_none] at hunk
      exact hunk d hd (by simpa using hdc)
    generalize st.decls = ds at hall
    induction ds with
    | nil => simp [declText, strchr, hc1]
    | cons d ds ih =>
      obtain ⟨x, k⟩ := d
      have hx : x ≠ c := hall (x, k) (by simp)
      have ih := ih (fun d hd => hall d (by simp [hd]))
      have h58 : ¬ (58 = c) := fun h => hcol h.symm
      cases k <;> simp only [declText, Kind.colons, List.nil_append, List.cons_append, strchr, if_neg hx, if_neg h58, ih]
  have hnd : ∀ r, 45 :: (a ++ c :: b) ≠ 45 :: 45 :: r := by
    intro r hr
    simp only [List.cons.injEq, true_and] at hr
    cases a with
    | nil => simp at hr hdash; exact hdash hr.1
    | cons x a => simp at hr hdash; exact hdash hr.1
  rw [getopt_short hst lo hpos hcur hnd (Or.inr ⟨rfl, by simp⟩)]
  unfold shortOpt
  have hl : (45 :: (a ++ c :: b)).length = a.length + 2 + b.length := by simp; omega
  have e1 : chr (45 :: (a ++ c :: b)) s.whr = some c := by
    unfold chr
    rw [if_neg (by rw [hl]; omega), hw]; simp
  simp only [e1, hs]
  cases b with
  | nil =>
    have e2 : chr (45 :: (a ++ [c])) (s.whr + 1) = some 0 := by
      unfold chr
      rw [if_pos (by rw [hl, hw]; simp)]
    simp only [e2]
    exact ⟨_, rfl, rfl, Or.inl ⟨trivial, rfl, rfl⟩⟩
  | cons x b =>
    have e2 : chr (45 :: (a ++ c :: x :: b)) (s.whr + 1) = some x := by
      unfold chr
      rw [if_neg (by rw [hl, hw]; simp), hw]
      simp
    have hx : x ≠ 0 := by rintro rfl; simp at hc0
    simp only [e2, if_neg hx]
    exact ⟨_, rfl, rfl, Or.inr ⟨by simp, rfl, rfl⟩⟩

example : exTable.kind 122 = none ∧ [[112], [45, 97, 122, 98]][1]? = some (45 :: ([97] ++ 122 :: [98])) ∧
    ([97] ++ [122]).head? ≠ some 45 := by decide

end Fpm.Getopt
