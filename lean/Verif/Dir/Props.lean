import Verif.Dir.SortLemmas
import Verif.Dir.SizeLemmas
import Verif.Dir.ColLemmas
/-! # Properties C33 - C36: directory listings -/
namespace Fpm.Dir
open Fpm.Dir.Spec

/-! ## C33: sorting by name -/

/-- **C33**: for every directory the list sorted by name is a permutation of the entries in the
requested order. -/
theorem C33_sorted (o : Opts) (ht : o.timesort = false) (l : List Item) :
    ∃ l', sort o l = some l' ∧ l'.Perm l ∧ l'.Pairwise (NameOrder o.reversesort) :=
  sort_spec (decides_name ht) l (fun _ _ => trivial)

/-- Three entries, sorted in reverse. -/
example : (sort { reversesort := true } [⟨[97], 0, 0, 0, false⟩, ⟨[98, 97], 0, 0, 0, false⟩, ⟨[98], 0, 0, 0, false⟩]).map (·.map (·.name)) =
    some [[98, 97], [98], [97]] := by
  simp [sort, midPoint, midLoop, merge, compare, strcmp]

/-- **C33, output**: in single-column format every entry to be shown appears exactly once, one per
line, in that order; nothing else is printed. -/
theorem C33_single_column (o : Opts) (ht : o.timesort = false) (hs : o.singlecol = true) (l : List Item) (hp : ∀ x ∈ l, x.noPrint = false) :
    ∃ l' : List Item, l'.Perm (l.filter (shown o)) ∧ l'.Pairwise (NameOrder o.reversesort) ∧
      showFiles o l = some ((l'.map (text o)).flatMap (· ++ crlf)) := by
  obtain ⟨l', e, p, s⟩ := C33_sorted o ht l
  have hp' : ∀ x ∈ l', x.noPrint = false := fun x hx => hp x (p.mem_iff.mp hx)
  obtain ⟨t1, t2, _, _, _⟩ := tally_list o l' {} hp'
  refine ⟨l'.filter (shown o), p.filter _, s.sublist List.filter_sublist, ?_⟩
  unfold showFiles
  rw [e]
  simp only
  by_cases h0 : (tally o l' {}).2.printable = 0
  · rw [if_pos h0]
    have : l'.filter (shown o) = [] := by
      rw [← List.length_eq_zero_iff]
      rw [t2] at h0
      exact (Nat.add_eq_zero_iff.mp h0).2
    rw [this]; rfl
  · rw [if_neg h0, if_pos hs, singleColumn_eq, t1]

example : ({ singlecol := true } : Opts).timesort = false ∧ ∀ x ∈ scan [([97], [], 5, 0, 0, 16)], x.noPrint = false := by
  refine ⟨rfl, ?_⟩
  simp [scan]

/-! ## C34: sorting by time -/

/-- C34: with `-t` the entries are listed newest first (oldest first in reverse), for all 32-bit
time stamps. -/
def C34_full : Prop := ∀ (o : Opts), o.timesort = true → ∀ l : List Item, (∀ x ∈ l, x.mtime < 2 ^ 32) →
  ∃ l', sort o l = some l' ∧ l'.Perm l ∧ l'.Pairwise (TimeOrder o.reversesort)

/-- **C34 is violated**: a file of 1 January 2050 is listed after one of 1 January 1980 (the time
stamps are compared as signed numbers). -/
theorem C34_violated : ¬ C34_full := by
  intro h
  obtain ⟨l', e, p, s⟩ := h { timesort := true } rfl [⟨[97], 0, 0x8c210000, 0, false⟩, ⟨[98], 0, 0x00210000, 0, false⟩] (by simp)
  have he : sort { timesort := true } [⟨[97], 0, 0x8c210000, 0, false⟩, ⟨[98], 0, 0x00210000, 0, false⟩] =
      some [⟨[98], 0, 0x00210000, 0, false⟩, ⟨[97], 0, 0x8c210000, 0, false⟩] := by
    simp [sort, midPoint, midLoop, merge, compare, toInt, int32]
  rw [he] at e
  cases e
  simp [TimeOrder, newerFirst] at s

/-- For time stamps up to the end of 2043 it holds. -/
theorem C34_newest_first_partial (o : Opts) (ht : o.timesort = true) (l : List Item) (hm : ∀ x ∈ l, x.mtime < 2 ^ 31) :
    ∃ l', sort o l = some l' ∧ l'.Perm l ∧ l'.Pairwise (TimeOrder o.reversesort) :=
  sort_spec (decides_time ht) l hm

/-- 31 December 2043, 23:59:58. -/
example : (63 * 2 ^ 25 + 12 * 2 ^ 21 + 31 * 2 ^ 16 + 23 * 2 ^ 11 + 59 * 2 ^ 5 + 29 : Nat) < 2 ^ 31 := by decide

/-! ## C35: columns -/

/-- Entries for which the order is defined: with `-t`, time stamps below 2^31. -/
def Sortable (o : Opts) (l : List Item) : Prop := o.timesort = true → ∀ x ∈ l, x.mtime < 2 ^ 31

theorem sort_some {o : Opts} {l : List Item} (h : Sortable o l) : ∃ l', sort o l = some l' ∧ l'.Perm l := by
  cases ht : o.timesort with
  | false => obtain ⟨l', e, p, _⟩ := C33_sorted o ht l; exact ⟨l', e, p⟩
  | true => obtain ⟨l', e, p, _⟩ := C34_newest_first_partial o ht l (h ht); exact ⟨l', e, p⟩

theorem width_le_length (s : List Nat) : width s ≤ s.length := List.countP_le_length

/-- **C35**: the columnated listing of any directory is defined (no access outside the array).  With
`W` the width of the longest name shown, room for the type character and two blanks: if two columns
do not fit, there is one entry per line; otherwise a table with as many columns of width `W` as fit
and as few rows as possible; read column by column it contains the entries to be shown exactly once
and in order; no line is wider than the terminal. -/
theorem C35_columns (o : Opts) (h1 : o.singlecol = false) (h2 : o.longform = false) (l : List Item) (hs : Sortable o l)
    (hp : ∀ x ∈ l, x.noPrint = false) (hn : ∀ x ∈ l, NameOk x ∧ x.name.length < 2 ^ 29) :
    ∃ l' texts, sort o l = some l' ∧ l'.Perm l ∧ texts = (l'.filter (shown o)).map (text o) ∧
      (texts = [] ∧ showFiles o l = some [] ∨
       ∃ W, (∀ x ∈ l'.filter (shown o), width x.name + slash o + 2 ≤ W) ∧
        (∃ x ∈ l'.filter (shown o), width x.name + slash o + 2 = W) ∧
        (o.termwidth < 2 * W ∧ showFiles o l = some (texts.flatMap (· ++ crlf)) ∨
         2 * W ≤ o.termwidth ∧ ∃ R C, C = o.termwidth / W ∧ texts.length ≤ C * R ∧ C * (R - 1) < texts.length ∧
          showFiles o l = some ((table texts R C W).flatMap (· ++ crlf)) ∧
          (∀ t ∈ texts, width t + 2 ≤ W) ∧
          (List.range C).flatMap (fun c => (List.range R).filterMap fun r => cell texts R r c) = texts ∧
          (∀ line ∈ table texts R C W, width line ≤ o.termwidth))) := by
  obtain ⟨l', e, p⟩ := sort_some hs
  have hp' : ∀ x ∈ l', x.noPrint = false := fun x hx => hp x (p.mem_iff.mp hx)
  have hn' : ∀ x ∈ l', NameOk x ∧ x.name.length < 2 ^ 29 := fun x hx => hn x (p.mem_iff.mp hx)
  obtain ⟨t1, t2, t3, _, _⟩ := tally_list o l' {} hp'
  have hml := tally_maxlen o l' {} (2 ^ 29) (Nat.zero_le _) (fun x hx => by
    obtain ⟨a, b⟩ := hn' x hx
    rw [namelen_eq a]
    exact Nat.le_trans (width_le_length _) (by omega))
  refine ⟨l', _, e, p, rfl, ?_⟩
  unfold showFiles
  rw [e]
  simp only
  by_cases h0 : (tally o l' {}).2.printable = 0
  · rw [if_pos h0]
    have : l'.filter (shown o) = [] := by
      rw [← List.length_eq_zero_iff]
      rw [t2] at h0
      exact (Nat.add_eq_zero_iff.mp h0).2
    rw [this]; exact Or.inl ⟨rfl, rfl⟩
  rw [if_neg h0, if_neg (by simp [h1]), if_neg (by simp [h2])]
  right
  unfold columnized
  simp only
  rw [t1]
  have hnum : (l'.filter (shown o)).length ≤ (tally o l' {}).2.printable := by rw [t2]; simp
  have hpos : 0 < (l'.filter (shown o)).length := by
    have : (tally o l' {}).2.printable = (l'.filter (shown o)).length := by rw [t2]; simp
    omega
  rw [if_neg (by omega)]
  generalize hW : colWidth o (tally o l' {}).2.maxlen = W
  have hW' : (tally o l' {}).2.maxlen + (if o.type = true then 1 else 0) + 2 = W := by rw [← hW]; rfl
  have hWpos : 2 ≤ W := by omega
  have hWlt : 2 * W < 2 ^ 32 := by
    have : (if o.type = true then 1 else 0) ≤ 1 := by split <;> omega
    omega
  rw [Nat.mod_eq_of_lt hWlt]
  have hnl : ∀ x ∈ l'.filter (shown o), x.namelen = width x.name := fun x hx => namelen_eq (hn' x (List.mem_filter.mp hx).1).1
  have hsl : slash o = (if o.type = true then 1 else 0) := rfl
  refine ⟨W, fun x hx => ?_, ?_, ?_⟩
  · have := (t3 x hx).1
    rw [hnl x hx] at this
    omega
  · rcases tally_maxlen_mem o l' {} with hz | ⟨x, hx, hx2⟩
    · obtain ⟨x, hx⟩ := List.exists_mem_of_length_pos hpos
      refine ⟨x, hx, ?_⟩
      have := (t3 x hx).1
      rw [hnl x hx] at this
      have hz' : (tally o l' {}).2.maxlen = 0 := hz
      omega
    · rw [hnl x hx] at hx2
      exact ⟨x, hx, by omega⟩
  by_cases htw : o.termwidth < 2 * W
  · rw [if_pos htw, singleColumn_eq, t1]; exact Or.inl ⟨htw, rfl⟩
  rw [if_neg htw]
  refine Or.inr ⟨by omega, ?_⟩
  generalize hA : l'.filter (shown o) = arr at *
  have hC : 2 ≤ o.termwidth / W := by
    rw [Nat.le_div_iff_mul_le (by omega)]; omega
  have hCW : o.termwidth / W * W ≤ o.termwidth := Nat.div_mul_le_self _ _
  generalize hCe : o.termwidth / W = C at *
  have hdm := Nat.div_add_mod arr.length C
  have hml2 := Nat.mod_lt arr.length (show 0 < C by omega)
  generalize hR : arr.length / C + (if arr.length % C ≠ 0 then 1 else 0) = R
  have hlen : arr.length ≤ C * R := by
    rw [← hR, Nat.mul_add]
    by_cases hz : arr.length % C = 0
    · rw [if_neg (by simp [hz])]; omega
    · rw [if_pos hz]; omega
  have hRmin : C * (R - 1) < arr.length := by
    by_cases hz : arr.length % C = 0
    · rw [if_neg (by simp [hz])] at hR
      have hq : 0 < arr.length / C := by
        rcases Nat.eq_zero_or_pos (arr.length / C) with h | h
        · rw [h] at hdm; omega
        · exact h
      obtain ⟨q, hq2⟩ : ∃ q, arr.length / C = q + 1 := ⟨arr.length / C - 1, by omega⟩
      rw [hq2] at hR hdm
      rw [← hR]
      simp only [Nat.add_zero, Nat.add_sub_cancel]
      rw [Nat.mul_add] at hdm
      omega
    · rw [if_pos hz] at hR
      rw [← hR, Nat.add_sub_cancel]
      omega
  have hRle : R ≤ arr.length := by
    have h3 : 2 * (arr.length / C) ≤ C * (arr.length / C) := Nat.mul_le_mul_right _ hC
    rw [← hR]
    by_cases hz : arr.length % C = 0
    · rw [if_neg (by simp [hz])]; omega
    · rw [if_pos hz]; omega
  have hmem : ∀ x ∈ arr, x ∈ l' := by
    intro x hx; rw [← hA] at hx; exact (List.mem_filter.mp hx).1
  have hfl : ∀ x ∈ arr, filenameLen o x + 2 ≤ W ∧ filenameLen o x = width (text o x) := by
    intro x hx
    refine ⟨?_, filenameLen_eq o (hn' x (hmem x hx)).1⟩
    have := (t3 x hx).1
    unfold filenameLen
    have : (if (o.type && x.has AM_DIR) = true then 1 else 0) ≤ (if o.type = true then 1 else 0) := by
      cases o.type
      · simp
      · simp; split <;> omega
    omega
  have hrows := printRows_eq o arr R C W hlen hRle (fun x hx => ⟨by have := (hfl x hx).1; omega, (hfl x hx).2⟩) R 0 (by omega)
  have htl : totalLine o (tally o l' {}).2.kbytes = [] := by unfold totalLine; rw [if_neg (by simp [h2])]
  refine ⟨R, C, rfl, by rw [List.length_map]; exact hlen, by rw [List.length_map]; exact hRmin, ?_, ?_, columns_eq _ _ _ (by rw [List.length_map]; exact hlen), ?_⟩
  · rw [hrows, htl]
    simp only [Option.map_some, List.nil_append, table, List.range_eq_range']
  · intro t ht
    obtain ⟨x, hx, rfl⟩ := List.mem_map.mp ht
    have := hfl x hx
    omega
  · intro line hline
    obtain ⟨r, _, rfl⟩ := List.mem_map.mp hline
    have h5 : ∀ c ∈ (List.range C).filterMap (cell (arr.map (text o)) R r), width c ≤ W := by
      intro c hc
      obtain ⟨k, _, hk⟩ := List.mem_filterMap.mp hc
      obtain ⟨x, hx, rfl⟩ := List.mem_map.mp (List.mem_of_getElem? hk)
      have := hfl x hx
      omega
    have h6 := row_width _ h5
    have h7 : ((List.range C).filterMap (cell (arr.map (text o)) R r)).length ≤ C := by
      have := List.length_filterMap_le (cell (arr.map (text o)) R r) (List.range C)
      simpa using this
    have h8 := Nat.mul_le_mul_right W h7
    omega

/-- A directory of two entries on an 80-column terminal. -/
example : (∀ x ∈ scan [([97], [], 5, 0, 0, 32), ([], [98], 5, 0, 0, 16)], x.noPrint = false) ∧
    (∀ x ∈ scan [([97], [], 5, 0, 0, 32), ([], [98], 5, 0, 0, 16)], NameOk x ∧ x.name.length < 2 ^ 29) := by
  constructor
  · simp [scan]
  · intro x hx
    simp only [scan, List.map_cons, List.map_nil, List.mem_cons, List.not_mem_nil, or_false] at hx
    rcases hx with rfl | rfl <;> simp [NameOk]

example : showFiles {} (scan [([97], [], 5, 0, 0, 32), ([], [98], 5, 0, 0, 16)]) = some [97, 32, 32, 32, 98, 47, 13, 10] := by
  simp [showFiles, scan, sort, midPoint, midLoop, merge, compare, strcmp, tally, hidden, Item.has, AM_HID, AM_DIR, Item.namelen, utf8len, columnized,
    colWidth, printRows, printRow, filename, filenameLen, totalLine, crlf, List.replicate]

/-! ## C36: sizes -/

/-- **C36**: a size not larger than `m` is printed in exactly the width computed for `m`, as the
decimal digits with a comma after every third from the right, preceded by blanks. -/
theorem C36_size (n m : Nat) (h : n ≤ m) (hm : m < 2 ^ 64) :
    ∃ p body, printSize n (sizeLen m) = some (List.replicate p 32 ++ body) ∧ Grouped n body ∧ p + body.length = sizeLen m := by
  have h1 := sizeLen_mono h
  have h2 := sizeLen_le hm
  refine ⟨sizeLen m - sizeLen n, group n, printSize_eq (by omega) h1 (by omega), group_grouped n, ?_⟩
  rw [group_len]; omega

example : printSize 1234567 (sizeLen 10000000) = some [32, 49, 44, 50, 51, 52, 44, 53, 54, 55] := by
  simp [printSize, sizeLoop1, sizeLoop2, sizeLen, padStar, dec, dec3]

theorem dec2_len {n : Nat} (h : n < 100) : (dec2 n).length = 2 := by
  unfold dec2 padStar
  have := dec_len (n := n) (by omega)
  rw [if_pos (by decide), List.length_append, List.length_replicate, this, if_neg (by omega)]
  split <;> rfl

theorem printTime_len (m : Nat) : (printTime m).length = 18 := by
  unfold printTime
  have h1 : (padStar 4 (dec (m / 2 ^ 25 % 128 + 1980))).length = 4 := by
    have hlen : (dec (m / 2 ^ 25 % 128 + 1980)).length = 4 := by
      rw [dec_ge (by omega), List.length_append, dec_len (by omega), if_pos (by omega)]; rfl
    rw [padStar, if_pos (by decide), List.length_append, List.length_replicate, hlen]
  have h2 := dec_len (n := m / 2 ^ 21 % 16) (by omega)
  have h3 := dec_len (n := m / 2 ^ 16 % 32) (by omega)
  have h4 := dec2_len (n := m / 2 ^ 11 % 32) (by omega)
  rw [if_neg (by omega)] at h2 h3
  simp only [List.length_append, h1, h2, h3, h4, List.length_cons, List.length_nil]
  by_cases a : m / 2 ^ 21 % 16 < 10
  · by_cases b : m / 2 ^ 16 % 32 < 10
    · rw [if_pos a, if_pos b, if_neg (by omega), if_neg (by omega)]; rfl
    · rw [if_pos a, if_neg b, if_neg (by omega), if_pos (by omega)]; rfl
  · by_cases b : m / 2 ^ 16 % 32 < 10
    · rw [if_neg a, if_pos b, if_pos (by omega), if_neg (by omega)]; rfl
    · rw [if_neg a, if_neg b, if_pos (by omega), if_pos (by omega)]; rfl

/-- The size column of an entry in a column `w` wide: the size right-aligned with separators, for directories a
dash. -/
def SizeColumn (w : Nat) (x : Item) (s : List Nat) : Prop :=
  s.length = w ∧ ∃ p body, s = List.replicate p 32 ++ body ∧ (if x.attrib / 16 % 2 = 1 then body = [45] else Grouped x.nbytes body)

theorem sizeLen_pos (n : Nat) : 1 ≤ sizeLen n := by
  rw [sizeLen]; repeat' split
  all_goals omega

theorem longLine_eq (o : Opts) (m : Nat) (hm : m < 2 ^ 64) (x : Item) (hx : x.nbytes ≤ m) :
    ∃ sz, SizeColumn (sizeLen m) x sz ∧
      longLine o (sizeLen m) x = some (printAttrib x ++ [32, 32] ++ sz ++ [32, 32] ++ printTime x.mtime ++ text o x ++ crlf) := by
  unfold longLine
  rw [filename_eq]
  have h2 := sizeLen_le hm
  have h3 := sizeLen_pos m
  by_cases hd : x.attrib / 16 % 2 = 1
  · rw [if_pos (by rw [has_dir]; simpa using hd)]
    refine ⟨padStar (sizeLen m) [45], ⟨?_, sizeLen m - 1, [45], ?_, by rw [if_pos hd]⟩, rfl⟩
    · rw [padStar, if_pos (by omega), List.length_append, List.length_replicate]
      simp only [List.length_singleton]
      omega
    · rw [padStar, if_pos (by omega)]; rfl
  · rw [if_neg (by rw [has_dir]; simpa using hd)]
    obtain ⟨p, body, e, g, hl⟩ := C36_size x.nbytes m hx hm
    rw [e]
    refine ⟨_, ⟨?_, p, body, rfl, by rw [if_neg hd]; exact g⟩, rfl⟩
    rw [List.length_append, List.length_replicate, hl]

theorem longLines_eq (o : Opts) (m : Nat) (hm : m < 2 ^ 64) (l : List Item) (hl : ∀ x ∈ l.filter (! ·.noPrint), x.nbytes ≤ m) :
    ∃ sz : Item → List Nat, (∀ x ∈ l.filter (! ·.noPrint), SizeColumn (sizeLen m) x (sz x)) ∧
      longLines o (sizeLen m) l = some ((l.filter (! ·.noPrint)).flatMap fun x =>
        printAttrib x ++ [32, 32] ++ sz x ++ [32, 32] ++ printTime x.mtime ++ text o x ++ crlf) := by
  have hex : ∀ x : Item, ∃ s, x.nbytes ≤ m → SizeColumn (sizeLen m) x s ∧
      longLine o (sizeLen m) x = some (printAttrib x ++ [32, 32] ++ s ++ [32, 32] ++ printTime x.mtime ++ text o x ++ crlf) := by
    intro x
    by_cases hx : x.nbytes ≤ m
    · obtain ⟨s, a, b⟩ := longLine_eq o m hm x hx; exact ⟨s, fun _ => ⟨a, b⟩⟩
    · exact ⟨[], fun h => absurd h hx⟩
  let sz := fun x => (hex x).choose
  have hsz : ∀ x : Item, x.nbytes ≤ m → SizeColumn (sizeLen m) x (sz x) ∧
      longLine o (sizeLen m) x = some (printAttrib x ++ [32, 32] ++ sz x ++ [32, 32] ++ printTime x.mtime ++ text o x ++ crlf) :=
    fun x => (hex x).choose_spec
  refine ⟨sz, fun x hx => (hsz x (hl x hx)).1, ?_⟩
  induction l with
  | nil => rfl
  | cons x l ih =>
    rw [longLines]
    cases hnp : x.noPrint with
    | true =>
      rw [List.filter_cons_of_neg (by simp [hnp])] at hl ⊢
      rw [if_pos rfl]
      exact ih hl
    | false =>
      rw [List.filter_cons_of_pos (by simp [hnp])] at hl ⊢
      rw [if_neg (by simp), (hsz x (hl x (by simp))).2, ih (fun y hy => hl y (by simp [hy]))]
      rfl

theorem flag_eq (x : Item) (i letter : Nat) : (if x.has (2 ^ i) then letter else 45) = flag x.attrib (2 ^ i) letter := by
  rw [has_iff]; simp [flag]

/-- The attributes are printed as specified. -/
theorem printAttrib_eq (x : Item) : printAttrib x = attrText x := by
  unfold printAttrib attrText
  rw [show AM_ARC = 2 ^ 5 from rfl, show AM_DIR = 2 ^ 4 from rfl, show AM_SYS = 2 ^ 2 from rfl, show AM_HID = 2 ^ 1 from rfl,
    show AM_RDO = 2 ^ 0 from rfl, flag_eq, flag_eq, flag_eq, flag_eq, flag_eq]

theorem dec_pair {n : Nat} (h : n < 100) : [48 + n / 10, 48 + n % 10] = fillLeft 2 48 (dec n) := by
  by_cases h1 : n < 10
  · rw [dec_lt h1]
    have : n / 10 = 0 := by omega
    have h2 : n % 10 = n := by omega
    simp [fillLeft, this, h2]
  · rw [dec_ge (by omega), dec_lt (by omega)]
    simp [fillLeft]

/-- The time is printed as specified. -/
theorem printTime_eq (m : Nat) : printTime m = timeText m := by
  unfold printTime timeText
  rw [← dec_eq_digits, ← dec_eq_digits, ← dec_eq_digits, ← dec_eq_digits, ← dec_eq_digits, dec_pair (by omega)]
  have hy : (dec (1980 + m / 2 ^ 25 % 2 ^ 7)).length = 4 := by
    rw [dec_ge (by omega), List.length_append, dec_len (by omega), if_pos (by omega)]; rfl
  have e1 : padStar 4 (dec (m / 2 ^ 25 % 128 + 1980)) = dec (1980 + m / 2 ^ 25 % 2 ^ 7) := by
    rw [padStar, if_pos (by decide), Nat.add_comm (m / 2 ^ 25 % 128) 1980, hy]; rfl
  have e2 : dec2 (m / 2 ^ 11 % 32) = fillLeft 2 32 (dec (m / 2 ^ 11 % 2 ^ 5)) := by
    rw [dec2, padStar, if_pos (by decide)]; rfl
  rw [e1, e2]
  have h2 := dec_len (n := m / 2 ^ 21 % 2 ^ 4) (by omega)
  have h3 := dec_len (n := m / 2 ^ 16 % 2 ^ 5) (by omega)
  have e3 : fillRight 11 (dec (1980 + m / 2 ^ 25 % 2 ^ 7) ++ [47] ++ dec (m / 2 ^ 21 % 2 ^ 4) ++ [47] ++ dec (m / 2 ^ 16 % 2 ^ 5)) =
      dec (1980 + m / 2 ^ 25 % 2 ^ 7) ++ [47] ++ dec (m / 2 ^ 21 % 2 ^ 4) ++ [47] ++ dec (m / 2 ^ 16 % 2 ^ 5) ++ [32] ++
      (if m / 2 ^ 21 % 16 < 10 then [32] else []) ++ (if m / 2 ^ 16 % 32 < 10 then [32] else []) := by
    unfold fillRight
    simp only [List.length_append, hy, h2, h3, List.length_singleton, List.append_assoc]
    have a1 : m / 2 ^ 21 % 2 ^ 4 = m / 2 ^ 21 % 16 := rfl
    have a2 : m / 2 ^ 16 % 2 ^ 5 = m / 2 ^ 16 % 32 := rfl
    rw [a1, a2]
    have b1 : m / 2 ^ 21 % 16 < 16 := Nat.mod_lt _ (by decide)
    have b2 : m / 2 ^ 16 % 32 < 32 := Nat.mod_lt _ (by decide)
    generalize m / 2 ^ 21 % 16 = a at *
    generalize m / 2 ^ 16 % 32 = b at *
    congr 5
    by_cases ha : a < 10
    · by_cases hb : b < 10
      · rw [if_pos ha, if_pos hb, if_neg (show ¬ a ≥ 100 by omega), if_neg (show ¬ a ≥ 10 by omega), if_neg (show ¬ b ≥ 100 by omega),
          if_neg (show ¬ b ≥ 10 by omega)]; rfl
      · rw [if_pos ha, if_neg hb, if_neg (show ¬ a ≥ 100 by omega), if_neg (show ¬ a ≥ 10 by omega), if_neg (show ¬ b ≥ 100 by omega),
          if_pos (show b ≥ 10 by omega)]; rfl
    · by_cases hb : b < 10
      · rw [if_neg ha, if_pos hb, if_neg (show ¬ a ≥ 100 by omega), if_pos (show a ≥ 10 by omega), if_neg (show ¬ b ≥ 100 by omega),
          if_neg (show ¬ b ≥ 10 by omega)]; rfl
      · rw [if_neg ha, if_neg hb, if_neg (show ¬ a ≥ 100 by omega), if_pos (show a ≥ 10 by omega), if_neg (show ¬ b ≥ 100 by omega),
          if_pos (show b ≥ 10 by omega)]; rfl
  rw [e3]

/-- 2 January 2024, 13:05. -/
example : timeText (44 * 2 ^ 25 + 1 * 2 ^ 21 + 2 * 2 ^ 16 + 13 * 2 ^ 11 + 5 * 2 ^ 5) = "2024/1/2   13:05  ".toList.map Char.toNat := by
  decide +kernel

/-- The line before a long listing: the total size, not at top level. -/
def totalText (o : Opts) (kb : Nat) : List Nat :=
  if o.toplevel then [] else "Total ".toList.map Char.toNat ++ digits kb ++ " kbytes\r\n".toList.map Char.toNat

/-- **C36, long listing**: a line with the total of the sizes shown; then every entry to be shown has
one line, in sorted order: its attributes, its size right-aligned in a column of fixed width, its time
in a fixed width, its name; so all names start in the same column. -/
theorem C36_long_listing (o : Opts) (h1 : o.singlecol = false) (h2 : o.longform = true) (l : List Item) (hs : Sortable o l)
    (hp : ∀ x ∈ l, x.noPrint = false) (hb : ∀ x ∈ l, x.nbytes + 1023 < 2 ^ 64) (hk : kbytesOf (l.filter (shown o)) < 2 ^ 64) (hne : l.filter (shown o) ≠ []) :
    ∃ (l' : List Item) (w : Nat) (sz : Item → List Nat), sort o l = some l' ∧ l'.Perm l ∧
      showFiles o l = some (totalText o (kbytesOf (l.filter (shown o))) ++ (l'.filter (shown o)).flatMap fun x =>
        attrText x ++ [32, 32] ++ sz x ++ [32, 32] ++ timeText x.mtime ++ text o x ++ crlf) ∧
      ∀ x ∈ l'.filter (shown o), SizeColumn w x (sz x) ∧ (timeText x.mtime).length = 18 := by
  simp only [← printAttrib_eq, ← printTime_eq]
  obtain ⟨l', e, p⟩ := sort_some hs
  have hp' : ∀ x ∈ l', x.noPrint = false := fun x hx => hp x (p.mem_iff.mp hx)
  obtain ⟨t1, t2, t3, _, _⟩ := tally_list o l' {} hp'
  have hms := tally_maxsize o l' {} (2 ^ 64 - 1) (Nat.zero_le _) (fun x hx => by have := hb x (p.mem_iff.mp hx); omega)
  obtain ⟨sz, a, b⟩ := longLines_eq o (tally o l' {}).2.maxsize (by omega) (tally o l' {}).1 (by rw [t1]; exact fun x hx => (t3 x hx).2)
  rw [t1] at a b
  have hkp : kbytesOf (l'.filter (shown o)) = kbytesOf (l.filter (shown o)) := ((p.filter (shown o)).map _).sum_nat
  have htot : totalLine o (tally o l' {}).2.kbytes = totalText o (kbytesOf (l.filter (shown o))) := by
    rw [tally_kbytes o l' {} (fun x hx => hb x (p.mem_iff.mp hx)) (by rw [hkp]; simpa using hk), hkp]
    simp only [Nat.zero_add]
    unfold totalLine totalText
    cases htl : o.toplevel with
    | true => rw [if_neg (by simp)]; rfl
    | false => rw [if_pos ⟨rfl, h2⟩, dec_eq_digits, if_neg (by simp)]; rw [List.append_assoc, List.append_assoc, List.append_assoc]; rfl
  refine ⟨l', sizeLen (tally o l' {}).2.maxsize, sz, e, p, ?_, fun x hx => ⟨a x hx, printTime_len _⟩⟩
  have h0 : (tally o l' {}).2.printable ≠ 0 := by
    rw [t2]
    intro h0
    have := (Nat.add_eq_zero_iff.mp h0).2
    rw [List.length_eq_zero_iff] at this
    have hpf := p.filter (shown o)
    rw [this] at hpf
    exact hne hpf.symm.eq_nil
  unfold showFiles
  rw [e]
  simp only
  rw [if_neg h0, if_neg (by simp [h1]), if_pos h2, b, htot]
  rfl

example : (scan [([97], [], 5, 0, 0, 32)]).filter (shown { longform := true }) ≠ [] := by
  simp [scan, shown]

end Fpm.Dir
