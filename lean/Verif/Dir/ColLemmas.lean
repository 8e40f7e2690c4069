import Verif.Dir.Spec
namespace Fpm.Dir
open Fpm.Dir.Spec

theorem and_pow_ne (n i : Nat) : (n &&& 2 ^ i != 0) = n.testBit i := by
  cases h : n.testBit i with
  | true =>
    rw [bne_iff_ne]
    intro h0
    have := congrArg (·.testBit i) h0
    simp [Nat.testBit_and, h, Nat.testBit_two_pow_self] at this
  | false =>
    have : n &&& 2 ^ i = 0 := by
      apply Nat.eq_of_testBit_eq
      intro j
      rw [Nat.testBit_and, Nat.zero_testBit]
      by_cases hj : i = j
      · subst hj; rw [h]; rfl
      · rw [Nat.testBit_two_pow_of_ne hj]; simp
    rw [this]; rfl

theorem has_iff (x : Item) (i : Nat) : x.has (2 ^ i) = (x.attrib / 2 ^ i % 2 == 1) := by
  unfold Item.has
  rw [and_pow_ne, Nat.testBit_eq_decide_div_mod_eq]
  by_cases h : x.attrib / 2 ^ i % 2 = 1
  · simp [h]
  · simp [h]

theorem has_dir (x : Item) : x.has AM_DIR = (x.attrib / 16 % 2 == 1) := has_iff x 4
theorem has_hid (x : Item) : x.has AM_HID = (x.attrib / 2 % 2 == 1) := has_iff x 1

theorem hidden_eq (o : Opts) (x : Item) : hidden o x = !shown o x := by
  unfold hidden shown
  rw [has_dir, has_hid]
  have h : (x.attrib / 2 % 2 == 0) = !(x.attrib / 2 % 2 == 1) := by
    rcases Nat.mod_two_eq_zero_or_one (x.attrib / 2) with h | h <;> simp [h]
  rw [h]
  cases (x.attrib / 2 % 2 == 1) <;> cases (x.attrib / 16 % 2 == 1) <;> cases o.showhidden <;> cases o.toplevel <;> rfl

theorem filename_eq (o : Opts) (x : Item) : filename o x = text o x := by
  unfold filename text; rw [has_dir]

/-- Names: bytes other than NUL. -/
def NameOk (x : Item) : Prop := ∀ b ∈ x.name, 0 < b ∧ b < 256

theorem cont_iff : ∀ b < 256, (b &&& 0xc0 ≠ 0x80 ↔ b / 64 % 4 ≠ 2) := by decide +kernel

theorem utf8len_width (s : List Nat) (h : ∀ b ∈ s, 0 < b ∧ b < 256) : utf8len (s ++ [0]) = some (width s) := by
  induction s with
  | nil => rfl
  | cons b s ih =>
    have hb := h b (by simp)
    rw [List.cons_append, utf8len, if_neg (by omega), ih (fun x hx => h x (by simp [hx]))]
    simp only [Option.map_some, width, List.countP_cons]
    by_cases hc : b &&& 0xc0 ≠ 0x80
    · rw [if_pos hc, if_pos (by simpa using (cont_iff b hb.2).mp hc)]
    · rw [if_neg hc, if_neg (by simpa using (not_congr (cont_iff b hb.2)).mp hc)]

theorem namelen_eq {x : Item} (h : NameOk x) : x.namelen = width x.name := by
  unfold Item.namelen; rw [utf8len_width _ h]; rfl

theorem width_append (a b : List Nat) : width (a ++ b) = width a + width b := List.countP_append

theorem filenameLen_eq (o : Opts) {x : Item} (h : NameOk x) : filenameLen o x = width (text o x) := by
  unfold filenameLen text
  rw [namelen_eq h, has_dir, width_append]
  congr 1
  split <;> rfl

theorem width_spaces (n : Nat) : width (List.replicate n 32) = n := by
  induction n with
  | zero => rfl
  | succ n ih => rw [List.replicate_succ, ← List.singleton_append, width_append, ih]; simp [width]; omega

/-! ## Marking and counting -/

theorem tally_list (o : Opts) (l : List Item) (t : Totals) (h : ∀ x ∈ l, x.noPrint = false) :
    ((tally o l t).1.filter (! ·.noPrint)) = l.filter (shown o) ∧
    (tally o l t).2.printable = t.printable + (l.filter (shown o)).length ∧
    (∀ x ∈ l.filter (shown o), x.namelen ≤ (tally o l t).2.maxlen ∧ x.nbytes ≤ (tally o l t).2.maxsize) ∧
    t.maxlen ≤ (tally o l t).2.maxlen ∧ t.maxsize ≤ (tally o l t).2.maxsize := by
  induction l generalizing t with
  | nil => simp [tally]
  | cons x l ih =>
    have hx := h x (by simp)
    unfold tally
    cases hh : shown o x with
    | false =>
      rw [if_pos (by rw [hidden_eq, hh]; rfl)]
      obtain ⟨h1, h2, h3, h4, h5⟩ := ih t (fun y hy => h y (by simp [hy]))
      simp only
      rw [List.filter_cons_of_neg (by simp), List.filter_cons_of_neg (by simp [hh])]
      exact ⟨h1, h2, h3, h4, h5⟩
    | true =>
      rw [if_neg (by rw [hidden_eq, hh]; simp)]
      simp only
      generalize ht : Totals.mk _ _ _ _ = t'
      obtain ⟨h1, h2, h3, h4, h5⟩ := ih t' (fun y hy => h y (by simp [hy]))
      rw [List.filter_cons_of_pos (by simp [hx]), List.filter_cons_of_pos (by simp [hh])]
      have e1 : t'.maxlen = max t.maxlen x.namelen := by rw [← ht]
      have e2 : t'.maxsize = max t.maxsize x.nbytes := by rw [← ht]
      have e3 : t'.printable = t.printable + 1 := by rw [← ht]
      refine ⟨by rw [h1], by rw [h2, e3, List.length_cons]; omega, ?_, by omega, by omega⟩
      intro y hy
      rcases List.mem_cons.mp hy with rfl | hy
      · omega
      · exact h3 y hy

theorem tally_maxlen (o : Opts) (l : List Item) (t : Totals) (B : Nat) (ht : t.maxlen ≤ B) (h : ∀ x ∈ l, x.namelen ≤ B) :
    (tally o l t).2.maxlen ≤ B := by
  induction l generalizing t with
  | nil => exact ht
  | cons x l ih =>
    unfold tally
    split
    · exact ih t ht (fun y hy => h y (by simp [hy]))
    · refine ih _ ?_ (fun y hy => h y (by simp [hy]))
      have := h x (by simp)
      simp only
      omega

/-- The largest name length is that of an entry shown. -/
theorem tally_maxlen_mem (o : Opts) (l : List Item) (t : Totals) :
    (tally o l t).2.maxlen = t.maxlen ∨ ∃ x ∈ l.filter (shown o), x.namelen = (tally o l t).2.maxlen := by
  induction l generalizing t with
  | nil => exact Or.inl rfl
  | cons x l ih =>
    rw [tally]
    by_cases h : hidden o x = true
    · rw [if_pos h]
      have hs : shown o x = false := by rw [hidden_eq] at h; simpa using h
      rw [List.filter_cons_of_neg (by simp [hs])]
      exact ih t
    · rw [if_neg h]
      have hs : shown o x = true := by rw [hidden_eq] at h; simpa using h
      rw [List.filter_cons_of_pos hs]
      simp only
      rcases ih { kbytes := (t.kbytes + (x.nbytes + 1023) % 2 ^ 64 / 1024) % 2 ^ 64, maxsize := max t.maxsize x.nbytes, maxlen := max t.maxlen x.namelen, printable := t.printable + 1 } with h1 | ⟨y, hy, h1⟩
      · simp only at h1
        rcases Nat.le_total t.maxlen x.namelen with h2 | h2
        · right; exact ⟨x, by simp, by rw [h1]; omega⟩
        · left; rw [h1]; omega
      · right; exact ⟨y, by simp [hy], h1⟩

theorem tally_maxsize (o : Opts) (l : List Item) (t : Totals) (B : Nat) (ht : t.maxsize ≤ B) (h : ∀ x ∈ l, x.nbytes ≤ B) :
    (tally o l t).2.maxsize ≤ B := by
  induction l generalizing t with
  | nil => exact ht
  | cons x l ih =>
    unfold tally
    split
    · exact ih t ht (fun y hy => h y (by simp [hy]))
    · refine ih _ ?_ (fun y hy => h y (by simp [hy]))
      have := h x (by simp)
      simp only
      omega

/-- Size in kilobytes, rounded up, of all entries. -/
def kbytesOf (l : List Item) : Nat := (l.map fun x => (x.nbytes + 1023) / 1024).sum

theorem tally_kbytes (o : Opts) (l : List Item) (t : Totals) (hb : ∀ x ∈ l, x.nbytes + 1023 < 2 ^ 64)
    (h : t.kbytes + kbytesOf (l.filter (shown o)) < 2 ^ 64) :
    (tally o l t).2.kbytes = t.kbytes + kbytesOf (l.filter (shown o)) := by
  induction l generalizing t with
  | nil => simp [tally, kbytesOf]
  | cons x l ih =>
    have hb' : ∀ y ∈ l, y.nbytes + 1023 < 2 ^ 64 := fun y hy => hb y (by simp [hy])
    unfold tally
    cases hh : shown o x with
    | false =>
      rw [List.filter_cons_of_neg (by simp [hh])] at h ⊢
      rw [if_pos (by rw [hidden_eq, hh]; rfl)]
      exact ih t hb' h
    | true =>
      rw [List.filter_cons_of_pos (by simp [hh])] at h ⊢
      rw [if_neg (by rw [hidden_eq, hh]; simp)]
      have hx := hb x (by simp)
      have e : kbytesOf (x :: l.filter (shown o)) = (x.nbytes + 1023) / 1024 + kbytesOf (l.filter (shown o)) := by simp [kbytesOf]
      rw [e] at h ⊢
      have e2 : (t.kbytes + (x.nbytes + 1023) % 2 ^ 64 / 1024) % 2 ^ 64 = t.kbytes + (x.nbytes + 1023) / 1024 := by
        rw [Nat.mod_eq_of_lt hx, Nat.mod_eq_of_lt (by omega)]
      simp only
      rw [ih _ hb' (by simp only [e2]; omega)]
      simp only [e2]
      omega

theorem singleColumn_eq (o : Opts) (l : List Item) :
    singleColumn o l = ((l.filter (! ·.noPrint)).map (text o)).flatMap (· ++ crlf) := by
  induction l with
  | nil => rfl
  | cons x l ih =>
    unfold singleColumn at *
    rw [List.flatMap_cons, ih]
    cases h : x.noPrint with
    | true => rw [List.filter_cons_of_neg (by simp [h])]; rfl
    | false => rw [List.filter_cons_of_pos (by simp [h]), if_neg (by simp), filename_eq]; rfl

/-! ## Columns -/

theorem cells_none {texts : List (List Nat)} {R r : Nat} (c k : Nat) (h : texts.length ≤ c * R + r) :
    (List.range' c k).filterMap (cell texts R r) = [] := by
  rw [List.filterMap_eq_nil_iff]
  intro d hd
  rw [List.mem_range'_1] at hd
  unfold cell
  rw [List.getElem?_eq_none]
  have : c * R ≤ d * R := Nat.mul_le_mul_right _ hd.1
  omega

theorem printRow_eq (o : Opts) (arr : List Item) (R C W r : Nat) (hlen : arr.length ≤ C * R)
    (hw : ∀ x ∈ arr, filenameLen o x ≤ W ∧ filenameLen o x = width (text o x)) :
    ∀ (k c : Nat), c + k = C → c * R + r < arr.length →
      printRow o arr R W k (c * R + r) (c * W) ((c + 1) * W) =
        some (row W ((List.range' c k).filterMap (cell (arr.map (text o)) R r))) := by
  intro k
  induction k with
  | zero =>
    intro c hc hb
    have : c * R = C * R := by rw [← hc]; rfl
    omega
  | succ k ih =>
    intro c hc hb
    rw [printRow]
    have hx : arr[c * R + r]? = some arr[c * R + r] := List.getElem?_eq_getElem hb
    rw [hx]
    obtain ⟨w1, w2⟩ := hw _ (List.getElem_mem hb)
    generalize arr[c * R + r] = x at hx w1 w2
    simp only
    have e1 : c * R + r + R = (c + 1) * R + r := by rw [Nat.add_mul]; omega
    have e2 : (c + 1) * W = c * W + W := by rw [Nat.add_mul]; omega
    have e3 : (c + 1 + 1) * W = (c + 1) * W + W := by rw [Nat.add_mul (c + 1)]; omega
    rw [List.range'_succ, List.filterMap_cons_some (by unfold cell; rw [List.getElem?_map, hx]; rfl)]
    by_cases hlast : c * R + r + R ≥ arr.length
    · rw [if_pos hlast, cells_none (c + 1) k (by rw [List.length_map]; omega), filename_eq]
      rfl
    · rw [if_neg hlast, e1]
      have hk : 0 < k := by
        rcases Nat.eq_zero_or_pos k with h | h
        · exfalso
          subst h
          have : (c + 1) * R = C * R := by rw [← hc]
          omega
        · exact h
      rw [show max (c * W + filenameLen o x) ((c + 1) * W) = (c + 1) * W by omega, ← e3, ih (c + 1) (by omega) (by omega), Option.map_some]
      obtain ⟨k', rfl⟩ : ∃ k', k = k' + 1 := ⟨k - 1, by omega⟩
      have hy : arr[(c + 1) * R + r]? = some arr[(c + 1) * R + r] := List.getElem?_eq_getElem (by omega)
      rw [List.range'_succ, List.filterMap_cons_some (b := text o arr[(c + 1) * R + r]) (by unfold cell; rw [List.getElem?_map, hy]; rfl)]
      rw [row.eq_3 _ (text o x) _ (by simp), ← w2, filename_eq, show (c + 1) * W - (c * W + filenameLen o x) = W - filenameLen o x by omega]

theorem printRows_eq (o : Opts) (arr : List Item) (R C W : Nat) (hlen : arr.length ≤ C * R) (hR : R ≤ arr.length) 
    (hw : ∀ x ∈ arr, filenameLen o x ≤ W ∧ filenameLen o x = width (text o x)) :
    ∀ (k r : Nat), r + k = R →
      printRows o arr C R W k r =
        some (((List.range' r k).map fun r => row W ((List.range C).filterMap (cell (arr.map (text o)) R r))).flatMap (· ++ crlf)) := by
  intro k
  induction k with
  | zero => intro r _; rfl
  | succ k ih =>
    intro r hr
    have h1 := printRow_eq o arr R C W r hlen hw C 0 (by omega) (by omega)
    simp only [Nat.zero_mul, Nat.zero_add, Nat.one_mul] at h1
    rw [printRows, h1, ih (r + 1) (by omega)]
    simp only
    rw [List.range'_succ, List.map_cons, List.flatMap_cons, List.range_eq_range']

theorem row_width {W : Nat} (cs : List (List Nat)) (h : ∀ c ∈ cs, width c ≤ W) : width (row W cs) ≤ cs.length * W := by
  induction cs with
  | nil => simp [row, width]
  | cons c cs ih =>
    have hc := h c (by simp)
    have ih := ih (fun x hx => h x (by simp [hx]))
    cases cs with
    | nil => simp [row]; exact hc
    | cons d cs =>
      rw [row.eq_3 _ c _ (by simp), width_append, width_append, width_spaces, List.length_cons, Nat.add_mul]
      omega

theorem drop_take (l : List (List Nat)) (k n : Nat) : (List.range n).filterMap (fun r => l[k + r]?) = (l.drop k).take n := by
  induction n generalizing k with
  | zero => simp
  | succ n ih =>
    rw [List.range_succ_eq_map, List.filterMap_cons]
    by_cases hk : k < l.length
    · rw [Nat.add_zero, List.getElem?_eq_getElem hk]
      simp only
      rw [List.filterMap_map, List.drop_eq_getElem_cons hk, List.take_succ_cons, ← ih (k + 1)]
      congr 2
      funext r
      simp [Nat.add_assoc, Nat.add_comm 1]
    · rw [List.getElem?_eq_none (by omega), List.drop_eq_nil_of_le (by omega)]
      simp only [List.take_nil]
      rw [List.filterMap_eq_nil_iff]
      intro d _
      rw [List.getElem?_eq_none (by omega)]

/-- Reading the table column by column gives the list. -/
theorem columns_eq (l : List (List Nat)) (R C : Nat) (h : l.length ≤ C * R) :
    (List.range C).flatMap (fun c => (List.range R).filterMap fun r => cell l R r c) = l := by
  have : ∀ k, (List.range k).flatMap (fun c => (List.range R).filterMap fun r => cell l R r c) = l.take (k * R) := by
    intro k
    induction k with
    | zero => simp
    | succ k ih =>
      rw [List.range_succ, List.flatMap_append, ih]
      simp only [List.flatMap_cons, List.flatMap_nil, List.append_nil]
      show _ ++ (List.range R).filterMap (fun r => l[k * R + r]?) = _
      rw [drop_take, Nat.add_mul, Nat.one_mul, List.take_add]
  rw [this C, List.take_of_length_le h]

end Fpm.Dir
