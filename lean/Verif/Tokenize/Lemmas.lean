import Verif.Tokenize.Spec
namespace Fpm.Tok
open Spec

/-- Argument strings laid out one after another, each with its terminator. -/
def image (ws : List (List Nat)) : List Nat := ws.flatMap (· ++ [0])

/-- Start offsets of the strings in `image`. -/
def offs : Nat → List (List Nat) → List Nat
  | _, [] => []
  | b, w :: ws => b :: offs (b + w.length + 1) ws

/-- Words of the units `us` when a word `cur` is already begun. -/
def wordsFrom : Option (List Nat) → List Unit' → List (List Nat)
  | none, [] => []
  | some w, [] => [w]
  | none, .sep :: t => wordsFrom none t
  | some w, .sep :: t => w :: wordsFrom none t
  | cur, .ch c :: t => wordsFrom (some (cur.getD [] ++ [c])) t

theorem image_snoc (ws : List (List Nat)) (w : List Nat) : image (ws ++ [w]) = image ws ++ w ++ [0] := by
  simp [image]

theorem image_cons (w : List Nat) (ws : List (List Nat)) : image (w :: ws) = w ++ 0 :: image ws := by
  simp [image]

theorem offs_snoc (b : Nat) (ws : List (List Nat)) (w : List Nat) :
    offs b (ws ++ [w]) = offs b ws ++ [b + (image ws).length] := by
  induction ws generalizing b with
  | nil => simp [offs, image]
  | cons v ws ih => simp [offs, ih, image_cons]; omega

theorem offs_length (b : Nat) (ws : List (List Nat)) : (offs b ws).length = ws.length := by
  induction ws generalizing b with
  | nil => simp [offs]
  | cons v ws ih => simp [offs, ih]

/-- Text written so far. -/
def outOf (done : List (List Nat)) (cur : Option (List Nat)) : List Nat := image done ++ cur.getD []

/-- State of the splitter after the words `done`, inside the word `cur`. -/
def stOf (B : List Nat) (src : Nat) (m : Mode) (done : List (List Nat)) (cur : Option (List Nat)) : St :=
  { buf := outOf done cur ++ B.drop (outOf done cur).length
    src := src
    dest := (outOf done cur).length
    space := cur.isNone
    apos := m = .apos
    quote := m = .quote
    argv := offs 0 (done ++ cur.toList) }

theorem stOf_len (B : List Nat) (src : Nat) (m : Mode) (done : List (List Nat)) (cur : Option (List Nat))
    (h : (outOf done cur).length ≤ B.length) : (stOf B src m done cur).buf.length = B.length := by
  simp [stOf]; omega

theorem read_lem (B : List Nat) (src i : Nat) (m : Mode) (done : List (List Nat)) (cur : Option (List Nat))
    (h : (outOf done cur).length ≤ i) : (stOf B src m done cur).buf[i]? = B[i]? := by
  simp only [stOf]
  rw [List.getElem?_append_right h, List.getElem?_drop]
  congr 1; omega

theorem set_lem (B out : List Nat) (ch : Nat) (h : out.length < B.length) :
    (out ++ B.drop out.length).set out.length ch = (out ++ [ch]) ++ B.drop (out ++ [ch]).length := by
  rw [List.set_append_right _ _ (Nat.le_refl _), List.drop_eq_getElem_cons h]
  simp only [Nat.sub_self, List.set_cons_zero, List.length_append, List.length_singleton,
    List.append_assoc, List.singleton_append]

theorem len_lem (B out : List Nat) (h : out.length ≤ B.length) :
    (out ++ B.drop out.length).length = B.length := by simp; omega

theorem put_gen (s : St) (out B : List Nat) (ch : Nat) (hb : s.buf = out ++ B.drop out.length)
    (hd : s.dest = out.length) (h : out.length < B.length) :
    s.put ch = some { s with buf := (out ++ [ch]) ++ B.drop (out ++ [ch]).length, dest := (out ++ [ch]).length } := by
  rw [St.put, hb, hd, len_lem B out (by omega), if_pos h, set_lem B out ch h]
  simp

theorem consume_lem (cap : Nat) (B : List Nat) (src : Nat) (m : Mode) (done : List (List Nat))
    (cur : Option (List Nat)) (c : Nat) (h : (outOf done cur).length < B.length)
    (hcap : cur = none → done.length < cap) :
    (stOf B src m done cur).consume cap c =
      some (stOf B (src + 1) m done (some (cur.getD [] ++ [c]))) := by
  have hout : outOf done (some (cur.getD [] ++ [c])) = outOf done cur ++ [c] := by
    cases cur <;> simp [outOf]
  cases cur with
  | none =>
    have hc : (offs 0 done).length < cap := by rw [offs_length]; exact hcap rfl
    have hargv : (stOf B src m done none).argv = offs 0 done := by simp [stOf]
    have hsp : (stOf B src m done none).space = true := rfl
    simp only [St.consume, hsp, if_true, hargv, hc, Option.bind_eq_bind, Option.bind_some]
    rw [put_gen _ (outOf done none) B c rfl rfl h]
    simp only [stOf, hout, Option.bind_some]
    simp [offs_snoc, outOf]
  | some w =>
    have hsp : (stOf B src m done (some w)).space = false := rfl
    simp only [St.consume, hsp, Bool.false_eq_true, if_false, Option.bind_eq_bind, Option.bind_some]
    rw [put_gen _ (outOf done (some w)) B c rfl rfl h]
    simp only [stOf, hout, Option.bind_some]
    simp [offs_snoc]

theorem sep_lem (B : List Nat) (src : Nat) (m : Mode) (done : List (List Nat))
    (w : List Nat) (h : (outOf done (some w)).length < B.length) :
    ((stOf B src m done (some w)).put 0).map (fun s => { s with space := true, src := s.src + 1 }) =
      some (stOf B (src + 1) m (done ++ [w]) none) := by
  have hout : outOf (done ++ [w]) none = outOf done (some w) ++ [0] := by simp [outOf, image_snoc]
  rw [put_gen _ (outOf done (some w)) B 0 rfl rfl h]
  simp only [stOf, hout, Option.map_some]
  simp

/-- End of line: the last word is terminated and the extra NUL is stored if it fits. -/
theorem finish_lem (cap : Nat) (B : List Nat) (src : Nat) (done : List (List Nat))
    (cur : Option (List Nat)) (h : (outOf done cur).length < B.length)
    (hcap : (done ++ cur.toList).length < cap) :
    (stOf B src .plain done cur).finish cap =
      if (image (done ++ cur.toList)).length < B.length then
        .ok (image (done ++ cur.toList) ++ 0 :: B.drop ((image (done ++ cur.toList)).length + 1))
          (offs 0 (done ++ cur.toList))
      else .ub := by
  have hc : (offs 0 (done ++ cur.toList)).length < cap := by rw [offs_length]; exact hcap
  have key : (if (stOf B src .plain done cur).space then some (stOf B src .plain done cur)
        else (stOf B src .plain done cur).put 0) =
      some { stOf B src .plain done cur with
        buf := image (done ++ cur.toList) ++ B.drop (image (done ++ cur.toList)).length
        dest := (image (done ++ cur.toList)).length } := by
    cases cur with
    | none =>
      have : (stOf B src .plain done none).space = true := rfl
      rw [if_pos this]; simp [stOf, outOf]
    | some w =>
      have : ¬ (stOf B src .plain done (some w)).space = true := by simp [stOf]
      have hi : image (done ++ (some w).toList) = outOf done (some w) ++ [0] := by
        simp [image_snoc, outOf]
      rw [if_neg this, put_gen _ (outOf done (some w)) B 0 rfl rfl h, hi]
  have e3 : (stOf B src .plain done cur).apos = false := rfl
  have e4 : (stOf B src .plain done cur).quote = false := rfl
  have e6 : (stOf B src .plain done cur).argv = offs 0 (done ++ cur.toList) := rfl
  have hle : (image (done ++ cur.toList)).length ≤ B.length := by
    cases cur with
    | none => simp [outOf] at h ⊢; omega
    | some w => simp [outOf, image_snoc] at h ⊢; omega
  simp only [St.finish, e3, e4, e6, key, hc, if_true, Bool.false_eq_true, if_false]
  rw [len_lem _ _ hle]
  by_cases h3 : (image (done ++ cur.toList)).length < B.length
  · rw [if_pos h3, if_pos h3, set_lem _ _ _ h3]; simp
  · rw [if_neg h3, if_neg h3]

/-- The run from a state in the middle of the line. -/
theorem loop_eq (cap : Nat) (B extra : List Nat) (m : Mode) (rest : List Nat) (h0 : ∀ c ∈ rest, c ≠ 0)
    (done : List (List Nat)) (cur : Option (List Nat)) (src k : Nat)
    (hB : B.drop src = rest ++ 0 :: extra) (hout : (outOf done cur).length ≤ src) (hk : rest.length < k)
    (hcap : 2 * (done ++ cur.toList).length + rest.length + (if cur = none then 1 else 0) < 2 * cap) :
    loop cap k (stOf B src m done cur) =
      match lex m rest with
      | .error e => .error e
      | .ok us =>
        let ws := done ++ wordsFrom cur us
        if (image ws).length < B.length then
          .ok (image ws ++ 0 :: B.drop ((image ws).length + 1)) (offs 0 ws)
        else .ub := by
  have hlenB : src + rest.length + 1 ≤ B.length := by
    have := congrArg List.length hB; simp at this; omega
  have hread : ∀ i, (outOf done cur).length ≤ i → (stOf B src m done cur).buf[i]? = B[i]? :=
    fun i hi => read_lem B src i m done cur hi
  have hB0 : ∀ i, B[src + i]? = (rest ++ 0 :: extra)[i]? := by
    intro i; rw [← hB, List.getElem?_drop]
  fun_induction lex m rest generalizing done cur src k with
  | case1 =>
    obtain ⟨k, rfl⟩ : ∃ j, k = j + 1 := ⟨k - 1, by omega⟩
    have h1 : (stOf B src .plain done cur).buf[src]? = some 0 := by
      rw [hread _ hout]; simpa using hB0 0
    have hs : (stOf B src .plain done cur).src = src := rfl
    simp only [loop, hs, h1, if_true]
    rw [finish_lem cap B src done cur (by simp at hlenB; omega)
      (by cases cur <;> simp at hcap ⊢ <;> omega)]
    cases cur with
    | none => simp [wordsFrom]
    | some w => rfl
  | case2 =>
    obtain ⟨k, rfl⟩ : ∃ j, k = j + 1 := ⟨k - 1, by omega⟩
    have h1 : (stOf B src .apos done cur).buf[src]? = some 0 := by
      rw [hread _ hout]; simpa using hB0 0
    have hs : (stOf B src .apos done cur).src = src := rfl
    simp only [loop, hs, h1, if_true]
    simp [St.finish, stOf]
  | case3 =>
    obtain ⟨k, rfl⟩ : ∃ j, k = j + 1 := ⟨k - 1, by omega⟩
    have h1 : (stOf B src .quote done cur).buf[src]? = some 0 := by
      rw [hread _ hout]; simpa using hB0 0
    have hs : (stOf B src .quote done cur).src = src := rfl
    simp only [loop, hs, h1, if_true]
    simp [St.finish, stOf]
  | case4 m =>
    obtain ⟨k, rfl⟩ : ∃ j, k = j + 1 := ⟨k - 1, by omega⟩
    have h1 : (stOf B src m done cur).buf[src]? = some 92 := by
      rw [hread _ hout]; simpa using hB0 0
    have h2 : (stOf B src m done cur).buf[src+1]? = some 0 := by
      rw [hread _ (by omega)]; simpa using hB0 1
    have hs : (stOf B src m done cur).src = src := rfl
    simp only [loop, hs, h1, h2]
    simp
  | case5 m c t ih =>
    obtain ⟨k, rfl⟩ : ∃ j, k = j + 1 := ⟨k - 1, by omega⟩
    have h1 : (stOf B src m done cur).buf[src]? = some 92 := by
      rw [hread _ hout]; simpa using hB0 0
    have h2 : (stOf B src m done cur).buf[src+1]? = some c := by
      rw [hread _ (by omega)]; simpa using hB0 1
    have hs : (stOf B src m done cur).src = src := rfl
    have hs' : ({ stOf B src m done cur with src := src + 1 } : St) = stOf B (src + 1) m done cur := rfl
    have hc : c ≠ 0 := h0 c (by simp)
    simp only [List.length_cons] at hlenB hk hcap
    have hcons := consume_lem cap B (src + 1) m done cur c (by omega)
      (by rintro rfl; simp at hcap; omega)
    simp only [loop, hs, h1, h2, hs', hcons, hc]
    simp only [Nat.reduceEqDiff, if_false, if_true]
    rw [ih (fun x hx => h0 x (by simp [hx])) done (some (cur.getD [] ++ [c])) (src + 1 + 1) k
      (by have := congrArg (List.drop 2) hB; simpa using this)
      (by cases cur <;> simp [outOf] at hout ⊢ <;> omega)
      (by omega)
      (by cases cur <;> simp at hcap ⊢ <;> omega)
      (by omega)
      (fun i hi => read_lem _ _ _ _ _ _ hi)
      (by intro i; have := hB0 (i+2); simpa [Nat.add_assoc, Nat.add_comm 2 i, Nat.add_left_comm] using this)]
    cases lex m t <;> simp [Except.map, wordsFrom]
  | case6 t ih =>
    obtain ⟨k, rfl⟩ : ∃ j, k = j + 1 := ⟨k - 1, by omega⟩
    have h1 : (stOf B src .plain done cur).buf[src]? = some 39 := by
      rw [hread _ hout]; simpa using hB0 0
    have hs : (stOf B src .plain done cur).src = src := rfl
    have ha : (stOf B src .plain done cur).apos = (.plain = Mode.apos) := by simp [stOf]
    have hq : (stOf B src .plain done cur).quote = (.plain = Mode.quote) := by simp [stOf]
    simp only [List.length_cons] at hlenB hk hcap
    simp only [loop, hs, h1, ha, hq]
    simp only [Nat.reduceEqDiff, if_false, if_true, reduceCtorEq]
    exact ih (fun x hx => h0 x (by simp [hx])) done cur (src + 1) k
      (by have := congrArg (List.drop 1) hB; simpa using this)
      (by omega) (by omega) (by omega) (by omega)
      (fun i hi => read_lem _ _ _ _ _ _ hi)
      (by intro i; have := hB0 (i+1); simpa [Nat.add_assoc, Nat.add_comm 1 i, Nat.add_left_comm] using this)
  | case7 t ih =>
    obtain ⟨k, rfl⟩ : ∃ j, k = j + 1 := ⟨k - 1, by omega⟩
    have h1 : (stOf B src .plain done cur).buf[src]? = some 34 := by
      rw [hread _ hout]; simpa using hB0 0
    have hs : (stOf B src .plain done cur).src = src := rfl
    have ha : (stOf B src .plain done cur).apos = (.plain = Mode.apos) := by simp [stOf]
    have hq : (stOf B src .plain done cur).quote = (.plain = Mode.quote) := by simp [stOf]
    simp only [List.length_cons] at hlenB hk hcap
    simp only [loop, hs, h1, ha, hq]
    simp only [Nat.reduceEqDiff, if_false, if_true, reduceCtorEq]
    exact ih (fun x hx => h0 x (by simp [hx])) done cur (src + 1) k
      (by have := congrArg (List.drop 1) hB; simpa using this)
      (by omega) (by omega) (by omega) (by omega)
      (fun i hi => read_lem _ _ _ _ _ _ hi)
      (by intro i; have := hB0 (i+1); simpa [Nat.add_assoc, Nat.add_comm 1 i, Nat.add_left_comm] using this)
  | case8 t ih =>
    obtain ⟨k, rfl⟩ : ∃ j, k = j + 1 := ⟨k - 1, by omega⟩
    have h1 : (stOf B src .plain done cur).buf[src]? = some 32 := by
      rw [hread _ hout]; simpa using hB0 0
    have hs : (stOf B src .plain done cur).src = src := rfl
    have ha : (stOf B src .plain done cur).apos = false := by simp [stOf]
    have hq : (stOf B src .plain done cur).quote = false := by simp [stOf]
    simp only [List.length_cons] at hlenB hk hcap
    simp only [loop, hs, h1, ha, hq]
    simp only [Nat.reduceEqDiff, if_false, if_true, Bool.or_self, Bool.false_eq_true]
    have hdrop : List.drop (src + 1) B = t ++ 0 :: extra := by
      have := congrArg (List.drop 1) hB; simpa using this
    have hB1 : ∀ i, B[src + 1 + i]? = (t ++ 0 :: extra)[i]? := by
      intro i; rw [← hdrop, List.getElem?_drop]
    cases cur with
    | none =>
      have hsp : (stOf B src .plain done none).space = true := rfl
      simp only [hsp, if_true]
      change loop cap k (stOf B (src + 1) .plain done none) = _
      rw [ih (fun x hx => h0 x (by simp [hx])) done none (src + 1) k hdrop
        (by omega) (by omega) (by omega) (by omega) (fun i hi => read_lem _ _ _ _ _ _ hi) hB1]
      cases lex .plain t <;> simp [Except.map, wordsFrom] <;> rfl
    | some w =>
      have hsp : (stOf B src .plain done (some w)).space = false := rfl
      have hsep := sep_lem B src .plain done w (by omega)
      simp only [hsp, Bool.false_eq_true, if_false]
      cases hp : (stOf B src .plain done (some w)).put 0 with
      | none => simp [hp] at hsep
      | some s' =>
        simp only [hp, Option.map_some, Option.some.injEq] at hsep
        simp only [hsep]
        rw [ih (fun x hx => h0 x (by simp [hx])) (done ++ [w]) none (src + 1) k hdrop
          (by simp [outOf, image_snoc] at hout ⊢; omega) (by omega) (by simp at hcap ⊢; omega) (by omega)
          (fun i hi => read_lem _ _ _ _ _ _ hi) hB1]
        cases lex .plain t <;> simp [Except.map, wordsFrom] <;> rfl
  | case9 t ih =>
    obtain ⟨k, rfl⟩ : ∃ j, k = j + 1 := ⟨k - 1, by omega⟩
    have h1 : (stOf B src .apos done cur).buf[src]? = some 39 := by
      rw [hread _ hout]; simpa using hB0 0
    have hs : (stOf B src .apos done cur).src = src := rfl
    have ha : (stOf B src .apos done cur).apos = (.apos = Mode.apos) := by simp [stOf]
    have hq : (stOf B src .apos done cur).quote = (.apos = Mode.quote) := by simp [stOf]
    simp only [List.length_cons] at hlenB hk hcap
    simp only [loop, hs, h1, ha, hq]
    simp only [Nat.reduceEqDiff, if_false, if_true, reduceCtorEq]
    exact ih (fun x hx => h0 x (by simp [hx])) done cur (src + 1) k
      (by have := congrArg (List.drop 1) hB; simpa using this)
      (by omega) (by omega) (by omega) (by omega)
      (fun i hi => read_lem _ _ _ _ _ _ hi)
      (by intro i; have := hB0 (i+1); simpa [Nat.add_assoc, Nat.add_comm 1 i, Nat.add_left_comm] using this)
  | case10 t ih =>
    obtain ⟨k, rfl⟩ : ∃ j, k = j + 1 := ⟨k - 1, by omega⟩
    have h1 : (stOf B src .quote done cur).buf[src]? = some 34 := by
      rw [hread _ hout]; simpa using hB0 0
    have hs : (stOf B src .quote done cur).src = src := rfl
    have ha : (stOf B src .quote done cur).apos = (.quote = Mode.apos) := by simp [stOf]
    have hq : (stOf B src .quote done cur).quote = (.quote = Mode.quote) := by simp [stOf]
    simp only [List.length_cons] at hlenB hk hcap
    simp only [loop, hs, h1, ha, hq]
    simp only [Nat.reduceEqDiff, if_false, if_true, reduceCtorEq]
    exact ih (fun x hx => h0 x (by simp [hx])) done cur (src + 1) k
      (by have := congrArg (List.drop 1) hB; simpa using this)
      (by omega) (by omega) (by omega) (by omega)
      (fun i hi => read_lem _ _ _ _ _ _ hi)
      (by intro i; have := hB0 (i+1); simpa [Nat.add_assoc, Nat.add_comm 1 i, Nat.add_left_comm] using this)
  | case11 m c t n1 n2 n3 n4 n5 n6 n7 ih =>
    obtain ⟨k, rfl⟩ : ∃ j, k = j + 1 := ⟨k - 1, by omega⟩
    have h1 : (stOf B src m done cur).buf[src]? = some c := by
      rw [hread _ hout]; simpa using hB0 0
    have hs : (stOf B src m done cur).src = src := rfl
    have hc : c ≠ 0 := h0 c (by simp)
    have hc92 : c ≠ 92 := by
      rintro rfl
      cases t with
      | nil => exact n1 rfl rfl
      | cons a b => exact n2 a b rfl rfl
    simp only [List.length_cons] at hlenB hk hcap
    have hcons := consume_lem cap B src m done cur c (by omega)
      (by rintro rfl; simp at hcap; omega)
    have hdrop : List.drop (src + 1) B = t ++ 0 :: extra := by
      have := congrArg (List.drop 1) hB; simpa using this
    have hB1 : ∀ i, B[src + 1 + i]? = (t ++ 0 :: extra)[i]? := by
      intro i; rw [← hdrop, List.getElem?_drop]
    have hstep : loop cap (k + 1) (stOf B src m done cur) =
        loop cap k (stOf B (src + 1) m done (some (cur.getD [] ++ [c]))) := by
      have ha : (stOf B src m done cur).apos = decide (m = Mode.apos) := rfl
      have hq : (stOf B src m done cur).quote = decide (m = Mode.quote) := rfl
      simp only [loop, hs, h1, hcons, if_neg hc, if_neg hc92, ha, hq]
      cases m <;> simp at n3 n4 n5 n6 n7 ⊢ <;> simp [*]
    rw [hstep, ih (fun x hx => h0 x (by simp [hx])) done (some (cur.getD [] ++ [c])) (src + 1) k
      hdrop
      (by cases cur <;> simp [outOf] at hout ⊢ <;> omega)
      (by omega)
      (by cases cur <;> simp at hcap ⊢ <;> omega)
      (by omega)
      (fun i hi => read_lem _ _ _ _ _ _ hi) hB1]
    cases lex m t <;> simp [Except.map, wordsFrom]

/-! ### The words -/

/-- Prepend `w` to the first piece. -/
def glue (w : List Nat) : List (List Nat) → List (List Nat)
  | v :: vs => (w ++ v) :: vs
  | [] => [w]

theorem cut_ne_nil (us : List Unit') : cut us ≠ [] := by
  cases us with
  | nil => simp [cut]
  | cons u t =>
    cases u with
    | sep => simp [cut]
    | ch c => simp only [cut]; split <;> simp

theorem glue_cut_ch (w : List Nat) (c : Nat) (t : List Unit') :
    glue w (cut (.ch c :: t)) = glue (w ++ [c]) (cut t) := by
  simp only [cut]
  cases h : cut t with
  | nil => exact absurd h (cut_ne_nil t)
  | cons v vs => simp [glue]

theorem wordsFrom_eq (cur : Option (List Nat)) (us : List Unit') (h : ∀ w, cur = some w → w ≠ []) :
    wordsFrom cur us = (glue (cur.getD []) (cut us)).filter (· ≠ []) := by
  induction us generalizing cur with
  | nil =>
    cases cur with
    | none => simp [wordsFrom, cut, glue]
    | some w => simp [wordsFrom, cut, glue, h w rfl]
  | cons u t ih =>
    have hg : glue [] (cut t) = cut t := by
      cases hc : cut t with
      | nil => exact absurd hc (cut_ne_nil t)
      | cons v vs => simp [glue]
    cases u with
    | sep =>
      cases cur with
      | none =>
        rw [wordsFrom, ih none (by simp), Option.getD_none, hg]
        simp [cut, glue]
      | some w =>
        rw [wordsFrom, ih none (by simp), Option.getD_none, hg]
        simp [cut, glue, h w rfl]
    | ch c =>
      rw [wordsFrom, ih _ (by rintro w ⟨⟩; simp)]
      rw [glue_cut_ch]; simp

theorem words_eq (us : List Unit') : words us = wordsFrom none us := by
  rw [wordsFrom_eq none us (by simp), words]
  cases hc : cut us with
  | nil => exact absurd hc (cut_ne_nil us)
  | cons v vs => simp [glue]

theorem image_append (a b : List (List Nat)) : image (a ++ b) = image a ++ image b := by simp [image]

/-- The strings at the stored offsets are the words. -/
theorem cstr_offs (ws : List (List Nat)) (h : ∀ w ∈ ws, ∀ c ∈ w, c ≠ 0) (pre r : List Nat) :
    (offs pre.length ws).map (cstr (pre ++ image ws ++ r)) = ws := by
  induction ws generalizing pre with
  | nil => simp [offs]
  | cons w ws ih =>
    have hw := h w List.mem_cons_self
    simp only [offs, List.map_cons]
    congr 1
    · rw [cstr, List.append_assoc, List.drop_left, image_cons, List.append_assoc]
      rw [List.takeWhile_append_of_pos (by simpa using hw)]
      simp
    · have := ih (fun v hv => h v (List.mem_cons_of_mem _ hv)) (pre ++ w ++ [0])
      rw [image_cons]
      simpa [Nat.add_assoc] using this

theorem wordsFrom_size (cur : Option (List Nat)) (us : List Unit') :
    (image (wordsFrom cur us)).length ≤ us.length + (cur.getD []).length + 1 ∧
    2 * (wordsFrom cur us).length ≤ us.length + 1 + (if cur = none then 0 else 1) ∧
    (cur = none → us = [] → (image (wordsFrom cur us)).length = 0) := by
  induction us generalizing cur with
  | nil => cases cur <;> simp [wordsFrom, image]
  | cons u t ih =>
    cases u with
    | sep =>
      have := ih none
      cases cur with
      | none => simp [wordsFrom] at this ⊢; omega
      | some w => simp [wordsFrom, image_cons] at this ⊢; omega
    | ch c =>
      have := ih (some (cur.getD [] ++ [c]))
      cases cur with
      | none => simp [wordsFrom] at this ⊢; omega
      | some w => simp [wordsFrom] at this ⊢; omega

theorem lex_length (m : Mode) (s : List Nat) (us : List Unit') (h : lex m s = .ok us) :
    us.length + (if m = .plain then 0 else 1) ≤ s.length := by
  fun_induction lex m s generalizing us with
  | case1 => cases h; simp
  | case2 => cases h
  | case3 => cases h
  | case4 m => cases h
  | case5 m c t ih =>
    cases hl : lex m t with
    | error e => simp [hl, Except.map] at h
    | ok v =>
      simp [hl, Except.map] at h; subst h
      have := ih v hl; simp; omega
  | case6 t ih => have := ih us h; simp at this ⊢; omega
  | case7 t ih => have := ih us h; simp at this ⊢; omega
  | case8 t ih =>
    cases hl : lex .plain t with
    | error e => simp [hl, Except.map] at h
    | ok v =>
      simp [hl, Except.map] at h; subst h
      have := ih v hl; simp at this ⊢; omega
  | case9 t ih => have := ih us h; simp at this ⊢; omega
  | case10 t ih => have := ih us h; simp at this ⊢; omega
  | case11 m c t n1 n2 n3 n4 n5 n6 n7 ih =>
    cases hl : lex m t with
    | error e => simp [hl, Except.map] at h
    | ok v =>
      simp [hl, Except.map] at h; subst h
      have := ih v hl; simp; omega

theorem lex_nulfree (m : Mode) (s : List Nat) (h0 : ∀ c ∈ s, c ≠ 0) (us : List Unit') (h : lex m s = .ok us) :
    ∀ c, Unit'.ch c ∈ us → c ≠ 0 := by
  fun_induction lex m s generalizing us with
  | case1 => cases h; simp
  | case2 => cases h
  | case3 => cases h
  | case4 m => cases h
  | case5 m c t ih =>
    cases hl : lex m t with
    | error e => simp [hl, Except.map] at h
    | ok v =>
      simp [hl, Except.map] at h; subst h
      have := ih (fun x hx => h0 x (by simp [hx])) v hl
      intro x hx
      rcases List.mem_cons.mp hx with hx | hx
      · cases hx; exact h0 _ (by simp)
      · exact this x hx
  | case6 t ih => exact ih (fun x hx => h0 x (by simp [hx])) us h
  | case7 t ih => exact ih (fun x hx => h0 x (by simp [hx])) us h
  | case8 t ih =>
    cases hl : lex .plain t with
    | error e => simp [hl, Except.map] at h
    | ok v =>
      simp [hl, Except.map] at h; subst h
      intro x hx
      simp at hx
      exact ih (fun x hx => h0 x (by simp [hx])) v hl x hx
  | case9 t ih => exact ih (fun x hx => h0 x (by simp [hx])) us h
  | case10 t ih => exact ih (fun x hx => h0 x (by simp [hx])) us h
  | case11 m c t n1 n2 n3 n4 n5 n6 n7 ih =>
    cases hl : lex m t with
    | error e => simp [hl, Except.map] at h
    | ok v =>
      simp [hl, Except.map] at h; subst h
      have := ih (fun x hx => h0 x (by simp [hx])) v hl
      intro x hx
      rcases List.mem_cons.mp hx with hx | hx
      · cases hx; exact h0 _ (by simp)
      · exact this x hx

theorem wordsFrom_nulfree (cur : Option (List Nat)) (us : List Unit') (hc : ∀ c ∈ cur.getD [], c ≠ 0)
    (h : ∀ c, Unit'.ch c ∈ us → c ≠ 0) : ∀ w ∈ wordsFrom cur us, ∀ c ∈ w, c ≠ 0 := by
  induction us generalizing cur with
  | nil => cases cur <;> simp [wordsFrom] at hc ⊢; exact hc
  | cons u t ih =>
    cases u with
    | sep =>
      cases cur with
      | none => exact ih none (by simp) (fun c hc => h c (List.mem_cons_of_mem _ hc))
      | some w =>
        intro v hv
        simp only [wordsFrom, List.mem_cons] at hv
        rcases hv with rfl | hv
        · exact hc
        · exact ih none (by simp) (fun c hc => h c (List.mem_cons_of_mem _ hc)) v hv
    | ch c =>
      have e : wordsFrom cur (.ch c :: t) = wordsFrom (some (cur.getD [] ++ [c])) t := by cases cur <;> rfl
      rw [e]
      refine ih (some (cur.getD [] ++ [c])) ?_ (fun c hc => h c (List.mem_cons_of_mem _ hc))
      intro x hx
      simp at hx
      rcases hx with hx | rfl
      · exact hc x hx
      · exact h _ (by simp)

/-- The whole call, in closed form. -/
theorem tokenize_eq (cap : Nat) (s extra : List Nat) (h0 : ∀ c ∈ s, c ≠ 0) (hcap : s.length + 1 < 2 * cap) :
    tokenize cap (s ++ 0 :: extra) =
      match lex .plain s with
      | .error e => .error e
      | .ok us =>
        if (image (words us)).length < s.length + 1 + extra.length then
          .ok (image (words us) ++ 0 :: (s ++ 0 :: extra).drop ((image (words us)).length + 1))
            (offs 0 (words us))
        else .ub := by
  have := loop_eq cap (s ++ 0 :: extra) extra .plain s h0 [] none 0 ((s ++ 0 :: extra).length + 1)
    (by simp) (by simp [outOf, image]) (by simp; omega) (by simpa using hcap)
  have e : stOf (s ++ 0 :: extra) 0 .plain [] none = ⟨s ++ 0 :: extra, 0, 0, true, false, false, []⟩ := by
    simp [stOf, outOf, image, offs]
  rw [tokenize, ← e, this]
  cases lex .plain s with
  | error e => rfl
  | ok us =>
    simp only [List.nil_append, ← words_eq]
    congr 1
    simp; omega

end Fpm.Tok
