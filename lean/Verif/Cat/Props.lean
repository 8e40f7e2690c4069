import Verif.TextIo.Props
import Verif.Cat.Model
import Verif.Cat.Spec

/-!
# Properties of the cat command (C37)
-/
namespace Fpm.Cat
open Fpm.TextIo Fpm.TextIo.Spec Fpm.Cat.Spec

/-- Output of `puts_with_cr` for NUL-free text. -/
def cook : Bool → List Nat → List Nat
  | _, [] => []
  | need, ch :: s =>
    if ch = 10 then (if need then [13, 10] else [10]) ++ cook false s
    else if ch = 13 then 13 :: cook false s
    else ch :: cook true s

/-- Value of `need_cr` after NUL-free text. -/
def needAfter : Bool → List Nat → Bool
  | need, [] => need
  | _, ch :: s => needAfter (if ch = 10 then false else if ch = 13 then false else true) s

theorem putsCr_eq (need : Bool) (s junk : List Nat) (h : 0 ∉ s) :
    putsCr need (s ++ 0 :: junk) = some (cook need s, needAfter need s) := by
  induction s generalizing need with
  | nil => simp [putsCr, cook, needAfter]
  | cons c s ih =>
    have hc : c ≠ 0 := by intro e; simp [e] at h
    have hs : 0 ∉ s := by intro e; simp [e] at h
    rw [List.cons_append, putsCr, if_neg hc, cook, needAfter]
    by_cases h10 : c = 10
    · rw [if_pos h10, if_pos h10, if_pos h10]
      cases need
      · simp [ih false hs]
      · simp [ih false hs]
    · rw [if_neg h10, if_neg h10, if_neg h10]
      by_cases h13 : c = 13
      · rw [if_pos h13, if_pos h13, if_pos h13, ih false hs]; rfl
      · rw [if_neg h13, if_neg h13, if_neg h13, ih true hs]; rfl

theorem cook_append (need : Bool) (a b : List Nat) :
    cook need (a ++ b) = cook need a ++ cook (needAfter need a) b := by
  induction a generalizing need with
  | nil => rfl
  | cons c a ih =>
    rw [List.cons_append, cook, cook, needAfter]
    by_cases h10 : c = 10
    · simp [h10, ih]
    · by_cases h13 : c = 13
      · simp [h13, ih]
      · simp [h10, h13, ih]

theorem needAfter_append (need : Bool) (a b : List Nat) :
    needAfter need (a ++ b) = needAfter (needAfter need a) b := by
  induction a generalizing need with
  | nil => rfl
  | cons c a ih => rw [List.cons_append, needAfter, needAfter, ih]

/-- Display of a well-formed text. -/
theorem displayLoop_text (s : List Nat) (h : Text s) (need : Bool) :
    displayLoop need (text s) = some (cook need (text s) ++
      if needAfter need (text s) then [13, 10] else []) := by
  induction hn : s.length using Nat.strongRecOn generalizing s need with
  | _ n ih =>
    subst hn
    have hsc := fun c hc => (h c hc).1
    have hg := getsLoop_text (1024 - 4) s hsc []
    simp only [List.nil_append, List.length_nil, Nat.sub_zero] at hg
    cases s with
    | nil =>
      have e : fgets 1024 (text []) = (none, []) := by
        unfold fgets
        rw [hg]
        simp [chunk, text]
      rw [displayLoop.eq_def]
      split
      · simp [text, cook, needAfter]
      · rename_i l rest hf
        rw [e] at hf
        cases hf
    | cons c s =>
      have happ := chunk_append (1024 - 4) (c :: s)
      have hne : (chunk (1024 - 4) (c :: s)).1 ≠ [] := chunk_nonempty 1019 c s
      generalize hk : chunk (1024 - 4) (c :: s) = k at *
      obtain ⟨k1, k2⟩ := k
      simp only [] at hg happ hne
      have e : fgets 1024 (text (c :: s)) = (some (text k1), text k2) := by
        unfold fgets
        rw [hg]
        simp only []
        rw [if_neg]
        cases k1 with
        | nil => exact absurd rfl hne
        | cons d k =>
          have := (uenc_length d).1
          have e : (text (d :: k)).length = (uenc d).length + (text k).length := by simp [text]
          rw [e]
          omega
      have hk1 : Text k1 := fun d hd => h d (by rw [← happ]; exact List.mem_append_left _ hd)
      have hk2 : Text k2 := fun d hd => h d (by rw [← happ]; exact List.mem_append_right _ hd)
      have hlen : k2.length < (c :: s).length := by
        have e := congrArg List.length happ
        rw [List.length_append] at e
        have : k1.length ≠ 0 := by
          intro e0; exact hne (List.length_eq_zero_iff.mp e0)
        omega
      rw [displayLoop.eq_def]
      split
      · rename_i rest hf
        rw [e] at hf
        cases hf
      · rename_i l rest hf
        rw [e] at hf
        simp only [Prod.mk.injEq, Option.some.injEq] at hf
        obtain ⟨rfl, rfl⟩ := hf
        rw [putsCr_eq need (text k1) [] (text_no_zero k1 (fun c hc => (hk1 c hc).2))]
        simp only []
        rw [ih k2.length hlen k2 hk2 _ rfl, ← happ, text_append, cook_append, needAfter_append]
        simp

theorem cook_filter (need : Bool) (s : List Nat) :
    (cook need s).filter (· ≠ 13) = s.filter (· ≠ 13) := by
  induction s generalizing need with
  | nil => rfl
  | cons c s ih =>
    rw [cook]
    by_cases h10 : c = 10
    · cases need <;> simp_all
    · by_cases h13 : c = 13
      · simp_all
      · simp_all

theorem cook_sublist (need : Bool) (s : List Nat) : s.Sublist (cook need s) := by
  induction s generalizing need with
  | nil => exact List.Sublist.refl _
  | cons c s ih =>
    rw [cook]
    by_cases h10 : c = 10
    · subst h10
      cases need
      · simpa using ih false
      · simp only [if_true, List.cons_append, List.nil_append]
        exact List.Sublist.cons _ (List.Sublist.cons_cons _ (ih false))
    · rw [if_neg h10]
      by_cases h13 : c = 13
      · subst h13; simpa using ih false
      · rw [if_neg h13]; exact List.Sublist.cons_cons _ (ih true)

/-- `need_cr` records that the cursor is not in column 0. -/
theorem cook_col0 (need : Bool) (s : List Nat) :
    col0 (!need) (cook need s) = !(needAfter need s) ∧ stairs (!need) (cook need s) = 0 := by
  induction s generalizing need with
  | nil => simp [cook, col0, stairs, needAfter]
  | cons c s ih =>
    rw [cook, needAfter]
    by_cases h10 : c = 10
    · have := ih false
      cases need <;> simp_all [col0, stairs]
    · by_cases h13 : c = 13
      · have := ih false
        simp_all [col0, stairs]
      · have := ih true
        simp_all [col0, stairs]

theorem cook_length (prev : Nat) (s : List Nat) :
    (cook (decide (prev ≠ 10 ∧ prev ≠ 13)) s).length = s.length + bareLf prev s := by
  induction s generalizing prev with
  | nil => rfl
  | cons c s ih =>
    have := ih c
    rw [cook, bareLf]
    by_cases h10 : c = 10
    · subst h10
      by_cases hp : prev ≠ 10 ∧ prev ≠ 13
      · simp_all; omega
      · rw [decide_eq_false hp]
        simp_all
        have : ¬ (¬ prev = 10 ∧ ¬ prev = 13) := by omega
        rw [if_neg this]; omega
    · by_cases h13 : c = 13
      · subst h13; simp_all; omega
      · simp_all; omega

/-! ## C37 cat never staircases and never alters text -/

/-- Full claim for an arbitrary file: nothing but carriage returns (and a final line break) is added
and nothing is lost. -/
def C37_full : Prop :=
  ∀ file : List Nat, (∀ b ∈ file, b < 256) → ∃ out tail, displayFile file = some (out ++ tail) ∧
    out.filter (· ≠ 13) = file.filter (· ≠ 13) ∧ (tail = [] ∨ tail = [13, 10])

/-- A file that is not UTF-8 loses text: of the Latin-1 bytes `E9 61 0A 62` only `b` is shown, the
line break and the `a` are swallowed with the accented letter. -/
theorem C37_violated : ¬ C37_full := by
  intro h
  obtain ⟨out, tail, hd, hf, ht⟩ := h [0xE9, 97, 10, 98] (by decide)
  have hc : getChar 0xE9 [97, 10, 98] = .skip [98] := rfl
  have hg : getsLoop 1020 [] [0xE9, 97, 10, 98] = ([98], []) := by
    rw [getsLoop.eq_def, if_pos (by decide)]
    simp only []
    split
    · rename_i r hr; rw [hc] at hr; cases hr
    · rename_i r hr
      rw [hc] at hr
      injection hr with e
      subst r
      exact getsLoop_text 1020 [98] (by decide) []
    · rename_i dc r hr; rw [hc] at hr; cases hr
  have hfg : fgets 1024 [0xE9, 97, 10, 98] = (some [98], []) := by
    unfold fgets
    rw [show 1024 - 4 = 1020 from rfl, hg]; rfl
  have hd2 : displayFile [0xE9, 97, 10, 98] = some [98, 13, 10] := by
    unfold displayFile
    rw [displayLoop.eq_def]
    split
    · rename_i r hr; rw [hfg] at hr; cases hr
    · rename_i l r hr
      rw [hfg] at hr
      simp only [Prod.mk.injEq, Option.some.injEq] at hr
      obtain ⟨rfl, rfl⟩ := hr
      have := displayLoop_text [] (by decide) true
      rw [show text [] = [] from rfl] at this
      simp [putsCr, this, cook, needAfter]
  rw [hd2] at hd
  simp only [Option.some.injEq] at hd
  have hl : out.length ≤ 3 := by
    have := congrArg List.length hd
    rw [List.length_append] at this
    simp at this; omega
  have hl2 : (out.filter (· ≠ 13)).length = 4 := by rw [hf]; rfl
  have := List.length_filter_le (· ≠ 13) out
  omega

/-- For every NUL-free UTF-8 text, however long its lines: the output is the text with carriage
returns inserted, one before each line feed that directly follows a character other than CR and LF
and no other; every line feed reaches the terminal with the cursor in column 0, and a final line
break is added exactly if the cursor would otherwise not end in column 0.
Missing for the full claim: files containing NUL bytes or malformed UTF-8. -/
theorem C37_cat_partial (s : List Nat) (h : Text s) :
    ∃ out tail, displayFile (text s) = some (out ++ tail) ∧
      out.filter (· ≠ 13) = (text s).filter (· ≠ 13) ∧
      (text s).Sublist out ∧
      out.length = (text s).length + bareLf 13 (text s) ∧
      stairs true (out ++ tail) = 0 ∧
      tail = (if col0 true out then [] else [13, 10]) := by
  have hc := cook_col0 false (text s)
  simp only [Bool.not_false] at hc
  refine ⟨cook false (text s), if needAfter false (text s) then [13, 10] else [],
    displayLoop_text s h false, cook_filter _ _, cook_sublist _ _, cook_length 13 (text s), ?_, ?_⟩
  · have app : ∀ b a t, stairs b (a ++ t) = stairs b a + stairs (col0 b a) t := by
      intro b a t
      induction a generalizing b with
      | nil => simp [stairs, col0]
      | cons c a ih => rw [List.cons_append, stairs, stairs, col0, ih]; omega
    rw [app, hc.1, hc.2]
    cases needAfter false (text s) <;> simp [stairs]
  · rw [hc.1]
    cases needAfter false (text s) <;> simp

example : Text [72, 105, 10, 10, 0x20AC] ∧ bareLf 13 (text [72, 105, 10, 10, 0x20AC]) = 1 := by decide

/-- A text whose line breaks are CR LF is shown as it is, except for a final line break. -/
theorem C37_crlf_unchanged (s : List Nat) (h : Text s) (hb : bareLf 13 (text s) = 0) :
    ∃ tail, displayFile (text s) = some (text s ++ tail) := by
  obtain ⟨out, tail, hd, _, hs, hl, _⟩ := C37_cat_partial s h
  rw [hb, Nat.add_zero] at hl
  rw [← hs.eq_of_length hl.symm] at hd
  exact ⟨tail, hd⟩

example : bareLf 13 (text [72, 13, 10, 0x20AC, 13, 10]) = 0 := by decide

theorem putsCr_total (need : Bool) (s : List Nat) (h : 0 ∈ s) : putsCr need s ≠ none := by
  induction s generalizing need with
  | nil => simp at h
  | cons c s ih =>
    rw [putsCr]
    by_cases hc : c = 0
    · rw [if_pos hc]; simp
    · have hs : 0 ∈ s := by
        rcases List.mem_cons.mp h with h | h
        · exact absurd h.symm hc
        · exact h
      rw [if_neg hc]
      split
      · split <;> simp [ih _ hs]
      · split <;> simp [ih _ hs]

/-- Whatever the file contains, cat terminates without reading outside its buffer. -/
theorem C37_total (file : List Nat) : displayFile file ≠ none := by
  suffices h : ∀ n (file : List Nat) need, file.length = n → displayLoop need file ≠ none from
    h _ file false rfl
  intro n
  induction n using Nat.strongRecOn with
  | _ n ih =>
    intro file need hn
    rw [displayLoop.eq_def]
    split
    · simp
    · rename_i l rest hf
      have hs := fgets_shrinks _ _ _ _ hf
      cases hp : putsCr need (l ++ [0]) with
      | none => exact absurd hp (putsCr_total _ _ (by simp))
      | some r =>
        have := ih rest.length (by omega) rest r.2 rfl
        simpa using this

end Fpm.Cat
