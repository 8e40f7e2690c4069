import Verif.GetKey.Model
import Verif.GetKey.Spec
/-! # Property C30: key decoding -/
namespace Fpm.GetKey
open Fpm.GetKey.Spec

theorem isDigit_iff (c : Nat) : isDigit c = true ↔ Digit c := by simp [isDigit, Digit]

/-- Value of a numeral in 32 bits, `v` being the value of the digits before. -/
def value32 (v : Nat) (ds : List Nat) : Nat := ds.foldl (fun v d => (v * 10 + (d - 48)) % 2 ^ 32) v

theorem readNum_eq (ds : List Nat) (hd : ∀ d ∈ ds, Digit d) (t : Nat) (ht : ¬ Digit t) (rest : List Nat) (v key : Nat) :
    readNum v key (ds ++ t :: rest) = some (value32 v (key :: ds), t, rest) := by
  induction ds generalizing v key with
  | nil =>
    rw [List.nil_append, readNum]
    rw [if_neg (by rw [isDigit_iff]; exact ht)]
    rfl
  | cons d ds ih =>
    rw [List.cons_append, readNum]
    rw [if_pos ((isDigit_iff d).mpr (hd d (by simp))), ih (fun x hx => hd x (by simp [hx]))]
    rfl

theorem readNum_none (ds : List Nat) (hd : ∀ d ∈ ds, Digit d) (v key : Nat) : readNum v key ds = none := by
  induction ds generalizing v key with
  | nil => rfl
  | cons d ds ih =>
    rw [readNum]
    rw [if_pos ((isDigit_iff d).mpr (hd d (by simp))), ih (fun x hx => hd x (by simp [hx]))]

theorem value32_eq (ds : List Nat) : value32 0 ds = value ds % 2 ^ 32 := by
  have : ∀ v w, v = w % 2 ^ 32 → value32 v ds = ds.foldl (fun v d => v * 10 + (d - 48)) w % 2 ^ 32 := by
    induction ds with
    | nil => intro v w h; exact h
    | cons d ds ih =>
      intro v w h
      refine ih _ _ ?_
      simp only [h]
      omega
  exact this 0 0 rfl

/-- What the code does with one unit: `keep` is its key, with numbers taken modulo 2^32. -/
def keyMod : KeySeq → Option Nat
  | .number _ ds t => if t = 126 ∧ value ds % 2 ^ 32 = 3 then some 0x2421 else none
  | u => u.key

/-- One pass of the loop. -/
def next : Option (Option Nat × List Nat) → Option (Nat × List Nat)
  | none => none
  | some (some k, r) => some (k, r)
  | some (none, r) => getkey r

theorem getkey_eq (s : List Nat) : getkey s = next (pass s) := by
  rw [getkey]
  split <;> rename_i h <;> rw [h] <;> rfl

theorem third_number {p : Nat} (d : Nat) (ds : List Nat) (t : Nat) (rest : List Nat) (hd : ∀ x ∈ d :: ds, Digit x) (ht : ¬ Digit t) :
    third d (ds ++ t :: rest) = some (keyMod (.number p (d :: ds) t), rest) := by
  have hdd := hd d (by simp)
  unfold Digit at hdd
  rw [third, if_neg (by omega), if_neg (by omega), if_neg (by omega), if_neg (by omega), if_neg (by omega), if_neg (by omega),
    if_pos ((isDigit_iff d).mpr hdd), readNum_eq ds (fun x hx => hd x (by simp [hx])) t ht rest 0 d]
  simp only [Option.map_some, afterNum, keyMod, value32_eq]
  by_cases h1 : t = 126
  · by_cases h2 : value (d :: ds) % 2 ^ 32 = 3
    · rw [if_neg (by simp [h1]), if_pos h2, if_pos ⟨h1, h2⟩]
    · rw [if_neg (by simp [h1]), if_neg h2, if_neg (fun h => h2 h.2)]
  · rw [if_pos h1, if_neg (fun h => h1 h.1)]

theorem pass_unknown {c : Nat} (h : c ≠ 91 ∧ c ≠ 79) (r : List Nat) : pass (27 :: c :: r) = some (none, r) := by
  simp only [pass, ne_eq, not_true_eq_false, if_false]
  exact if_pos h

theorem pass_third {p : Nat} (h : p = 91 ∨ p = 79) (k : Nat) (r : List Nat) : pass (27 :: p :: k :: r) = third k r := by
  simp only [pass, ne_eq, not_true_eq_false, if_false]
  exact if_neg (by omega)

theorem pass_two {p : Nat} (h : p = 91 ∨ p = 79) : pass [27, p] = none := by
  simp only [pass, ne_eq, not_true_eq_false, if_false]
  exact if_neg (by omega)

theorem pass_seq (u : KeySeq) (hu : u.Ok) (rest : List Nat) : pass (u.chars ++ rest) = some (keyMod u, rest) := by
  cases u with
  | plain c => exact if_pos hu
  | unknown c =>
    exact pass_unknown hu rest
  | letter p c =>
    obtain ⟨hp, hc⟩ := hu
    show pass (27 :: p :: c :: rest) = _
    rw [pass_third hp]
    have hnd : isDigit c = false := by
      cases h : isDigit c with
      | false => rfl
      | true => exact absurd ((isDigit_iff c).mp h) hc
    unfold third
    by_cases h1 : c = 65
    · subst h1; rfl
    by_cases h2 : c = 66
    · subst h2; rfl
    by_cases h3 : c = 68
    · subst h3; rfl
    by_cases h4 : c = 67
    · subst h4; rfl
    by_cases h5 : c = 72
    · subst h5; rfl
    by_cases h6 : c = 70
    · subst h6; rfl
    simp [hnd, keyMod, KeySeq.key, cursorKeys, h1, h2, h3, h4, h5, h6, Ne.symm h1, Ne.symm h2, Ne.symm h3, Ne.symm h4, Ne.symm h5, Ne.symm h6]
  | number p ds t =>
    obtain ⟨hp, hne, hd, ht⟩ := hu
    obtain ⟨d, ds, rfl⟩ := List.exists_cons_of_ne_nil hne
    have e : (KeySeq.number p (d :: ds) t).chars ++ rest = 27 :: p :: d :: (ds ++ t :: rest) := by simp [KeySeq.chars]
    rw [e, pass_third hp]
    exact third_number d ds t rest hd ht

theorem getkey_unit (u : KeySeq) (hu : u.Ok) (rest : List Nat) :
    getkey (u.chars ++ rest) = next (some (keyMod u, rest)) := by
  rw [getkey_eq, pass_seq u hu]

/-- C30: unknown units are skipped, the next known unit gives its key, and the input after it is
untouched. -/
def C30_full : Prop := ∀ (skipped : List KeySeq) (u : KeySeq) (k : Nat) (rest : List Nat),
  (∀ v ∈ skipped, v.Ok ∧ v.key = none) → u.Ok → u.key = some k →
  getkey (skipped.flatMap KeySeq.chars ++ (u.chars ++ rest)) = some (k, rest)

/-- **C30 is violated**: the unknown sequence `ESC [ 4294967299 ~` is taken for `ESC [ 3 ~`, the
Delete key, because the number is computed modulo 2^32. -/
theorem C30_violated : ¬ C30_full := by
  intro h
  have hv : KeySeq.Ok (.number 91 [52, 50, 57, 52, 57, 54, 55, 50, 57, 57] 126) ∧
      KeySeq.key (.number 91 [52, 50, 57, 52, 57, 54, 55, 50, 57, 57] 126) = none := by
    refine ⟨⟨by simp, by simp, by decide, by decide⟩, by decide⟩
  have h1 := h [.number 91 [52, 50, 57, 52, 57, 54, 55, 50, 57, 57] 126] (.plain 97) 97 [] (by
    intro v hm; simp only [List.mem_singleton] at hm; rw [hm]; exact hv) (by simp [KeySeq.Ok]) rfl
  have h2 := getkey_unit (.number 91 [52, 50, 57, 52, 57, 54, 55, 50, 57, 57] 126) hv.1 [97]
  have h3 : keyMod (.number 91 [52, 50, 57, 52, 57, 54, 55, 50, 57, 57] 126) = some 0x2421 := by decide
  rw [h3] at h2
  simp only [List.flatMap_cons, List.flatMap_nil, List.append_nil] at h1
  rw [show (KeySeq.plain 97).chars = [97] from rfl, h2] at h1
  cases h1

/-- Numbers in the units below 2^32. -/
def Small : KeySeq → Prop
  | .number _ ds _ => value ds < 2 ^ 32
  | _ => True

theorem keyMod_small {u : KeySeq} (h : Small u) : keyMod u = u.key := by
  cases u with
  | number p ds t => simp only [keyMod, KeySeq.key, Nat.mod_eq_of_lt (show value ds < 2 ^ 32 from h)]
  | _ => rfl

/-- The same for all input in which the numbers of escape sequences are below 2^32. -/
theorem C30_decode_partial (skipped : List KeySeq) (u : KeySeq) (k : Nat) (rest : List Nat)
    (hs : ∀ v ∈ skipped, v.Ok ∧ v.key = none ∧ Small v) (hu : u.Ok) (hk : u.key = some k) (hsm : Small u) :
    getkey (skipped.flatMap KeySeq.chars ++ (u.chars ++ rest)) = some (k, rest) := by
  induction skipped with
  | nil => rw [List.flatMap_nil, List.nil_append, getkey_unit u hu, keyMod_small hsm, hk]; rfl
  | cons v vs ih =>
    obtain ⟨h1, h2, h3⟩ := hs v (by simp)
    rw [List.flatMap_cons, List.append_assoc, getkey_unit v h1, keyMod_small h3, h2]
    exact ih (fun w hw => hs w (by simp [hw]))

/-- ESC q, ESC [ 1 5 ~ (F5), then the up arrow. -/
example : (∀ v ∈ [KeySeq.unknown 113, .number 91 [49, 53] 126], v.Ok ∧ v.key = none ∧ Small v) ∧ (KeySeq.letter 79 65).Ok ∧
    (KeySeq.letter 79 65).key = some 0x2191 := by
  refine ⟨?_, ⟨Or.inr rfl, by decide⟩, by decide⟩
  intro v hv
  simp only [List.mem_cons, List.not_mem_nil, or_false] at hv
  rcases hv with rfl | rfl
  · exact ⟨⟨by decide, by decide⟩, rfl, trivial⟩
  · exact ⟨⟨Or.inl rfl, by decide, by decide, by decide⟩, by decide, (by decide : value [49, 53] < 2 ^ 32)⟩

/-- A nonempty list of digits, or the empty list, in front of a list. -/
theorem digits_prefix (s : List Nat) : (∀ d ∈ s, Digit d) ∨ ∃ ds t r, s = ds ++ t :: r ∧ (∀ d ∈ ds, Digit d) ∧ ¬ Digit t := by
  induction s with
  | nil => left; simp
  | cons c s ih =>
    by_cases hc : Digit c
    · rcases ih with h | ⟨ds, t, r, rfl, h1, h2⟩
      · left
        intro d hd
        rcases List.mem_cons.mp hd with e | hd
        · rw [e]; exact hc
        · exact h d hd
      · right
        refine ⟨c :: ds, t, r, rfl, ?_, h2⟩
        intro d hd
        rcases List.mem_cons.mp hd with e | hd
        · rw [e]; exact hc
        · exact h1 d hd
    · right; exact ⟨[], c, s, rfl, by simp, hc⟩

/-- Every input starts with a unit, or is unfinished. -/
theorem split_unit (s : List Nat) : Unfinished s ∨ ∃ u rest, KeySeq.Ok u ∧ s = u.chars ++ rest := by
  match s with
  | [] => exact Or.inl (Or.inl rfl)
  | [c] =>
    by_cases hc : c = 27
    · exact Or.inl (Or.inr (Or.inl (by rw [hc])))
    · exact Or.inr ⟨.plain c, [], hc, rfl⟩
  | c :: p :: r =>
    by_cases hc : c = 27
    · subst hc
      by_cases hp : p = 91 ∨ p = 79
      · rcases digits_prefix r with h | ⟨ds, t, r', rfl, h1, h2⟩
        · exact Or.inl (Or.inr (Or.inr ⟨p, r, hp, h, rfl⟩))
        · cases ds with
          | nil => exact Or.inr ⟨.letter p t, r', ⟨hp, h2⟩, rfl⟩
          | cons d ds => exact Or.inr ⟨.number p (d :: ds) t, r', ⟨hp, by simp, h1, h2⟩, by simp [KeySeq.chars]⟩
      · exact Or.inr ⟨.unknown p, r, not_or.mp hp, rfl⟩
    · exact Or.inr ⟨.plain c, p :: r, hc, rfl⟩

theorem chars_ne (u : KeySeq) : 0 < u.chars.length := by cases u <;> simp [KeySeq.chars]

theorem getkey_unfinished {s : List Nat} (h : Unfinished s) : getkey s = none := by
  rw [getkey_eq]
  rcases h with rfl | rfl | ⟨p, ds, hp, hd, rfl⟩
  · rfl
  · rfl
  · cases ds with
    | nil =>
      rw [pass_two hp]
      rfl
    | cons d ds =>
      have hdd := hd d (by simp)
      rw [pass_third hp, third]
      unfold Digit at hdd
      rw [if_neg (by omega), if_neg (by omega), if_neg (by omega), if_neg (by omega), if_neg (by omega), if_neg (by omega),
        if_pos ((isDigit_iff d).mpr hdd), readNum_none ds (fun x hx => hd x (by simp [hx])) 0 d]
      rfl

/-- **C30, totality**: every input is a sequence of skipped units followed by a unit that gives the
returned key, the rest being left for the next call - or, if the function waits, followed by an
unfinished sequence. -/
theorem C30_total (s : List Nat) :
    (∃ (skipped : List KeySeq) (tail : List Nat), (∀ v ∈ skipped, KeySeq.Ok v ∧ keyMod v = none) ∧ Unfinished tail ∧ s = skipped.flatMap KeySeq.chars ++ tail ∧ getkey s = none) ∨
    (∃ (skipped : List KeySeq) (u : KeySeq) (k : Nat) (rest : List Nat), (∀ v ∈ skipped, KeySeq.Ok v ∧ keyMod v = none) ∧ u.Ok ∧ keyMod u = some k ∧
      s = skipped.flatMap KeySeq.chars ++ (u.chars ++ rest) ∧ getkey s = some (k, rest)) := by
  generalize hn : s.length = n
  induction n using Nat.strongRecOn generalizing s with
  | ind n ih =>
    rcases split_unit s with h | ⟨u, rest, hu, rfl⟩
    · left; exact ⟨[], s, by simp, h, rfl, getkey_unfinished h⟩
    · have hlen := chars_ne u
      cases hk : keyMod u with
      | some k =>
        right
        refine ⟨[], u, k, rest, by simp, hu, hk, rfl, ?_⟩
        rw [getkey_unit u hu, hk]; rfl
      | none =>
        have hg : getkey (u.chars ++ rest) = getkey rest := by rw [getkey_unit u hu, hk]; rfl
        have hadd : ∀ vs : List KeySeq, (∀ v ∈ vs, KeySeq.Ok v ∧ keyMod v = none) → ∀ v ∈ u :: vs, KeySeq.Ok v ∧ keyMod v = none := by
          intro vs hvs v hv
          rcases List.mem_cons.mp hv with rfl | hv
          · exact ⟨hu, hk⟩
          · exact hvs v hv
        rw [List.length_append] at hn
        rcases ih rest.length (by omega) rest rfl with ⟨vs, tail, h1, h2, h3, h4⟩ | ⟨vs, w, k, r, h1, h2, h3, h4, h5⟩
        · left; exact ⟨u :: vs, tail, hadd vs h1, h2, by rw [List.flatMap_cons, List.append_assoc, ← h3], by rw [hg, h4]⟩
        · right; exact ⟨u :: vs, w, k, r, hadd vs h1, h2, h3, by rw [List.flatMap_cons, List.append_assoc, ← h4], by rw [hg, h5]⟩

example : getkey [27, 91, 51, 126, 97] = some (0x2421, [97]) := by
  have := C30_decode_partial [] (.number 91 [51] 126) 0x2421 [97] (by simp) ⟨Or.inl rfl, by decide, by decide, by decide⟩ (by decide) (by decide : value [51] < 2 ^ 32)
  simpa [KeySeq.chars] using this

end Fpm.GetKey
