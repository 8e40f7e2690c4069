import Verif.Names.ScanLemmas
/-!
# Names in listings
-/
namespace Fpm.Names
open Fpm.Names.Spec Fpm.Lfn Fpm.Lfn.Spec Fpm.TextIo Fpm.TextIo.Spec

theorem text_append (a b : List Nat) : text (a ++ b) = text a ++ text b := by simp [text]

theorem text_cons (c : Nat) (cs : List Nat) : text (c :: cs) = uenc c ++ text cs := by simp [text]

/-- The loop over a long name. -/
theorem longLoop_spec {buf m : List Nat} (hb : Holds buf (units m)) (hc : ∀ c ∈ m, Scalar c ∧ c ≠ 0) :
    ∀ (rest done : List Nat), m = done ++ rest → (text done).length ≤ 255 → ∀ k, (units rest).length < k →
      longLoop buf k (units done).length 0 (text done) = some (if (text m).length ≤ 255 then text m else [])
  | [], done, he, hl, k, hk => by
    obtain ⟨k, rfl⟩ : ∃ j, k = j + 1 := ⟨k - 1, by simp [units_nil] at hk; omega⟩
    rw [List.append_nil] at he
    subst he
    rw [longLoop, get_end hb]
    simp [hl]
  | c :: rest, done, he, hl, k, hk => by
    have hcs := hc c (by rw [he]; simp)
    have hlen := uenc_length c
    have hmu : units m = units done ++ (unit c ++ units rest) := by rw [he, units_append, units_cons]
    have hput := fun z => putUtf_eq c z hcs.1
    have hne : uenc c ≠ [] := List.length_pos_iff.mp (by omega)
    have hmt : text m = text done ++ (uenc c ++ text rest) := by rw [he, text_append, text_cons]
    have hnext : ∀ k, (units rest).length < k → (text done ++ uenc c).length ≤ 255 →
        longLoop buf k (units done ++ unit c).length 0 (text done ++ uenc c) = some (if (text m).length ≤ 255 then text m else []) := by
      intro k hk hl
      have := longLoop_spec hb hc rest (done ++ [c]) (by rw [he]; simp) (by rw [text_append]; simpa [text] using hl) k hk
      rw [units_append, units_cons, units_nil, List.append_nil, text_append] at this
      simpa [text] using this
    have hfin : ∀ si k, (units rest).length < k → si = (units done ++ unit c).length →
        (if putUtf (utf16 c) (255 - (text done).length) = [] then some []
          else longLoop buf k si 0 (text done ++ putUtf (utf16 c) (255 - (text done).length))) = some (if (text m).length ≤ 255 then text m else []) := by
      intro si k hk hsi
      rw [hput]
      by_cases hfit : (uenc c).length ≤ 255 - (text done).length
      · rw [if_pos hfit, if_neg hne, hsi]
        exact hnext k hk (by simp; omega)
      · rw [if_neg hfit, if_pos rfl, if_neg]
        rw [hmt]
        simp
        omega
    by_cases hsm : c < 0x10000
    · have hu : unit c = [c] := by simp [unit, hsm]
      rw [units_cons, hu] at hk
      obtain ⟨k, rfl⟩ : ∃ j, k = j + 1 := ⟨k - 1, by simp at hk; omega⟩
      have hg : buf[(units done).length]? = some c := by
        rw [get_unit hb (by rw [hmu, hu]; simp)]
        simp [hmu, hu]
      rw [longLoop, hg]
      simp only
      have hns : isSurrogate c = false := by
        have := hcs.1.2
        unfold isSurrogate
        simp
        omega
      rw [if_neg hcs.2, if_neg (by rw [hns]; simp), Nat.zero_mul, Nat.zero_add]
      have e := utf16_small hsm
      have := hfin ((units done).length + 1) k (by simp at hk; omega) (by rw [hu]; simp)
      rw [e] at this
      exact this
    · have hb1 := hcs.1.1
      have hu : unit c = [0xD800 + (c - 0x10000) / 1024, 0xDC00 + (c - 0x10000) % 1024] := by simp [unit, hsm]
      rw [units_cons, hu] at hk
      obtain ⟨k, rfl⟩ : ∃ j, k = j + 1 + 1 := ⟨k - 2, by simp at hk; omega⟩
      have hg : buf[(units done).length]? = some (0xD800 + (c - 0x10000) / 1024) := by
        rw [get_unit hb (by rw [hmu, hu]; simp)]
        simp [hmu, hu]
      have hg2 : buf[(units done).length + 1]? = some (0xDC00 + (c - 0x10000) % 1024) := by
        rw [get_unit hb (by rw [hmu, hu]; simp)]
        simp [hmu, hu]
      rw [longLoop, hg]
      simp only
      rw [if_neg (by omega), if_pos ⟨trivial, by unfold isSurrogate; simp; omega⟩, longLoop, hg2]
      simp only
      rw [if_neg (by omega), if_neg (fun h => by omega)]
      have e : utf16 c = (0xD800 + (c - 0x10000) / 1024) * 65536 + (0xDC00 + (c - 0x10000) % 1024) := by unfold utf16; rw [if_neg hsm]
      have := hfin ((units done).length + 1 + 1) k (by simp at hk; omega) (by rw [hu]; simp)
      rw [e] at this
      exact this

theorem putUtf_one {c z : Nat} (h : Char83 c) (hz : 1 ≤ z) : putUtf (up c) z = [up c] := by
  have h2 : up c < 0x80 := by
    have := h.2.1
    unfold up
    split <;> omega
  unfold putUtf
  rw [if_pos h2, if_neg (by omega)]

theorem up_range {c : Nat} (h : Char83 c) : up c ≠ 32 ∧ up c ≠ 5 ∧ up c ≠ 0 ∧ up c ≠ 46 := by
  obtain ⟨h1, h2, h3⟩ := h
  simp only [List.mem_cons, List.not_mem_nil, or_false, not_or] at h3
  unfold up
  split <;> omega

theorem alt_char {c si : Nat} {cs out : List Nat} (h : Char83 c) (hl : (altDot si out).length < 12) :
    altLoop (up c :: cs) si out = altLoop cs (si + 1) (altDot si out ++ [up c]) := by
  have hr := up_range h
  rw [altLoop, if_neg hr.1, if_neg (by rw [if_neg hr.2.1]; exact hr.2.2.1), if_neg hr.2.1, putUtf_one h (by omega), if_neg (by simp)]

theorem alt_space {m : Nat} : ∀ {cs : List Nat} {si : Nat} {out : List Nat}, altLoop (List.replicate m 32 ++ cs) si out = altLoop cs (si + m) out := by
  induction m with
  | zero => intros; rfl
  | succ m ih =>
    intro cs si out
    rw [List.replicate_succ, List.cons_append, altLoop, if_pos rfl, ih]
    congr 1
    omega

theorem altDot_ne {si : Nat} {out : List Nat} (h : si ≠ 8) : altDot si out = out := by
  unfold altDot
  rw [if_neg (by omega)]

/-- A run of characters away from the dot. -/
theorem alt_run : ∀ (l cs : List Nat) (si : Nat) (out : List Nat), (∀ c ∈ l, Char83 c) → (∀ j < l.length, si + j ≠ 8) → out.length + l.length ≤ 12 →
    altLoop (l.map up ++ cs) si out = altLoop cs (si + l.length) (out ++ l.map up)
  | [], cs, si, out, _, _, _ => by simp
  | c :: l, cs, si, out, h, h8, hl => by
    have e := altDot_ne (out := out) (h8 0 (by simp))
    rw [Nat.add_zero] at e
    rw [List.map_cons, List.cons_append, alt_char (h c (by simp)) (by rw [e]; simp at hl; omega), e,
      alt_run l cs (si + 1) _ (fun x hx => h x (by simp [hx])) (fun j hj => by have := h8 (j + 1) (by simp; omega); omega) (by simp at hl ⊢; omega)]
    simp [Nat.add_comm, Nat.add_left_comm]

/-- Short name with its dot. -/
def plain (body ext : List Nat) : List Nat := body.map up ++ if ext = [] then [] else 46 :: ext.map up

theorem alt_form {n body ext : List Nat} (h : EightThree n body ext) : altLoop (form body ext) 0 [] = plain body ext := by
  have hb := h.body8
  have he := h.ext3
  unfold form pad plain
  rw [List.append_assoc, alt_run body _ 0 [] h.body_chars (by intro j hj; omega) (by simp; omega), alt_space]
  simp only [List.length_map, List.nil_append, Nat.zero_add]
  rw [show body.length + (8 - body.length) = 8 by omega]
  cases hx : ext with
  | nil =>
    simp only [List.map_nil, List.nil_append, List.length_nil, if_true, List.append_nil]
    rw [show List.replicate (3 - 0) 32 = List.replicate 3 32 ++ ([] : List Nat) by simp, alt_space]
    rfl
  | cons c ext =>
    have hc := h.ext_chars
    rw [hx] at hc he
    simp at he
    have hd : altDot 8 (body.map up) = body.map up ++ [46] := by
      unfold altDot
      rw [if_pos (by simp; omega)]
    rw [List.map_cons, List.cons_append, alt_char (hc c (by simp)) (by rw [hd]; simp; omega), hd,
      alt_run ext _ 9 _ (fun x hx => hc x (by simp [hx])) (by intro j hj; omega) (by simp; omega)]
    rw [show List.replicate (3 - (c :: ext).length) 32 = List.replicate (3 - (c :: ext).length) 32 ++ ([] : List Nat) by simp, alt_space]
    simp [altLoop]

/-- Letters of one case come back. -/
theorem case_back {l : List Nat} (h : oneCase l = true) (nt lcf : Nat) (hn : (nt &&& lcf ≠ 0) ↔ hasLower l = true) :
    ∀ c ∈ l, (if isUpper (up c) ∧ nt &&& lcf ≠ 0 then up c + 32 else up c) = c := by
  intro c hc
  by_cases hl : hasLower l = true
  · have hu : hasUpper l = false := by
      unfold oneCase at h
      cases hx : hasUpper l <;> simp_all
    have hcu : ¬ (65 ≤ c ∧ c ≤ 90) := by
      intro hcu
      have : hasUpper l = true := by
        unfold hasUpper
        rw [List.any_eq_true]
        exact ⟨c, hc, by simp; omega⟩
      rw [this] at hu
      cases hu
    have hm := hn.mpr hl
    unfold up isUpper
    by_cases hlow : 97 ≤ c ∧ c ≤ 122
    · rw [if_pos hlow, if_pos ⟨by simp; omega, hm⟩]
      omega
    · rw [if_neg hlow, if_neg (by simp; omega)]
  · have hcl : ¬ (97 ≤ c ∧ c ≤ 122) := by
      intro hcl
      apply hl
      unfold hasLower
      rw [List.any_eq_true]
      exact ⟨c, hc, by simp; omega⟩
    have hm : ¬ nt &&& lcf ≠ 0 := fun h => hl (hn.mp h)
    rw [if_neg (fun h => hm h.2)]
    unfold up
    rw [if_neg hcl]

theorem case_run (nt lcf : Nat) : ∀ (l cs : List Nat), (∀ c ∈ l, Char83 c) → (∀ c ∈ l, (if isUpper (up c) ∧ nt &&& lcf ≠ 0 then up c + 32 else up c) = c) →
    caseLoop nt (l.map up ++ cs) lcf = l ++ caseLoop nt cs lcf
  | [], cs, _, _ => rfl
  | c :: l, cs, h, hc => by
    rw [List.map_cons, List.cons_append, caseLoop, if_neg (up_range (h c (by simp))).2.2.2, hc c (by simp), case_run nt lcf l cs (fun x hx => h x (by simp [hx])) (fun x hx => hc x (by simp [hx]))]
    rfl

/-- The name comes back from its short entry. -/
theorem shortName_back {n body ext e : List Nat} (h : EightThree n body ext) (he : e.take 11 = form body ext) (hb : oneCase body = true) (hx : oneCase ext = true)
    (hnb : (byte e 12 &&& 8 ≠ 0) ↔ hasLower body = true) (hnx : (byte e 12 &&& 0x10 ≠ 0) ↔ hasLower ext = true) : shortName e = n := by
  have hp : plain body ext ≠ [] := by
    have := h.ne
    unfold plain
    cases body with
    | nil => exact absurd rfl this
    | cons => simp
  unfold shortName
  rw [he, alt_form h, if_neg hp]
  unfold plain
  rw [case_run _ _ body _ h.body_chars (case_back hb _ _ hnb), h.eq]
  congr 1
  split
  · rfl
  · rw [caseLoop, if_pos rfl]
    have := case_run (byte e 12) 0x10 ext [] h.ext_chars (case_back hx _ _ hnx)
    rw [List.append_nil] at this
    rw [this]
    simp [caseLoop]

theorem et_units {m body ext : List Nat} (h : EightThree (units m) body ext) : units m = text m := by
  have hc : ∀ u ∈ units m, u ≤ 126 := by
    intro u hu
    rw [h.eq] at hu
    rcases List.mem_append.mp hu with h1 | h1
    · exact (h.body_chars u h1).2.1
    · split at h1
      · cases h1
      · rcases List.mem_cons.mp h1 with rfl | h1
        · omega
        · exact (h.ext_chars u h1).2.1
  have key : ∀ m : List Nat, (∀ u ∈ units m, u ≤ 126) → units m = text m := by
    intro m
    induction m with
    | nil => intro _; rfl
    | cons c m ih =>
      intro hc
      rw [units_cons] at hc ⊢
      rw [text_cons, ih (fun u hu => hc u (List.mem_append_right _ hu))]
      congr 1
      have h1 := fun u hu => hc u (List.mem_append_left _ hu)
      unfold unit at h1 ⊢
      split
      · rename_i hs
        rw [if_pos hs] at h1
        have := h1 c (by simp)
        unfold uenc
        rw [if_pos (by omega)]
      · rename_i hs
        rw [if_neg hs] at h1
        have := h1 _ (List.mem_cons_self ..)
        omega
  exact key m hc

theorem pad_inj {k : Nat} {a b : List Nat} (ha : ∀ c ∈ a, c ≠ 32) (hb : ∀ c ∈ b, c ≠ 32) (h : pad k a = pad k b) : a = b := by
  have key : ∀ (a : List Nat) (j : Nat), (∀ c ∈ a, c ≠ 32) → (a ++ List.replicate j 32).takeWhile (fun c => decide (c ≠ 32)) = a := by
    intro a j
    induction a with
    | nil => intro _; cases j <;> simp [List.replicate_succ]
    | cons x a ih =>
      intro h
      have hx := h x (by simp)
      rw [List.cons_append, List.takeWhile_cons, if_pos (by simp [hx]), ih (fun c hc => h c (by simp [hc]))]
  have := congrArg (List.takeWhile fun c => decide (c ≠ 32)) h
  unfold pad at this
  rw [key a _ ha, key b _ hb] at this
  exact this

theorem up_ne {l : List Nat} (h : ∀ c ∈ l, Char83 c) : ∀ c ∈ l.map up, c ≠ 32 := by
  intro c hc
  obtain ⟨x, hx, rfl⟩ := List.mem_map.mp hc
  exact (up_range (h x hx)).1

theorem up_dot {l : List Nat} (h : ∀ c ∈ l, Char83 c) : 46 ∉ l.map up := by
  intro hc
  obtain ⟨x, hx, e⟩ := List.mem_map.mp hc
  exact (up_range (h x hx)).2.2.2 e

theorem map_up {n body ext : List Nat} (h : EightThree n body ext) : n.map up = body.map up ++ if ext = [] then [] else 46 :: ext.map up := by
  rw [h.eq, List.map_append]
  congr 1
  split
  · rfl
  · rw [List.map_cons]
    rfl

/-- Forms are the same just for names that are equal but for case. -/
theorem form_same {n body ext n' body' ext' : List Nat} (h : EightThree n body ext) (h' : EightThree n' body' ext') : form body ext = form body' ext' ↔ n.map up = n'.map up := by
  constructor
  · intro hf
    unfold form at hf
    have hl : (pad 8 (body.map up)).length = (pad 8 (body'.map up)).length := by
      have := h.body8
      have := h'.body8
      simp [pad]
      omega
    obtain ⟨h1, h2⟩ := List.append_inj hf hl
    have e1 := pad_inj (up_ne h.body_chars) (up_ne h'.body_chars) h1
    have e2 := pad_inj (up_ne h.ext_chars) (up_ne h'.ext_chars) h2
    rw [map_up h, map_up h', e1, e2]
    congr 1
    have : ext = [] ↔ ext' = [] := by
      rw [← List.map_eq_nil_iff (f := up), e2, List.map_eq_nil_iff]
    by_cases hx : ext = []
    · rw [if_pos hx, if_pos (this.mp hx)]
    · rw [if_neg hx, if_neg (fun h => hx (this.mpr h))]
  · intro hn
    rw [map_up h, map_up h'] at hn
    unfold form
    by_cases hx : ext = []
    · by_cases hx' : ext' = []
      · rw [if_pos hx, if_pos hx', List.append_nil, List.append_nil] at hn
        rw [hn, hx, hx']
      · rw [if_pos hx, if_neg hx', List.append_nil] at hn
        exact absurd (by rw [hn]; simp) (up_dot h.body_chars)
    · by_cases hx' : ext' = []
      · rw [if_neg hx, if_pos hx', List.append_nil] at hn
        exact absurd (by rw [← hn]; simp) (up_dot h'.body_chars)
      · rw [if_neg hx, if_neg hx'] at hn
        obtain ⟨h1, h2⟩ := split_dot hn (up_dot h.ext_chars) (up_dot h'.ext_chars)
        rw [h1, h2]

end Fpm.Names
