import Verif.Names.ShortLemmas
/-!
# The short name as a whole
-/
namespace Fpm.Names
open Fpm.Names.Spec Fpm.Lfn Fpm.Lfn.Spec

theorem leading_spec {buf n : List Nat} (hb : Holds buf n) : ∀ (rest done : List Nat), n = done ++ rest → (∃ c ∈ rest, c ≠ 32) → (∀ c ∈ done, c = 32) →
    ∀ k, rest.length ≤ k → ∃ a c z, n = a ++ c :: z ∧ c ≠ 32 ∧ (∀ c ∈ a, c = 32) ∧ leading buf k done.length = some a.length
  | [], _, _, h, _, _, _ => by obtain ⟨c, h, _⟩ := h; cases h
  | c :: rest, done, he, h, hd, k, hk => by
    obtain ⟨k, rfl⟩ : ∃ j, k = j + 1 := ⟨k - 1, by simp at hk; omega⟩
    have hlt : done.length < n.length := by rw [he]; simp
    have hg : n[done.length] = c := by simp [he]
    rw [leading, get_unit hb hlt, hg]
    simp only
    by_cases hc : c = 32
    · rw [if_pos hc]
      have := leading_spec hb rest (done ++ [c]) (by rw [he]; simp) (by
        obtain ⟨x, h1, h2⟩ := h
        rcases List.mem_cons.mp h1 with rfl | h1
        · exact absurd hc h2
        · exact ⟨x, h1, h2⟩) (by
        intro x hx
        rcases List.mem_append.mp hx with hx | hx
        · exact hd x hx
        · rw [List.mem_singleton.mp hx, hc]) k (by simp at hk; omega)
      rw [show (done ++ [c]).length = done.length + 1 by simp] at this
      exact this
    · rw [if_neg hc]
      exact ⟨done, c, rest, he, hc, hd, rfl⟩

theorem lastDot_spec {buf n : List Nat} (hb : Holds buf n) : ∀ (m : Nat), m ≤ n.length → (∀ j (h : j < n.length), m ≤ j → n[j] ≠ 46) →
    (lastDot buf m = some 0 ∧ 46 ∉ n) ∨ ∃ a z, n = a ++ 46 :: z ∧ 46 ∉ z ∧ lastDot buf m = some (a.length + 1)
  | 0, _, h => by
    left
    refine ⟨rfl, fun hm => ?_⟩
    obtain ⟨j, hj, e⟩ := List.getElem_of_mem hm
    exact h j hj (by omega) e
  | m + 1, hm, h => by
    rw [lastDot, get_unit hb (by omega)]
    simp only
    by_cases hc : n[m]'(by omega) = 46
    · rw [if_neg (by simpa using hc)]
      right
      refine ⟨n.take m, n.drop (m + 1), ?_, fun hz => ?_, by rw [List.length_take]; congr; omega⟩
      · rw [← hc, List.getElem_cons_drop, List.take_append_drop]
      · obtain ⟨j, hj, e⟩ := List.getElem_of_mem hz
        rw [List.getElem_drop] at e
        exact h (m + 1 + j) (by simp at hj; omega) (by omega) e
    · rw [if_pos hc]
      refine lastDot_spec hb m (by omega) (fun j hj hmj => ?_)
      by_cases e : j = m
      · subst e; exact hc
      · exact h j hj (by omega)

theorem char83_dot {l : List Nat} (h : ∀ c ∈ l, Char83 c) : 46 ∉ l := fun hm => absurd (h 46 hm) (by decide)

theorem split_dot {a z b e : List Nat} (h : a ++ 46 :: z = b ++ 46 :: e) (hz : 46 ∉ z) (he : 46 ∉ e) : a = b ∧ z = e := by
  induction a generalizing b with
  | nil =>
    cases b with
    | nil => simp_all
    | cons x b =>
      simp only [List.nil_append, List.cons_append, List.cons.injEq] at h
      exact absurd (h.2 ▸ hz) (by simp)
  | cons x a ih =>
    cases b with
    | nil =>
      simp only [List.nil_append, List.cons_append, List.cons.injEq] at h
      exact absurd (h.2 ▸ he) (by simp)
    | cons y b =>
      simp only [List.cons_append, List.cons.injEq] at h
      have := ih h.2
      exact ⟨by rw [h.1, this.1], this.2⟩

/-- Names without a dot. -/
theorem et_nodot {n body ext : List Nat} (h : EightThree n body ext) (hn : 46 ∉ n) : body = n ∧ ext = [] := by
  have e := h.eq
  by_cases hx : ext = []
  · rw [if_pos hx, List.append_nil] at e
    exact ⟨e.symm, hx⟩
  · rw [if_neg hx] at e
    exact absurd (by rw [e]; simp) hn

/-- Names with a dot. -/
theorem et_dot {n body ext a z : List Nat} (h : EightThree n body ext) (hn : n = a ++ 46 :: z) (hz : 46 ∉ z) : body = a ∧ ext = z := by
  have e := h.eq
  by_cases hx : ext = []
  · rw [if_pos hx, List.append_nil] at e
    exact absurd (by rw [← e, hn]; simp) (char83_dot h.body_chars)
  · rw [if_neg hx, hn] at e
    have := split_dot e hz (char83_dot h.ext_chars)
    exact ⟨this.1.symm, this.2.symm⟩

theorem et_unique {n b e b' e' : List Nat} (h : EightThree n b e) (h' : EightThree n b' e') : b = b' ∧ e = e' := by
  by_cases hn : 46 ∈ n
  · have he := h.eq
    have hx : e ≠ [] := by
      intro hx
      rw [if_pos hx, List.append_nil] at he
      exact char83_dot h.body_chars (he ▸ hn)
    rw [if_neg hx] at he
    have := et_dot h' he (char83_dot h.ext_chars)
    exact ⟨this.1.symm, this.2.symm⟩
  · have h1 := et_nodot h hn
    have h2 := et_nodot h' hn
    exact ⟨by rw [h1.1, h2.1], by rw [h1.2, h2.2]⟩

theorem caps_and {l : List Nat} : (caps l &&& 3 = 3 ↔ oneCase l = false) ∧ (caps l &&& 1 ≠ 0 ↔ hasLower l = true) := by
  unfold caps oneCase
  cases hasUpper l <;> cases hasLower l <;> decide

/-- Flags of a lossless form. -/
theorem nameFlags_short {l : Nat} (hl : l = 0 ∨ l = 4) (b e : List Nat) : nameFlags (caps b * 4 + caps e) l =
    l + if oneCase b ∧ oneCase e then (if hasLower b then 8 else 0) + (if hasLower e then 16 else 0) else 2 := by
  unfold caps oneCase
  rcases hl with rfl | rfl <;> cases hasUpper b <;> cases hasLower b <;> cases hasUpper e <;> cases hasLower e <;> decide

theorem nameFlags_lossy {l : Nat} (hl : l = 0 ∨ l = 4) (b : Nat) : nameFlags b (l + 3) = l + 3 := by
  have h1 : lfnFlag b (l + 3) = l + 3 := by
    unfold lfnFlag
    split
    · rcases hl with rfl | rfl <;> decide
    · rfl
  unfold nameFlags
  rw [h1, if_neg (by rcases hl with rfl | rfl <;> decide)]

/-- How the loop ends: with the short form, or lossy. -/
def Ends (n : List Nat) (l : Nat) (s : Short) : Prop :=
  (s.cf = l + 3 ∧ ¬ ∃ body ext, EightThree n body ext) ∨
  (s.cf = l ∧ ∃ body ext, EightThree n body ext ∧ s.fn = form body ext ∧ caseBits s = caps body * 4 + caps ext)

theorem formByte_space {m : Nat} : ∀ c ∈ List.replicate m 32, FormByte c := by
  intro c hc
  rw [(List.mem_replicate.mp hc).2]
  left; rfl

theorem ends_nodot {buf n : List Nat} (hb : Holds buf n) (hu : ∀ u ∈ n, LfnUnit u) (hne : n ≠ []) (hn : 46 ∉ n) {l : Nat} (hl : l = 0 ∨ l = 4) :
    ∃ s, shortLoop buf 0 257 0 0 ⟨8, 0, l, List.replicate 11 32⟩ = some s ∧ Ends n l s := by
  have hle : n.length ≤ 255 := by have := hb.1; have := hb.2.length_le; simp at this; omega
  have hrun := field_run (p := []) (q := List.replicate 3 32) (z := n) (o := 0) (w := 8) (t := 0) (k := 257 - n.length) hb hu (d := 0) (.inl rfl) hl rfl (.inl rfl) (by simp) formByte_space (by simp) (by omega)
    (by intro j h; simp) (by intros; omega) (by omega) n [] rfl (by simp) (by simp)
  simp only [List.length_nil, Nat.add_zero, Nat.zero_add, List.map_nil, List.append_nil, List.nil_append, Nat.sub_zero, Nat.zero_mul, List.replicate_append_replicate, show n.length + (257 - n.length) = 257 by omega, show (8 + 3 : Nat) = 11 from rfl, show caps [] = 0 from rfl] at hrun
  rcases hrun with ⟨h1, s, e, h2⟩ | ⟨⟨h1, h2⟩, e⟩
  · refine ⟨s, e, .inl ⟨h2, ?_⟩⟩
    rintro ⟨body, ext, h⟩
    obtain ⟨rfl, rfl⟩ := et_nodot h hn
    exact h1 ⟨h.body_chars, h.body8⟩
  · rw [e, show 257 - n.length = (256 - n.length) + 1 by omega, shortLoop, get_end hb]
    simp only [if_true]
    refine ⟨_, rfl, .inr ⟨rfl, n, [], ⟨by simp, hne, h2, by simp, h1, by simp⟩, ?_, ?_⟩⟩
    · simp [form, pad]
    · unfold caseBits
      simp only [if_true]
      have := caps_lt n
      rw [show caps [] = 0 from rfl]
      omega

theorem ends_dot {buf n a z : List Nat} (hb : Holds buf n) (hu : ∀ u ∈ n, LfnUnit u) (hn : n = a ++ 46 :: z) (hz : 46 ∉ z) (ha : a ≠ []) (hze : z ≠ []) {l : Nat} (hl : l = 0 ∨ l = 4) :
    ∃ s, shortLoop buf (a.length + 1) 257 0 0 ⟨8, 0, l, List.replicate 11 32⟩ = some s ∧ Ends n l s := by
  have hle : n.length ≤ 255 := by have := hb.1; have := hb.2.length_le; simp at this; omega
  have hnl : n.length = a.length + z.length + 1 := by rw [hn]; simp; omega
  have hd : a.length + 1 = 0 ∨ 0 < a.length + 1 ∧ a.length + 1 ≤ n.length ∧ n[a.length + 1 - 1]? = some 46 := by
    right
    refine ⟨by omega, by omega, ?_⟩
    rw [hn]; simp
  have hrun := field_run (p := []) (q := List.replicate 3 32) (z := a) (o := 0) (w := 8) (t := 0) (k := 257 - a.length) hb hu hd hl rfl (.inl rfl) (by simp) formByte_space (by simp) (by omega)
    (by intro j h; rw [hn]; simp [List.getElem?_append, h]) (by intros; omega) (by omega) a [] rfl (by simp) (by simp)
  simp only [List.length_nil, Nat.add_zero, Nat.zero_add, List.map_nil, List.append_nil, List.nil_append, Nat.sub_zero, Nat.zero_mul, List.replicate_append_replicate, show a.length + (257 - a.length) = 257 by omega, show (8 + 3 : Nat) = 11 from rfl, show caps [] = 0 from rfl] at hrun
  rcases hrun with ⟨h1, s, e, h2⟩ | ⟨⟨h1, h2⟩, e⟩
  · refine ⟨s, e, .inl ⟨h2, ?_⟩⟩
    rintro ⟨body, ext, h⟩
    obtain ⟨rfl, rfl⟩ := et_dot h hn hz
    exact h1 ⟨h.body_chars, h.body8⟩
  · have hg : buf[a.length]? = some 46 := by
      rw [get_unit hb (by omega)]
      simp [hn]
    rw [e, show 257 - a.length = (256 - a.length) + 1 by omega, shortLoop, hg]
    clear e
    simp only
    rw [if_neg (by decide), if_neg (by omega), if_pos (.inr trivial)]
    unfold field
    rw [if_neg (by simp only; omega), if_neg (by omega)]
    simp only [ne_eq, not_true_eq_false, if_false]
    have hp : ∀ c ∈ a.map up ++ List.replicate (8 - a.length) 32, FormByte c := by
      intro c hc
      rcases List.mem_append.mp hc with h | h
      · obtain ⟨x, hx, rfl⟩ := List.mem_map.mp h
        exact up_form (h1 x hx)
      · exact formByte_space c h
    have hrun := field_run (p := a.map up ++ List.replicate (8 - a.length) 32) (q := []) (z := z) (o := a.length + 1) (w := 3) (t := caps a) (k := 256 - a.length - z.length) (ni := 11) hb hu hd hl (by simp; omega) (.inr rfl) hp (by simp) (by simp; omega) (by omega)
      (by intro j h; rw [hn]; simp [List.getElem?_append, show ¬ (a.length + 1 + j < a.length) by omega, show a.length + 1 + j - a.length = j + 1 by omega, h]) (by intros; omega) (by omega) z [] rfl (by simp) (by simp)
    have hpl : (a.map up ++ List.replicate (8 - a.length) 32).length = 8 := by simp; omega
    simp only [hpl, List.length_nil, Nat.add_zero, List.map_nil, List.append_nil, Nat.sub_zero, show z.length + (256 - a.length - z.length) = 256 - a.length by omega, show caps [] = 0 from rfl] at hrun
    rw [show caps a * 4 % 256 = caps a * 4 by have := caps_lt a; omega]
    rcases hrun with ⟨h3, s, e, h4⟩ | ⟨⟨h3, h4⟩, e⟩
    · refine ⟨s, e, .inl ⟨h4, ?_⟩⟩
      rintro ⟨body, ext, h⟩
      obtain ⟨rfl, rfl⟩ := et_dot h hn hz
      exact h3 ⟨h.ext_chars, h.ext3⟩
    · rw [e, show 256 - a.length - z.length = (255 - a.length - z.length) + 1 by omega, shortLoop, show a.length + 1 + z.length = n.length by omega, get_end hb]
      simp only [if_true]
      refine ⟨_, rfl, .inr ⟨rfl, a, z, ⟨by rw [if_neg hze]; exact hn, ha, h2, h4, h1, h3⟩, ?_, ?_⟩⟩
      · simp [form, pad]
      · unfold caseBits
        simp

/-- The last character is neither a space nor a dot. -/
def EndsWell (n : List Nat) : Prop := ∀ c, n.getLast? = some c → c ≠ 32 ∧ c ≠ 46

theorem noDdem_id {fn : List Nat} (h : FnOk fn) : noDdem fn = fn := by
  unfold noDdem
  rw [if_neg]
  have hl := h.1
  match fn with
  | [] => simp
  | c :: fn =>
    show c ≠ 0xE5
    rcases h.2 c (by simp) with h | h
    · omega
    · have := h.1.2.1; omega

/-- The short name and its flags. -/
theorem mkShort_spec {buf n : List Nat} (hb : Holds buf n) (hu : ∀ u ∈ n, LfnUnit u) (hne : n ≠ []) (hw : EndsWell n) {last : Bool} {l : Nat} (hl : l = if last then 4 else 0) (rest : List Nat) :
    ∃ fn fl, mkShort buf n.length l rest = .ok buf fn fl rest ∧ Form n fn ∧ Flags n last fl := by
  have hle : n.length ≤ 255 := by have := hb.1; have := hb.2.length_le; simp at this; omega
  have hl' : l = 0 ∨ l = 4 := by cases last <;> simp_all
  have hlast : ∃ c ∈ n, c ≠ 32 := by
    refine ⟨n.getLast hne, List.getLast_mem hne, (hw _ (List.getLast?_eq_some_getLast hne)).1⟩
  obtain ⟨a, c, z, hn, hc, ha, e1⟩ := leading_spec hb n [] rfl hlast (by simp) 256 (by omega)
  rw [List.length_nil] at e1
  have hlt : a.length < n.length := by rw [hn]; simp
  have hg : buf[a.length]? = some c := by rw [get_unit hb hlt]; simp [hn]
  have hd := lastDot_spec hb n.length (by omega) (by intros; omega)
  obtain ⟨dot, e2, hdot⟩ : ∃ dot, lastDot buf n.length = some dot ∧ ((dot = 0 ∧ 46 ∉ n) ∨ ∃ a z, n = a ++ 46 :: z ∧ 46 ∉ z ∧ dot = a.length + 1) := by
    rcases hd with ⟨h1, h2⟩ | ⟨a, z, h1, h2, h3⟩
    · exact ⟨0, h1, .inl ⟨rfl, h2⟩⟩
    · exact ⟨_, h3, .inr ⟨a, z, h1, h2, rfl⟩⟩
  have hdd : dot = 0 ∨ 0 < dot ∧ dot ≤ n.length ∧ n[dot - 1]? = some 46 := by
    rcases hdot with ⟨h, _⟩ | ⟨x, y, h1, h2, h3⟩
    · exact .inl h
    · right
      subst h3
      refine ⟨by omega, by rw [h1]; simp, by rw [h1]; simp⟩
  have fn0 : FnOk (List.replicate 11 32) := ⟨by decide, formByte_space⟩
  unfold mkShort
  rw [e1, e2]
  simp only
  rw [hg]
  simp only
  by_cases hlossy : a.length > 0 ∨ c = 46
  · rw [if_pos hlossy, (or3 hl').1]
    obtain ⟨s, e, f, _, h⟩ := shortLoop_def hb hu hdd hl' 257 a.length 0 ⟨8, 0, l + 3, List.replicate 11 32⟩ (by omega) (by omega) (.inl rfl) fn0 (.inr rfl)
    have hcf := h rfl
    have hno : ¬ ∃ body ext, EightThree n body ext := by
      rintro ⟨body, ext, h⟩
      have h0 : ∃ x r, body = x :: r ∧ Char83 x := by
        cases hb' : body with
        | nil => exact absurd hb' h.ne
        | cons x r => exact ⟨x, r, rfl, h.body_chars x (by rw [hb']; simp)⟩
      obtain ⟨x, r, rfl, hx⟩ := h0
      have he := h.eq
      rw [hn] at he
      cases a with
      | nil =>
        simp only [List.nil_append, List.cons_append, List.cons.injEq] at he
        rcases hlossy with h | h
        · simp at h
        · rw [← he.1, h] at hx
          exact absurd hx (by decide)
      | cons y a =>
        simp only [List.cons_append, List.cons.injEq] at he
        rw [← he.1, ha y (by simp)] at hx
        exact absurd hx (by decide)
    rw [e]
    simp only
    rw [noDdem_id f, hcf, nameFlags_lossy hl']
    refine ⟨_, _, rfl, ⟨f.1, f.2, fun b e h => absurd ⟨b, e, h⟩ hno⟩, ⟨fun b e h => absurd ⟨b, e, h⟩ hno, fun _ => by rw [hl]⟩⟩
  · rw [if_neg hlossy]
    have ha0 : a = [] := List.eq_nil_of_length_eq_zero (by omega)
    subst ha0
    have hends : ∃ s, shortLoop buf dot 257 0 0 ⟨8, 0, l, List.replicate 11 32⟩ = some s ∧ Ends n l s := by
      rcases hdot with ⟨rfl, h⟩ | ⟨x, y, h1, h2, rfl⟩
      · exact ends_nodot hb hu hne h hl'
      · refine ends_dot hb hu h1 h2 ?_ ?_ hl'
        · rintro rfl
          rw [h1] at hn
          simp at hn
          omega
        · rintro rfl
          exact (hw 46 (by rw [h1]; simp)).2 rfl
    obtain ⟨s, e, he⟩ := hends
    obtain ⟨s', e', f, _⟩ := shortLoop_def hb hu hdd hl' 257 0 0 ⟨8, 0, l, List.replicate 11 32⟩ (by omega) (by omega) (.inl rfl) fn0 (.inl rfl)
    have hs : s' = s := by
      rw [e] at e'
      exact (Option.some.inj e').symm
    subst hs
    rw [List.length_nil, e]
    simp only
    rw [noDdem_id f]
    refine ⟨_, _, rfl, ?_⟩
    rcases he with ⟨h1, h2⟩ | ⟨h1, b, x, h2, h3, h4⟩
    · rw [h1, nameFlags_lossy hl']
      exact ⟨⟨f.1, f.2, fun b e h => absurd ⟨b, e, h⟩ h2⟩, ⟨fun b e h => absurd ⟨b, e, h⟩ h2, fun _ => by rw [hl]⟩⟩
    · rw [h1, h4, nameFlags_short hl']
      refine ⟨⟨f.1, f.2, fun b' e' h => ?_⟩, ⟨fun b' e' h => ?_, fun h => absurd ⟨_, _, h2⟩ h⟩⟩
      · obtain ⟨rfl, rfl⟩ := et_unique h2 h
        exact h3
      · obtain ⟨rfl, rfl⟩ := et_unique h2 h
        rw [hl]

end Fpm.Names
