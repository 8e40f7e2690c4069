import Verif.Tree.LabelModel
import Verif.Tree.LabelSpec
import Verif.Upcase.Props
import Verif.TextIo.Lemmas
import Verif.TextIo.DecLemmas
import Verif.TextIo.PutLemmas
/-!
# Texts of labels: lemmas
-/
namespace Fpm.Tree
open Fpm.Names Fpm.Names.Spec Fpm.TextIo Fpm.TextIo.Spec Fpm.Upcase Fpm.Tree.Spec Fpm.Lfn

/-- Letters that are not ASCII stay so. -/
theorem upper_far {u : Nat} (h : 128 ≤ u) : ∃ w, wtoupper u = some w ∧ 126 < w := by
  by_cases hr : ∀ b ∈ ranges1 ++ ranges2, ¬ (b.1 ≤ u ∧ u < b.1 + b.2)
  · exact ⟨u, unchanged hr, by omega⟩
  · have all : ((ranges1 ++ ranges2).all fun b => (List.range b.2).all fun i => decide (b.1 + i < 128) || (match wtoupper (b.1 + i) with | none => false | some w => decide (126 < w))) = true := by decide +kernel
    have ⟨b, hb⟩ := Classical.not_forall.mp hr
    have ⟨hm, h1⟩ := Classical.not_imp.mp hb
    have h1 := Classical.not_not.mp h1
    have := List.all_eq_true.mp (List.all_eq_true.mp all b hm) (u - b.1) (List.mem_range.mpr (by omega))
    rw [show b.1 + (u - b.1) = u from by omega] at this
    rw [show decide (u < 128) = false from by simp; omega, Bool.false_or] at this
    cases hw : wtoupper u with
    | none => rw [hw] at this; cases this
    | some w => rw [hw] at this; exact ⟨w, rfl, by simpa using this⟩

theorem upper_near : ∀ u < 128, wtoupper u = some (up u) := by decide +kernel

theorem char_near : ∀ b < 128, 32 ≤ b → (LabelChar b ↔ ¬ (uni2oem (up b) = 0 ∨ uni2oem (up b) ∈ badLabel)) ∧ (LabelChar b → uni2oem (up b) % 256 = up b) := by decide +kernel

theorem trail_stop (nf uc : Nat) (p : List Nat) (h : ∃ z ∈ p, z < 32) : trailBytes nf uc p ≠ none := by
  induction nf generalizing uc p with
  | zero => simp [trailBytes]
  | succ n ih =>
    cases p with
    | nil => obtain ⟨z, hz, -⟩ := h; cases hz
    | cons b p =>
      rw [trailBytes]
      split
      · simp
      · rename_i hb
        obtain ⟨z, hz, h0⟩ := h
        rcases List.mem_cons.mp hz with rfl | hz
        · have : ∀ z < 32, z &&& 0xC0 = 0 := by decide
          rw [this z h0] at hb
          simp at hb
        · exact ih _ _ ⟨z, hz, h0⟩

/-- A byte that is no ASCII character begins no character of labels. -/
theorem oem_far {b : Nat} {p : List Nat} (hb : 128 ≤ b) (hb' : b < 256) (h0 : ∃ z ∈ p, z < 32) (hbytes : ∀ z ∈ p, z < 256) : ∃ wc p', (tchar2uni (b :: p)).bind oemChar = some (wc, p') ∧ (wc = 0 ∨ wc ∈ badLabel) := by
  have hne : tchar2uni (b :: p) ≠ none := by
    rw [tchar2uni, if_neg (by rw [is80 b hb']; omega)]
    cases hl : leadByte b with
    | none => simp
    | some x =>
      obtain ⟨bits, nf⟩ := x
      simp only
      cases ht : trailBytes nf bits p with
      | none => exact absurd ht (trail_stop nf bits p h0)
      | some r => cases r <;> simp
  cases ht : tchar2uni (b :: p) with
  | none => exact absurd ht hne
  | some r =>
    cases r with
    | none => exact ⟨0, [], rfl, .inl rfl⟩
    | some r =>
      obtain ⟨dc, p'⟩ := r
      show ∃ wc q, oemChar (some (dc, p')) = some (wc, q) ∧ _
      unfold oemChar
      by_cases hd : dc < 0x10000
      · have h1 : 128 ≤ dc := by
          obtain ⟨c, hc, e, o, ho, h2⟩ := tchar2uni_sound (b :: p) (fun x hx => by
            rcases List.mem_cons.mp hx with rfl | hx
            · exact hb'
            · exact hbytes x hx) dc p' ht
          have hc8 : 128 ≤ c := by
            rcases h2 with h2 | h2
            · refine Nat.le_of_not_lt fun hlt => ?_
              rw [h2, uenc, if_pos hlt] at ho
              have := (List.cons.inj ho).1
              omega
            · exact h2.1
          rw [e]
          unfold utf16
          split
          · exact hc8
          · omega
        obtain ⟨w, hw, hw'⟩ := upper_far h1
        simp only [if_pos hd]
        rw [hw]
        refine ⟨uni2oem w, p', rfl, .inr ?_⟩
        have : uni2oem w = 63 := by
          unfold uni2oem
          rw [if_neg (by omega), if_pos (by omega)]
        rw [this]
        decide
      · simp only [if_neg hd]
        exact ⟨0, p', rfl, .inl rfl⟩

theorem oem_near {b : Nat} (p : List Nat) (hb : b < 128) : (tchar2uni (b :: p)).bind oemChar = some (uni2oem (up b), p) := by
  rw [tchar2uni, if_pos (by rw [is80 b (by omega)]; exact hb)]
  show oemChar (some (b, p)) = _
  unfold oemChar
  simp only [if_pos (show b < 0x10000 by omega), upper_near b hb]
  rfl

/-- Labels that are good so far, with what comes next. -/
theorem good_snoc (q : List Nat) (c : Nat) (p : List Nat) : GoodLabel (q ++ c :: p) → GoodLabel (q ++ [c]) := by
  rintro ⟨h1, h2⟩
  refine ⟨by simp at h1 ⊢; omega, fun x hx => h2 x (by simp at hx ⊢; rcases hx with h | h <;> simp [h])⟩

theorem label_loop_spec (z : List Nat) {b : Nat} {rest : List Nat} (hb : b < 32) (hrest : ∀ x ∈ rest, x < 256) : ∀ (p : List Nat) (k : Nat) (q : List Nat), (∀ c ∈ p, 32 ≤ c ∧ c < 256) → p.length < k → GoodLabel q →
    labelLoop k (p ++ b :: rest) (pad 11 (q.map up) ++ z) q.length = if GoodLabel (q ++ p) then .done (pad 11 ((q ++ p).map up) ++ z) (q ++ p).length else .bad
  | [], k, q, _, hk, hq => by
    obtain ⟨k, rfl⟩ : ∃ n, k = n + 1 := ⟨k - 1, by simp at hk; omega⟩
    rw [List.append_nil, if_pos hq, List.nil_append, labelLoop, if_pos hb]
  | c :: p, k, q, hp, hk, hq => by
    obtain ⟨k, rfl⟩ : ∃ n, k = n + 1 := ⟨k - 1, by simp at hk; omega⟩
    obtain ⟨hc1, hc2⟩ := hp c (by simp)
    rw [List.cons_append, labelLoop, if_neg (by omega)]
    by_cases hc : c < 128
    · rw [oem_near _ hc]
      simp only
      obtain ⟨k1, k2⟩ := char_near c hc hc1
      by_cases hl : LabelChar c ∧ q.length < 11
      · have hn : ¬ (uni2oem (up c) = 0 ∨ uni2oem (up c) ∈ badLabel ∨ q.length ≥ 11) := by
          have := k1.mp hl.1
          rintro (h | h | h)
          · exact this (.inl h)
          · exact this (.inr h)
          · omega
        rw [if_neg hn, k2 hl.1]
        have hs : store (pad 11 (q.map up) ++ z) q.length (up c) = some (pad 11 ((q ++ [c]).map up) ++ z) := by
          unfold store
          have hlen : (pad 11 (q.map up)).length = 11 := by unfold pad; simp; omega
          rw [if_pos (by rw [List.length_append, hlen]; omega), List.set_append_left _ _ (by rw [hlen]; exact hl.2)]
          congr 2
          unfold pad
          rw [List.set_append_right _ _ (by simp)]
          simp only [List.length_map, Nat.sub_self, List.map_append, List.map_cons, List.map_nil, List.append_assoc, List.length_append, List.length_cons, List.length_nil]
          rw [show 11 - q.length = (11 - (q.length + (0 + 1))) + 1 from by omega, List.replicate_succ]
          rfl
        rw [hs]
        simp only
        have hgood : GoodLabel (q ++ [c]) := ⟨by rw [List.length_append]; simp only [List.length_singleton]; omega, fun x hx => by
          rcases List.mem_append.mp hx with hx | hx
          · exact hq.2 x hx
          · rw [List.mem_singleton.mp hx]; exact hl.1⟩
        have := label_loop_spec z hb hrest p k (q ++ [c]) (fun x hx => hp x (by simp [hx])) (by rw [List.length_cons] at hk; omega) hgood
        rw [List.length_append, List.length_singleton] at this
        rw [this, List.append_assoc]
        rfl
      · have hy : uni2oem (up c) = 0 ∨ uni2oem (up c) ∈ badLabel ∨ q.length ≥ 11 := by
          by_cases h1 : LabelChar c
          · exact .inr (.inr (Nat.le_of_not_lt fun h => hl ⟨h1, h⟩))
          · rcases Classical.not_not.mp (fun h => h1 (k1.mpr h)) with h | h
            · exact .inl h
            · exact .inr (.inl h)
        rw [if_pos hy, if_neg]
        rintro ⟨h1, h2⟩
        refine hl ⟨h2 c (by simp), ?_⟩
        rw [List.length_append, List.length_cons] at h1
        omega
    · obtain ⟨wc, p', h1, h2⟩ := oem_far (b := c) (p := p ++ b :: rest) (by omega) hc2 ⟨b, by simp, hb⟩ (fun x hx => by
        simp only [List.mem_append, List.mem_cons] at hx
        rcases hx with hx | rfl | hx
        · exact (hp x (by simp [hx])).2
        · omega
        · exact hrest x hx)
      rw [h1]
      simp only
      rw [if_pos (by rcases h2 with h2 | h2; exact .inl h2; exact .inr (.inl h2)), if_neg]
      intro h
      have := (h.2 c (by simp)).2.1
      omega

theorem up_space : ∀ c < 128, (up c = 32 ↔ c = 32) ∧ up c < 127 ∨ 126 < c := by decide +kernel

theorem snip_spec (w : List Nat) : ∀ (n : Nat), n ≤ w.length → ∃ di, snip w n = some di ∧ di ≤ n ∧ (di = 0 ↔ ∀ c ∈ w.take n, c = 32)
  | 0, _ => ⟨0, rfl, by omega, by simp⟩
  | n + 1, h => by
    rw [snip, List.getElem?_eq_getElem (by omega)]
    simp only
    rw [List.take_add_one, List.getElem?_eq_getElem (by omega)]
    by_cases hc : w[n] = 32
    · rw [if_pos hc]
      obtain ⟨di, h1, h2, h3⟩ := snip_spec w n (by omega)
      refine ⟨di, h1, by omega, h3.trans ⟨fun hx c hc' => ?_, fun hx c hc' => hx c (List.mem_append_left _ hc')⟩⟩
      rcases List.mem_append.mp hc' with h | h
      · exact hx c h
      · simp at h; omega
    · rw [if_neg hc]
      refine ⟨n + 1, rfl, by omega, ⟨(fun h => by omega), fun hx => absurd (hx _ (List.mem_append_right _ (by simp))) hc⟩⟩

/-- What is made of the text of a label. -/
theorem make_spec {p : List Nat} (hp : ∀ c ∈ p, 32 ≤ c ∧ c < 256) {b : Nat} {rest : List Nat} (hb : b < 32) (hrest : ∀ x ∈ rest, x < 256) (old : List Nat) :
    ¬ GoodLabel p ∧ makeLabel (p ++ b :: rest) old = .bad ∨ GoodLabel p ∧ ∃ z di, makeLabel (p ++ b :: rest) old = .done (pad 11 (p.map up) ++ z) di ∧ (di = 0 ↔ Void p) := by
  have h := label_loop_spec (old.drop 11) hb hrest p ((p ++ b :: rest).length + 1) [] hp (by simp; omega) ⟨by simp, by simp⟩
  rw [List.nil_append, List.map_nil, show pad 11 [] = List.replicate 11 32 from rfl, List.length_nil] at h
  unfold makeLabel
  rw [h]
  by_cases hg : GoodLabel p
  · refine .inr ⟨hg, old.drop 11, ?_⟩
    rw [if_pos hg]
    have hup : ∀ c ∈ p, (up c = 32 ↔ c = 32) ∧ up c < 127 := fun c hc => by
      have := hg.2 c hc
      exact (up_space c (by have := this.2.1; omega)).resolve_right (by have := this.2.1; omega)
    have hl : (p.map up).length ≤ (pad 11 (p.map up) ++ old.drop 11).length := by unfold pad; simp
    obtain ⟨di, h1, h2, h3⟩ := snip_spec (pad 11 (p.map up) ++ old.drop 11) p.length (by simpa using hl)
    refine ⟨di, ?_, h3.trans ?_⟩
    · unfold labelDone
      simp only
      rw [if_neg, h1]
      unfold pad
      cases hq : p with
      | nil => simp [List.replicate_succ]
      | cons c p' =>
        have := (hup c (by rw [hq]; simp)).2
        simp
        omega
    · have ht : (pad 11 (p.map up) ++ old.drop 11).take p.length = p.map up := by
        unfold pad
        rw [List.append_assoc, ← List.length_map (f := up), List.take_left]
      rw [ht]
      constructor
      · intro hx c hc
        exact (hup c hc).1.mp (hx (up c) (List.mem_map_of_mem hc))
      · intro hx c hc
        obtain ⟨a, ha, rfl⟩ := List.mem_map.mp hc
        exact (hup a ha).1.mpr (hx a ha)
  · rw [if_neg hg]
    exact .inl ⟨hg, rfl⟩

/-! ## Texts of entries -/

theorem putAt_mid {t z : List Nat} {bs : List Nat} (h : bs.length ≤ z.length) : putAt (t ++ z) t.length bs = some (t ++ bs ++ z.drop bs.length) := by
  unfold putAt
  rw [if_pos (by simp; omega), List.take_left, List.drop_append]
  simp

theorem text_loop : ∀ (name t z : List Nat), (∀ b ∈ name, b < 256) → 2 * name.length < z.length → ∃ buf, 
    (0 ∈ name ∧ textLoop name (t ++ z) t.length = some (buf, 0) ∧ buf ≠ [] ∨ 0 ∉ name ∧ ∃ z', z' ≠ [] ∧ buf = t ++ text name ++ z' ∧ textLoop name (t ++ z) t.length = some (buf, (t ++ text name).length))
  | [], t, z, _, hz => ⟨t ++ z, .inr ⟨by simp, z, (fun h => by rw [h] at hz; simp at hz), by simp [text], by simp [textLoop, text]⟩⟩
  | c :: name, t, z, hn, hz => by
    by_cases h0 : c = 0
    · refine ⟨t ++ z, .inl ⟨by simp [h0], by rw [textLoop, if_pos h0], ?_⟩⟩
      intro h
      rw [(List.append_eq_nil_iff.mp h).2] at hz
      simp at hz
    · have hc := hn c (by simp)
      have hu : putUtf c 4 = uenc c := by
        have := putUtf_eq c 4 ⟨by omega, by omega⟩
        rw [show utf16 c = c from if_pos (by omega)] at this
        rw [this, if_pos (uenc_length c).2]
      have hl : (uenc c).length ≤ 2 := by
        unfold uenc
        split
        · simp
        · rw [if_pos (by omega)]; simp
      rw [textLoop, if_neg h0, hu, putAt_mid (by simp at hz; omega)]
      simp only
      obtain ⟨buf, h⟩ := text_loop name (t ++ uenc c) (z.drop (uenc c).length) (fun b hb => hn b (by simp [hb])) (by simp at hz ⊢; omega)
      rw [List.length_append] at h
      refine ⟨buf, ?_⟩
      rcases h with ⟨a1, a2, a3⟩ | ⟨a1, z', a2, a3, a4⟩
      · exact .inl ⟨by simp [a1], a2, a3⟩
      · refine .inr ⟨?_, z', a2, ?_, ?_⟩
        · intro hx
          rcases List.mem_cons.mp hx with hx | hx
          · exact h0 hx.symm
          · exact a1 hx
        · rw [a3]; simp [text]
        · rw [a4]; simp [text]

theorem unspaced_snoc (t : List Nat) (c : Nat) : unspaced (t ++ [c]) = if c = 32 then unspaced t else t ++ [c] := by
  unfold unspaced
  rw [List.reverse_append, List.reverse_singleton, List.singleton_append, List.dropWhile_cons]
  by_cases h : c = 32
  · simp [h]
  · simp [h]

theorem cut_spec : ∀ (n : Nat) (t z : List Nat), t.length = n → z ≠ [] → ∃ rest, cutLoop (t ++ z) n = some (unspaced t ++ 0 :: rest)
  | 0, t, z, ht, hz => by
    rw [List.eq_nil_of_length_eq_zero ht]
    cases z with
    | nil => exact absurd rfl hz
    | cons a z => exact ⟨z, by rw [cutLoop]; exact putAt_mid (t := []) (z := a :: z) (bs := [0]) (by simp)⟩
  | n + 1, t, z, ht, hz => by
    have hne : t ≠ [] := fun h => by rw [h] at ht; simp at ht
    obtain ⟨u, c, rfl⟩ : ∃ u c, t = u ++ [c] := ⟨t.dropLast, t.getLast hne, (List.dropLast_concat_getLast hne).symm⟩
    cases z with
    | nil => exact absurd rfl hz
    | cons a z =>
      have hu : u.length = n := by simpa using ht
      have hp := putAt_mid (t := u ++ [c]) (z := a :: z) (bs := [0]) (by simp)
      rw [show (u ++ [c]).length = n + 1 from ht] at hp
      rw [cutLoop, hp]
      have hg : ((u ++ [c]) ++ [0] ++ (a :: z).drop [0].length)[n]? = some c := by
        rw [← hu]; simp
      simp only [hg]
      rw [unspaced_snoc]
      by_cases hc : c = 32
      · rw [if_pos hc, if_pos hc]
        obtain ⟨r, h⟩ := cut_spec n u ([c] ++ [0] ++ (a :: z).drop [0].length) hu (by simp)
        refine ⟨r, ?_⟩
        rw [← h]
        simp
      · rw [if_neg hc, if_neg hc]
        exact ⟨z, by simp⟩

theorem mem_unspaced {t : List Nat} {c : Nat} (h : c ∈ unspaced t) : c ∈ t := by
  unfold unspaced at h
  have := (List.dropWhile_sublist _).subset (List.mem_reverse.mp h)
  exact List.mem_reverse.mp this

/-- The text that is shown for a label. -/
theorem text_spec {name buf : List Nat} (ls : List (List Nat)) (hn : ∀ b ∈ name, b < 256) (hl : name.length = 11) (hb : 23 ≤ buf.length) : ∃ buf', labelText name buf = some buf' ∧ Has buf' (shown (name :: ls)) := by
  obtain ⟨b2, h⟩ := text_loop name [] buf hn (by omega)
  rw [List.nil_append, List.length_nil] at h
  unfold labelText
  rcases h with ⟨h0, h1, h2⟩ | ⟨h0, z', h1, h2, h3⟩
  · rw [h1]
    obtain ⟨r, h3⟩ := cut_spec 0 [] b2 rfl h2
    refine ⟨_, h3, ?_⟩
    rw [show shown (name :: ls) = [] from if_pos h0]
    exact ⟨by simp, r, rfl⟩
  · rw [h3]
    obtain ⟨r, h4⟩ := cut_spec _ ([] ++ text name) z' rfl h1
    refine ⟨unspaced (text name) ++ 0 :: r, ?_, ?_⟩
    · show cutLoop b2 _ = _
      rw [h2]
      exact h4
    · rw [show shown (name :: ls) = unspaced (text name) from if_neg h0]
      refine ⟨fun hx => ?_, r, rfl⟩
      exact text_no_zero name (fun c hc => fun h => h0 (h ▸ hc)) (mem_unspaced hx)

end Fpm.Tree
