import Verif.Lfn.Lemmas
/-!
# C56: long names in directory entries
-/
namespace Fpm.Lfn
open Fpm.Lfn.Spec Fpm.Upcase

/-- C56 as wished: a name stored in entries is read back by `pick_lfn`, into any buffer. -/
def C56_full : Prop :=
  ∀ (n buf : List Nat) (sum : Nat) (es : List (List Nat)) (old : List Nat), Name n → Holds buf n → es.length = parts n → (∀ e ∈ es, e.length = 32) → old.length = 256 →
    ∃ es' buf', putAll buf sum (parts n) es = some es' ∧ pickAll es' old = some (some buf') ∧ Holds buf' n

/-- The one-character name U+FFFF, as it is in the buffer. -/
def exFFFF : List Nat := 0xFFFF :: List.replicate 255 0

/-- The name U+FFFF is read back as 13 times that character: the unit is mistaken for the filler. -/
theorem C56_violated : ¬ C56_full := by
  intro h
  have hb : Holds exFFFF [0xFFFF] := ⟨by decide +kernel, List.prefix_iff_eq_take.mpr (by decide +kernel)⟩
  obtain ⟨es, b, e1, e2, h1⟩ := h [0xFFFF] exFFFF 0 [List.replicate 32 0] (List.replicate 256 0) ⟨by decide, by decide, by decide⟩ hb rfl
    (fun e he => by rw [List.mem_singleton.mp he]; exact List.length_replicate) List.length_replicate
  have x : putAll exFFFF 0 (parts [0xFFFF]) [List.replicate 32 0] = some [65 :: (List.replicate 10 255 ++ [15, 0, 0] ++ List.replicate 12 255 ++ [0, 0] ++ List.replicate 4 255)] := by decide +kernel
  rw [x] at e1
  cases e1
  have y : pickAll [65 :: (List.replicate 10 255 ++ [15, 0, 0] ++ List.replicate 12 255 ++ [0, 0] ++ List.replicate 4 255)] (List.replicate 256 0) =
      some (some (List.replicate 13 0xFFFF ++ List.replicate 243 0)) := by decide +kernel
  rw [y] at e2
  cases e2
  exact absurd (List.prefix_iff_eq_take.mp h1.2) (by decide +kernel)

/-- A name without U+FFFF, stored over any old entries, gives one entry per 13 units in the layout of the FAT specification, with the checksum, last part first.
(Missing: names with U+FFFF, where it is wrong.) -/
theorem C56_stored_partial (n buf : List Nat) (sum : Nat) (es : List (List Nat)) (hn : Name n) (hf : 0xFFFF ∉ n) (hb : Holds buf n) (hl : es.length = parts n) (he : ∀ e ∈ es, e.length = 32) :
    ∃ es', putAll buf sum (parts n) es = some es' ∧ Stored n sum (parts n) es' :=
  putAll_spec hn hb hf sum _ es (by omega) hl he

/-- Entries of that layout, whoever has written them, are read back as the name, whatever was in the buffer before. -/
theorem C56_read (n old : List Nat) (sum : Nat) (es : List (List Nat)) (hn : Name n) (hs : Stored n sum (parts n) es) (hl : old.length = 256) :
    ∃ buf, pickAll es old = some (some buf) ∧ Holds buf n := by
  refine pickAll_spec hn hs (by omega) old hl (fun h => by omega) (.inl ?_)
  have := List.length_pos_iff.mpr hn.ne
  unfold parts
  omega

/-- Entries of that layout compare equal exactly to the names that are equal up to case. -/
theorem C56_compare (n m buf : List Nat) (sum : Nat) (es : List (List Nat)) (hn : Name n) (hm : Name m) (hs : Stored n sum (parts n) es) (hb : Holds buf m) :
    ∃ r, cmpAll buf es = some r ∧ (r = true ↔ SameName n m) := by
  obtain ⟨r, e, h⟩ := cmpAll_spec hn hb.1 hs (by omega)
  refine ⟨r, e, ?_⟩
  rw [h, ← agree_iff hn hm hb]
  have := List.length_pos_iff.mpr hn.ne
  constructor
  · exact fun h q hq => h q (.inr ⟨rfl, by unfold parts; omega⟩) hq
  · exact fun h q _ hq => h q hq

/-- Whatever an entry holds, reading and comparing it stay within the buffer. -/
theorem C56_defined (e buf : List Nat) (h : buf.length = 256) : pickLfn buf e ≠ none ∧ cmpLfn buf e ≠ none := by
  obtain ⟨r, e1, -⟩ := pickLfn_def e buf h
  obtain ⟨r', e2⟩ := cmpLfn_def e buf h
  rw [e1, e2]
  exact ⟨fun h => (by cases h), fun h => (by cases h)⟩

theorem rot_lt (s b : Nat) : (s / 2 + s * 128 + b) % 256 < 256 := Nat.mod_lt _ (by decide)

theorem sum_inj : ∀ (l : List Nat) (s t : Nat), s < 256 → t < 256 → sumLoop l s = sumLoop l t → s = t
  | [], _, _, _, _, h => h
  | b :: l, s, t, hs, ht, h => by
    have := sum_inj l _ _ (rot_lt s b) (rot_lt t b) h
    have h1 : s / 2 + s * 128 + b = s / 2 + 128 * (s % 2) + b + 256 * (s / 2) := by omega
    have h2 : t / 2 + t * 128 + b = t / 2 + 128 * (t % 2) + b + 256 * (t / 2) := by omega
    rw [h1, h2, Nat.add_mul_mod_self_left, Nat.add_mul_mod_self_left] at this
    have h3 : ∀ r q, r < 256 → q < 256 → (r + b) % 256 = (q + b) % 256 → r = q := by
      intro r q h4 h5 h6
      omega
    have := h3 _ _ (by omega) (by omega) this
    omega

theorem sum_one (l : List Nat) : ∀ (k : List Nat) (a b s : Nat), a < 256 → b < 256 → sumLoop (k ++ a :: l) s = sumLoop (k ++ b :: l) s → a = b
  | [], a, b, s, ha, hb, h => by
    have := sum_inj l _ _ (rot_lt s a) (rot_lt s b) h
    omega
  | c :: k, a, b, s, ha, hb, h => sum_one l k a b _ ha hb h

/-- The checksum notices every change of a single byte of a short name. -/
theorem C56_checksum (e : List Nat) (i a : Nat) (he : e.length = 32) (hb : ∀ x ∈ e, x < 256) (hi : i < 11) (ha : a < 256) (hne : byte e i ≠ a) : sumSfn (e.set i a) ≠ sumSfn e := by
  intro h
  have hl : i < e.length := by omega
  have h0 : ∀ l : List Nat, l.length = 32 → ∀ x, l[i]? = some x → l.take 11 = l.take i ++ x :: ((l.drop (i + 1)).take (10 - i)) := by
    intro l hl x hx
    have hil : i < l.length := by omega
    rw [List.getElem?_eq_getElem hil] at hx
    cases hx
    rw [show l.take 11 = l.take (i + (11 - i)) from by congr 1; omega, List.take_add, List.drop_eq_getElem_cons hil, show 11 - i = (10 - i) + 1 from by omega, List.take_succ_cons]
  have h1 := h0 (e.set i a) (by simpa using he) a (List.getElem?_set_self hl)
  rw [show (e.set i a).take i = e.take i from List.take_set_of_le (Nat.le_refl i), List.drop_set_of_lt (by omega)] at h1
  have h2 := h0 e he e[i] (List.getElem?_eq_getElem hl)
  unfold sumSfn at h
  rw [h1, h2] at h
  have := sum_one _ _ _ _ _ ha (hb _ (List.getElem_mem hl)) h
  apply hne
  unfold byte
  rw [List.getD_eq_getElem?_getD, List.getElem?_eq_getElem hl]
  exact this.symm

/-- `Ab.c` and `aB.C`. -/
example : Name [65, 98, 46, 99] ∧ Name [97, 66, 46, 67] ∧ 0xFFFF ∉ [65, 98, 46, 99] ∧ Holds ([65, 98, 46, 99] ++ List.replicate 252 0) [65, 98, 46, 99] ∧
    SameName [65, 98, 46, 99] [97, 66, 46, 67] :=
  ⟨⟨by decide, by decide, by decide⟩, ⟨by decide, by decide, by decide⟩, by decide, ⟨by decide +kernel, List.prefix_iff_eq_take.mpr (by decide +kernel)⟩, by unfold SameName; decide +kernel⟩

example : ∃ es, Stored [65, 98, 46, 99] 7 (parts [65, 98, 46, 99]) es :=
  ⟨_, .cons (made_part ⟨by decide, by decide, by decide⟩ 7 0) .nil⟩

end Fpm.Lfn
