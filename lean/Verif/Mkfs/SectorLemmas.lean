import Verif.Mkfs.Spec
import Verif.FatSync.EntryLemmas
/-! # The sectors that are written -/
namespace Fpm.Mkfs
open Fpm.Fat Fpm.Fat.Spec Fpm.FatBytes Fpm.FatBytes.Spec Fpm.FatSync Fpm.FatSync.Spec Fpm.Mount

/-- Bytes of a sector. -/
def sl (w : List Nat) (q j : Nat) : List Nat := (w.drop q).take j

theorem field_sl (w : List Nat) (q j : Nat) : field w q j = num (sl w q j) := rfl

theorem sl_ext {w w' : List Nat} {q j : Nat} (h : ∀ i, i < j → w'[q + i]? = w[q + i]?) : sl w' q j = sl w q j := by
  apply List.ext_getElem?
  intro i
  unfold sl
  by_cases hi : i < j
  · rw [List.getElem?_take_of_lt hi, List.getElem?_take_of_lt hi, List.getElem?_drop, List.getElem?_drop, h i hi]
  · rw [List.getElem?_eq_none, List.getElem?_eq_none]
    · rw [List.length_take]; omega
    · rw [List.length_take]; omega

theorem sl_zero {n q j : Nat} (h : q + j ≤ n) : sl (List.replicate n 0) q j = List.replicate j 0 := by
  unfold sl
  rw [List.drop_replicate, List.take_replicate, Nat.min_eq_left (by omega)]

theorem sl_sub {w : List Nat} {q j a b : Nat} (h : a + b ≤ j) : sl w (q + a) b = sl (sl w q j) a b := by
  unfold sl
  rw [List.drop_take, List.take_take, List.drop_drop, Nat.min_eq_left (by omega)]

theorem num_zero (n : Nat) : num (List.replicate n 0) = 0 := by
  induction n with
  | zero => rfl
  | succ n ih => rw [List.replicate_succ]; simp [num, ih]

/-- One store. -/
structure Stored (w : List Nat) (p k : Nat) (d w' : List Nat) : Prop where
  len : w'.length = w.length
  byte : (∀ x ∈ w, x < 256) → ∀ x ∈ w', x < 256
  at_ : sl w' p k = d
  out : ∀ q j, q + j ≤ p ∨ p + k ≤ q → sl w' q j = sl w q j

theorem stored {w d w' : List Nat} {p k : Nat} (hd : d.length = k) (h : Put w p d w') : Stored w p k d w' := by
  refine ⟨h.len, h.byte, ?_, fun q j hq => sl_ext fun i hi => h.out _ (by omega)⟩
  apply List.ext_getElem?
  intro i
  unfold sl
  by_cases hi : i < k
  · rw [List.getElem?_take_of_lt hi, List.getElem?_drop, h.at_ i (by omega)]
  · rw [List.getElem?_eq_none, List.getElem?_eq_none]
    · omega
    · rw [List.length_take]; omega

theorem st_word {w : List Nat} {p x : Nat} (h : p + 2 ≤ w.length) : ∃ w', stWord w p x = some w' ∧ Stored w p 2 (bytes 2 x) w' := by
  obtain ⟨w', h1, h2⟩ := put_word (x := x) h
  exact ⟨w', h1, stored (bytes_length 2 x) h2⟩

theorem st_dword {w : List Nat} {p x : Nat} (h : p + 4 ≤ w.length) : ∃ w', stDword w p x = some w' ∧ Stored w p 4 (bytes 4 x) w' := by
  obtain ⟨w', h1, h2⟩ := put_dword (x := x) h
  exact ⟨w', h1, stored (bytes_length 4 x) h2⟩

theorem st_byte {w : List Nat} {p x : Nat} (h : p + 1 ≤ w.length) : ∃ w', stByte w p x = some w' ∧ Stored w p 1 [x % 256] w' := by
  obtain ⟨w', h1, h2⟩ := put_byte (x := x) (p := p) (w := w) (by omega)
  exact ⟨w', h1, stored rfl h2⟩

theorem st_bytes {w l : List Nat} {p : Nat} (hl : ∀ x ∈ l, x < 256) (h : p + l.length ≤ w.length) : ∃ w', stBytes w p l = some w' ∧ Stored w p l.length l w' := by
  unfold stBytes
  rw [if_pos h]
  obtain ⟨h1, h2⟩ := FatBytes.patched w l p h
  refine ⟨_, rfl, stored rfl ⟨h1, fun hw x hx => ?_, fun i hi => ?_, fun i hi => ?_⟩⟩
  · rcases List.mem_append.mp hx with hx | hx
    · rcases List.mem_append.mp hx with hx | hx
      · exact hw x (List.mem_of_mem_take hx)
      · exact hl x hx
    · exact hw x (List.mem_of_mem_drop hx)
  · rw [h2, if_pos ⟨by omega, by omega⟩, Nat.add_sub_cancel_left]
  · rw [h2, if_neg (by omega)]

theorem num_one (x : Nat) : num [x] = x := by simp [num]

/-- Fields of a boot sector that has been made. -/
structure Boot (ss bVol szVol : Nat) (c : Cfg) (w : List Nat) : Prop where
  len : w.length = ss
  byte : ∀ x ∈ w, x < 256
  name : w.take 11 = bootName
  sign : field w 510 2 = 0xAA55
  bps : field w 11 2 = ss % 2 ^ 16
  spc : field w 13 1 = c.pau % 256
  rsvd : field w 14 2 = c.szRsv % 2 ^ 16
  nf : field w 16 1 = 1
  root : field w 17 2 = if c.fsty = 3 then 0 else 512
  total : if szVol < 0x10000 then field w 19 2 = szVol else field w 19 2 = 0 ∧ field w 32 4 = szVol % 2 ^ 32
  small : c.fsty ≠ 3 → field w 22 2 = c.szFat % 2 ^ 16
  large : c.fsty = 3 → field w 22 2 = 0 ∧ field w 36 4 = c.szFat % 2 ^ 32 ∧ field w 42 2 = 0 ∧ field w 44 4 = 2 ∧ field w 48 2 = 1 ∧ (w.drop 82).take 8 = fat32Sign

theorem size_ok' {w : List Nat} (hw : 512 ≤ w.length) (szVol : Nat) : ∃ w', putSize w szVol = some w' ∧ w'.length = w.length ∧ ((∀ x ∈ w, x < 256) → ∀ x ∈ w', x < 256) ∧
    (sl w 19 2 = [0, 0] → if szVol < 0x10000 then field w' 19 2 = szVol else field w' 19 2 = 0 ∧ field w' 32 4 = szVol % 2 ^ 32) ∧
    ∀ q j, q + j ≤ 19 ∨ 21 ≤ q ∧ q + j ≤ 32 ∨ 36 ≤ q → sl w' q j = sl w q j := by
  unfold putSize
  split
  · rename_i h
    obtain ⟨w', h1, h2⟩ := st_word (w := w) (p := 19) (x := szVol) (by omega)
    refine ⟨w', h1, h2.len, h2.byte, fun _ => ?_, fun q j hq => h2.out q j (by omega)⟩
    rw [field_sl, h2.at_, num_bytes]
    omega
  · rename_i h
    obtain ⟨w', h1, h2⟩ := st_dword (w := w) (p := 32) (x := szVol) (by omega)
    refine ⟨w', h1, h2.len, h2.byte, fun hz => ⟨?_, ?_⟩, fun q j hq => h2.out q j (by omega)⟩
    · rw [field_sl, h2.out _ _ (by omega), hz]
      rfl
    · rw [field_sl, h2.at_, num_bytes]

theorem put32_ok {w : List Nat} (hw : 512 ≤ w.length) (vsn : Nat) (c : Cfg) : ∃ w', put32 w vsn c = some w' ∧ w'.length = w.length ∧ ((∀ x ∈ w, x < 256) → ∀ x ∈ w', x < 256) ∧
    field w' 36 4 = c.szFat % 2 ^ 32 ∧ field w' 44 4 = 2 ∧ field w' 48 2 = 1 ∧ sl w' 82 8 = fat32Sign ∧ sl w' 42 2 = sl w 42 2 ∧ ∀ q j, q + j ≤ 36 ∨ 90 ≤ q → sl w' q j = sl w q j := by
  unfold put32
  obtain ⟨w1, e1, p1⟩ := st_dword (w := w) (p := 67) (x := vsn) (by omega)
  have l1 := p1.len
  rw [e1, Option.bind_some]
  obtain ⟨w2, e2, p2⟩ := st_dword (w := w1) (p := 36) (x := c.szFat) (by omega)
  have l2 := p2.len
  rw [e2, Option.bind_some]
  obtain ⟨w3, e3, p3⟩ := st_dword (w := w2) (p := 44) (x := 2) (by omega)
  have l3 := p3.len
  rw [e3, Option.bind_some]
  obtain ⟨w4, e4, p4⟩ := st_word (w := w3) (p := 48) (x := 1) (by omega)
  have l4 := p4.len
  rw [e4, Option.bind_some]
  obtain ⟨w5, e5, p5⟩ := st_word (w := w4) (p := 50) (x := 6) (by omega)
  have l5 := p5.len
  rw [e5, Option.bind_some]
  obtain ⟨w6, e6, p6⟩ := st_byte (w := w5) (p := 64) (x := 0x80) (by omega)
  have l6 := p6.len
  rw [e6, Option.bind_some]
  obtain ⟨w7, e7, p7⟩ := st_byte (w := w6) (p := 66) (x := 0x29) (by omega)
  have l7 := p7.len
  rw [e7, Option.bind_some]
  have hll : label32.length = 19 := rfl
  obtain ⟨w8, e8, p8⟩ := st_bytes (w := w7) (l := label32) (p := 71) (by decide) (by omega)
  rw [hll] at p8
  have l8 := p8.len
  rw [e8]
  refine ⟨w8, rfl, by omega, fun hb => p8.byte (p7.byte (p6.byte (p5.byte (p4.byte (p3.byte (p2.byte (p1.byte hb))))))), ?_, ?_, ?_, ?_, ?_, fun q j hq => ?_⟩
  · rw [field_sl]
    simp (disch := omega) only [p8.out, p7.out, p6.out, p5.out, p4.out, p3.out, p2.at_]
    rw [num_bytes]
  · rw [field_sl]
    simp (disch := omega) only [p8.out, p7.out, p6.out, p5.out, p4.out, p3.at_]
    rw [num_bytes]
  · rw [field_sl]
    simp (disch := omega) only [p8.out, p7.out, p6.out, p5.out, p4.at_]
    rw [num_bytes]
  · rw [show (82 : Nat) = 71 + 11 from rfl, sl_sub (j := 19) (by decide), p8.at_]
    rfl
  · simp (disch := omega) only [p8.out, p7.out, p6.out, p5.out, p4.out, p3.out, p2.out, p1.out]
  · simp (disch := omega) only [p8.out, p7.out, p6.out, p5.out, p4.out, p3.out, p2.out, p1.out]

theorem put16_ok {w : List Nat} (hw : 512 ≤ w.length) (vsn : Nat) (c : Cfg) : ∃ w', put16 w vsn c = some w' ∧ w'.length = w.length ∧ ((∀ x ∈ w, x < 256) → ∀ x ∈ w', x < 256) ∧
    field w' 22 2 = c.szFat % 2 ^ 16 ∧ ∀ q j, q + j ≤ 22 ∨ 24 ≤ q ∧ q + j ≤ 36 ∨ 62 ≤ q → sl w' q j = sl w q j := by
  unfold put16
  obtain ⟨w1, e1, p1⟩ := st_dword (w := w) (p := 39) (x := vsn) (by omega)
  have l1 := p1.len
  rw [e1, Option.bind_some]
  obtain ⟨w2, e2, p2⟩ := st_word (w := w1) (p := 22) (x := c.szFat % 2 ^ 16) (by omega)
  have l2 := p2.len
  rw [e2, Option.bind_some]
  obtain ⟨w3, e3, p3⟩ := st_byte (w := w2) (p := 36) (x := 0x80) (by omega)
  have l3 := p3.len
  rw [e3, Option.bind_some]
  obtain ⟨w4, e4, p4⟩ := st_byte (w := w3) (p := 38) (x := 0x29) (by omega)
  have l4 := p4.len
  rw [e4, Option.bind_some]
  have hll : label16.length = 19 := rfl
  obtain ⟨w5, e5, p5⟩ := st_bytes (w := w4) (l := label16) (p := 43) (by decide) (by omega)
  rw [hll] at p5
  have l5 := p5.len
  rw [e5]
  refine ⟨w5, rfl, by omega, fun hb => p5.byte (p4.byte (p3.byte (p2.byte (p1.byte hb)))), ?_, fun q j hq => ?_⟩
  · rw [field_sl]
    simp (disch := omega) only [p5.out, p4.out, p3.out, p2.at_]
    rw [num_bytes]
    omega
  · simp (disch := omega) only [p5.out, p4.out, p3.out, p2.out, p1.out]

theorem boot_ok {ss : Nat} (hs : 512 ≤ ss) (bVol szVol vsn : Nat) (c : Cfg) : ∃ w, bootSector ss bVol szVol vsn c = some w ∧ Boot ss bVol szVol c w := by
  have l0 : (List.replicate ss 0).length = ss := List.length_replicate
  unfold bootSector
  have hbn : bootName.length = 11 := rfl
  obtain ⟨w1, e1, p1⟩ := st_bytes (w := List.replicate ss 0) (l := bootName) (p := 0) (by decide) (by omega)
  rw [hbn] at p1
  have l1 := p1.len
  rw [e1, Option.bind_some]
  obtain ⟨w2, e2, p2⟩ := st_word (w := w1) (p := 11) (x := ss) (by omega)
  have l2 := p2.len
  rw [e2, Option.bind_some]
  obtain ⟨w3, e3, p3⟩ := st_byte (w := w2) (p := 13) (x := c.pau % 256) (by omega)
  have l3 := p3.len
  rw [e3, Option.bind_some]
  obtain ⟨w4, e4, p4⟩ := st_word (w := w3) (p := 14) (x := c.szRsv % 2 ^ 16) (by omega)
  have l4 := p4.len
  rw [e4, Option.bind_some]
  obtain ⟨w5, e5, p5⟩ := st_byte (w := w4) (p := 16) (x := 1) (by omega)
  have l5 := p5.len
  rw [e5, Option.bind_some]
  obtain ⟨w6, e6, p6⟩ := st_word (w := w5) (p := 17) (x := if c.fsty = 3 then 0 else 512) (by omega)
  have l6 := p6.len
  rw [e6, Option.bind_some]
  obtain ⟨w7, e7, l7, b7, t7, o7⟩ := size_ok' (w := w6) (by omega) szVol
  rw [e7, Option.bind_some]
  obtain ⟨w8, e8, p8⟩ := st_byte (w := w7) (p := 21) (x := 0xF8) (by omega)
  have l8 := p8.len
  rw [e8, Option.bind_some]
  obtain ⟨w9, e9, p9⟩ := st_word (w := w8) (p := 24) (x := 63) (by omega)
  have l9 := p9.len
  rw [e9, Option.bind_some]
  obtain ⟨wa, ea, pa⟩ := st_word (w := w9) (p := 26) (x := 255) (by omega)
  have la := pa.len
  rw [ea, Option.bind_some]
  obtain ⟨wb, eb, pb⟩ := st_dword (w := wa) (p := 28) (x := bVol) (by omega)
  have lb := pb.len
  rw [eb, Option.bind_some]
  have hz22 : sl wb 22 2 = [0, 0] := by
    simp (disch := omega) only [pb.out, pa.out, p9.out, p8.out, o7, p6.out, p5.out, p4.out, p3.out, p2.out, p1.out]
    rw [sl_zero (by omega)]
    rfl
  have hz42 : sl wb 42 2 = [0, 0] := by
    simp (disch := omega) only [pb.out, pa.out, p9.out, p8.out, o7, p6.out, p5.out, p4.out, p3.out, p2.out, p1.out]
    rw [sl_zero (by omega)]
    rfl
  have hz19 : sl w6 19 2 = [0, 0] := by
    simp (disch := omega) only [p6.out, p5.out, p4.out, p3.out, p2.out, p1.out]
    rw [sl_zero (by omega)]
    rfl
  have hb : ∃ wc, (if c.fsty = 3 then put32 wb vsn c else put16 wb vsn c) = some wc ∧ wc.length = wb.length ∧ ((∀ x ∈ wb, x < 256) → ∀ x ∈ wc, x < 256) ∧
      (c.fsty ≠ 3 → field wc 22 2 = c.szFat % 2 ^ 16) ∧
      (c.fsty = 3 → field wc 22 2 = 0 ∧ field wc 36 4 = c.szFat % 2 ^ 32 ∧ field wc 42 2 = 0 ∧ field wc 44 4 = 2 ∧ field wc 48 2 = 1 ∧ sl wc 82 8 = fat32Sign) ∧
      ∀ q j, q + j ≤ 22 ∨ 24 ≤ q ∧ q + j ≤ 36 ∨ 90 ≤ q → sl wc q j = sl wb q j := by
    split
    · rename_i h3
      obtain ⟨wc, h4, h5, h6, h7, h8, h9, h10, h11, h12⟩ := put32_ok (w := wb) (by omega) vsn c
      refine ⟨wc, h4, h5, h6, fun z => absurd h3 z, fun _ => ⟨?_, h7, ?_, h8, h9, h10⟩, fun q j hq => h12 q j (by omega)⟩
      · rw [field_sl, h12 _ _ (by omega), hz22]
        rfl
      · rw [field_sl, h11, hz42]
        rfl
    · rename_i h3
      obtain ⟨wc, h4, h5, h6, h7, h8⟩ := put16_ok (w := wb) (by omega) vsn c
      exact ⟨wc, h4, h5, h6, fun _ => h7, fun z => absurd z h3, fun q j hq => h8 q j (by omega)⟩
  obtain ⟨wc, ec, lc, bc, small, large, oc⟩ := hb
  rw [ec, Option.bind_some]
  obtain ⟨wd, ed, pd⟩ := st_word (w := wc) (p := 510) (x := 0xAA55) (by omega)
  have ld := pd.len
  have z0 : ∀ x ∈ List.replicate ss 0, x < 256 := by
    intro x hx
    rw [List.mem_replicate] at hx
    omega
  refine ⟨wd, ed, by omega, pd.byte (bc (pb.byte (pa.byte (p9.byte (p8.byte (b7 (p6.byte (p5.byte (p4.byte (p3.byte (p2.byte (p1.byte z0)))))))))))), ?_, ?_, ?_, ?_, ?_, ?_, ?_, ?_, fun h => ?_, fun h => ?_⟩
  · have : wd.take 11 = sl wd 0 11 := rfl
    rw [this]
    simp (disch := omega) only [pd.out, oc, pb.out, pa.out, p9.out, p8.out, o7, p6.out, p5.out, p4.out, p3.out, p2.out, p1.at_]
  · rw [field_sl, pd.at_, num_bytes]
  · rw [field_sl]
    simp (disch := omega) only [pd.out, oc, pb.out, pa.out, p9.out, p8.out, o7, p6.out, p5.out, p4.out, p3.out, p2.at_]
    rw [num_bytes]
  · rw [field_sl]
    simp (disch := omega) only [pd.out, oc, pb.out, pa.out, p9.out, p8.out, o7, p6.out, p5.out, p4.out, p3.at_]
    rw [num_one]
    omega
  · rw [field_sl]
    simp (disch := omega) only [pd.out, oc, pb.out, pa.out, p9.out, p8.out, o7, p6.out, p5.out, p4.at_]
    rw [num_bytes]
    omega
  · rw [field_sl]
    simp (disch := omega) only [pd.out, oc, pb.out, pa.out, p9.out, p8.out, o7, p6.out, p5.at_]
    rw [num_one]
  · rw [field_sl]
    simp (disch := omega) only [pd.out, oc, pb.out, pa.out, p9.out, p8.out, o7, p6.at_]
    rw [num_bytes]
    split <;> decide
  · have h1 := t7 hz19
    have h2 : sl wd 19 2 = sl w7 19 2 := by simp (disch := omega) only [pd.out, oc, pb.out, pa.out, p9.out, p8.out]
    have h3 : sl wd 32 4 = sl w7 32 4 := by simp (disch := omega) only [pd.out, oc, pb.out, pa.out, p9.out, p8.out]
    rw [field_sl, field_sl, h2, h3]
    exact h1
  · rw [field_sl, pd.out _ _ (by omega)]
    exact small h
  · have h1 := large h
    have h2 : ∀ q j, q + j ≤ 510 → field wd q j = field wc q j := fun q j hq => by rw [field_sl, pd.out _ _ (by omega), field_sl]
    rw [h2 _ _ (by omega), h2 _ _ (by omega), h2 _ _ (by omega), h2 _ _ (by omega), h2 _ _ (by omega)]
    refine ⟨h1.1, h1.2.1, h1.2.2.1, h1.2.2.2.1, h1.2.2.2.2.1, ?_⟩
    show sl wd 82 8 = _
    rw [pd.out _ _ (by omega)]
    exact h1.2.2.2.2.2

end Fpm.Mkfs
