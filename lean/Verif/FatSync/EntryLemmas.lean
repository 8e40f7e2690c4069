import Verif.FatSync.Spec
import Verif.Fat.WinLemmas
/-! # The directory entry -/
namespace Fpm.FatSync
open Fpm.Fat Fpm.Fat.Spec Fpm.FatFile Fpm.FatFile.Spec Fpm.FatBytes Fpm.FatBytes.Spec Fpm.FatSync.Spec

/-- One store. -/
structure Put (w : List Nat) (p : Nat) (d w' : List Nat) : Prop where
  len : w'.length = w.length
  byte : (∀ x ∈ w, x < 256) → ∀ x ∈ w', x < 256
  at_ : ∀ i, i < d.length → w'[p + i]? = d[i]?
  out : ∀ i, i < p ∨ p + d.length ≤ i → w'[i]? = w[i]?

theorem put_all {w d : List Nat} {p : Nat} (hd : ∀ x ∈ d, x < 256) (h : p + d.length ≤ w.length) : ∃ w', stAll w p d = some w' ∧ Put w p d w' := by
  refine ⟨_, stAll_ok d w p hd h, ?_⟩
  obtain ⟨h1, h2⟩ := FatBytes.patched w d p h
  refine ⟨h1, fun hw x hx => ?_, fun i hi => ?_, fun i hi => ?_⟩
  · rcases List.mem_append.mp hx with hx | hx
    · rcases List.mem_append.mp hx with hx | hx
      · exact hw x (List.mem_of_mem_take hx)
      · exact hd x hx
    · exact hw x (List.mem_of_mem_drop hx)
  · rw [h2, if_pos ⟨by omega, by omega⟩, Nat.add_sub_cancel_left]
  · rw [h2, if_neg (by omega)]

theorem put_word {w : List Nat} {p x : Nat} (h : p + 2 ≤ w.length) : ∃ w', stWord w p x = some w' ∧ Put w p (bytes 2 x) w' := by
  rw [stWord_all]
  exact put_all (bytes_lt 2 x) (by rw [bytes_length]; exact h)

theorem put_dword {w : List Nat} {p x : Nat} (h : p + 4 ≤ w.length) : ∃ w', stDword w p x = some w' ∧ Put w p (bytes 4 x) w' := by
  rw [stDword_all]
  exact put_all (bytes_lt 4 x) (by rw [bytes_length]; exact h)

theorem put_byte {w : List Nat} {p x : Nat} (h : p < w.length) : ∃ w', stByte w p x = some w' ∧ Put w p [x % 256] w' := by
  have e : stByte w p x = stAll w p [x % 256] := by simp [stAll, stByte_mod]
  rw [e]
  refine put_all ?_ h
  simp
  omega

/-- Reading a field that was stored. -/
theorem field_eq {w : List Nat} {p k x : Nat} (h : ∀ i, i < k → w[p + i]? = (bytes k x)[i]?) : field w p k = x % 256 ^ k := by
  have e : (w.drop p).take k = bytes k x := by
    apply List.ext_getElem?
    intro i
    by_cases hi : i < k
    · rw [List.getElem?_take_of_lt hi, List.getElem?_drop, h i hi]
    · rw [List.getElem?_eq_none, List.getElem?_eq_none]
      · rw [bytes_length]; omega
      · rw [List.length_take, List.length_drop]; omega
  rw [field, e, num_bytes]

/-- What a store of the entry is for. -/
structure Filled (v : Vol) (w : List Nat) (off cl size tm : Nat) (w' : List Nat) : Prop where
  len : w'.length = w.length
  byte : (∀ x ∈ w, x < 256) → ∀ x ∈ w', x < 256
  size : field w' (off + 28) 4 = size % 2 ^ 32
  first : first v w' off = if v.fsType = 3 then cl % 2 ^ 32 else cl % 2 ^ 16
  kept : ∀ i, i < off ∨ off + 32 ≤ i ∨ off ≤ i ∧ Untouched (i - off) → w'[i]? = w[i]?
  stamp : (∀ x ∈ w, x < 256) → Stamped w w' off tm

theorem word_mod (x : Nat) : x % 2 ^ 16 % 256 ^ 2 = x % 2 ^ 16 := by omega

theorem fill_ok {v : Vol} {w : List Nat} {off : Nat} (h : off + 32 ≤ w.length) (fp : File) (tm : Nat) :
    ∃ w', fillEntry v w off fp tm = some w' ∧ Filled v w off fp.sclust fp.objsize tm w' := by
  unfold fillEntry
  rw [List.getElem?_eq_getElem (by omega : off + 11 < w.length), Option.bind_some]
  have hat : w[off + 11]? = some w[off + 11] := List.getElem?_eq_getElem (by omega)
  have hmem : w[off + 11] ∈ w := List.getElem_mem _
  generalize w[off + 11] = y at hat hmem ⊢
  obtain ⟨w1, e1, p1⟩ := put_byte (w := w) (p := off + 11) (x := y ||| 0x20) (by omega)
  rw [e1, Option.bind_some]
  have l1 := p1.len
  have hc : ∃ w2, stClust v w1 off fp.sclust = some w2 ∧ w2.length = w1.length ∧ ((∀ x ∈ w1, x < 256) → ∀ x ∈ w2, x < 256) ∧
      (∀ i, i < 2 → w2[off + 26 + i]? = (bytes 2 (fp.sclust % 2 ^ 16))[i]?) ∧
      (v.fsType = 3 → ∀ i, i < 2 → w2[off + 20 + i]? = (bytes 2 ((fp.sclust >>> 16) % 2 ^ 16))[i]?) ∧
      (∀ i, i < off + 20 ∨ off + 28 ≤ i → w2[i]? = w1[i]?) := by
    unfold stClust
    obtain ⟨w2, e2, p2⟩ := put_word (w := w1) (p := off + 26) (x := fp.sclust % 2 ^ 16) (by omega)
    have b2 := bytes_length 2 (fp.sclust % 2 ^ 16)
    rw [e2, Option.bind_some]
    split
    · rename_i ht
      obtain ⟨w3, e3, p3⟩ := put_word (w := w2) (p := off + 20) (x := (fp.sclust >>> 16) % 2 ^ 16) (by rw [p2.len]; omega)
      have b3 := bytes_length 2 ((fp.sclust >>> 16) % 2 ^ 16)
      refine ⟨w3, e3, by rw [p3.len, p2.len], fun hb => p3.byte (p2.byte hb), fun i hi => ?_, fun _ i hi => p3.at_ i (by omega), fun i hi => ?_⟩
      · rw [p3.out _ (by omega)]
        exact p2.at_ i (by omega)
      · rw [p3.out _ (by omega), p2.out _ (by omega)]
    · exact ⟨w2, rfl, p2.len, p2.byte, fun i hi => p2.at_ i (by omega), fun ht => absurd ht ‹_›, fun i hi => p2.out _ (by omega)⟩
  obtain ⟨w2, e2, l2, y2, c2, c3, c4⟩ := hc
  rw [e2, Option.bind_some]
  obtain ⟨w4, e4, p4⟩ := put_dword (w := w2) (p := off + 28) (x := fp.objsize % 2 ^ 32) (by omega)
  have b4 := bytes_length 4 (fp.objsize % 2 ^ 32)
  have l4 := p4.len
  rw [e4, Option.bind_some]
  obtain ⟨w5, e5, p5⟩ := put_dword (w := w4) (p := off + 22) (x := tm) (by omega)
  have b5 := bytes_length 4 tm
  have l5 := p5.len
  rw [e5, Option.bind_some]
  obtain ⟨w6, e6, p6⟩ := put_word (w := w5) (p := off + 18) (x := 0) (by omega)
  have b6 := bytes_length 2 0
  have l6 := p6.len
  rw [e6]
  refine ⟨w6, rfl, by omega, fun hb => p6.byte (p5.byte (p4.byte (y2 (p1.byte hb)))), ?_, ?_, fun i hi => ?_, fun hb => ⟨⟨y, hat, ?_⟩, ?_⟩⟩
  · rw [field_eq (x := fp.objsize % 2 ^ 32) (fun i hi => ?_)]
    · omega
    · rw [p6.out _ (by omega), p5.out _ (by omega)]
      exact p4.at_ i (by omega)
  · unfold Spec.first
    rw [field_eq (p := off + 26) (k := 2) (x := fp.sclust % 2 ^ 16) (fun i hi => ?_), word_mod]
    · split
      · rename_i ht
        rw [field_eq (p := off + 20) (k := 2) (x := (fp.sclust >>> 16) % 2 ^ 16) (fun i hi => ?_), word_mod, Nat.shiftRight_eq_div_pow]
        · omega
        · rw [p6.out _ (by omega), p5.out _ (by omega), p4.out _ (by omega)]
          exact c3 ht i hi
      · rfl
    · rw [p6.out _ (by omega), p5.out _ (by omega), p4.out _ (by omega)]
      exact c2 i hi
  · have hk : i < off ∨ off + 32 ≤ i ∨ off ≤ i ∧ (i - off < 11 ∨ 12 ≤ i - off ∧ i - off < 18) := hi
    rw [p6.out _ (by omega), p5.out _ (by omega), p4.out _ (by omega), c4 _ (by omega)]
    refine p1.out _ ?_
    simp only [List.length_cons, List.length_nil]
    omega
  · rw [p6.out _ (by omega), p5.out _ (by omega), p4.out _ (by omega), c4 _ (by omega)]
    have := p1.at_ 0 (by simp)
    rw [Nat.add_zero] at this
    rw [this]
    show some ((y ||| 0x20) % 256) = _
    rw [Nat.mod_eq_of_lt (Nat.or_lt_two_pow (n := 8) (hb y hmem) (by decide))]
  · rw [field_eq (x := tm) (fun i hi => ?_)]
    · rw [p6.out _ (by omega)]
      exact p5.at_ i (by omega)

theorem info_ok {v : Vol} (h : 512 ≤ v.ss) (s : St) : ∃ w, infoBlock v s = some w ∧ Sec v w := by
  unfold infoBlock
  have l0 : (List.replicate v.ss 0).length = v.ss := List.length_replicate
  obtain ⟨w1, e1, p1⟩ := put_word (w := List.replicate v.ss 0) (p := 510) (x := 0xAA55) (by omega)
  have l1 := p1.len
  rw [e1, Option.bind_some]
  obtain ⟨w2, e2, p2⟩ := put_dword (w := w1) (p := 0) (x := 0x41615252) (by omega)
  have l2 := p2.len
  rw [e2, Option.bind_some]
  obtain ⟨w3, e3, p3⟩ := put_dword (w := w2) (p := 484) (x := 0x61417272) (by omega)
  have l3 := p3.len
  rw [e3, Option.bind_some]
  obtain ⟨w4, e4, p4⟩ := put_dword (w := w3) (p := 488) (x := s.freeClst) (by omega)
  have l4 := p4.len
  rw [e4, Option.bind_some]
  obtain ⟨w5, e5, p5⟩ := put_dword (w := w4) (p := 492) (x := s.lastClst) (by omega)
  refine ⟨w5, e5, by have := p5.len; omega, p5.byte (p4.byte (p3.byte (p2.byte (p1.byte ?_))))⟩
  intro x hx
  rw [List.mem_replicate] at hx
  omega

theorem slice {w : List Nat} {p k : Nat} (h : p + k ≤ w.length) : (w.drop p).take ((w.drop p).take k).length = (w.drop p).take k := by
  rw [List.length_take, List.length_drop, Nat.min_eq_left (by omega)]

theorem slice_len {w : List Nat} {p k : Nat} (h : p + k ≤ w.length) : ((w.drop p).take k).length = k := by
  rw [List.length_take, List.length_drop, Nat.min_eq_left (by omega)]

theorem slice_byte {w : List Nat} (hw : ∀ x ∈ w, x < 256) (p k : Nat) : ∀ x ∈ (w.drop p).take k, x < 256 :=
  fun x hx => hw x (List.mem_of_mem_drop (List.mem_of_mem_take hx))

/-- Loading a field. -/
theorem ld_word {w : List Nat} {p : Nat} (hw : ∀ x ∈ w, x < 256) (h : p + 2 ≤ w.length) : ldWord w p = some (field w p 2) ∧ field w p 2 < 2 ^ 16 := by
  refine ⟨(C49_load w ((w.drop p).take 2) p (slice_byte hw p 2) (slice h)).1 (slice_len h), ?_⟩
  have := num_lt (slice_byte hw p 2)
  rw [slice_len h] at this
  exact this

theorem ld_dword {w : List Nat} {p : Nat} (hw : ∀ x ∈ w, x < 256) (h : p + 4 ≤ w.length) : ldDword w p = some (field w p 4) ∧ field w p 4 < 2 ^ 32 := by
  refine ⟨(C49_load w ((w.drop p).take 4) p (slice_byte hw p 4) (slice h)).2.1 (slice_len h), ?_⟩
  have := num_lt (slice_byte hw p 4)
  rw [slice_len h] at this
  exact this

theorem ld_clust {v : Vol} {w : List Nat} {off : Nat} (hw : ∀ x ∈ w, x < 256) (h : off + 32 ≤ w.length) : ldClust v w off = some (first v w off) := by
  unfold ldClust Spec.first
  obtain ⟨e1, l1⟩ := ld_word (p := off + 26) hw (by omega)
  obtain ⟨e2, l2⟩ := ld_word (p := off + 20) hw (by omega)
  rw [e1, Option.bind_some, e2]
  split
  · rw [Option.bind_some, Nat.or_comm, ← Nat.shiftLeft_add_eq_or_of_lt l1, Nat.shiftLeft_eq, Nat.mul_comm, Nat.add_comm]
  · rfl

end Fpm.FatSync
