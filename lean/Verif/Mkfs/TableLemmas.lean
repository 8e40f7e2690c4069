import Verif.Mkfs.SectorLemmas
import Verif.Mount.LayoutLemmas
/-! # The other sectors that are written -/
namespace Fpm.Mkfs
open Fpm.Fat Fpm.Fat.Spec Fpm.FatBytes Fpm.FatBytes.Spec Fpm.FatSync Fpm.FatSync.Spec Fpm.Mount Fpm.Mkfs.Spec

theorem zero_byte (n : Nat) : ∀ x ∈ List.replicate n 0, x < 256 := by
  intro x hx
  rw [List.mem_replicate] at hx
  omega

/-- The sector for free counts. -/
structure Infos (ss n : Nat) (w : List Nat) : Prop where
  len : w.length = ss
  byte : ∀ x ∈ w, x < 256
  lead : field w 0 4 = 0x41615252
  struct : field w 484 4 = 0x61417272
  free : field w 488 4 = n
  next : field w 492 4 = 2
  sign : field w 510 2 = 0xAA55

theorem infos_ok {ss : Nat} (hs : 512 ≤ ss) {c : Cfg} (hc : 0 < c.nClst) (hl : c.nClst < 2 ^ 32) : ∃ w, infoSector ss c = some w ∧ Infos ss (c.nClst - 1) w := by
  have l0 : (List.replicate ss 0).length = ss := List.length_replicate
  unfold infoSector
  obtain ⟨w1, e1, p1⟩ := st_dword (w := List.replicate ss 0) (p := 0) (x := 0x41615252) (by omega)
  have l1 := p1.len
  rw [e1, Option.bind_some]
  obtain ⟨w2, e2, p2⟩ := st_dword (w := w1) (p := 484) (x := 0x61417272) (by omega)
  have l2 := p2.len
  rw [e2, Option.bind_some]
  obtain ⟨w3, e3, p3⟩ := st_dword (w := w2) (p := 488) (x := u32 (c.nClst + (2 ^ 32 - 1))) (by omega)
  have l3 := p3.len
  rw [e3, Option.bind_some]
  obtain ⟨w4, e4, p4⟩ := st_dword (w := w3) (p := 492) (x := 2) (by omega)
  have l4 := p4.len
  rw [e4, Option.bind_some]
  obtain ⟨w5, e5, p5⟩ := st_word (w := w4) (p := 510) (x := 0xAA55) (by omega)
  have l5 := p5.len
  rw [e5]
  refine ⟨w5, rfl, by omega, p5.byte (p4.byte (p3.byte (p2.byte (p1.byte (zero_byte ss))))), ?_, ?_, ?_, ?_, ?_⟩
  · rw [field_sl]
    simp (disch := omega) only [p5.out, p4.out, p3.out, p2.out, p1.at_]
    rw [num_bytes]
  · rw [field_sl]
    simp (disch := omega) only [p5.out, p4.out, p3.out, p2.at_]
    rw [num_bytes]
  · rw [field_sl]
    simp (disch := omega) only [p5.out, p4.out, p3.at_]
    rw [num_bytes]
    unfold u32
    omega
  · rw [field_sl]
    simp (disch := omega) only [p5.out, p4.at_]
    rw [num_bytes]
  · rw [field_sl, p5.at_, num_bytes]

theorem chs_ok {w : List Nat} {p : Nat} (h : p + 3 ≤ w.length) (n hd : Nat) : ∃ w', putChs w p n hd = some w' ∧ w'.length = w.length ∧ ((∀ x ∈ w, x < 256) → ∀ x ∈ w', x < 256) ∧
    ∀ q j, q + j ≤ p ∨ p + 3 ≤ q → sl w' q j = sl w q j := by
  unfold putChs
  obtain ⟨w1, e1, p1⟩ := st_byte (w := w) (p := p) (x := n / 63 % hd) (by omega)
  have l1 := p1.len
  rw [e1, Option.bind_some]
  obtain ⟨w2, e2, p2⟩ := st_byte (w := w1) (p := p + 1) (x := (n / 63 / hd >>> 2 &&& 0xC0) ||| (n % 63 + 1)) (by omega)
  have l2 := p2.len
  rw [e2, Option.bind_some]
  obtain ⟨w3, e3, p3⟩ := st_byte (w := w2) (p := p + 2) (x := n / 63 / hd) (by omega)
  have l3 := p3.len
  exact ⟨w3, e3, by omega, fun hb => p3.byte (p2.byte (p1.byte hb)), fun q j hq => by rw [p3.out _ _ (by omega), p2.out _ _ (by omega), p1.out _ _ (by omega)]⟩

theorem part_ok {w : List Nat} (h : 512 ≤ w.length) (nxt z sys hd : Nat) : ∃ w', putPart w 446 nxt z sys hd = some w' ∧ w'.length = w.length ∧ ((∀ x ∈ w, x < 256) → ∀ x ∈ w', x < 256) ∧
    field w' 454 4 = nxt % 2 ^ 32 ∧ field w' 458 4 = z % 2 ^ 32 ∧ field w' 450 1 = sys % 256 ∧ ∀ q j, q + j ≤ 446 ∨ 462 ≤ q → sl w' q j = sl w q j := by
  unfold putPart
  obtain ⟨w1, e1, p1⟩ := st_dword (w := w) (p := 446 + 8) (x := nxt) (by omega)
  have l1 := p1.len
  rw [e1, Option.bind_some]
  obtain ⟨w2, e2, p2⟩ := st_dword (w := w1) (p := 446 + 12) (x := z) (by omega)
  have l2 := p2.len
  rw [e2, Option.bind_some]
  obtain ⟨w3, e3, p3⟩ := st_byte (w := w2) (p := 446 + 4) (x := sys) (by omega)
  have l3 := p3.len
  rw [e3, Option.bind_some]
  obtain ⟨w4, e4, l4, b4, o4⟩ := chs_ok (w := w3) (p := 446 + 1) (by omega) nxt hd
  rw [e4, Option.bind_some]
  obtain ⟨w5, e5, l5, b5, o5⟩ := chs_ok (w := w4) (p := 446 + 5) (by omega) (u32 (nxt + z + (2 ^ 32 - 1))) hd
  refine ⟨w5, e5, by omega, fun hb => b5 (b4 (p3.byte (p2.byte (p1.byte hb)))), ?_, ?_, ?_, fun q j hq => ?_⟩
  · rw [field_sl, o5 _ _ (by omega), o4 _ _ (by omega), p3.out _ _ (by omega), p2.out _ _ (by omega), p1.at_, num_bytes]
  · rw [field_sl, o5 _ _ (by omega), o4 _ _ (by omega), p3.out _ _ (by omega), p2.at_, num_bytes]
  · rw [field_sl, o5 _ _ (by omega), o4 _ _ (by omega), p3.at_, num_one]
  · rw [o5 _ _ (by omega), o4 _ _ (by omega), p3.out _ _ (by omega), p2.out _ _ (by omega), p1.out _ _ (by omega)]

theorem mbr_ok {ss len size sys : Nat} (hs : 512 ≤ ss) (hl : 4096 ≤ len) (h1 : 63 + 128 ≤ size) (h2 : size < 2 ^ 32) (hy : 0 < sys ∧ sys < 256) :
    ∃ w, mbr ss len size (size - 63) sys = some w ∧ w.length = ss ∧ (∀ x ∈ w, x < 256) ∧ Single w 63 size := by
  have l0 : (List.replicate ss 0).length = ss := List.length_replicate
  obtain ⟨w1, e1, l1, b1, f1, f2, f3, o1⟩ := part_ok (w := List.replicate ss 0) (by omega) 63 (size - 63) sys (heads size)
  have hu : u32 (63 + (size - 63)) = size := by rw [u32_of (by omega)]; omega
  have hp : partSize size (size - 63) = size - 63 := by
    unfold partSize
    rw [if_neg (by omega)]
  have hc : clip 63 size (size - 63) = size - 63 := by
    unfold clip
    rw [hu, if_neg (by omega)]
  have hloop : partLoop [size - 63, 0] size sys 4 0 63 (List.replicate ss 0) = some w1 := by
    unfold partLoop
    rw [if_pos ⟨by decide, by omega⟩]
    show (some (size - 63)).bind _ = _
    rw [Option.bind_some, hp, hc, if_neg (by omega), hu]
    show (putPart _ 446 _ _ _ _).bind _ = _
    rw [e1, Option.bind_some]
    unfold partLoop
    rw [if_neg (by omega)]
  obtain ⟨w2, e2, p2⟩ := st_word (w := w1) (p := 510) (x := 0xAA55) (by omega)
  have l2 := p2.len
  refine ⟨w2, ?_, by omega, p2.byte (b1 (zero_byte ss)), ⟨?_, ?_, ?_, by decide⟩, ?_, ?_, ?_⟩
  · unfold mbr
    rw [if_neg (by omega), hloop, Option.bind_some, e2]
  · have : field w2 0 1 = 0 := by
      rw [field_sl, p2.out _ _ (by omega), o1 _ _ (by omega), sl_zero (by omega)]
      rfl
    unfold Mount.Spec.Jump
    rw [this]
    decide
  · rw [field_sl, p2.at_, num_bytes]
  · rw [field_sl, p2.out _ _ (by omega), ← field_sl, f1]
  · rw [field_sl, p2.out _ _ (by omega), ← field_sl, f2]
    omega
  · rw [field_sl, p2.out _ _ (by omega), ← field_sl, f3]
    omega
  · show sl w2 462 48 = _
    rw [p2.out _ _ (by omega), o1 _ _ (by omega), sl_zero (by omega)]

/-- The first entries of a FAT: the kind of the medium, the mark for the end of a chain, and on FAT32 the root directory. -/
def Headed (fsty : Nat) (z : List Nat) : Prop :=
  sl z 0 4 = [0xF8, 0xFF, 0xFF, if fsty = 1 then 0 else 0xFF] ∧ (fsty = 3 → sl z 4 4 = [0xFF, 0xFF, 0xFF, 0xFF] ∧ sl z 8 4 = [0xFF, 0xFF, 0xFF, 0x0F])

/-- The buffer with the start of a FAT. -/
structure Head (n fsty : Nat) (z : List Nat) : Prop where
  len : z.length = n
  byte : ∀ x ∈ z, x < 256
  zero : ∀ i, (if fsty = 3 then 12 else if fsty = 1 then 3 else 4) ≤ i → z.getD i 0 = 0
  last : Headed fsty z

theorem getD_sl {w : List Nat} {i : Nat} : w.getD i 0 = (sl w i 1).getD 0 0 := by
  unfold sl
  rw [List.getD_eq_getElem?_getD, List.getD_eq_getElem?_getD, List.getElem?_take_of_lt (by decide), List.getElem?_drop, Nat.add_zero]

theorem getD_zero (n i : Nat) : (List.replicate n 0).getD i 0 = 0 := by
  rw [List.getD_eq_getElem?_getD, List.getElem?_replicate]
  split <;> rfl

theorem head_ok {n : Nat} (hn : 512 ≤ n) (fsty : Nat) : ∃ z, fatHead (List.replicate n 0) fsty = some z ∧ Head n fsty z := by
  have l0 : (List.replicate n 0).length = n := List.length_replicate
  unfold fatHead
  by_cases h3 : fsty = 3
  · rw [if_pos h3]
    obtain ⟨w1, e1, p1⟩ := st_dword (w := List.replicate n 0) (p := 0) (x := 0xFFFFFFF8) (by omega)
    have l1 := p1.len
    rw [e1, Option.bind_some]
    obtain ⟨w2, e2, p2⟩ := st_dword (w := w1) (p := 4) (x := 0xFFFFFFFF) (by omega)
    have l2 := p2.len
    rw [e2, Option.bind_some]
    obtain ⟨w3, e3, p3⟩ := st_dword (w := w2) (p := 8) (x := 0x0FFFFFFF) (by omega)
    have l3 := p3.len
    refine ⟨w3, e3, by omega, p3.byte (p2.byte (p1.byte (zero_byte n))), fun i hi => ?_, ?_, fun _ => ⟨?_, ?_⟩⟩
    · rw [if_pos h3] at hi
      rw [getD_sl, p3.out _ _ (by omega), p2.out _ _ (by omega), p1.out _ _ (by omega), ← getD_sl, getD_zero]
    · rw [p3.out _ _ (by omega), p2.out _ _ (by omega), p1.at_, if_neg (by omega)]
      decide
    · rw [p3.out _ _ (by omega), p2.at_]
      decide
    · rw [p3.at_]
      decide
  · rw [if_neg h3]
    obtain ⟨w1, e1, p1⟩ := st_dword (w := List.replicate n 0) (p := 0) (x := if fsty = 1 then 0xFFFFF8 else 0xFFFFFFF8) (by omega)
    have l1 := p1.len
    refine ⟨w1, e1, by omega, p1.byte (zero_byte n), fun i hi => ?_, ?_, fun z => absurd z h3⟩
    rotate_left
    · rw [p1.at_]
      by_cases h1 : fsty = 1
      · rw [if_pos h1, if_pos h1]; decide
      · rw [if_neg h1, if_neg h1]; decide
    rw [if_neg h3] at hi
    by_cases h4 : 4 ≤ i
    · rw [getD_sl, p1.out _ _ (by omega), ← getD_sl, getD_zero]
    · have h1 : fsty = 1 := by
        split at hi
        · assumption
        · omega
      have hi3 : i = 0 + 3 := by
        rw [if_pos h1] at hi
        omega
      have h5 := p1.at_
      rw [if_pos h1] at h5
      rw [getD_sl, hi3, sl_sub (j := 4) (by decide), h5]
      decide

end Fpm.Mkfs
