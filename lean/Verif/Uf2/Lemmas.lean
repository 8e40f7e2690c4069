import Verif.Uf2.Model
import Verif.Uf2.Spec
/-!
# Lemmas on UF2 files
-/
namespace Fpm.Uf2
open Fpm.Uf2.Spec

theorem num_val : ∀ l, num l = val l
  | [] => rfl
  | b :: l => by rw [num, val, num_val l]

theorem val_le32 {v : Nat} (h : v < 2 ^ 32) : val (le32 v) = v := by
  simp only [le32, val]
  omega

/-! ## Flashing -/

theorem block_append_left {f g : List Nat} {k : Nat} (h : 512 * k + 512 ≤ f.length) : block (f ++ g) k = block f k := by
  unfold block
  rw [List.drop_append_of_le_length (by omega), List.take_append_of_le_length (by simp; omega)]

theorem block_append_right {f g : List Nat} {k n : Nat} (h : f.length = 512 * n) : block (f ++ g) (n + k) = block g k := by
  unfold block
  rw [Nat.mul_add, ← List.drop_drop, ← h, List.drop_left]

theorem block_succ (f : List Nat) (k : Nat) : block f (k + 1) = block (f.drop 512) k := by
  unfold block
  rw [List.drop_drop, Nat.mul_add, Nat.mul_one, Nat.add_comm]

theorem burnN_left (board : Nat) {f g : List Nat} : ∀ (n : Nat) (m : Mem), 512 * n ≤ f.length → burnN board (f ++ g) n m = burnN board f n m
  | 0, _, _ => rfl
  | n + 1, m, h => by rw [burnN, burnN, burnN_left board n m (by omega), block_append_left (by omega)]

theorem burnN_right (board : Nat) {f g : List Nat} {n : Nat} (h : f.length = 512 * n) : ∀ (k : Nat) (m : Mem), burnN board (f ++ g) (n + k) m = burnN board g k (burnN board f n m)
  | 0, m => burnN_left board n m (by omega)
  | k + 1, m => by rw [← Nat.add_assoc, burnN, burnN, burnN_right board h k m, block_append_right h]

theorem burnFile_append (board : Nat) {f g : List Nat} {n : Nat} (m : Mem) (h : f.length = 512 * n) : burnFile board (f ++ g) m = burnFile board g (burnFile board f m) := by
  unfold burnFile
  rw [show (f ++ g).length / 512 = n + g.length / 512 by simp; omega, burnN_right board h, show f.length / 512 = n by omega]

theorem encode_length {b : Block} (h : b.data.length = 476) : (encode b).length = 512 := by
  simp [encode, le32, h]

/-- Header of an encoded block. -/
def head (b : Block) : List Nat :=
  le32 b.magicStart0 ++ le32 b.magicStart1 ++ le32 b.flags ++ le32 b.targetAddr ++ le32 b.payloadSize ++ le32 b.blockNo ++ le32 b.numBlocks ++ le32 b.reserved

theorem encode_head (b : Block) : encode b = head b ++ (b.data ++ le32 b.magicEnd) := by
  unfold encode head
  simp only [List.append_assoc]

theorem encode_data {b : Block} {i : Nat} (h : i < b.data.length) : (encode b)[32 + i]? = b.data[i]? := by
  rw [encode_head, List.getElem?_append_right (show (head b).length ≤ 32 + i from Nat.le_add_right _ _), show 32 + i - (head b).length = i from Nat.add_sub_cancel_left 32 i,
    List.getElem?_append_left h]

theorem encode_end {b : Block} (h : b.data.length = 476) : field (encode b) 508 = val (le32 b.magicEnd) := by
  unfold field
  have hl : (head b ++ b.data).length = 508 := by simp [head, le32, h]
  rw [encode_head, ← List.append_assoc, List.drop_left' hl]
  rfl

/-- A block that is written by the tool. -/
structure Plain (fam : Nat) (b : Block) : Prop where
  m0 : b.magicStart0 = 0x0A324655
  m1 : b.magicStart1 = 0x9E5D5157
  me : b.magicEnd = 0x0AB16F30
  flags : b.flags = if fam ≠ 0 then 0x2000 else 0
  size : b.payloadSize = 256
  fam : b.reserved = fam

theorem plain_for {fam board : Nat} {b : Block} (h : Plain fam b) (hd : b.data.length = 476) (hb : fam = 0 ∨ fam = board) (hf : fam < 2 ^ 32) : ForBoard board (encode b) := by
  refine ⟨⟨?_, ?_, ?_⟩, ?_, fun hfl => ?_⟩
  · change val (le32 b.magicStart0) = _
    rw [h.m0]; rfl
  · change val (le32 b.magicStart1) = _
    rw [h.m1]; rfl
  · rw [encode_end hd, h.me]; rfl
  · change val (le32 b.flags) % 2 = 0
    rw [h.flags]
    split <;> rfl
  · change val (le32 b.flags) / 2 ^ 13 % 2 = 1 at hfl
    change val (le32 b.reserved) = board
    rw [h.fam, val_le32 hf]
    rcases hb with hb | hb
    · rw [h.flags, if_neg (by simp [hb])] at hfl
      cases hfl
    · exact hb

theorem burn_plain {fam board : Nat} {b : Block} (h : Plain fam b) (hd : b.data.length = 476) (hb : fam = 0 ∨ fam = board) (hf : fam < 2 ^ 32) (ha : b.targetAddr < 2 ^ 32) (m : Mem) (a : Nat) :
    burnFile board (encode b) m a = if b.targetAddr ≤ a ∧ a < b.targetAddr + 256 then b.data[a - b.targetAddr]? else m a := by
  have hl := encode_length hd
  unfold burnFile
  rw [hl]
  have hblk : block (encode b) 0 = encode b := by
    unfold block
    rw [Nat.mul_zero, List.drop_zero, List.take_of_length_le (by omega)]
  change burn board (block (encode b) 0) m a = _
  rw [hblk]
  unfold burn Covers
  have h12 : field (encode b) 12 = b.targetAddr := val_le32 ha
  have h16 : field (encode b) 16 = 256 := by
    change val (le32 b.payloadSize) = 256
    rw [h.size]; rfl
  by_cases hc : b.targetAddr ≤ a ∧ a < b.targetAddr + 256
  · rw [if_pos ⟨plain_for h hd hb hf, by rw [h12, h16]; exact hc⟩, if_pos hc, h12, encode_data (by rw [hd]; omega)]
  · rw [if_neg fun hh => hc (by rw [h12, h16] at hh; exact hh.2), if_neg hc]

theorem pad_length {d : List Nat} (h : 256 ≤ d.length) : (pad d).length = 476 := by
  unfold pad
  rw [List.length_append, List.length_take, List.length_replicate]
  omega

theorem pad_get {d : List Nat} {i : Nat} (h : 256 ≤ d.length) (hi : i < 256) : (pad d)[i]? = d[i]? := by
  unfold pad
  rw [List.getElem?_append_left (by rw [List.length_take]; omega), List.getElem?_take_of_lt hi]

theorem burn_nil (board : Nat) (m : Mem) : burnFile board [] m = m := rfl

theorem sectorBlocks_length : ∀ (n : Nat) (b : Block) (d : List Nat), d.length = 256 * n → (sectorBlocks n b d).length = 512 * n
  | 0, _, _, _ => rfl
  | n + 1, b, d, h => by
    rw [sectorBlocks, List.length_append, encode_length (pad_length (by omega)), sectorBlocks_length n _ _ (by rw [List.length_drop]; omega)]
    omega

theorem sectorBlocks_burn {fam board : Nat} (hb : fam = 0 ∨ fam = board) (hf : fam < 2 ^ 32) : ∀ (n : Nat) (b : Block) (d : List Nat) (m : Mem) (a : Nat), d.length = 256 * n →
    Plain fam b → b.targetAddr + 256 * n ≤ 2 ^ 32 → 
    burnFile board (sectorBlocks n b d) m a = if b.targetAddr ≤ a ∧ a < b.targetAddr + 256 * n then d[a - b.targetAddr]? else m a
  | 0, b, d, m, a, _, _, _ => by
    rw [sectorBlocks, if_neg (by omega), burn_nil]
  | n + 1, b, d, m, a, hl, hp, ha => by
    rw [Nat.mul_add] at hl
    rw [Nat.mul_add, ← Nat.add_assoc] at ha ⊢
    have hpl : (pad d).length = 476 := pad_length (by omega)
    have h1 := burn_plain (b := { b with data := pad d }) ⟨hp.m0, hp.m1, hp.me, hp.flags, hp.size, hp.fam⟩ hpl hb hf (by simp only; omega) m a
    simp only at h1
    rw [sectorBlocks, burnFile_append (n := 1) board m (encode_length hpl)]
    by_cases hn : n = 0
    · subst hn
      rw [sectorBlocks, burn_nil, h1]
      by_cases hc : b.targetAddr ≤ a ∧ a < b.targetAddr + 256
      · rw [if_pos hc, if_pos (by omega), pad_get (by omega) (by omega)]
      · rw [if_neg hc, if_neg (by omega)]
    · have hm : (b.targetAddr + 256) % 2 ^ 32 = b.targetAddr + 256 := Nat.mod_eq_of_lt (by omega)
      have h2 := sectorBlocks_burn hb hf n { b with blockNo := b.blockNo + 1, targetAddr := (b.targetAddr + 256) % 2 ^ 32 } (d.drop 256)
        (burnFile board (encode { b with data := pad d }) m) a (by rw [List.length_drop]; omega) ⟨hp.m0, hp.m1, hp.me, hp.flags, hp.size, hp.fam⟩ (by simp only; omega)
      rw [h2]
      simp only
      rw [hm, h1]
      by_cases hc : b.targetAddr ≤ a ∧ a < b.targetAddr + 256
      · rw [if_neg (by omega), if_pos hc, if_pos (by omega), pad_get (by omega) (by omega)]
      · by_cases hd : b.targetAddr + 256 ≤ a ∧ a < b.targetAddr + 256 + 256 * n
        · have he : ∀ x y : Nat, y + 256 ≤ x → 256 + (x - (y + 256)) = x - y := by intro x y h; omega
          rw [if_pos hd, if_pos (by omega), List.getElem?_drop, he _ _ hd.1]
        · rw [if_neg hd, if_neg hc, if_neg (by omega)]

theorem writeSector_burn {fam board : Nat} (hb : fam = 0 ∨ fam = board) (hf : fam < 2 ^ 32) {addr : Nat} {d : List Nat} (m : Mem) (a : Nat) (hl : d.length = 4096) (ha : addr + 4096 ≤ 2 ^ 32) :
    burnFile board (writeSector addr d fam) m a = if addr ≤ a ∧ a < addr + 4096 then d[a - addr]? else m a :=
  sectorBlocks_burn hb hf 16 _ d m a hl ⟨rfl, rfl, rfl, rfl, rfl, rfl⟩ ha

theorem imageBytes_burn {fam board start : Nat} (hb : fam = 0 ∨ fam = board) (hf : fam < 2 ^ 32) : ∀ (image : List (Nat × List Nat)) (n : Nat) (m : Mem), Image n image → start + 4096 * n ≤ 2 ^ 32 →
    HasImage start image m (burnFile board (imageBytes start fam image) m) ∧ ∃ k, (imageBytes start fam image).length = 512 * k
  | [], n, m, _, _ => ⟨⟨by simp, fun a _ => by rw [imageBytes, burn_nil]⟩, 0, rfl⟩
  | (s, d) :: l, n, m, hi, hn => by
    obtain ⟨hp, hall⟩ := hi
    obtain ⟨hs, hl, _⟩ := hall (s, d) (by simp)
    simp only at hs hl
    have hm : (start + s * 4096) % 2 ^ 32 = start + 4096 * s := by rw [Nat.mod_eq_of_lt (by omega)]; omega
    have hlen : (writeSector (start + 4096 * s) d fam).length = 512 * 16 := sectorBlocks_length 16 _ d hl
    obtain ⟨⟨ih1, ih2⟩, k, hk⟩ := imageBytes_burn hb hf l n (burnFile board (writeSector (start + 4096 * s) d fam) m) ⟨(List.pairwise_cons.mp hp).2, fun x hx => hall x (by simp [hx])⟩ hn
    have hlt : ∀ x ∈ l, s < x.1 := (List.pairwise_cons.mp hp).1
    rw [imageBytes, hm, burnFile_append board m hlen]
    refine ⟨⟨fun x hx i hi => ?_, fun a ha => ?_⟩, 16 + k, by simp [hlen, hk]; omega⟩
    · rcases List.mem_cons.mp hx with rfl | hx
      · rw [ih2 _ fun y hy => by have := hlt y hy; omega, writeSector_burn hb hf m _ hl (by omega), if_pos (by simp only; omega)]
        simp only
        congr 1
        omega
      · exact ih1 x hx i hi
    · rw [ih2 a fun y hy => ha y (by simp [hy]), writeSector_burn hb hf m a hl (by omega), if_neg]
      exact ha (s, d) (by simp)

/-! ## Reading -/

theorem noFlash_iff (b : List Nat) : noFlash (decode b) = false ↔ Main b := by
  unfold noFlash Main field
  simp only [decode, num_val, Nat.and_one_is_mod]
  simp

theorem isLast_iff (b : List Nat) : isLast (decode b) = true ↔ (field b 20 + 1) % 2 ^ 32 = field b 24 := by
  unfold isLast field
  simp only [decode, num_val, beq_iff_eq]

theorem block_zero (f : List Nat) : f.take 512 = block f 0 := by
  unfold block
  rw [Nat.mul_zero, List.drop_zero]

theorem kept_of : ∀ (n : Nat) (f : List Nat) (k : Nat), 0 < k → k ≤ n → Last (block f (k - 1)) → (∀ j < k - 1, ¬ Last (block f j)) → kept n f = some k
  | 0, _, k, h0, hk, _, _ => by omega
  | n + 1, f, 0, h0, _, _, _ => by omega
  | n + 1, f, 1, _, _, hl, _ => by
    rw [kept, block_zero, (noFlash_iff _).mpr hl.1, (isLast_iff _).mpr hl.2]
    rfl
  | n + 1, f, k + 2, _, hk, hl, hn => by
    have h0 := hn 0 (by omega)
    have ih := kept_of n (f.drop 512) (k + 1) (by omega) (by omega) (by rw [Nat.add_sub_cancel, ← block_succ]; exact hl) fun j hj => by
      rw [← block_succ]; exact hn (j + 1) (by omega)
    rw [kept, block_zero, ih]
    cases hnf : noFlash (decode (block f 0)) with
    | true => rfl
    | false =>
      cases hla : isLast (decode (block f 0)) with
      | true => exact absurd ⟨(noFlash_iff _).mp hnf, (isLast_iff _).mp hla⟩ h0
      | false => rfl

theorem kept_program {f : List Nat} {k : Nat} (h : ProgramBlocks f k) : kept (f.length / 512) f = some k :=
  kept_of _ f k h.1 (by have := h.2.1; omega) h.2.2.1 h.2.2.2

theorem front_program {f : List Nat} {k : Nat} (h : ProgramBlocks f k) (ip : Bool) : front ip f = some (f.take (512 * k)) := by
  unfold front
  rw [kept_program h]

/-- Flag of the family. -/
theorem family_flag (x : Nat) : x &&& 0x2000 ≠ 0 ↔ x / 2 ^ 13 % 2 = 1 := by
  have hp : ∀ i, Nat.testBit 0x2000 i = decide (13 = i) := fun i => Nat.testBit_two_pow (n := 13)
  have h1 : (x &&& 0x2000) = if x.testBit 13 then 0x2000 else 0 := by
    apply Nat.eq_of_testBit_eq
    intro i
    rw [Nat.testBit_and, hp]
    by_cases hi : 13 = i
    · subst hi
      cases h : x.testBit 13 <;> simp [hp]
    · cases h : x.testBit 13 <;> simp [hp, hi]
  rw [h1, Nat.testBit_eq_decide_div_mod_eq]
  by_cases h : x / 2 ^ 13 % 2 = 1 <;> simp [h]

/-- What is known of the results of a scan. -/
structure Scanned (f : List Nat) (k : Nat) (l l' : Loc) : Prop where
  all : ∀ j < k, Main (block f j) → Magic (block f j) ∧ l'.flashStart ≤ field (block f j) 12 ∧ (field (block f j) 12 + field (block f j) 16) % 2 ^ 32 ≤ l'.progEnd
  start : l'.flashStart ≤ l.flashStart ∧ (l'.flashStart = l.flashStart ∨ ∃ j < k, Main (block f j) ∧ field (block f j) 12 = l'.flashStart)
  stop : l.progEnd ≤ l'.progEnd ∧ (l'.progEnd = l.progEnd ∨ ∃ j < k, Main (block f j) ∧ (field (block f j) 12 + field (block f j) 16) % 2 ^ 32 = l'.progEnd)
  family : l'.family = l.family ∨ ∃ j < k, Main (block f j) ∧ field (block f j) 8 / 2 ^ 13 % 2 = 1 ∧ field (block f j) 28 = l'.family

theorem scanBlock_spec {b : List Nat} {l l' : Loc} (h : scanBlock (decode b) l = some l') :
    Magic b ∧ (l'.flashStart ≤ field b 12 ∧ l'.flashStart ≤ l.flashStart ∧ (l'.flashStart = l.flashStart ∨ l'.flashStart = field b 12)) ∧
      ((field b 12 + field b 16) % 2 ^ 32 ≤ l'.progEnd ∧ l.progEnd ≤ l'.progEnd ∧ (l'.progEnd = l.progEnd ∨ l'.progEnd = (field b 12 + field b 16) % 2 ^ 32)) ∧
      (l'.family = l.family ∨ field b 8 / 2 ^ 13 % 2 = 1 ∧ l'.family = field b 28) := by
  unfold scanBlock at h
  split at h
  · cases h
  · rename_i hm
    cases h
    simp only [decode, num_val] at hm ⊢
    change ¬ (field b 0 ≠ _ ∨ field b 4 ≠ _ ∨ field b 508 ≠ _) at hm
    refine ⟨⟨by omega, by omega, by omega⟩, ?_, ?_, ?_⟩
    · change (if field b 12 < l.flashStart then field b 12 else l.flashStart) ≤ field b 12 ∧ (if field b 12 < l.flashStart then field b 12 else l.flashStart) ≤ l.flashStart ∧
        ((if field b 12 < l.flashStart then field b 12 else l.flashStart) = l.flashStart ∨ (if field b 12 < l.flashStart then field b 12 else l.flashStart) = field b 12)
      split <;> omega
    · generalize he : (field b 12 + field b 16) % 2 ^ 32 = e
      change e ≤ (if (field b 12 + field b 16) % 2 ^ 32 > l.progEnd then (field b 12 + field b 16) % 2 ^ 32 else l.progEnd) ∧
        l.progEnd ≤ (if (field b 12 + field b 16) % 2 ^ 32 > l.progEnd then (field b 12 + field b 16) % 2 ^ 32 else l.progEnd) ∧
        ((if (field b 12 + field b 16) % 2 ^ 32 > l.progEnd then (field b 12 + field b 16) % 2 ^ 32 else l.progEnd) = l.progEnd ∨
          (if (field b 12 + field b 16) % 2 ^ 32 > l.progEnd then (field b 12 + field b 16) % 2 ^ 32 else l.progEnd) = e)
      rw [he]
      split <;> omega
    · split
      · rename_i hc
        exact .inr ⟨(family_flag _).mp hc.1, rfl⟩
      · exact .inl rfl

theorem scan_spec : ∀ (n : Nat) (f : List Nat) (l l' : Loc) (k : Nat), kept n f = some k → scan n f l = some l' → Scanned f k l l'
  | 0, _, _, _, _, h, _ => by cases h
  | n + 1, f, l, l', k, hk, h => by
    rw [kept, block_zero] at hk
    rw [scan, block_zero] at h
    have step : ∀ (k' : Nat) (l1 : Loc), Scanned (f.drop 512) k' l1 l' →
        (∀ (hmain : Main (block f 0)), Magic (block f 0) ∧ (l1.flashStart ≤ field (block f 0) 12 ∧ l1.flashStart ≤ l.flashStart ∧ (l1.flashStart = l.flashStart ∨ l1.flashStart = field (block f 0) 12)) ∧
      ((field (block f 0) 12 + field (block f 0) 16) % 2 ^ 32 ≤ l1.progEnd ∧ l.progEnd ≤ l1.progEnd ∧ (l1.progEnd = l.progEnd ∨ l1.progEnd = (field (block f 0) 12 + field (block f 0) 16) % 2 ^ 32)) ∧
      (l1.family = l.family ∨ field (block f 0) 8 / 2 ^ 13 % 2 = 1 ∧ l1.family = field (block f 0) 28)) → (¬ Main (block f 0) → l1 = l) → Scanned f (k' + 1) l l' := by
      intro k' l1 hs hmain hnot
      by_cases hm : Main (block f 0)
      · obtain ⟨h1, ⟨h2, h3, h4⟩, ⟨h5, h6, h7⟩, h8⟩ := hmain hm
        refine ⟨fun j hj hmj => ?_, ⟨Nat.le_trans hs.start.1 h3, ?_⟩, ⟨Nat.le_trans h6 hs.stop.1, ?_⟩, ?_⟩
        · cases j with
          | zero => exact ⟨h1, Nat.le_trans hs.start.1 h2, Nat.le_trans h5 hs.stop.1⟩
          | succ j =>
            rw [block_succ] at hmj ⊢
            exact hs.all j (by omega) hmj
        · rcases hs.start.2 with e | ⟨j, hj, hj1, hj2⟩
          · rcases h4 with e' | e'
            · exact .inl (e.trans e')
            · exact .inr ⟨0, by omega, hm, (e.trans e').symm⟩
          · exact .inr ⟨j + 1, by omega, by rw [block_succ]; exact hj1, by rw [block_succ]; exact hj2⟩
        · rcases hs.stop.2 with e | ⟨j, hj, hj1, hj2⟩
          · rcases h7 with e' | e'
            · exact .inl (e.trans e')
            · exact .inr ⟨0, by omega, hm, (e.trans e').symm⟩
          · exact .inr ⟨j + 1, by omega, by rw [block_succ]; exact hj1, by rw [block_succ]; exact hj2⟩
        · rcases hs.family with e | ⟨j, hj, hj1, hj2, hj3⟩
          · rcases h8 with e' | e'
            · exact .inl (e.trans e')
            · exact .inr ⟨0, by omega, hm, e'.1, (e.trans e'.2).symm⟩
          · refine .inr ⟨j + 1, by omega, ?_⟩
            rw [block_succ]
            exact ⟨hj1, hj2, hj3⟩
      · obtain rfl := hnot hm
        refine ⟨fun j hj hmj => ?_, ⟨hs.start.1, ?_⟩, ⟨hs.stop.1, ?_⟩, ?_⟩
        · cases j with
          | zero => exact absurd hmj hm
          | succ j =>
            rw [block_succ] at hmj ⊢
            exact hs.all j (by omega) hmj
        · rcases hs.start.2 with e | ⟨j, hj, hj1⟩
          · exact .inl e
          · exact .inr ⟨j + 1, by omega, by rw [block_succ]; exact hj1⟩
        · rcases hs.stop.2 with e | ⟨j, hj, hj1⟩
          · exact .inl e
          · exact .inr ⟨j + 1, by omega, by rw [block_succ]; exact hj1⟩
        · rcases hs.family with e | ⟨j, hj, hj1⟩
          · exact .inl e
          · exact .inr ⟨j + 1, by omega, by rw [block_succ]; exact hj1⟩
    have none_ : ∀ l1, Scanned (f.drop 512) 0 l1 l1 := fun l1 => ⟨fun j hj => by omega, ⟨Nat.le_refl _, .inl rfl⟩, ⟨Nat.le_refl _, .inl rfl⟩, .inl rfl⟩
    cases hnf : noFlash (decode (block f 0)) with
    | true =>
      have hm : ¬ Main (block f 0) := fun hm => by rw [(noFlash_iff _).mpr hm] at hnf; cases hnf
      rw [hnf, if_pos rfl] at hk h
      cases hk' : kept n (f.drop 512) with
      | none => rw [hk'] at hk; cases hk
      | some k' =>
        rw [hk'] at hk
        cases hk
        exact step k' l (scan_spec n _ l l' k' hk' h) (fun h => absurd h hm) fun _ => rfl
    | false =>
      have hm := (noFlash_iff _).mp hnf
      rw [hnf, if_neg (by simp)] at hk h
      split at h
      · cases h
      · rename_i l1 hl1
        have hb := scanBlock_spec hl1
        cases hla : isLast (decode (block f 0)) with
        | true =>
          rw [hla, if_pos rfl] at hk h
          cases hk
          cases h
          exact step 0 l' (none_ l') (fun _ => hb) fun h => absurd hm h
        | false =>
          rw [hla, if_neg (by simp)] at hk h
          cases hk' : kept n (f.drop 512) with
          | none => rw [hk'] at hk; cases hk
          | some k' =>
            rw [hk'] at hk
            cases hk
            exact step k' l1 (scan_spec n _ l1 l' k' hk' h) (fun _ => hb) fun h => absurd hm h

theorem scanBlock_total {b : List Nat} (h : Magic b) (l : Loc) : ∃ l', scanBlock (decode b) l = some l' := by
  unfold scanBlock
  rw [if_neg]
  · exact ⟨_, rfl⟩
  · simp only [decode, num_val]
    change ¬ (field b 0 ≠ _ ∨ field b 4 ≠ _ ∨ field b 508 ≠ _)
    have := h.1
    have := h.2.1
    have := h.2.2
    omega

theorem scan_total : ∀ (n : Nat) (f : List Nat) (l : Loc) (k : Nat), kept n f = some k → (∀ j < k, Main (block f j) → Magic (block f j)) → ∃ l', scan n f l = some l'
  | 0, _, _, _, h, _ => by cases h
  | n + 1, f, l, k, hk, h => by
    rw [kept, block_zero] at hk
    rw [scan, block_zero]
    have next : ∀ k', kept n (f.drop 512) = some k' → k = k' + 1 → ∀ l, ∃ l', scan n (f.drop 512) l = some l' := fun k' hk' he l =>
      scan_total n _ l k' hk' fun j hj hm => by rw [← block_succ] at hm ⊢; exact h (j + 1) (by omega) hm
    cases hnf : noFlash (decode (block f 0)) with
    | true =>
      rw [hnf, if_pos rfl] at hk
      rw [if_pos rfl]
      cases hk' : kept n (f.drop 512) with
      | none => rw [hk'] at hk; cases hk
      | some k' =>
        rw [hk'] at hk
        cases hk
        exact next k' hk' rfl l
    | false =>
      have hm := (noFlash_iff _).mp hnf
      rw [hnf, if_neg (by simp)] at hk
      rw [if_neg (by simp)]
      have hk0 : 0 < k := by
        split at hk
        · cases hk; omega
        · cases hk' : kept n (f.drop 512) with
          | none => rw [hk'] at hk; cases hk
          | some k' => rw [hk'] at hk; cases hk; exact Nat.succ_pos _
      obtain ⟨l1, hl1⟩ := scanBlock_total (h 0 hk0 hm) l
      rw [hl1]
      simp only
      cases hla : isLast (decode (block f 0)) with
      | true => exact ⟨l1, rfl⟩
      | false =>
        rw [hla, if_neg (by simp)] at hk
        cases hk' : kept n (f.drop 512) with
        | none => rw [hk'] at hk; cases hk
        | some k' =>
          rw [hk'] at hk
          cases hk
          exact next k' hk' rfl l1

/-- The scan depends on the program only. -/
theorem scan_prefix : ∀ (n n' : Nat) (f f' : List Nat) (l : Loc) (k : Nat), kept n f = some k → k ≤ n' → f'.take (512 * k) = f.take (512 * k) → scan n' f' l = scan n f l
  | 0, _, _, _, _, _, h, _, _ => by cases h
  | n + 1, n', f, f', l, k, hk, hn, he => by
    have hk0 : 0 < k := by
      rw [kept] at hk
      split at hk
      · cases hk' : kept n (f.drop 512) with
        | none => rw [hk'] at hk; cases hk
        | some k' => rw [hk'] at hk; cases hk; exact Nat.succ_pos _
      · split at hk
        · cases hk; omega
        · cases hk' : kept n (f.drop 512) with
          | none => rw [hk'] at hk; cases hk
          | some k' => rw [hk'] at hk; cases hk; exact Nat.succ_pos _
    obtain ⟨n', rfl⟩ : ∃ m, n' = m + 1 := ⟨n' - 1, by omega⟩
    have h0 : f'.take 512 = f.take 512 := by
      have := congrArg (List.take 512) he
      rwa [List.take_take, List.take_take, Nat.min_eq_left (by omega)] at this
    have hd : ∀ k', k = k' + 1 → (f'.drop 512).take (512 * k') = (f.drop 512).take (512 * k') := by
      intro k' hk'
      subst hk'
      have := congrArg (List.drop 512) he
      rwa [List.drop_take, List.drop_take, show 512 * (k' + 1) - 512 = 512 * k' by omega] at this
    rw [kept] at hk
    rw [scan, scan, h0]
    cases hnf : noFlash (decode (f.take 512)) with
    | true =>
      rw [hnf, if_pos rfl] at hk
      rw [if_pos rfl, if_pos rfl]
      cases hk' : kept n (f.drop 512) with
      | none => rw [hk'] at hk; cases hk
      | some k' =>
        rw [hk'] at hk
        cases hk
        exact scan_prefix n n' _ _ l k' hk' (Nat.le_of_succ_le_succ hn) (hd k' rfl)
    | false =>
      rw [hnf, if_neg (by simp)] at hk
      rw [if_neg (by simp), if_neg (by simp)]
      split
      · rfl
      · cases hla : isLast (decode (f.take 512)) with
        | true => rfl
        | false =>
          rw [hla, if_neg (by simp)] at hk
          rw [if_neg (by simp), if_neg (by simp)]
          cases hk' : kept n (f.drop 512) with
          | none => rw [hk'] at hk; cases hk
          | some k' =>
            rw [hk'] at hk
            cases hk
            exact scan_prefix n n' _ _ _ k' hk' (Nat.le_of_succ_le_succ hn) (hd k' rfl)

end Fpm.Uf2
