import Verif.Mount.Lemmas
/-!
# From the checks of `mount_volume` to the layout
-/
namespace Fpm.Mount
open Fpm.Fat Fpm.Fat.Spec Fpm.FatBytes Fpm.FatFile.Spec Fpm.Mount.Spec

theorem u32_of {n : Nat} (h : n < 2 ^ 32) : u32 n = n := Nat.mod_eq_of_lt h

/-- The FAT has room for all entries. -/
theorem size_ok {ss n f : Nat} {fmt : Nat} (hs : ss = 512 ∨ ss = 1024 ∨ ss = 2048 ∨ ss = 4096) (hf : fmt = 1 ∧ n ≤ 0xFF5 ∨ fmt = 2 ∧ n ≤ 0xFFF5 ∨ fmt = 3 ∧ n ≤ 0x0FFFFFF5) :
    u32 (szbfat fmt (n + 2) + (ss - 1)) / ss ≤ f ↔ (if fmt = 1 then 12 else if fmt = 2 then 16 else 32) * (n + 2) ≤ 8 * (f * ss) := by
  have hss : 0 < ss ∧ ss ≤ 4096 := by omega
  have key : ∀ z, z + ss < 2 ^ 32 → (u32 (z + (ss - 1)) / ss ≤ f ↔ z ≤ f * ss) := by
    intro z hz
    rw [u32_of (by omega)]
    constructor
    · intro h
      have := Nat.lt_mul_of_div_lt (Nat.lt_succ_of_le h) hss.1
      rw [Nat.succ_mul] at this
      omega
    · intro h
      apply Nat.le_of_lt_succ
      rw [Nat.div_lt_iff_lt_mul hss.1, Nat.succ_mul]
      omega
  unfold szbfat
  rcases hf with ⟨rfl, hn⟩ | ⟨rfl, hn⟩ | ⟨rfl, hn⟩
  · rw [if_neg (by decide), if_neg (by decide), if_pos rfl, u32_of (n := (n + 2) * 3) (by omega), u32_of (n := (n + 2) * 3 / 2 + (n + 2) % 2) (by omega), key _ (by omega)]
    generalize f * ss = q
    obtain ⟨j, hj | hj⟩ : ∃ j, n + 2 = 2 * j ∨ n + 2 = 2 * j + 1 := ⟨(n + 2) / 2, by omega⟩ <;> rw [hj] <;> omega
  · rw [if_neg (by decide), if_pos rfl, if_neg (by decide), if_pos rfl, u32_of (n := (n + 2) * 2) (by omega), key _ (by omega)]
    generalize f * ss = q
    omega
  · rw [if_pos rfl, if_neg (by decide), if_neg (by decide), u32_of (n := (n + 2) * 4) (by omega), key _ (by omega)]
    generalize f * ss = q
    omega

theorem layout_of {ss : Nat} {io : Nat → Io} {bsect : Nat} {p : Bpb} (hs : ss = 512 ∨ ss = 1024 ∨ ss = 2048 ∨ ss = 4096)
    (hj : ∀ n j, io n = .fail j → j.length = ss ∧ ∀ x ∈ j, x < 256) (hr : Ranges p) (h : Checked ss p)
    (hf : fatSize p < 2 ^ 30) (hb : bsect + total p ≤ 2 ^ 32) (fsi : Option Nat) (hi : ∀ n, fsi = some n → fmtOf (nclst ss p) = 3 ∧ bsect < n ∧ n < bsect + p.rsvd) :
    Layout (volOf ss io bsect p) (infoOf ss bsect p fsi) := by
  have hrs := hr.rsvd
  have hrt := hr.root
  have hfa : fatSize p * p.numFats < 2 ^ 31 ∧ fatSize p * p.numFats = p.numFats * fatSize p := by
    rcases h.nf with e | e <;> rw [e] <;> omega
  have hrd : p.rootEnt / (ss / 32) ≤ p.rootEnt := Nat.div_le_self _ _
  have hsys : sysect ss p = p.rsvd + p.numFats * fatSize p + p.rootEnt / (ss / 32) := by
    unfold sysect
    rw [u32_of (n := fatSize p * p.numFats) (by omega), u32_of (n := p.rsvd + _) (by omega), u32_of (by omega), hfa.2]
  have hfits := h.fits
  have hnn := Nat.zero_le (p.rootEnt / (ss / 32))
  obtain ⟨k, hk, hspc⟩ := h.spc
  have hc : 0 < p.secPerClus := by
    rw [hspc]
    exact Nat.two_pow_pos k
  have hn1 : nclst ss p * p.secPerClus ≤ total p - sysect ss p := Nat.div_mul_le_self _ _
  have hn2 : total p - sysect ss p < (nclst ss p + 1) * p.secPerClus := by
    unfold nclst
    rw [Nat.mul_comm]
    exact Nat.lt_mul_div_succ _ hc
  have hpos : 1 ≤ nclst ss p := Nat.one_le_iff_ne_zero.mpr h.some
  have hsome : 1 ≤ nclst ss p * p.secPerClus := Nat.mul_pos hpos hc
  have hfb : u32 (bsect + p.rsvd) = bsect + p.rsvd := u32_of (by omega)
  have hdb : u32 (bsect + sysect ss p) = bsect + sysect ss p := u32_of (by omega)
  have hsec : ∀ b, (b.length = ss ∧ ∀ x ∈ b, x < 256) → Sec (volOf ss io bsect p) b := fun _ z => z
  have hk3 := fmt_cases (nclst ss p) h.fmt
  have hcl : clusters (volOf ss io bsect p) = nclst ss p := rfl
  have hss : 0 < ss ∧ ss ≤ 4096 ∧ ss % 32 = 0 := by omega
  have hrv := h.rsvd
  refine ⟨⟨?_, h.nf, ?_, ?_, ?_, fun n j hn => hj n j hn⟩, ⟨⟨k, hspc⟩, ?_, ?_⟩, ?_, ?_, ?_, ?_, ?_, hb, ?_, ?_⟩
  · show ss % 4 = 0 ∧ 0 < ss
    omega
  · show fmtOf (nclst ss p) = 1 ∧ nclst ss p + 2 ≤ _ ∨ fmtOf (nclst ss p) = 2 ∧ nclst ss p + 2 ≤ _ ∨ fmtOf (nclst ss p) = 3 ∧ nclst ss p + 2 ≤ _
    omega
  · exact (size_ok (n := nclst ss p) (fmt := fmtOf (nclst ss p)) hs (by omega)).mp h.size
  · show 3 ≤ nclst ss p + 2
    omega
  · show u32 (bsect + p.rsvd) + p.numFats * fatSize p ≤ u32 (bsect + sysect ss p)
    omega
  · show 0 < u32 (bsect + sysect ss p)
    omega
  · show bsect < u32 (bsect + p.rsvd)
    omega
  · intro h3
    have h3' : fmtOf (nclst ss p) ≠ 3 := h3
    have hre := h.root h3'
    have hal : p.rootEnt / (ss / 32) * ss = p.rootEnt * 32 := by
      have e1 : p.rootEnt = ss / 32 * (p.rootEnt / (ss / 32)) := by
        have := Nat.div_add_mod p.rootEnt (ss / 32)
        rw [h.align] at this
        omega
      have e2 : ss = ss / 32 * 32 := by omega
      generalize p.rootEnt / (ss / 32) = q at e1 ⊢
      rw [e1]
      conv => lhs; rw [e2]
      rw [← Nat.mul_assoc, Nat.mul_comm q]
    refine ⟨?_, by show 0 < p.rootEnt; omega, ?_⟩
    · show dirbase bsect p (fmtOf (nclst ss p)) = _
      unfold dirbase
      rw [if_neg h3', hfb, u32_of (n := fatSize p * p.numFats) (by omega), u32_of (by omega), hfa.2]
      show _ = u32 (bsect + p.rsvd) + p.numFats * fatSize p
      omega
    · show u32 (bsect + sysect ss p) * ss = dirbase bsect p (fmtOf (nclst ss p)) * ss + p.rootEnt * 32
      unfold dirbase
      rw [if_neg h3', hfb, u32_of (n := fatSize p * p.numFats) (by omega), u32_of (n := bsect + p.rsvd + fatSize p * p.numFats) (by omega), hdb, hsys, ← hal, ← Nat.add_mul, hfa.2]
      congr 1
      omega
  · intro h3
    have h3' : fmtOf (nclst ss p) = 3 := h3
    have hre := (h.root32 h3').2
    refine ⟨hre, ?_⟩
    show u32 (bsect + sysect ss p) = u32 (bsect + p.rsvd) + p.numFats * fatSize p
    rw [hre, Nat.zero_div] at hsys
    omega
  · show u32 (bsect + sysect ss p) + nclst ss p * p.secPerClus ≤ bsect + total p
    omega
  · show bsect + total p < u32 (bsect + sysect ss p) + (nclst ss p + 1) * p.secPerClus
    omega
  · show fmtOf (nclst ss p) = if nclst ss p ≤ 4085 then 1 else if nclst ss p ≤ 65525 then 2 else 3
    repeat' split
    all_goals omega
  · intro n hn
    obtain ⟨h1, h2, h3⟩ := hi n hn
    refine ⟨h1, h2, ?_⟩
    show n < u32 (bsect + p.rsvd)
    omega

end Fpm.Mount
