import Verif.Mount.LayoutLemmas
/-!
# Well-formed volumes are accepted
-/
namespace Fpm.Mount
open Fpm.Fat Fpm.Fat.Spec Fpm.FatBytes Fpm.FatFile.Spec Fpm.FatSync.Spec Fpm.Mount.Spec

theorem ld_byte {w : List Nat} {p : Nat} (hw : ∀ x ∈ w, x < 256) (h : p < w.length) : w[p]? = some (field w p 1) ∧ field w p 1 < 256 := by
  have e : field w p 1 = w[p] := by
    unfold field
    rw [List.drop_eq_getElem_cons h]
    show w[p] + 256 * 0 = w[p]
    omega
  rw [e]
  exact ⟨List.getElem?_eq_getElem h, hw _ (List.getElem_mem _)⟩

/-- The fields by their positions. -/
def fields (w : List Nat) : Bpb :=
  { jmp := field w 0 1, bytsPerSec := field w 11 2, secPerClus := field w 13 1, rsvd := field w 14 2, numFats := field w 16 1, rootEnt := field w 17 2, totSec16 := field w 19 2,
    fatSz16 := field w 22 2, totSec32 := field w 32 4, fatSz32 := field w 36 4, fsVer := field w 42 2, rootClus := field w 44 4, fsInfo := field w 48 2, sign := field w 510 2 }

theorem bpb_fields {w : List Nat} (h : 512 ≤ w.length) (hb : ∀ x ∈ w, x < 256) : readBpb w = some (fields w) ∧ Ranges (fields w) := by
  have e : readBpb w = some (fields w) := by
    have w2 (p : Nat) (hp : p + 2 ≤ 512) := (FatSync.ld_word (p := p) hb (by omega)).1
    have w4 (p : Nat) (hp : p + 4 ≤ 512) := (FatSync.ld_dword (p := p) hb (by omega)).1
    have w1 (p : Nat) (hp : p < 512) := (ld_byte (p := p) hb (by omega)).1
    unfold readBpb
    rw [w1 0 (by decide), w2 11 (by decide), w1 13 (by decide), w2 14 (by decide), w1 16 (by decide), w2 17 (by decide), w2 19 (by decide), w2 22 (by decide),
      w4 32 (by decide), w4 36 (by decide), w2 42 (by decide), w4 44 (by decide), w2 48 (by decide), w2 510 (by decide)]
    rfl
  refine ⟨e, ?_⟩
  obtain ⟨p, hp, hr⟩ := bpb_some h hb
  rw [e] at hp
  cases hp
  exact hr

variable {ss : Nat} {io : Nat → Io}

/-- The fields of a well-formed volume pass the checks and give the volume back. -/
theorem encodes_ok {w : List Nat} {v : Vol} {i : Info} (hs : v.ss = 512 ∨ v.ss = 1024 ∨ v.ss = 2048 ∨ v.ss = 4096) (hr : Ranges (fields w)) (he : Encodes w v i) (hl : Layout v i) :
    Checked v.ss (fields w) ∧ volOf v.ss v.io i.volbase (fields w) = v ∧ infoOf v.ss i.volbase (fields w) i.fsi = i ∧ (fields w).rsvd ≠ 0 := by
  obtain ⟨k, hk⟩ := hl.data.pow
  have hspc : (fields w).secPerClus = v.csize := he.spc
  have hc0 : 0 < v.csize := by
    rw [hk]
    exact Nat.two_pow_pos k
  have hk8 : k < 8 := by
    have h1 := hr.spc
    rw [hspc, hk] at h1
    rw [← Nat.pow_lt_pow_iff_right (a := 2) (by decide)]
    exact h1
  have hrv : i.volbase + (fields w).rsvd = v.fatbase := he.rsvd
  have hres := hl.reserved
  have hnf : (fields w).numFats = v.nFats := he.nf
  have hroot : (fields w).rootEnt = i.nRoot := he.root
  have hbps : (fields w).bytsPerSec = v.ss := he.bps
  have htot : total (fields w) = i.totsec := by
    unfold total
    rcases he.total with ⟨h1, h2⟩ | ⟨h1, h2, -⟩
    · have h1' : (fields w).totSec16 = i.totsec := h1
      rw [if_neg (by omega), h1']
    · have h1' : (fields w).totSec16 = 0 := h1
      rw [if_pos h1']
      exact h2
  have hpos := hl.geo.pos
  have hcl : clusters v + 2 = v.nFatent := by
    unfold clusters
    omega
  have hsz := hl.geo.size
  have hfs0 : 0 < v.fsize := by
    apply Nat.pos_of_ne_zero
    intro z
    rw [z, Nat.zero_mul, Nat.mul_zero] at hsz
    have : 0 < width v := by
      unfold width
      repeat' split
      all_goals decide
    have := Nat.mul_pos this (show 0 < v.nFatent by omega)
    omega
  have hfat : fatSize (fields w) = v.fsize := by
    unfold fatSize
    by_cases h3 : v.fsType = 3
    · have h1 := he.large h3
      have h1' : (fields w).fatSz16 = 0 := h1.1
      rw [if_pos h1']
      exact h1.2.1
    · have h1 : (fields w).fatSz16 = v.fsize := he.small h3
      rw [if_neg (by omega), h1]
  have hss : 0 < v.ss ∧ v.ss % 32 = 0 ∧ 0 < v.ss / 32 := by omega
  have hlim := hl.limit
  have hins := hl.inside
  have hrest := hl.rest
  have hcl0 : 0 < clusters v * v.csize := Nat.mul_pos (by omega) hc0
  have hbase := hl.data.base
  have hcomm : v.fsize * v.nFats = v.nFats * v.fsize := Nat.mul_comm _ _
  have hrt := hr.root
  -- the root directory
  have hdb : v.database = v.fatbase + v.nFats * v.fsize + (fields w).rootEnt / (v.ss / 32) ∧ (fields w).rootEnt % (v.ss / 32) = 0 := by
    by_cases h3 : v.fsType = 3
    · have h1 := hl.root32 h3
      rw [hroot, h1.1, Nat.zero_div, Nat.zero_mod]
      exact ⟨h1.2, rfl⟩
    · obtain ⟨h1, h2, h4⟩ := hl.root h3
      rw [hroot, ← h1]
      have h5 : v.ss = v.ss / 32 * 32 := by omega
      obtain ⟨q, hq⟩ : ∃ q, v.database = i.dirbase + q := ⟨v.database - i.dirbase, by omega⟩
      have h6 : q * v.ss = i.nRoot * 32 := by
        rw [hq, Nat.add_mul] at h4
        omega
      have h7 : i.nRoot = v.ss / 32 * q := by
        rw [h5, ← Nat.mul_assoc] at h6
        have := Nat.eq_of_mul_eq_mul_right (by decide) h6
        rw [← this, Nat.mul_comm]
      rw [h7, Nat.mul_div_cancel_left _ hss.2.2, Nat.mul_mod_right]
      exact ⟨hq, rfl⟩
  have hnn := Nat.zero_le ((fields w).rootEnt / (v.ss / 32))
  have hsys : sysect v.ss (fields w) = v.database - i.volbase := by
    unfold sysect
    rw [hfat, hnf, hcomm, u32_of (n := v.nFats * v.fsize) (by omega), u32_of (n := (fields w).rsvd + _) (by omega), u32_of (by omega)]
    omega
  have hn : nclst v.ss (fields w) = clusters v := by
    unfold nclst
    rw [htot, hsys, hspc]
    rw [Nat.add_mul] at hrest
    have h1 : i.totsec - (v.database - i.volbase) = i.volbase + i.totsec - v.database := by omega
    rw [h1]
    apply Nat.div_eq_of_lt_le
    · omega
    · rw [Nat.succ_mul]
      omega
  have hkd := hl.geo.kind
  have hkind := hl.kind
  have hfmt : fmtOf (nclst v.ss (fields w)) = v.fsType := by
    rw [hn, hkind]
    unfold fmtOf
    repeat' split
    all_goals omega
  have hfc := fmt_cases (nclst v.ss (fields w)) (by rw [hfmt]; omega)
  rw [hn, ← hn, hfmt] at hfc
  have hchk : Checked v.ss (fields w) := by
    refine ⟨hbps, by rw [hnf]; exact hl.geo.nFats, ⟨k, hk8, hspc.trans hk⟩, hdb.2, by omega, by rw [hsys, htot]; omega, by rw [hn]; omega, by rw [hfmt]; omega, fun z => ?_, fun z => ?_, ?_⟩
    · rw [hfmt] at z
      rw [hroot]
      exact ⟨(he.large z).2.2.1, (hl.root32 z).1⟩
    · rw [hfmt] at z
      rw [hroot]
      have := (hl.root z).2.1
      omega
    · rw [hfmt, hfat, size_ok hs (by omega), hn, hcl]
      have h1 : width v = if v.fsType = 1 then 12 else if v.fsType = 2 then 16 else 32 := rfl
      rw [← h1]
      exact hsz
  refine ⟨hchk, ?_, ?_, by omega⟩
  · unfold volOf
    rw [hspc, hnf, hfat, hfmt, hn, hcl, hrv, hsys, u32_of (n := v.fatbase) (by omega), u32_of (n := i.volbase + (v.database - i.volbase)) (by omega)]
    have : i.volbase + (v.database - i.volbase) = v.database := by omega
    rw [this]
  · unfold infoOf
    have hd : dirbase i.volbase (fields w) (fmtOf (nclst v.ss (fields w))) = i.dirbase := by
      unfold dirbase
      rw [hfmt]
      split
      · rename_i z
        exact (he.large z).2.2.2.1
      · rename_i z
        rw [hrv, hfat, hnf, hcomm, u32_of (n := v.fatbase) (by omega), u32_of (n := v.nFats * v.fsize) (by omega), u32_of (by omega)]
        exact (hl.root z).1.symm
    rw [htot, hroot, hd]

end Fpm.Mount
