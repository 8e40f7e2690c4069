import Verif.Mkfs.CreateLemmas
import Verif.Fat.FatLemmas
/-! # The new volume -/
namespace Fpm.Mkfs
open Fpm.Fat Fpm.Fat.Spec Fpm.FatFile.Spec Fpm.FatBytes Fpm.FatBytes.Spec Fpm.FatSync Fpm.FatSync.Spec Fpm.Mount Fpm.Mount.Spec Fpm.Mkfs.Spec

/-- The volume of a configuration. -/
def newVol (ss : Nat) (io : Nat → Io) (bVol : Nat) (c : Cfg) : Vol :=
  { ss := ss, csize := c.pau, fatbase := bVol + c.szRsv, fsize := c.szFat, nFats := 1, nFatent := c.nClst + 2, fsType := c.fsty, database := bVol + c.szRsv + c.szFat + c.szDir, io := io }

@[inherit_doc newVol] def newInfo (bVol szVol : Nat) (c : Cfg) : Info :=
  { volbase := bVol, totsec := szVol, nRoot := if c.fsty = 3 then 0 else 512, dirbase := if c.fsty = 3 then 2 else bVol + c.szRsv + c.szFat, fsi := if c.fsty = 3 then some (bVol + 1) else none }

variable {ss : Nat} {io : Nat → Io} {o : Opt} {len size bVol szVol : Nat} {c : Cfg} {blk : Nat}

theorem new_encodes (h : Args (raw ss io) o len size bVol szVol c blk) {w : List Nat} (hw : Boot ss bVol szVol c w) : Encodes w (newVol ss io bVol c) (newInfo bVol szVol c) := by
  have hk : ss = 512 ∨ ss = 1024 ∨ ss = 2048 ∨ ss = 4096 := h.kind
  have hlim := h.lim
  have hsum := h.sum
  have hmin := h.min
  have hg := h.good
  have hrsv := hg.rsv
  have hfat := hg.sum
  obtain ⟨k, hk7, hpau⟩ := hg.pau
  have hp : c.pau < 256 := by
    rw [hpau]
    exact Nat.lt_of_le_of_lt (Nat.pow_le_pow_right (by decide) hk7) (by decide)
  have h0 : field w 0 1 = 0xEB := by
    have h1 : sl w 0 1 = sl (sl w 0 11) 0 1 := sl_sub (q := 0) (j := 11) (a := 0) (b := 1) (by decide)
    rw [field_sl, h1]
    show num (sl (w.take 11) 0 1) = _
    rw [hw.name]
    decide
  refine ⟨.inl h0, ?_, hw.sign, ?_, ?_, ?_, hw.nf, hw.root, ?_, fun h3 => ?_, fun h3 => ?_, ?_⟩
  · rw [hw.name]
    decide
  · rw [hw.bps]
    show _ = ss
    omega
  · rw [hw.spc]
    exact Nat.mod_eq_of_lt hp
  · rw [hw.rsvd]
    show bVol + _ = bVol + c.szRsv
    omega
  · show field w 19 2 = szVol ∧ 128 ≤ szVol ∨ field w 19 2 = 0 ∧ field w 32 4 = szVol ∧ 0x10000 ≤ szVol
    have ht := hw.total
    split at ht
    · exact .inl ⟨ht, hmin⟩
    · exact .inr ⟨ht.1, by rw [ht.2]; omega, by omega⟩
  · rw [hw.small h3]
    exact Nat.mod_eq_of_lt (hg.small h3)
  · obtain ⟨q1, q2, q3, q4, -, q5⟩ := hw.large h3
    refine ⟨q1, ?_, q3, ?_, q5⟩
    · rw [q2]
      show _ = c.szFat
      omega
    · rw [q4]
      exact (if_pos h3).symm
  · by_cases h3 : c.fsty = 3
    · exact (if_pos h3).trans (if_pos ⟨h3, (hw.large h3).2.2.2.2.1⟩).symm
    · exact (if_neg h3).trans (if_neg (fun z => h3 z.1)).symm

theorem new_layout (h : Args (raw ss io) o len size bVol szVol c blk) (hj : ∀ n j, io n = .fail j → j.length = ss ∧ ∀ x ∈ j, x < 256) (hc : 0 < c.nClst) : Layout (newVol ss io bVol c) (newInfo bVol szVol c) := by
  have hk : ss = 512 ∨ ss = 1024 ∨ ss = 2048 ∨ ss = 4096 := h.kind
  have hlim := h.lim
  have hsum := h.sum
  have hmin := h.min
  have hg := h.good
  have hrsv := hg.rsv
  have hfat := hg.sum
  have hkind := hg.kind
  have hdir : c.fsty ≠ 3 ∧ c.szDir * ss = 512 * 32 ∨ c.fsty = 3 ∧ c.szDir = 0 := hg.dir
  have hpos := hg.pos
  obtain ⟨k, hk7, hpau⟩ := hg.pau
  have hp : 0 < c.pau := by rw [hpau]; exact Nat.two_pow_pos k
  have hcl : Mount.Spec.clusters (newVol ss io bVol c) = c.nClst := by
    show c.nClst + 2 - 2 = _
    omega
  have hdm := Nat.div_add_mod (szVol - c.szRsv - c.szFat - c.szDir) c.pau
  rw [← hg.num] at hdm
  have hmod := Nat.mod_lt (szVol - c.szRsv - c.szFat - c.szDir) hp
  refine ⟨⟨?_, .inl rfl, ?_, ?_, ?_, hj⟩, ⟨⟨k, hpau⟩, ?_, ?_⟩, ?_, fun h3 => ?_, fun h3 => ?_, ?_, ?_, ?_, ?_, fun n hn => ?_⟩
  · show ss % 4 = 0 ∧ 0 < ss
    omega
  · show c.fsty = 1 ∧ c.nClst + 2 ≤ _ ∨ c.fsty = 2 ∧ c.nClst + 2 ≤ _ ∨ c.fsty = 3 ∧ c.nClst + 2 ≤ _
    omega
  · exact hg.fat
  · show 3 ≤ c.nClst + 2
    omega
  · show bVol + c.szRsv + 1 * c.szFat ≤ bVol + c.szRsv + c.szFat + c.szDir
    omega
  · show 0 < bVol + c.szRsv + c.szFat + c.szDir
    omega
  · show bVol < bVol + c.szRsv
    omega
  · have h3' : c.fsty ≠ 3 := h3
    show (if c.fsty = 3 then 2 else bVol + c.szRsv + c.szFat) = bVol + c.szRsv + 1 * c.szFat ∧ 0 < (if c.fsty = 3 then 0 else 512) ∧
      (bVol + c.szRsv + c.szFat + c.szDir) * ss = (if c.fsty = 3 then 2 else bVol + c.szRsv + c.szFat) * ss + (if c.fsty = 3 then 0 else 512) * 32
    rw [if_neg h3', if_neg h3', Nat.one_mul, Nat.add_mul (bVol + c.szRsv + c.szFat) c.szDir]
    omega
  · have h3' : c.fsty = 3 := h3
    show (if c.fsty = 3 then 0 else 512) = 0 ∧ bVol + c.szRsv + c.szFat + c.szDir = bVol + c.szRsv + 1 * c.szFat
    rw [if_pos h3']
    omega
  · rw [hcl, Nat.mul_comm]
    show bVol + c.szRsv + c.szFat + c.szDir + c.pau * c.nClst ≤ bVol + szVol
    omega
  · rw [hcl, Nat.mul_comm, Nat.mul_add]
    show bVol + szVol < bVol + c.szRsv + c.szFat + c.szDir + (c.pau * c.nClst + c.pau * 1)
    omega
  · show bVol + szVol ≤ 2 ^ 32
    omega
  · rw [hcl]
    show c.fsty = _
    split
    · omega
    · split <;> omega
  · have hn' : (if c.fsty = 3 then some (bVol + 1) else none) = some n := hn
    show c.fsty = 3 ∧ bVol < n ∧ n < bVol + c.szRsv
    split at hn'
    · rename_i h3
      cases hn'
      omega
    · cases hn'

theorem getD_of_sl {w : List Nat} {q j i : Nat} (hi : i < j) : w.getD (q + i) 0 = (sl w q j).getD i 0 := by
  unfold sl
  rw [List.getD_eq_getElem?_getD, List.getD_eq_getElem?_getD, List.getElem?_take_of_lt hi, List.getElem?_drop]

theorem new_fat (h : Args (raw ss io) o len size bVol szVol c blk) {d : Disk} (hd : ∀ n, (d n).length = ss ∧ ∀ x ∈ d n, x < 256) (hj : ∀ n j, io n = .fail j → j.length = ss ∧ ∀ x ∈ j, x < 256)
    (hc : 0 < c.nClst) (hw : Written (raw ss io) o bVol szVol size c d) (x : Nat) (hx : 2 ≤ x) (hx' : x < c.nClst + 2) :
    fat (newVol ss io bVol c) d x = if c.fsty = 3 ∧ x = 2 then 0x0FFFFFFF else 0 := by
  have hl := new_layout h hj hc
  have hg := hl.geo
  have hss : 512 ≤ ss := h.ss_pos
  have hB (k : Nat) (h1 : headEnd c.fsty ≤ k) (h2 : k < c.szFat * ss) : B (newVol ss io bVol c) d k = 0 := hw.fat k h1 h2
  have hxn : x < (newVol ss io bVol c).nFatent := hx'
  unfold fat
  rw [entry_eq hg ⟨hg.ss, fun n => hd n⟩ hxn]
  unfold byBytes bits
  rcases kinds hg with h1 | h1 | h1
  · have e1 : c.fsty = 1 := h1
    have hh : headEnd c.fsty = 3 := by rw [e1]; rfl
    have hsz : bc12 x + 1 < c.szFat * ss := size12 hg h1 hxn
    have hb : 3 ≤ bc12 x := by unfold bc12; omega
    rw [if_pos h1, if_pos h1, if_neg (by omega : ¬ (c.fsty = 3 ∧ x = 2)), hB _ (by omega) (by omega), hB _ (by omega) (by omega)]
    split <;> rfl
  · have e1 : c.fsty = 2 := h1
    have hh : headEnd c.fsty = 4 := by rw [e1]; rfl
    have hsz : 2 * x + 1 < c.szFat * ss := size16 hg h1 hxn
    rw [if_neg (by rw [h1]; decide), if_pos h1, if_neg (by rw [h1]; decide), if_pos h1, if_neg (by omega : ¬ (c.fsty = 3 ∧ x = 2)), hB _ (by omega) (by omega), hB _ (by omega) (by omega)]
  · have e1 : c.fsty = 3 := h1
    have hh : headEnd c.fsty = 12 := by rw [e1]; rfl
    have hsz : 4 * x + 3 < c.szFat * ss := size32 hg h1 hxn
    rw [if_neg (by rw [h1]; decide), if_neg (by rw [h1]; decide), if_neg (by rw [h1]; decide), if_neg (by rw [h1]; decide)]
    by_cases h2 : x = 2
    · subst h2
      rw [if_pos ⟨e1, rfl⟩]
      have hlast := (hw.last.2 e1).2
      have hq (i : Nat) (hi : i < 4) : B (newVol ss io bVol c) d (8 + i) = [0xFF, 0xFF, 0xFF, 0x0F].getD i 0 := by
        show (d (bVol + c.szRsv + (8 + i) / ss)).getD ((8 + i) % ss) 0 = _
        rw [Nat.div_eq_of_lt (by omega), Nat.mod_eq_of_lt (by omega), Nat.add_zero, getD_of_sl hi, hlast]
      rw [hq 1 (by decide), hq 2 (by decide), hq 3 (by decide), show 4 * 2 = 8 + 0 by decide, hq 0 (by decide)]
      decide
    · rw [if_neg (fun z => h2 z.2), hB _ (by omega) (by omega), hB _ (by omega) (by omega), hB _ (by omega) (by omega), hB _ (by omega) (by omega)]

theorem new_ends (h : Args (raw ss io) o len size bVol szVol c blk) {d : Disk} (hd : ∀ n, (d n).length = ss ∧ ∀ x ∈ d n, x < 256) (hj : ∀ n j, io n = .fail j → j.length = ss ∧ ∀ x ∈ j, x < 256)
    (hc : 0 < c.nClst) (hw : Written (raw ss io) o bVol szVol size c d) : fat (newVol ss io bVol c) d 0 = 2 ^ bits (newVol ss io bVol c) - 8 ∧ fat (newVol ss io bVol c) d 1 = 2 ^ bits (newVol ss io bVol c) - 1 := by
  have hl := new_layout h hj hc
  have hg := hl.geo
  have hss : 512 ≤ ss := h.ss_pos
  have h0 : 0 < (newVol ss io bVol c).nFatent := by have := hg.pos; omega
  have h1 : 1 < (newVol ss io bVol c).nFatent := by have := hg.pos; omega
  have hq (p i : Nat) (hp : p ≤ 8) (hi : i < 4) : B (newVol ss io bVol c) d (p + i) = (sl (d (bVol + c.szRsv)) p 4).getD i 0 := by
    show (d (bVol + c.szRsv + (p + i) / ss)).getD ((p + i) % ss) 0 = _
    rw [Nat.div_eq_of_lt (by omega), Nat.mod_eq_of_lt (by omega), Nat.add_zero, getD_of_sl hi]
  have hfirst := hw.last.1
  unfold fat
  rw [entry_eq hg ⟨hg.ss, fun n => hd n⟩ h0, entry_eq hg ⟨hg.ss, fun n => hd n⟩ h1]
  unfold byBytes bits
  rcases kinds hg with e | e | e
  · have e1 : c.fsty = 1 := e
    rw [if_pos e1] at hfirst
    rw [if_pos e, if_pos e, if_pos e]
    have b0 := hq 0 0 (by decide) (by decide)
    have b1 := hq 0 1 (by decide) (by decide)
    have b2 := hq 0 2 (by decide) (by decide)
    rw [hfirst] at b0 b1 b2
    rw [show bc12 0 = 0 from rfl, show bc12 1 = 1 from rfl, show 0 + 1 = 1 from rfl, show 1 + 1 = 2 from rfl, show (0 : Nat) = 0 + 0 from rfl, show B (newVol ss io bVol c) d 1 = _ from b1, show B (newVol ss io bVol c) d 2 = _ from b2, b0]
    decide
  · have e1 : c.fsty = 2 := e
    rw [if_neg (by omega)] at hfirst
    rw [if_neg (by omega), if_pos e, if_neg (by omega), if_pos e, if_neg (by omega), if_pos e]
    have b0 := hq 0 0 (by decide) (by decide)
    have b1 := hq 0 1 (by decide) (by decide)
    have b2 := hq 0 2 (by decide) (by decide)
    have b3 := hq 0 3 (by decide) (by decide)
    rw [hfirst] at b0 b1 b2 b3
    rw [show B (newVol ss io bVol c) d (2 * 0) = _ from b0, show B (newVol ss io bVol c) d (2 * 0 + 1) = _ from b1, show B (newVol ss io bVol c) d (2 * 1) = _ from b2, show B (newVol ss io bVol c) d (2 * 1 + 1) = _ from b3]
    decide
  · have e1 : c.fsty = 3 := e
    rw [if_neg (by omega)] at hfirst
    have hnext := (hw.last.2 e1).1
    rw [if_neg (by omega), if_neg (by omega), if_neg (by omega), if_neg (by omega), if_neg (by omega), if_neg (by omega)]
    have b0 := hq 0 0 (by decide) (by decide)
    have b1 := hq 0 1 (by decide) (by decide)
    have b2 := hq 0 2 (by decide) (by decide)
    have b3 := hq 0 3 (by decide) (by decide)
    have b4 := hq 4 0 (by decide) (by decide)
    have b5 := hq 4 1 (by decide) (by decide)
    have b6 := hq 4 2 (by decide) (by decide)
    have b7 := hq 4 3 (by decide) (by decide)
    rw [hfirst] at b0 b1 b2 b3
    rw [hnext] at b4 b5 b6 b7
    rw [show B (newVol ss io bVol c) d (4 * 0) = _ from b0, show B (newVol ss io bVol c) d (4 * 0 + 1) = _ from b1, show B (newVol ss io bVol c) d (4 * 0 + 2) = _ from b2, show B (newVol ss io bVol c) d (4 * 0 + 3) = _ from b3,
      show B (newVol ss io bVol c) d (4 * 1) = _ from b4, show B (newVol ss io bVol c) d (4 * 1 + 1) = _ from b5, show B (newVol ss io bVol c) d (4 * 1 + 2) = _ from b6, show B (newVol ss io bVol c) d (4 * 1 + 3) = _ from b7]
    decide

theorem new_empty (h : Args (raw ss io) o len size bVol szVol c blk) {d : Disk} (hd : ∀ n, (d n).length = ss ∧ ∀ x ∈ d n, x < 256) (hj : ∀ n j, io n = .fail j → j.length = ss ∧ ∀ x ∈ j, x < 256)
    (hc : 0 < c.nClst) (hw : Written (raw ss io) o bVol szVol size c d) : Empty (newVol ss io bVol c) (newInfo bVol szVol c) d := by
  have hk := h.good.kind
  refine ⟨fun x h1 h2 h3 => ?_, fun h3 => ?_, fun n hn => ?_, new_ends h hd hj hc hw⟩
  · rw [new_fat h hd hj hc hw x h1 h2, if_neg]
    intro z
    refine h3 z.1 (z.2.trans ?_)
    exact (if_pos z.1).symm
  · have h3' : c.fsty = 3 := h3
    have hdb : (newInfo bVol szVol c).dirbase = 2 := if_pos h3'
    rw [hdb, new_fat h hd hj hc hw 2 (by decide) (by omega), if_pos ⟨h3', rfl⟩]
    show 2 ≤ 2 ∧ 2 < c.nClst + 2 ∧ c.nClst + 2 ≤ _
    omega
  · have hroot := hw.root
    unfold rootSect at hroot
    unfold InRoot at hn
    by_cases h3 : c.fsty = 3
    · rw [if_pos (show (newVol ss io bVol c).fsType = 3 from h3)] at hn
      have hdb : (newInfo bVol szVol c).dirbase = 2 := if_pos h3
      rw [hdb] at hn
      unfold sectors at hn
      obtain ⟨j, h4, rfl⟩ := List.mem_map.mp hn
      have h5 : j < c.pau := List.mem_range.mp h4
      rw [if_pos h3] at hroot
      have hdir := h.good.dir
      have := hroot j h5
      show d (bVol + c.szRsv + c.szFat + c.szDir + c.pau * 0 + j) = _
      rw [show c.szDir = 0 by omega, Nat.mul_zero]
      exact this
    · rw [if_neg (show ¬ (newVol ss io bVol c).fsType = 3 from h3)] at hn
      have hdb : (newInfo bVol szVol c).dirbase = bVol + c.szRsv + c.szFat := if_neg h3
      rw [hdb] at hn
      have hn2 : n < bVol + c.szRsv + c.szFat + c.szDir := hn.2
      rw [if_neg h3] at hroot
      have := hroot (n - (bVol + c.szRsv + c.szFat)) (by omega)
      rw [show bVol + c.szRsv + c.szFat + (n - (bVol + c.szRsv + c.szFat)) = n by omega] at this
      exact this

/-- Number of free clusters when one of them is not. -/
theorem free_one {f : Nat → Nat} {r : Nat} (hr : 2 ≤ r) (h1 : f r ≠ 0) : ∀ n, (∀ c, 2 ≤ c → c < n → c ≠ r → f c = 0) → freeCount f n = n - 2 - if r < n then 1 else 0
  | 0, _ => by rw [if_neg (by omega)]; rfl
  | n + 1, h => by
    unfold freeCount
    rw [free_one hr h1 n fun c h2 h3 => h c h2 (by omega)]
    by_cases hn : n = r
    · rw [if_neg (fun z : 2 ≤ n ∧ f n = 0 => h1 (hn ▸ z.2)), if_neg (by omega : ¬ r < n), if_pos (by omega : r < n + 1)]
      omega
    · by_cases h2 : 2 ≤ n
      · rw [if_pos (⟨h2, h n h2 (by omega) hn⟩ : 2 ≤ n ∧ f n = 0)]
        by_cases h3 : r < n
        · rw [if_pos h3, if_pos (by omega : r < n + 1)]
          omega
        · rw [if_neg h3, if_neg (by omega : ¬ r < n + 1)]
          omega
      · rw [if_neg (fun z : 2 ≤ n ∧ f n = 0 => h2 z.1), if_neg (by omega : ¬ r < n), if_neg (by omega : ¬ r < n + 1)]
        omega

theorem empty_chains {v : Vol} {i : Info} {d : Disk} {f : Nat → Nat} (hf : f = fat v d) (he : Empty v i d) : Chains v.nFatent f (rootChains v i) := by
  subst hf
  unfold rootChains
  by_cases h3 : v.fsType = 3
  · rw [if_pos h3]
    obtain ⟨h1, h2, h4⟩ := he.chain h3
    refine ⟨fun l hl => ?_, ?_, fun c hc hc' hn => ?_⟩
    · cases List.mem_singleton.mp hl
      exact ⟨h1, h2, h4⟩
    · simp
    · by_cases hx : c = i.dirbase
      · rw [hx]
        simp
      · exact absurd (he.free c hc hc' fun _ => hx) hn
  · rw [if_neg h3]
    exact ⟨fun l hl => absurd hl (List.not_mem_nil), List.nodup_nil, fun c hc hc' hn => absurd (he.free c hc hc' fun z => absurd z h3) hn⟩

end Fpm.Mkfs
