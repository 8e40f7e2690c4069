import Verif.Mkfs.SearchLemmas
/-! # The configurations of the command `format` are found -/
namespace Fpm.Mkfs
open Fpm.Fat Fpm.Mount

theorem gap_one {b : Nat} (hb : b < 2 ^ 32) : gap 1 b = 0 := by
  unfold gap
  rw [u32_of (n := b + 1 - 1) (by omega)]
  unfold u32
  omega

theorem clusters_of {szVol rsv fat dir pau : Nat} (h : rsv + fat + dir ≤ szVol) (hv : szVol < 2 ^ 32) : clusters szVol rsv fat dir pau = (szVol - rsv - fat - dir) / pau := by
  unfold clusters
  congr 1
  unfold u32
  omega

/-- A round for FAT32 with blocks of one sector. -/
theorem layout32 {o : Opt} {bVol szVol szAu pau n : Nat} (hv : szVol < 2 ^ 32) (hb : bVol ≤ 63) (hp : 0 < pau ∧ pau ≤ 64) (hn : n < 2 ^ 28) (hfit : 32 + (4 * n + 519) / 512 + pau * 16 ≤ szVol) :
    layout o 512 1 bVol szVol szAu 3 pau n = judge o szAu ⟨3, pau, (szVol - 32 - (4 * n + 519) / 512) / pau, (4 * n + 519) / 512, 32, 0⟩ := by
  have hf : fatSect 512 3 n = (4 * n + 519) / 512 := by
    unfold fatSect
    rw [if_pos rfl, u32_of (by omega)]
    omega
  have hd : dataBase 512 bVol 3 n = bVol + 32 + (4 * n + 519) / 512 := by
    unfold dataBase
    rw [hf]
    show u32 (bVol + 32 + _ + 0) = _
    rw [u32_of (by omega)]
    omega
  unfold layout
  rw [hd, u32_of (n := bVol + 32 + (4 * n + 519) / 512 + pau * 16) (by omega), if_neg (by unfold u32; omega), gap_one (by omega)]
  unfold config
  rw [if_pos rfl, hf, u32_of (n := 32 + 0) (by decide), clusters_of (by omega) hv, Nat.sub_zero]

/-- A round for FAT12 or FAT16 with blocks of one sector. -/
theorem layout16 {o : Opt} {szVol szAu pau n fsty f : Nat} (hv : szVol < 2 ^ 32) (hf : fsty = 1 ∨ fsty = 2) (hp : 0 < pau ∧ pau ≤ 128) (hn : n < 2 ^ 28)
    (hfat : f = if fsty = 1 then ((3 * n + 1) / 2 + 4098) / 4096 else (2 * n + 4099) / 4096) (hfit : 5 + f + pau * 16 ≤ szVol) :
    layout o 4096 1 0 szVol szAu fsty pau n = judge o szAu ⟨fsty, pau, (szVol - 1 - f - 4) / pau, f, 1, 4⟩ := by
  have hf1 : fatSect 4096 fsty n = f := by
    rw [hfat]
    unfold fatSect
    rw [if_neg (by omega)]
    split
    · rw [u32_of (n := n * 3 + 1) (by omega), u32_of (by omega)]
      omega
    · rw [u32_of (by omega)]
      omega
  have hr : rsvSect fsty = 1 := if_neg (by omega)
  have hdr : dirSect 4096 fsty = 4 := if_neg (by omega)
  have hfl : f < 2 ^ 28 := by
    rw [hfat]
    split <;> omega
  have hd : dataBase 4096 0 fsty n = 5 + f := by
    unfold dataBase
    rw [hf1, hr, hdr, u32_of (by omega)]
    omega
  unfold layout
  rw [hd, u32_of (n := 5 + f + pau * 16) (by omega), if_neg (by unfold u32; omega), gap_one (by omega)]
  unfold config
  rw [if_neg (by omega), hf1, hdr, Nat.add_zero, u32_of (n := f) (by omega), clusters_of (by omega) hv]

theorem pau32 (szVol : Nat) : szVol < 2 ^ 17 ∧ pauOf 3 0 szVol = 1 ∨ 2 ^ 17 ≤ szVol ∧ szVol < 2 ^ 18 ∧ pauOf 3 0 szVol = 2 ∨ 2 ^ 18 ≤ szVol ∧ szVol < 2 ^ 19 ∧ pauOf 3 0 szVol = 4 ∨
    2 ^ 19 ≤ szVol ∧ szVol < 2 ^ 20 ∧ pauOf 3 0 szVol = 8 ∨ 2 ^ 20 ≤ szVol ∧ szVol < 2 ^ 21 ∧ pauOf 3 0 szVol = 16 ∨ 2 ^ 21 ≤ szVol ∧ szVol < 2 ^ 22 ∧ pauOf 3 0 szVol = 32 ∨ 2 ^ 22 ≤ szVol ∧ pauOf 3 0 szVol = 64 := by
  unfold pauOf
  rw [if_pos rfl, if_pos rfl]
  simp only [pick]
  repeat' split
  all_goals omega

/-- Cluster of `pau` sectors, then half of it. -/
theorem half32 {o : Opt} {bVol szVol pau half : Nat} (hv : szVol < 2 ^ 32) (hb : bVol ≤ 63) (hp : 1 < pau ∧ pau ≤ 64) (hh : pau / 2 = half) (e : pauOf 3 0 szVol = pau) (h1 : 65525 < szVol / pau) (h2 : szVol / pau < 2 ^ 27) (h2' : szVol / half < 2 ^ 27)
    (h3 : 65525 < szVol / half) (h4 : 32 + (4 * (szVol / pau) + 519) / 512 + pau * 16 ≤ szVol) (h5 : 32 + (4 * (szVol / half) + 519) / 512 + half * 16 ≤ szVol) (h6 : 65525 < (szVol - 32 - (4 * (szVol / half) + 519) / 512) / half) (k : Nat) :
    ∃ c, search o 512 1 bVol szVol (k + 2) 0 3 = some (some c) := by
  have r1 : round o 512 1 bVol szVol 0 3 = judge o 0 ⟨3, pau, (szVol - 32 - (4 * (szVol / pau) + 519) / 512) / pau, (4 * (szVol / pau) + 519) / 512, 32, 0⟩ := by
    unfold round
    rw [if_pos rfl, e, if_neg (by unfold MAX_FAT16 MAX_FAT32; omega), layout32 hv hb (by omega) (by omega) h4]
  unfold search
  rw [r1]
  unfold judge
  simp only [if_pos, MAX_FAT16]
  by_cases hc : (szVol - 32 - (4 * (szVol / pau) + 519) / 512) / pau ≤ 0xFFF5
  · rw [if_pos hc, if_pos ⟨trivial, by omega⟩, hh]
    simp only
    have r2 : round o 512 1 bVol szVol half 3 = judge o half ⟨3, half, (szVol - 32 - (4 * (szVol / half) + 519) / 512) / half, (4 * (szVol / half) + 519) / 512, 32, 0⟩ := by
      have e' : pauOf 3 half szVol = half := by
        unfold pauOf
        rw [if_neg (by omega)]
      unfold round
      rw [if_pos rfl, e', if_neg (by unfold MAX_FAT16 MAX_FAT32; omega), layout32 hv hb (by omega) (by omega) h5]
    unfold search
    rw [r2]
    unfold judge
    simp only [if_pos, MAX_FAT16]
    rw [if_neg (by omega)]
    exact ⟨_, rfl⟩
  · rw [if_neg hc]
    exact ⟨_, rfl⟩

theorem sd_found {o : Opt} {bVol szVol : Nat} (hb : bVol ≤ 63) (h1 : 66075 ≤ szVol) (hv : szVol < 2 ^ 32) : ∃ c, search o 512 1 bVol szVol 3 0 3 = some (some c) := by
  rcases pau32 szVol with ⟨h, e⟩ | ⟨h, h', e⟩ | ⟨h, h', e⟩ | ⟨h, h', e⟩ | ⟨h, h', e⟩ | ⟨h, h', e⟩ | ⟨h, e⟩
  · have r1 : round o 512 1 bVol szVol 0 3 = judge o 0 ⟨3, 1, (szVol - 32 - (4 * (szVol / 1) + 519) / 512) / 1, (4 * (szVol / 1) + 519) / 512, 32, 0⟩ := by
      unfold round
      rw [if_pos rfl, e, if_neg (by unfold MAX_FAT16 MAX_FAT32; omega), layout32 hv hb (by omega) (by omega) (by omega)]
    unfold search
    rw [r1]
    unfold judge
    simp only [if_pos, MAX_FAT16]
    rw [if_neg (by omega)]
    exact ⟨_, rfl⟩
  all_goals exact half32 hv hb (by decide) rfl e (by omega) (by omega) (by omega) (by omega) (by omega) (by omega) (by omega) 1

theorem sd_not {o : Opt} {bVol szVol : Nat} (hb : bVol ≤ 63) (h0 : 128 ≤ szVol) (h1 : szVol < 66075) : search o 512 1 bVol szVol 3 0 3 = some none := by
  rcases pau32 szVol with ⟨h, e⟩ | ⟨h, h', e⟩ | ⟨h, h', e⟩ | ⟨h, h', e⟩ | ⟨h, h', e⟩ | ⟨h, h', e⟩ | ⟨h, e⟩
  · have r1 : round o 512 1 bVol szVol 0 3 = .abort := by
      unfold round
      rw [if_pos rfl, e]
      by_cases hs : szVol / 1 ≤ MAX_FAT16 ∨ szVol / 1 > MAX_FAT32
      · rw [if_pos hs]
      · have hs' : 0xFFF5 < szVol := by
          unfold MAX_FAT16 at hs
          omega
        rw [if_neg hs, layout32 (by omega) hb (by omega) (by omega) (by omega)]
        unfold judge
        simp only [if_pos, MAX_FAT16]
        rw [if_pos (by omega), if_neg (by omega)]
    unfold search
    rw [r1]
  all_goals omega

theorem pau16 (szVol : Nat) : szVol < 2 ^ 12 ∧ pauOf 2 0 szVol = 1 ∨ 2 ^ 12 ≤ szVol ∧ szVol < 2 ^ 14 ∧ pauOf 2 0 szVol = 2 ∨ 2 ^ 14 ≤ szVol ∧ szVol < 2 ^ 16 ∧ pauOf 2 0 szVol = 4 ∨
    2 ^ 16 ≤ szVol ∧ szVol < 2 ^ 18 ∧ pauOf 2 0 szVol = 8 ∨ 2 ^ 18 ≤ szVol ∧ szVol < 2 ^ 20 ∧ pauOf 2 0 szVol = 16 ∨ 2 ^ 20 ≤ szVol ∧ szVol < 2 ^ 21 ∧ pauOf 2 0 szVol = 32 ∨ 2 ^ 21 ≤ szVol ∧ pauOf 2 0 szVol = 64 := by
  unfold pauOf
  rw [if_pos rfl, if_neg (by decide)]
  simp only [pick]
  repeat' split
  all_goals omega

/-- The FAT of FAT12 or FAT16 in a round. -/
def fatOf (n : Nat) : Nat := if n > MAX_FAT12 then (2 * n + 4099) / 4096 else ((3 * n + 1) / 2 + 4098) / 4096

/-- A round for FAT12 or FAT16. -/
theorem round16 {o : Opt} {szVol szAu pau n : Nat} (hv : szVol < 2 ^ 32) (hp : 0 < pau ∧ pau ≤ 128) (e : pauOf 2 szAu szVol = pau) (hn : szVol / pau = n) (h1 : n < 2 ^ 28) (hfit : 5 + fatOf n + pau * 16 ≤ szVol) :
    round o 4096 1 0 szVol szAu 2 = judge o szAu ⟨if n > MAX_FAT12 then 2 else 1, pau, (szVol - 1 - fatOf n - 4) / pau, fatOf n, 1, 4⟩ := by
  unfold round
  rw [if_neg (by decide : ¬ 2 = 3), e, hn]
  by_cases h : n > MAX_FAT12
  · rw [if_pos h, if_pos h, layout16 hv (.inr rfl) hp h1 (f := fatOf n) (by unfold fatOf; rw [if_pos h, if_neg (by decide)]) hfit]
  · rw [if_neg h, if_neg h, layout16 hv (.inl rfl) hp h1 (f := fatOf n) (by unfold fatOf; rw [if_neg h, if_pos rfl]) hfit]

theorem fatOf_le (n : Nat) : fatOf n ≤ (2 * n + 4099) / 4096 + 1 ∧ (n ≤ 4085 → fatOf n ≤ 2) := by
  unfold fatOf MAX_FAT12
  split <;> omega

/-- After a round. -/
def after (o : Opt) (ss blk bVol szVol k : Nat) : Round → Option (Option Cfg)
  | .done c => some (some c)
  | .abort => some none
  | .again a t => search o ss blk bVol szVol k a t

theorem search_step {o : Opt} {ss blk bVol szVol szAu t : Nat} (k : Nat) {r : Round} (h : round o ss blk bVol szVol szAu t = r) :
    search o ss blk bVol szVol (k + 1) szAu t = after o ss blk bVol szVol k r := by
  conv => lhs; unfold search
  rw [h]
  cases r <;> rfl

/-- The last round for FAT12 or FAT16. -/
theorem last16 {o : Opt} {szVol pau n : Nat} (ho : o.fat32 = false) (hv : szVol < 2 ^ 32) (hp : 0 < pau ∧ pau ≤ 128) (hn : szVol / pau = n) (h1 : n < 2 ^ 28) (hfit : 5 + fatOf n + pau * 16 ≤ szVol)
    (h2 : n ≤ 4085 ∧ (szVol - 1 - fatOf n - 4) / pau ≤ 4085 ∨ 4085 < n ∧ 4085 < (szVol - 1 - fatOf n - 4) / pau) (k : Nat) :
    search o 4096 1 0 szVol (k + 1) pau 2 = if (szVol - 1 - fatOf n - 4) / pau ≤ 65525 then some (some ⟨if n > MAX_FAT12 then 2 else 1, pau, (szVol - 1 - fatOf n - 4) / pau, fatOf n, 1, 4⟩) else some none := by
  have e : pauOf 2 pau szVol = pau := by
    unfold pauOf
    rw [if_neg (by omega)]
  rw [search_step k (round16 (o := o) hv hp e hn h1 hfit)]
  unfold judge MAX_FAT12 MAX_FAT16
  rcases h2 with ⟨h2, h3⟩ | ⟨h2, h3⟩
  · rw [if_neg (by omega : ¬ n > 0xFF5)]
    simp only
    rw [if_neg (by decide : ¬ 1 = 3), if_neg (by decide : ¬ 1 = 2), if_neg (by omega), if_pos (by omega : (szVol - 1 - fatOf n - 4) / pau ≤ 65525)]
    rfl
  · rw [if_pos (by omega : n > 0xFF5)]
    simp only
    rw [if_neg (by decide : ¬ 2 = 3), if_pos trivial]
    by_cases h4 : (szVol - 1 - fatOf n - 4) / pau ≤ 65525
    · rw [if_neg (by omega), if_neg (by omega), if_pos h4]
      rfl
    · rw [if_pos (by omega), if_neg (by omega), ho, if_neg (by decide), if_neg (by omega), if_neg h4]
      rfl

/-- Cluster of `pau` sectors, then twice of it. -/
theorem twice16 {o : Opt} {szVol pau n m : Nat} (ho : o.fat32 = false) (hv : szVol < 2 ^ 32) (hp : 0 < pau ∧ pau ≤ 64) (e : pauOf 2 0 szVol = pau) (hn : szVol / pau = n) (hm : szVol / (pau * 2) = m) (h1 : n < 2 ^ 28)
    (hfit : 5 + fatOf n + pau * 16 ≤ szVol) (hfit' : 5 + fatOf m + pau * 2 * 16 ≤ szVol ∨ n ≤ 4085) (h2 : n ≤ 4085 → (szVol - 1 - fatOf n - 4) / pau ≤ 4085)
    (h3 : 4085 < n → (szVol - 1 - fatOf n - 4) / pau ≤ 4085 → m ≤ 4085 ∧ (szVol - 1 - fatOf m - 4) / (pau * 2) ≤ 4085) (h4 : 65525 < (szVol - 1 - fatOf n - 4) / pau → 4085 < m ∧ 4085 < (szVol - 1 - fatOf m - 4) / (pau * 2)) (k : Nat) :
    (∃ c, search o 4096 1 0 szVol (k + 2) 0 2 = some (some c)) ∨
    search o 4096 1 0 szVol (k + 2) 0 2 = some none ∧ 65525 < (szVol - 1 - fatOf n - 4) / pau ∧ 65525 < (szVol - 1 - fatOf m - 4) / (pau * 2) := by
  have hmn : m ≤ n := by
    rw [← hm, ← hn]
    exact Nat.div_le_div_left (by omega) (by omega)
  rw [search_step (k + 1) (round16 (o := o) hv (by omega) e hn h1 hfit)]
  unfold judge MAX_FAT12 MAX_FAT16
  by_cases hf : n > 0xFF5
  · rw [if_pos hf]
    simp only
    rw [if_neg (by decide : ¬ 2 = 3), if_pos trivial]
    have hfit'' : 5 + fatOf m + pau * 2 * 16 ≤ szVol := by omega
    have hl := last16 ho hv (pau := pau * 2) (by omega) hm (by omega) hfit''
    by_cases h5 : (szVol - 1 - fatOf n - 4) / pau > 0xFFF5
    · have hag : search o 4096 1 0 szVol (k + 1) (pau * 2) 2 = _ := hl (.inr (h4 (by omega))) k
      rw [if_pos h5]
      by_cases h6 : pau * 2 ≤ 64
      · rw [if_pos ⟨trivial, h6⟩]
        simp only [after]
        rw [hag]
        split
        · exact .inl ⟨_, rfl⟩
        · exact .inr ⟨rfl, by omega, by omega⟩
      · rw [if_neg (fun z => h6 z.2), ho, if_neg (by decide), if_pos ⟨trivial, by omega⟩]
        simp only [after]
        rw [hag]
        split
        · exact .inl ⟨_, rfl⟩
        · exact .inr ⟨rfl, by omega, by omega⟩
    · rw [if_neg h5]
      by_cases h6 : (szVol - 1 - fatOf n - 4) / pau ≤ 0xFF5
      · have h7 := h3 hf h6
        have hag : search o 4096 1 0 szVol (k + 1) (pau * 2) 2 = _ := hl (.inl h7) k
        rw [if_pos h6, if_pos ⟨trivial, by omega⟩]
        simp only [after]
        rw [hag, if_pos (by omega)]
        exact .inl ⟨_, rfl⟩
      · rw [if_neg h6]
        exact .inl ⟨_, rfl⟩
  · rw [if_neg hf]
    simp only
    rw [if_neg (by decide : ¬ 1 = 3), if_neg (by decide : ¬ 1 = 2), if_neg (by have := h2 (by omega); omega)]
    exact .inl ⟨_, rfl⟩

theorem flash_found {o : Opt} {szVol : Nat} (ho : o.fat32 = false) (h0 : 128 ≤ szVol) (h1 : szVol ≤ 8387364) : ∃ c, search o 4096 1 0 szVol 3 0 2 = some (some c) := by
  rcases pau16 szVol with ⟨h, e⟩ | ⟨h, h', e⟩ | ⟨h, h', e⟩ | ⟨h, h', e⟩ | ⟨h, h', e⟩ | ⟨h, h', e⟩ | ⟨h, e⟩
  all_goals
    have hw := twice16 ho (by omega) (by decide) e rfl rfl (by omega) (by unfold fatOf MAX_FAT12; split <;> omega) (by unfold fatOf MAX_FAT12; split <;> omega) (by unfold fatOf MAX_FAT12; split <;> omega)
      (by unfold fatOf MAX_FAT12; split <;> split <;> omega) (by unfold fatOf MAX_FAT12; split <;> split <;> omega) 1
    rcases hw with hw | ⟨-, hw, hw'⟩
    · exact hw
    · exfalso
      unfold fatOf MAX_FAT12 at hw hw'
      revert hw hw'
      split <;> split <;> omega

theorem flash_not {o : Opt} {szVol : Nat} (ho : o.fat32 = false) (h1 : 8387364 < szVol) (hv : szVol < 2 ^ 32) : search o 4096 1 0 szVol 3 0 2 = some none := by
  rcases pau16 szVol with ⟨h, e⟩ | ⟨h, h', e⟩ | ⟨h, h', e⟩ | ⟨h, h', e⟩ | ⟨h, h', e⟩ | ⟨h, h', e⟩ | ⟨h, e⟩
  all_goals try omega
  have hf : 65525 < (szVol - 1 - fatOf (szVol / 64) - 4) / 64 := by unfold fatOf MAX_FAT12; split <;> omega
  have hf' : 65525 < (szVol - 1 - fatOf (szVol / 128) - 4) / 128 := by unfold fatOf MAX_FAT12; split <;> omega
  rw [search_step 2 (round16 (o := o) hv (by decide) e rfl (by omega) (by unfold fatOf MAX_FAT12; split <;> omega))]
  unfold judge MAX_FAT12 MAX_FAT16
  rw [if_pos (by omega : szVol / 64 > 0xFF5)]
  simp only
  rw [if_neg (by decide : ¬ 2 = 3), if_pos trivial, if_pos (by omega), if_neg (by decide), ho, if_neg (by decide), if_pos ⟨trivial, by decide⟩]
  simp only [after]
  have := last16 (o := o) ho hv (pau := 128) (by decide) rfl (by omega) (by unfold fatOf MAX_FAT12; split <;> omega) (.inr ⟨by omega, by omega⟩) 1
  rw [if_neg (by omega)] at this
  exact this

end Fpm.Mkfs
