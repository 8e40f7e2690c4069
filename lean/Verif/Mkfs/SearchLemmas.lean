import Verif.Mkfs.Model
import Verif.Mount.LayoutLemmas
/-! # The choice of a configuration -/
namespace Fpm.Mkfs
open Fpm.Fat Fpm.Mount

/-- What is known of a configuration. -/
structure Good (ss blk szVol : Nat) (c : Cfg) : Prop where
  kind : c.fsty = 1 ∧ c.nClst ≤ 4085 ∨ c.fsty = 2 ∧ 4085 < c.nClst ∧ c.nClst ≤ 65525 ∨ c.fsty = 3 ∧ 65525 < c.nClst ∧ c.nClst ≤ 0x0FFFFFF5
  pau : ∃ k, k ≤ 7 ∧ c.pau = 2 ^ k
  rsv : c.fsty ≠ 3 ∧ c.szRsv = 1 ∨ c.fsty = 3 ∧ 32 ≤ c.szRsv ∧ c.szRsv < 2 ^ 16
  dir : c.fsty ≠ 3 ∧ c.szDir * ss = 512 * 32 ∨ c.fsty = 3 ∧ c.szDir = 0
  sum : c.szRsv + c.szFat + c.szDir ≤ szVol
  num : c.nClst = (szVol - c.szRsv - c.szFat - c.szDir) / c.pau
  fat : (if c.fsty = 1 then 12 else if c.fsty = 2 then 16 else 32) * (c.nClst + 2) ≤ 8 * (c.szFat * ss)
  small : c.fsty ≠ 3 → c.szFat < 2 ^ 16
  pos : 0 < c.szFat
  some : blk ≤ 16 → 0 < c.nClst

theorem gap_lt {blk b : Nat} (hb : 0 < blk) (h : b + blk < 2 ^ 32) : gap blk b < blk := by
  unfold gap
  rw [u32_of (n := b + blk - 1) (by omega)]
  have h1 := Nat.div_add_mod (b + blk - 1) blk
  have h2 := Nat.mod_lt (b + blk - 1) hb
  have h3 : (b + blk - 1) / blk * blk = blk * ((b + blk - 1) / blk) := Nat.mul_comm _ _
  generalize (b + blk - 1) / blk * blk = q at *
  unfold u32
  omega

/-- The sector sizes, one by one. -/
theorem size_cases {ss : Nat} {P : Nat → Prop} (h : ss = 512 ∨ ss = 1024 ∨ ss = 2048 ∨ ss = 4096) (h1 : P 512) (h2 : P 1024) (h3 : P 2048) (h4 : P 4096) : P ss := by
  rcases h with rfl | rfl | rfl | rfl <;> assumption

theorem fat_bound {ss fsty n : Nat} (hs : ss = 512 ∨ ss = 1024 ∨ ss = 2048 ∨ ss = 4096) (hn : n < 2 ^ 27) (hf : fsty = 1 ∨ fsty = 2 ∨ fsty = 3) :
    (if fsty = 1 then 12 else if fsty = 2 then 16 else 32) * (n + 2) ≤ 8 * (fatSect ss fsty n * ss) ∧ 0 < fatSect ss fsty n ∧ fatSect ss fsty n ≤ n / 128 + 2 ∧
    (fsty ≠ 3 → fatSect ss fsty n ≤ n / 256 + 2) := by
  have hl : ss ≤ 4096 := by omega
  have h0 : 512 ≤ ss := by omega
  unfold fatSect
  rcases hf with rfl | rfl | rfl
  · rw [if_pos rfl, if_neg (by decide : ¬ 1 = 3), if_pos rfl, u32_of (n := n * 3 + 1) (by omega), u32_of (by omega)]
    rcases hs with rfl | rfl | rfl | rfl <;> omega
  · rw [if_neg (by decide : ¬ 2 = 1), if_pos rfl, if_neg (by decide : ¬ 2 = 3), if_neg (by decide : ¬ 2 = 1), u32_of (by omega)]
    rcases hs with rfl | rfl | rfl | rfl <;> omega
  · rw [if_neg (by decide : ¬ 3 = 1), if_neg (by decide : ¬ 3 = 2), if_pos rfl, u32_of (by omega)]
    refine ⟨?_, ?_, ?_, fun h => absurd rfl h⟩ <;> rcases hs with rfl | rfl | rfl | rfl <;> omega

theorem clusters_eq {szVol rsv fat dir pau : Nat} (hv : szVol < 2 ^ 32) (h1 : 0 < rsv) (h2 : 0 < fat) (h : rsv + fat + dir ≤ szVol) :
    clusters szVol rsv fat dir pau = (szVol - rsv - fat - dir) / pau := by
  unfold clusters u32
  congr 1
  omega

theorem clusters_wrap {szVol rsv fat dir pau : Nat} (h1 : 0 < rsv) (h2 : 0 < fat) (h : szVol < rsv + fat + dir) (hs : rsv + fat + dir < 2 ^ 22) (hp : pau ≤ 128) (h0 : 0 < pau) :
    2 ^ 24 < clusters szVol rsv fat dir pau := by
  unfold clusters
  have : 2 ^ 32 - 2 ^ 22 ≤ u32 (szVol + (2 ^ 32 - rsv) + (2 ^ 32 - fat) + (2 ^ 32 - dir)) := by
    unfold u32
    omega
  rw [Nat.lt_div_iff_mul_lt h0]
  have h4 : 2 ^ 24 * pau ≤ 2 ^ 24 * 128 := Nat.mul_le_mul_left _ hp
  omega

theorem dir_bound {ss fsty : Nat} (hs : ss = 512 ∨ ss = 1024 ∨ ss = 2048 ∨ ss = 4096) (hf : fsty ≠ 3) : dirSect ss fsty * ss = 512 * 32 ∧ dirSect ss fsty ≤ 32 := by
  unfold dirSect
  rw [if_neg hf]
  rcases hs with rfl | rfl | rfl | rfl <;> decide

/-- Setting for one round. -/
structure Round.Ok (ss blk bVol szVol pau n : Nat) : Prop where
  hss : ss = 512 ∨ ss = 1024 ∨ ss = 2048 ∨ ss = 4096
  hblk : 0 < blk ∧ blk ≤ 2 ^ 15
  vol : szVol < 2 ^ 32
  base : bVol ≤ 63
  hpau : ∃ k, k ≤ 7 ∧ pau = 2 ^ k
  num : n = szVol / pau
  small : n < 2 ^ 27

theorem Round.Ok.pau_le {ss blk bVol szVol pau n : Nat} (h : Round.Ok ss blk bVol szVol pau n) : 0 < pau ∧ pau ≤ 128 := by
  obtain ⟨k, hk, rfl⟩ := h.hpau
  exact ⟨Nat.pow_pos (by decide), (Nat.pow_le_pow_right (by decide) hk : 2 ^ k ≤ 2 ^ 7)⟩

theorem data_eq {ss blk bVol szVol pau n fsty : Nat} (h : Round.Ok ss blk bVol szVol pau n) (hf : fsty = 1 ∨ fsty = 2 ∨ fsty = 3) :
    dataBase ss bVol fsty n = bVol + rsvSect fsty + fatSect ss fsty n + dirSect ss fsty := by
  obtain ⟨-, -, h1, -⟩ := fat_bound h.hss h.small hf
  have h2 : dirSect ss fsty ≤ 32 := by
    by_cases h3 : fsty = 3
    · unfold dirSect; rw [if_pos h3]; decide
    · exact (dir_bound h.hss h3).2
  have h4 : rsvSect fsty ≤ 32 := by unfold rsvSect; split <;> decide
  have := h.base
  have := h.small
  unfold dataBase
  exact u32_of (by omega)

theorem gap_bound {ss blk bVol szVol pau n fsty : Nat} (h : Round.Ok ss blk bVol szVol pau n) (hf : fsty = 1 ∨ fsty = 2 ∨ fsty = 3) : gap blk (dataBase ss bVol fsty n) < blk := by
  have hd := data_eq h hf
  obtain ⟨-, -, h1, -⟩ := fat_bound h.hss h.small hf
  have h2 : dirSect ss fsty ≤ 32 := by
    by_cases h3 : fsty = 3
    · unfold dirSect; rw [if_pos h3]; decide
    · exact (dir_bound h.hss h3).2
  have h4 : rsvSect fsty ≤ 32 := by unfold rsvSect; split <;> decide
  have := h.base
  have := h.small
  have := h.hblk
  exact gap_lt h.hblk.1 (by omega)

theorem large_good {o : Opt} {ss blk bVol szVol szAu pau n : Nat} {c : Cfg} (h : Round.Ok ss blk bVol szVol pau n) (h3 : 65525 < n ∧ n ≤ 0x0FFFFFF5)
    (e : layout o ss blk bVol szVol szAu 3 pau n = .done c) : Good ss blk szVol c := by
  have hg := gap_bound h (fsty := 3) (.inr (.inr rfl))
  obtain ⟨hfat, hpos, hle, -⟩ := fat_bound h.hss h.small (fsty := 3) (.inr (.inr rfl))
  obtain ⟨hp0, hp1⟩ := h.pau_le
  unfold layout at e
  split at e
  · cases e
  · generalize gap blk (dataBase ss bVol 3 n) = g at *
    have hb := h.hblk
    have hn := h.num
    have hv := h.vol
    have hnv : n ≤ szVol := by rw [hn]; exact Nat.div_le_self _ _
    unfold config at e
    rw [if_pos rfl, u32_of (n := 32 + g) (by omega)] at e
    have hsum : (32 + g) + fatSect ss 3 n + 0 ≤ szVol := by omega
    rw [clusters_eq hv (by omega) hpos hsum] at e
    have hcl : (szVol - (32 + g) - fatSect ss 3 n - 0) / pau ≤ n := by
      rw [hn]
      exact Nat.div_le_div_right (by omega)
    unfold judge at e
    rw [if_pos rfl] at e
    split at e
    · split at e <;> cases e
    · rename_i hbig
      cases e
      have hbig' : ¬ (szVol - (32 + g) - fatSect ss 3 n - 0) / pau ≤ 65525 := hbig
      have hfat' : 32 * (n + 2) ≤ 8 * (fatSect ss 3 n * ss) := hfat
      have k1 : 65525 < (szVol - (32 + g) - fatSect ss 3 n - 0) / pau := by omega
      have k2 : (szVol - (32 + g) - fatSect ss 3 n - 0) / pau ≤ 0x0FFFFFF5 := by omega
      have k3 : 32 * ((szVol - (32 + g) - fatSect ss 3 n - 0) / pau + 2) ≤ 8 * (fatSect ss 3 n * ss) := by omega
      exact ⟨.inr (.inr ⟨rfl, k1, k2⟩), h.hpau, .inr ⟨rfl, Nat.le_add_right _ _, by show 32 + g < _; omega⟩, .inr ⟨rfl, rfl⟩, hsum, rfl, k3, fun z => absurd rfl z, hpos,
        fun _ => Nat.lt_trans (by decide) k1⟩

theorem small_good {o : Opt} {ss blk bVol szVol szAu pau n fsty : Nat} {c : Cfg} (h : Round.Ok ss blk bVol szVol pau n) (hf : fsty = 1 ∨ fsty = 2)
    (e : layout o ss blk bVol szVol szAu fsty pau n = .done c) : Good ss blk szVol c := by
  have hf' : fsty = 1 ∨ fsty = 2 ∨ fsty = 3 := by omega
  have hg := gap_bound h hf'
  obtain ⟨hfat, hpos, -, hle⟩ := fat_bound h.hss h.small hf'
  have hle := hle (by omega)
  obtain ⟨hp0, hp1⟩ := h.pau_le
  obtain ⟨hd1, hd2⟩ := dir_bound (fsty := fsty) h.hss (by omega)
  have hd := data_eq h hf'
  unfold layout at e
  split at e
  · cases e
  · rename_i hroom
    rw [hd] at hroom
    generalize gap blk (dataBase ss bVol fsty n) = g at *
    have hr : rsvSect fsty = 1 := by unfold rsvSect; rw [if_neg (by omega)]
    rw [hr] at hroom hd
    have hb := h.hblk
    have hn := h.num
    have hv := h.vol
    have hsm := h.small
    have hbs := h.base
    rw [u32_of (n := _ + pau * 16) (by omega)] at hroom
    have hroom' : 1 + fatSect ss fsty n + dirSect ss fsty + pau * 16 ≤ szVol := by
      unfold u32 at hroom
      omega
    unfold config at e
    rw [if_neg (by omega : ¬ fsty = 3), u32_of (n := fatSect ss fsty n + g) (by omega)] at e
    have hmax : c = ⟨fsty, pau, clusters szVol 1 (fatSect ss fsty n + g) (dirSect ss fsty) pau, fatSect ss fsty n + g, 1, dirSect ss fsty⟩ ∧
        (fsty = 1 ∧ clusters szVol 1 (fatSect ss fsty n + g) (dirSect ss fsty) pau ≤ 4085 ∨
         fsty = 2 ∧ 4085 < clusters szVol 1 (fatSect ss fsty n + g) (dirSect ss fsty) pau ∧ clusters szVol 1 (fatSect ss fsty n + g) (dirSect ss fsty) pau ≤ 65525) := by
      unfold judge MAX_FAT12 MAX_FAT16 at e
      simp only at e
      rw [if_neg (by omega : ¬ fsty = 3)] at e
      split at e
      · rename_i h2
        split at e
        · repeat' split at e
          all_goals cases e
        · split at e
          · split at e <;> cases e
          · cases e
            exact ⟨rfl, .inr ⟨h2, by omega, by omega⟩⟩
      · split at e
        · cases e
        · cases e
          exact ⟨rfl, .inl ⟨by omega, by omega⟩⟩
    obtain ⟨rfl, hmax⟩ := hmax
    have hsum : 1 + (fatSect ss fsty n + g) + dirSect ss fsty ≤ szVol := by
      rcases Nat.lt_or_ge szVol (1 + (fatSect ss fsty n + g) + dirSect ss fsty) with z | z
      · have := clusters_wrap (pau := pau) (by decide) (by omega) z (by omega) hp1 hp0
        omega
      · exact z
    have hcl := clusters_eq (pau := pau) hv (by decide) (by omega) hsum
    have hcn : (szVol - 1 - (fatSect ss fsty n + g) - dirSect ss fsty) / pau ≤ n := by
      rw [hn]
      exact Nat.div_le_div_right (by omega)
    rw [hcl] at hmax
    refine ⟨?_, h.hpau, .inl ⟨?_, rfl⟩, .inl ⟨?_, hd1⟩, hsum, hcl, ?_, fun _ => ?_, ?_, fun hb16 => ?_⟩
    · show fsty = 1 ∧ clusters _ _ _ _ _ ≤ 4085 ∨ fsty = 2 ∧ 4085 < clusters _ _ _ _ _ ∧ clusters _ _ _ _ _ ≤ 65525 ∨ _
      rw [hcl]
      omega
    · show fsty ≠ 3
      omega
    · show fsty ≠ 3
      omega
    · show (if fsty = 1 then 12 else if fsty = 2 then 16 else 32) * (clusters _ _ _ _ _ + 2) ≤ 8 * ((fatSect ss fsty n + g) * ss)
      rw [hcl, Nat.add_mul]
      have : (if fsty = 1 then 12 else if fsty = 2 then 16 else 32) * ((szVol - 1 - (fatSect ss fsty n + g) - dirSect ss fsty) / pau + 2) ≤ (if fsty = 1 then 12 else if fsty = 2 then 16 else 32) * (n + 2) :=
        Nat.mul_le_mul_left _ (by omega)
      omega
    · show fatSect ss fsty n + g < 2 ^ 16
      have h1 : (szVol - 1 - (fatSect ss fsty n + g) - dirSect ss fsty) < ((szVol - 1 - (fatSect ss fsty n + g) - dirSect ss fsty) / pau + 1) * pau := by
        rw [Nat.mul_comm]
        exact Nat.lt_mul_div_succ _ hp0
      have h2 : n * pau ≤ szVol := by rw [hn]; exact Nat.div_mul_le_self _ _
      generalize (szVol - 1 - (fatSect ss fsty n + g) - dirSect ss fsty) / pau = m at *
      rcases Nat.lt_or_ge (m + 1) n with z | z
      · have h4 : (n - (m + 1)) * 1 ≤ (n - (m + 1)) * pau := Nat.mul_le_mul_left _ hp0
        have h5 : (n - (m + 1)) * pau + (m + 1) * pau = n * pau := by
          rw [← Nat.add_mul]
          congr 1
          omega
        omega
      · omega
    · show 0 < fatSect ss fsty n + g
      omega
    · show 0 < clusters _ _ _ _ _
      rw [hcl]
      exact Nat.div_pos (by omega) hp0

/-! ## The loop -/

/-- States of the loop. -/
structure LoopOk (szVol szAu t : Nat) : Prop where
  kind : t = 2 ∨ t = 3
  au : szAu = 0 ∨ ∃ k, k ≤ 7 ∧ szAu = 2 ^ k ∧ szVol / szAu < 2 ^ 27

theorem pick_pow (n : Nat) (l : List Nat) (k : Nat) : ∃ j, k ≤ j ∧ j ≤ k + l.length ∧ pick n l (2 ^ k) = 2 ^ j := by
  induction l generalizing k with
  | nil => exact ⟨k, Nat.le_refl _, Nat.le_refl _, rfl⟩
  | cons c l ih =>
    unfold pick
    split
    · obtain ⟨j, h1, h2, h3⟩ := ih (k + 1)
      exact ⟨j, by omega, by rw [List.length_cons]; omega, by rw [← Nat.pow_succ]; exact h3⟩
    · exact ⟨k, Nat.le_refl _, by omega, rfl⟩

theorem auto32 {szVol : Nat} (hv : szVol < 2 ^ 32) : szVol / pick (szVol / 0x20000) [1, 2, 4, 8, 16, 32] 1 < 2 ^ 26 ∧ szVol / (pick (szVol / 0x20000) [1, 2, 4, 8, 16, 32] 1 / 2) < 2 ^ 27 := by
  simp only [pick]
  repeat' split
  all_goals
    simp only [Nat.reduceMul, Nat.reduceDiv]
    omega

theorem auto16 {szVol : Nat} (hv : szVol < 2 ^ 32) : szVol / pick (szVol / 0x1000) [1, 4, 16, 64, 256, 512] 1 < 2 ^ 26 := by
  simp only [pick]
  repeat' split
  all_goals
    try simp only [Nat.reduceMul]
    omega

theorem pau_ok {szVol szAu t : Nat} (hv : szVol < 2 ^ 32) (h : LoopOk szVol szAu t) : (∃ k, k ≤ 7 ∧ pauOf t szAu szVol = 2 ^ k ∧ (szAu = 0 → k ≤ 6)) ∧ szVol / pauOf t szAu szVol < 2 ^ 27 := by
  unfold pauOf
  by_cases h0 : szAu = 0
  · rw [if_pos h0]
    split
    · obtain ⟨j, -, h1, h2⟩ := pick_pow (szVol / 0x20000) [1, 2, 4, 8, 16, 32] 0
      have := (auto32 hv).1
      exact ⟨⟨j, Nat.le_trans h1 (by decide), h2, fun _ => h1⟩, by omega⟩
    · obtain ⟨j, -, h1, h2⟩ := pick_pow (szVol / 0x1000) [1, 4, 16, 64, 256, 512] 0
      have := auto16 hv
      exact ⟨⟨j, Nat.le_trans h1 (by decide), h2, fun _ => h1⟩, by omega⟩
  · rw [if_neg h0]
    rcases h.au with z | ⟨k, h1, h2, h3⟩
    · exact absurd z h0
    · exact ⟨⟨k, h1, h2, fun z => absurd z h0⟩, h3⟩

/-- Rounds left. -/
def left (szAu t : Nat) : Nat := (if szAu = 0 then 1 else 0) + if t = 3 then 0 else 1

theorem again_cases {o : Opt} {ss blk bVol szVol szAu fsty pau n a t : Nat} (e : layout o ss blk bVol szVol szAu fsty pau n = .again a t) :
    t = 3 ∧ fsty = 3 ∧ szAu = 0 ∧ a = pau / 2 ∧ a ≠ 0 ∨ fsty = 2 ∧ t = 3 ∧ a = szAu ∧ o.fat32 = true ∨ fsty = 2 ∧ t = 2 ∧ szAu = 0 ∧ a = pau * 2 := by
  unfold layout at e
  split at e
  · cases e
  · unfold judge config at e
    by_cases h3 : fsty = 3
    · rw [if_pos h3] at e
      simp only [if_true] at e
      split at e
      · split at e
        · cases e
          exact .inl ⟨rfl, h3, by omega, rfl, by omega⟩
        · cases e
      · cases e
    · rw [if_neg h3] at e
      simp only at e
      rw [if_neg h3] at e
      repeat' split at e
      all_goals cases e
      · exact .inr (.inr ⟨by assumption, rfl, by omega, rfl⟩)
      · exact .inr (.inl ⟨by assumption, rfl, rfl, by assumption⟩)
      · exact .inr (.inr ⟨by assumption, rfl, by omega, rfl⟩)
      · exact .inr (.inr ⟨by assumption, rfl, by omega, rfl⟩)

theorem round_done {o : Opt} {ss blk bVol szVol szAu t : Nat} {c : Cfg} (hs : ss = 512 ∨ ss = 1024 ∨ ss = 2048 ∨ ss = 4096) (hb : 0 < blk ∧ blk ≤ 2 ^ 15) (hv : szVol < 2 ^ 32) (hbv : bVol ≤ 63)
    (h : LoopOk szVol szAu t) (e : round o ss blk bVol szVol szAu t = .done c) : Good ss blk szVol c ∧ (c.fsty = 3 ↔ t = 3) := by
  obtain ⟨⟨k, h1, h2, h3⟩, h4⟩ := pau_ok hv h
  have hok : Round.Ok ss blk bVol szVol (pauOf t szAu szVol) (szVol / pauOf t szAu szVol) := ⟨hs, hb, hv, hbv, ⟨k, h1, h2⟩, rfl, h4⟩
  have hty : ∀ {fsty pau n}, layout o ss blk bVol szVol szAu fsty pau n = .done c → c.fsty = fsty := by
    intro fsty pau n e
    unfold layout at e
    split at e
    · cases e
    · unfold judge config at e
      by_cases h3 : fsty = 3
      · rw [if_pos h3] at e
        simp only [if_true] at e
        repeat' split at e
        all_goals cases e
        exact h3.symm
      · rw [if_neg h3] at e
        simp only at e
        repeat' split at e
        all_goals cases e
        all_goals rfl
  unfold round at e
  by_cases ht : t = 3
  · subst ht
    rw [if_pos rfl] at e
    split at e
    · cases e
    · rename_i hn
      have hn1 : ¬ (szVol / pauOf 3 szAu szVol ≤ 65525 ∨ szVol / pauOf 3 szAu szVol > 0x0FFFFFF5) := hn
      exact ⟨large_good hok (by omega) e, by rw [hty e]⟩
  · rw [if_neg ht] at e
    have ht2 : t = 2 := by have := h.kind; omega
    split at e
    · exact ⟨small_good hok (.inr ht2) e, by rw [hty e]⟩
    · exact ⟨small_good hok (.inl rfl) e, by rw [hty e]; simp [ht]⟩

theorem round_again {o : Opt} {ss blk bVol szVol szAu t a t' : Nat} (hv : szVol < 2 ^ 32) (h : LoopOk szVol szAu t) (e : round o ss blk bVol szVol szAu t = .again a t') :
    LoopOk szVol a t' ∧ left a t' < left szAu t ∧ (t' = 3 → t = 3 ∨ o.fat32 = true) := by
  obtain ⟨⟨k, h1, h2, h3⟩, h4⟩ := pau_ok hv h
  unfold round at e
  by_cases ht : t = 3
  · subst ht
    rw [if_pos rfl] at e
    split at e
    · cases e
    · rcases again_cases e with ⟨rfl, -, h5, h6, h7⟩ | ⟨h5, -⟩ | ⟨h5, -⟩
      · refine ⟨⟨.inr rfl, .inr ?_⟩, ?_, fun _ => .inl rfl⟩
        · have h8 := (auto32 hv).2
          have hp : pauOf 3 szAu szVol = pick (szVol / 0x20000) [1, 2, 4, 8, 16, 32] 1 := by
            unfold pauOf
            rw [if_pos h5, if_pos rfl]
          rw [h6, h2] at h7
          cases k with
          | zero => exact absurd rfl h7
          | succ k =>
            refine ⟨k, by omega, ?_, ?_⟩
            · rw [h6, h2, Nat.pow_succ, Nat.mul_div_cancel _ (by decide)]
            · rw [h6, hp]
              exact h8
        · unfold left
          rw [if_neg h7, if_pos h5]
          decide
      · cases h5
      · cases h5
  · rw [if_neg ht] at e
    have ht2 : t = 2 := by have := h.kind; omega
    split at e
    · rcases again_cases e with ⟨-, h5, -⟩ | ⟨-, rfl, rfl, h5⟩ | ⟨-, rfl, h5, h6⟩
      · exact absurd h5 ht
      · refine ⟨⟨.inr rfl, h.au⟩, ?_, fun _ => .inr h5⟩
        unfold left
        rw [if_neg ht, if_pos rfl]
        omega
      · refine ⟨⟨.inl rfl, .inr ⟨k + 1, by have := h3 h5; omega, by rw [h6, h2, Nat.pow_succ], ?_⟩⟩, ?_, fun z => by cases z⟩
        · rw [h6, ← Nat.div_div_eq_div_mul]
          omega
        · unfold left
          have : a ≠ 0 := by
            rw [h6, h2]
            have := Nat.pow_pos (a := 2) (n := k) (by decide)
            omega
          rw [if_neg this, if_pos h5, if_neg ht]
          decide
    · rcases again_cases e with ⟨-, h5, -⟩ | ⟨h5, -⟩ | ⟨h5, -⟩ <;> cases h5

/-- The loop comes to an end. -/
theorem search_ends {o : Opt} {ss blk bVol szVol : Nat} (hv : szVol < 2 ^ 32) : ∀ k szAu t, LoopOk szVol szAu t → left szAu t < k → search o ss blk bVol szVol k szAu t ≠ none := by
  intro k
  induction k with
  | zero => intro szAu t _ h; omega
  | succ k ih =>
    intro szAu t h hl
    unfold search
    split
    · exact fun z => by cases z
    · exact fun z => by cases z
    · rename_i a t' e
      obtain ⟨h1, h2, -⟩ := round_again hv h e
      exact ih a t' h1 (by omega)

theorem search_good {o : Opt} {ss blk bVol szVol : Nat} {c : Cfg} (hs : ss = 512 ∨ ss = 1024 ∨ ss = 2048 ∨ ss = 4096) (hb : 0 < blk ∧ blk ≤ 2 ^ 15) (hv : szVol < 2 ^ 32) (hbv : bVol ≤ 63) :
    ∀ k szAu t, LoopOk szVol szAu t → search o ss blk bVol szVol k szAu t = some (some c) → Good ss blk szVol c ∧ (c.fsty = 3 → t = 3 ∨ o.fat32 = true) ∧ (t = 3 → c.fsty = 3) := by
  intro k
  induction k with
  | zero => intro szAu t _ h; cases h
  | succ k ih =>
    intro szAu t h e
    unfold search at e
    split at e
    · rename_i c' e'
      cases e
      obtain ⟨h1, h2⟩ := round_done hs hb hv hbv h e'
      exact ⟨h1, fun z => .inl (h2.mp z), h2.mpr⟩
    · cases e
    · rename_i a t' e'
      obtain ⟨h1, -, h2⟩ := round_again hv h e'
      obtain ⟨h3, h4, h5⟩ := ih a t' h1 e
      refine ⟨h3, fun z => ?_, fun z => ?_⟩
      · rcases h4 z with h6 | h6
        · exact h2 h6
        · exact .inr h6
      · apply h5
        subst z
        unfold round at e'
        rw [if_pos rfl] at e'
        split at e'
        · cases e'
        · rcases again_cases e' with ⟨h6, -⟩ | ⟨h6, -⟩ | ⟨h6, -⟩
          · exact h6
          · cases h6
          · cases h6

end Fpm.Mkfs
