import Verif.Statfs.Model
import Verif.Fat.StepLemmas
import Verif.DirDev.WalkLemmas
/-!
# Counting free clusters
-/
namespace Fpm.Statfs
open Fpm.Fat Fpm.FatBytes Fpm.Fat.Spec Fpm.DirDev

theorem count12_spec {v : Vol} (hg : Geo v) : ∀ (k : Nat) {s : St} (c n : Nat), Inv v s → 2 ≤ c → c + k = v.nFatent → n = freeCount (tab v s) c →
    Quiet v s (count12 v k s c n).st ∧
    ((count12 v k s c n).res = FR_DISK_ERR ∧ ¬ Sound v ∨ (count12 v k s c n).res = FR_INT_ERR ∧ (∃ c, 2 ≤ c ∧ c < v.nFatent ∧ tab v s c = 1) ∨
     (count12 v k s c n).res = FR_OK ∧ (count12 v k s c n).nfree = freeCount (tab v s) v.nFatent) := by
  intro k
  induction k with
  | zero =>
    intro s c n hi h2 hk hn
    refine ⟨.refl hi, .inr (.inr ⟨rfl, ?_⟩)⟩
    rw [← show c = v.nFatent by omega]
    exact hn
  | succ k ih =>
    intro s c n hi h2 hk hn
    obtain ⟨s', r, e, i, sm, rr, tr, hr⟩ := getFat_spec hg hi h2 (show c < v.nFatent by omega)
    have q : Quiet v s s' := ⟨i, sm, rr, tr⟩
    rw [count12, e]
    simp only
    rcases hr with hr | ⟨hr, hns⟩
    rotate_left
    · rw [if_pos hr]
      exact ⟨q, .inl ⟨rfl, hns⟩⟩
    have hlt := tab_lt v s c
    have hr : r = tab v s c := hr
    rw [if_neg (show ¬ r = DERR by unfold DERR; omega)]
    split
    · rename_i h1
      exact ⟨q, .inr (.inl ⟨rfl, c, h2, by omega, by omega⟩)⟩
    · have hn' : (if r = 0 then n + 1 else n) = freeCount (tab v s') (c + 1) := by
        rw [tab_same sm, freeCount, ← hn, hr]
        by_cases h0 : tab v s c = 0
        · rw [if_pos h0, if_pos ⟨h2, h0⟩]
        · rw [if_neg h0, if_neg fun h => h0 h.2]; omega
      obtain ⟨q2, h⟩ := ih (c + 1) _ i (by omega) (by omega) hn'
      rw [tab_same sm] at h
      refine ⟨q.trans q2, ?_⟩
      rcases h with h | h | h
      · exact .inl h
      · exact .inr (.inl h)
      · exact .inr (.inr h)

/-- Entries of the table that are zero. -/
def zeros (f : Nat → Nat) : Nat → Nat
  | 0 => 0
  | n + 1 => zeros f n + if f n = 0 then 1 else 0

theorem zeros_free (f : Nat → Nat) (h0 : f 0 ≠ 0) (h1 : f 1 ≠ 0) : ∀ n, zeros f n = freeCount f n := by
  intro n
  induction n with
  | zero => rfl
  | succ n ih =>
    rw [zeros, freeCount, ih]
    congr 1
    by_cases h : f n = 0
    · have h2 : 2 ≤ n := by
        rcases Nat.lt_or_ge n 2 with hn | hn
        · rcases (show n = 0 ∨ n = 1 by omega) with rfl | rfl
          · exact absurd h h0
          · exact absurd h h1
        · exact hn
      rw [if_pos h, if_pos ⟨h2, h⟩]
    · rw [if_neg h, if_neg fun hx => h hx.2]

def unitSize (v : Vol) : Nat := if v.fsType = 2 then 2 else 4

theorem entry_at {v : Vol} (hg : Geo v) {s s' : St} (hi : Inv v s) (ht : v.fsType ≠ 1) {c : Nat} (hc : c < v.nFatent) (hw : s'.win = view s (v.fatbase + unitSize v * c / v.ss)) : scanEntry v s' (unitSize v * c % v.ss) = some (tab v s c) := by
  have hb := bytes_of hg hi
  unfold scanEntry tab fat
  rw [entry_eq hg hb hc]
  unfold unitSize at *
  rcases kinds hg with h | h | h
  · exact absurd h ht
  · rw [if_pos h] at hw
    rw [if_pos h, if_pos h]
    have hd := div_same (ss := v.ss) (k := 2 * c) (i := 1) (m := 2) hg.ss.2 (by have := hg.ss.1; omega) (by omega) (by omega)
    have g0 := win_get hg hi hw
    have g1 := win_get (k := 2 * c + 1) hg hi (by rw [hd.1]; exact hw)
    rw [hd.2] at g1
    rw [ld16 g0 g1 (hb.lt _) (hb.lt _)]
    unfold byBytes bits
    rw [if_neg (by omega), if_pos h, if_neg (by omega), if_pos h]
    have := hb.lt (2 * c)
    have := hb.lt (2 * c + 1)
    rw [Nat.mod_eq_of_lt (by omega)]
  · rw [if_neg (by omega)] at hw
    rw [if_neg (by omega), if_neg (by omega)]
    have hd := fun i hi => div_same (ss := v.ss) (k := 4 * c) (i := i) (m := 4) hg.ss.2 hg.ss.1 (by omega) hi
    have g0 := win_get hg hi hw
    have g1 := win_get (k := 4 * c + 1) hg hi (by rw [(hd 1 (by omega)).1]; exact hw)
    have g2 := win_get (k := 4 * c + 2) hg hi (by rw [(hd 2 (by omega)).1]; exact hw)
    have g3 := win_get (k := 4 * c + 3) hg hi (by rw [(hd 3 (by omega)).1]; exact hw)
    rw [(hd 1 (by omega)).2] at g1
    rw [(hd 2 (by omega)).2] at g2
    rw [(hd 3 (by omega)).2] at g3
    rw [ld32 g0 g1 g2 g3 (hb.lt _) (hb.lt _) (hb.lt _) (hb.lt _)]
    unfold byBytes bits
    rw [if_neg (by omega), if_neg (by omega), if_neg (by omega), if_neg (by omega), Option.map_some, show (0x0FFFFFFF : Nat) = 2 ^ 28 - 1 from rfl, and_mask]

theorem unit_fits {v : Vol} (hg : Geo v) (ht : v.fsType ≠ 1) {c : Nat} (hc : c < v.nFatent) : unitSize v * c < v.fsize * v.ss := by
  unfold unitSize
  rcases kinds hg with h | h | h
  · exact absurd h ht
  · rw [if_pos h]; have := size16 hg h hc; omega
  · rw [if_neg (by omega)]; have := size32 hg h hc; omega

theorem unit_dvd {v : Vol} (hg : Geo v) : v.ss % unitSize v = 0 ∧ 0 < unitSize v := by
  have := hg.ss.1
  unfold unitSize
  split <;> omega

/-- The next entry is in the next sector exactly if its offset is 0. -/
theorem next_sector {ss m c : Nat} (h0 : 0 < ss) (hm : ss % m = 0) (hp : 0 < m) :
    (m * c % ss + m) % ss = m * (c + 1) % ss ∧ (m * (c + 1) % ss ≠ 0 → m * (c + 1) / ss = m * c / ss) ∧ (m * (c + 1) % ss = 0 → m * (c + 1) / ss = m * c / ss + 1) := by
  obtain ⟨q, rfl⟩ := Nat.dvd_of_mod_eq_zero hm
  have hq : 0 < q := Nat.pos_of_mul_pos_left h0
  have e1 : m * c % (m * q) = m * (c % q) := Nat.mul_mod_mul_left ..
  have e2 : m * (c + 1) % (m * q) = m * ((c + 1) % q) := Nat.mul_mod_mul_left ..
  have e3 : m * c / (m * q) = c / q := Nat.mul_div_mul_left _ _ hp
  have e4 : m * (c + 1) / (m * q) = (c + 1) / q := Nat.mul_div_mul_left _ _ hp
  refine ⟨by rw [Nat.mod_add_mod, Nat.mul_add, Nat.mul_one], ?_, ?_⟩
  · rw [e2, e3, e4]
    intro h
    have h : (c + 1) % q ≠ 0 := fun hx => h (by rw [hx]; rfl)
    rw [Nat.succ_div_of_mod_ne_zero h]
  · rw [e2, e3, e4]
    intro h
    have h : (c + 1) % q = 0 := (Nat.mul_eq_zero.mp h).resolve_left (by omega)
    exact Nat.succ_div_of_mod_eq_zero h

theorem scan_spec {v : Vol} (hg : Geo v) (ht : v.fsType ≠ 1) : ∀ (k : Nat) {s : St} (c n : Nat), Inv v s → c + k = v.nFatent → n = zeros (tab v s) c →
    ∀ sect, (unitSize v * c % v.ss = 0 → sect = v.fatbase + unitSize v * c / v.ss) → (unitSize v * c % v.ss ≠ 0 → s.winsect = some (v.fatbase + unitSize v * c / v.ss) ∧ sect = v.fatbase + unitSize v * c / v.ss + 1) →
    Quiet v s (scan v k s sect (unitSize v * c % v.ss) n).st ∧
    ((scan v k s sect (unitSize v * c % v.ss) n).res = FR_DISK_ERR ∧ ¬ Sound v ∨
     (scan v k s sect (unitSize v * c % v.ss) n).res = FR_OK ∧ (scan v k s sect (unitSize v * c % v.ss) n).nfree = zeros (tab v s) v.nFatent) := by
  intro k
  induction k with
  | zero =>
    intro s c n hi hk hn sect _ _
    refine ⟨.refl hi, .inr ⟨rfl, ?_⟩⟩
    rw [← show c = v.nFatent by omega]
    exact hn
  | succ k ih =>
    intro s c n hi hk hn sect hz hnz
    have hc : c < v.nFatent := by omega
    have hf := fat1_not2 (sector_fat1 hg (unit_fits hg ht hc))
    obtain ⟨q, hm⟩ : Quiet v s (scanMove v s sect (unitSize v * c % v.ss)).1 ∧ ((scanMove v s sect (unitSize v * c % v.ss)).2 = FR_DISK_ERR ∧ ¬ Sound v ∨
        (scanMove v s sect (unitSize v * c % v.ss)).2 = FR_OK ∧ (scanMove v s sect (unitSize v * c % v.ss)).1.winsect = some (v.fatbase + unitSize v * c / v.ss)) := by
      unfold scanMove
      by_cases h0 : unitSize v * c % v.ss = 0
      · rw [if_pos h0, hz h0]
        obtain ⟨a, b, c', d, e⟩ := move_spec hg hi hf
        exact ⟨⟨a, b, c', e⟩, d.symm⟩
      · rw [if_neg h0]
        exact ⟨.refl hi, .inr ⟨rfl, (hnz h0).1⟩⟩
    rw [scan]
    rcases hm with ⟨hm, hns⟩ | ⟨hm, hw⟩
    · rw [if_neg (by rw [hm]; decide), hm]
      exact ⟨q, .inl ⟨rfl, hns⟩⟩
    rw [if_pos hm]
    generalize (scanMove v s sect (unitSize v * c % v.ss)).1 = s1 at q hw
    have hwin : s1.win = view s (v.fatbase + unitSize v * c / v.ss) := by
      rw [← q.same _ hf]
      unfold view
      rw [if_pos hw]
    rw [entry_at hg hi ht hc hwin]
    simp only
    obtain ⟨hd, hp⟩ := unit_dvd hg
    obtain ⟨n1, n2, n3⟩ := next_sector (c := c) hg.ss.2 hd hp
    rw [show (if v.fsType = 2 then 2 else 4) = unitSize v from rfl, n1]
    have hsect : (if unitSize v * c % v.ss = 0 then sect + 1 else sect) = v.fatbase + unitSize v * c / v.ss + 1 := by
      by_cases h0 : unitSize v * c % v.ss = 0
      · rw [if_pos h0, hz h0]
      · rw [if_neg h0, (hnz h0).2]
    obtain ⟨q2, h⟩ := ih (c + 1) (if tab v s c = 0 then n + 1 else n) q.inv (by omega) (by
      rw [tab_same q.same, zeros, ← hn]
      by_cases h0 : tab v s c = 0
      · rw [if_pos h0, if_pos h0]
      · rw [if_neg h0, if_neg h0]; rfl) (if unitSize v * c % v.ss = 0 then sect + 1 else sect) (fun h => by rw [hsect, n3 h]; omega) (fun h => by rw [hsect, n2 h]; exact ⟨hw, rfl⟩)
    rw [tab_same q.same] at h
    exact ⟨q.trans q2, h⟩

theorem countFree_spec {v : Vol} (hg : Geo v) {s : St} (hi : Inv v s) (hz : v.fsType ≠ 1 → tab v s 0 ≠ 0 ∧ tab v s 1 ≠ 0) :
    Quiet v s (countFree v s).st ∧
    ((countFree v s).res = FR_DISK_ERR ∧ ¬ Sound v ∨ v.fsType = 1 ∧ (countFree v s).res = FR_INT_ERR ∧ (∃ c, 2 ≤ c ∧ c < v.nFatent ∧ tab v s c = 1) ∨
     (countFree v s).res = FR_OK ∧ (countFree v s).nfree = freeCount (tab v s) v.nFatent) := by
  have hp := hg.pos
  unfold countFree
  split
  · rename_i ht
    obtain ⟨q, h⟩ := count12_spec hg (v.nFatent - 2) 2 0 hi (by omega) (by omega) (by simp [freeCount])
    refine ⟨q, ?_⟩
    rcases h with h | h | h
    · exact .inl h
    · exact .inr (.inl ⟨ht, h⟩)
    · exact .inr (.inr h)
  · rename_i ht
    obtain ⟨q, h⟩ := scan_spec hg ht v.nFatent 0 0 hi (by omega) rfl v.fatbase (fun _ => by simp) (fun h => by simp at h)
    rw [Nat.mul_zero, Nat.zero_mod] at q h
    refine ⟨q, ?_⟩
    rcases h with h | ⟨h, h'⟩
    · exact .inl h
    · exact .inr (.inr ⟨h, by rw [h', zeros_free _ (hz ht).1 (hz ht).2]⟩)

end Fpm.Statfs
