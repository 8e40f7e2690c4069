import Verif.Mkfs.TableLemmas
/-! # What is on the device after the transfers -/
namespace Fpm.Mkfs
open Fpm.Fat Fpm.FatFile Fpm.Mount Fpm.Mount.Spec Fpm.Mkfs.Spec

/-- Transfers to sectors from `a` to `b` only. -/
structure Within (v : Vol) (a b : Nat) (s t : St) : Prop where
  out : ∀ m, m < a ∨ b ≤ m → t.disk m = s.disk m
  dev : Dev v.ss v.io s → Dev v.ss v.io t

theorem Within.refl {v : Vol} {a b : Nat} (s : St) : Within v a b s s := ⟨fun _ _ => rfl, id⟩

theorem Within.trans {v : Vol} {a b a' b' c d : Nat} {s t u : St} (h1 : Within v a b s t) (h2 : Within v a' b' t u) (ha : c ≤ a ∨ b ≤ a) (hb : b ≤ d ∨ b ≤ a) (ha' : c ≤ a' ∨ b' ≤ a') (hb' : b' ≤ d ∨ b' ≤ a') : Within v c d s u :=
  ⟨fun m hm => by rw [h2.out m (by omega), h1.out m (by omega)], fun hd => h2.dev (h1.dev hd)⟩

/-- A sector of bytes. -/
def SecOk (ss : Nat) (b : List Nat) : Prop := b.length = ss ∧ ∀ x ∈ b, x < 256

theorem dev_upd {ss : Nat} {io : Nat → Io} {s t : St} (hd : Dev ss io s) {n : Nat} {b : List Nat} (hb : SecOk ss b) (hw : t.win = s.win) (e : t.disk = upd s.disk n b) : Dev ss io t := by
  refine ⟨hd.kind, fun m => ?_, by rw [hw]; exact hd.win, hd.junk⟩
  rw [e]
  unfold upd
  split
  · exact hb
  · exact hd.disk m

theorem write_in (v : Vol) (s : St) (n : Nat) {b : List Nat} (hb : SecOk v.ss b) : Within v n (n + 1) s (diskWrite v s n b).1 := by
  unfold diskWrite
  cases h : v.io s.cnt with
  | ok =>
    refine ⟨fun m hm => ?_, fun hd => dev_upd hd hb rfl rfl⟩
    simp only [upd]
    rw [if_neg (by omega)]
  | fail junk =>
    refine ⟨fun m hm => ?_, fun hd => dev_upd hd (hd.junk _ _ h) rfl rfl⟩
    simp only [upd]
    rw [if_neg (by omega)]

theorem write_at {v : Vol} {s : St} {n : Nat} {b : List Nat} (h : (diskWrite v s n b).2 = true) : (diskWrite v s n b).1.disk n = b := by
  unfold diskWrite at h ⊢
  cases hi : v.io s.cnt with
  | ok => exact if_pos rfl
  | fail junk =>
    rw [hi] at h
    cases h

theorem write_sound {v : Vol} (hs : Fat.Spec.Sound v) (s : St) (n : Nat) (b : List Nat) : (diskWrite v s n b).2 = true := by
  unfold diskWrite
  rw [hs]

theorem secOk_drop {ss k : Nat} {b : List Nat} (hl : b.length = (k + 1) * ss) (hb : ∀ x ∈ b, x < 256) : SecOk ss (b.take ss) ∧ (b.drop ss).length = k * ss ∧ ∀ x ∈ b.drop ss, x < 256 := by
  rw [Nat.add_mul] at hl
  refine ⟨⟨?_, fun x hx => hb x (List.mem_of_mem_take hx)⟩, ?_, fun x hx => hb x (List.mem_of_mem_drop hx)⟩
  · rw [List.length_take]
    omega
  · rw [List.length_drop]
    omega

theorem writeN_in (v : Vol) : ∀ (k : Nat) (s : St) (n : Nat) (b : List Nat) (j : Nat), b.length = (k + j) * v.ss → (∀ x ∈ b, x < 256) → Within v n (n + k) s (diskWriteN v s n b k).1
  | 0, s, n, b, _, _, _ => Within.refl s
  | k + 1, s, n, b, j, hl, hb => by
    obtain ⟨h1, h2, h3⟩ := secOk_drop (k := k + j) (by rw [hl, Nat.add_right_comm]) hb
    unfold diskWriteN
    exact (write_in v s n h1).trans (writeN_in v k _ (n + 1) (b.drop v.ss) j h2 h3) (.inl (by omega)) (.inl (by omega)) (.inl (by omega)) (.inl (by omega))

theorem writeN_at (v : Vol) : ∀ (k : Nat) (s : St) (n : Nat) (b : List Nat) (j : Nat), b.length = (k + j) * v.ss → (∀ x ∈ b, x < 256) → (diskWriteN v s n b k).2 = true → ∀ m, m < k → (diskWriteN v s n b k).1.disk (n + m) = (b.drop (m * v.ss)).take v.ss
  | 0, _, _, _, _, _, _, _, _, hm => absurd hm (Nat.not_lt_zero _)
  | k + 1, s, n, b, j, hl, hb, hk, m, hm => by
    obtain ⟨h1, h2, h3⟩ := secOk_drop (k := k + j) (by rw [hl, Nat.add_right_comm]) hb
    unfold diskWriteN at hk ⊢
    rw [Bool.and_eq_true] at hk
    cases m with
    | zero =>
      rw [(writeN_in v k _ (n + 1) (b.drop v.ss) j h2 h3).out _ (by omega), Nat.add_zero, write_at hk.1, Nat.zero_mul, List.drop_zero]
    | succ m =>
      have h4 := writeN_at v k _ (n + 1) (b.drop v.ss) j h2 h3 hk.2 m (by omega)
      rw [show n + (m + 1) = n + 1 + m by omega, h4, List.drop_drop, Nat.add_mul, Nat.one_mul, Nat.add_comm]

theorem writeN_sound {v : Vol} (hs : Fat.Spec.Sound v) : ∀ (k : Nat) (s : St) (n : Nat) (b : List Nat), (diskWriteN v s n b k).2 = true
  | 0, _, _, _ => rfl
  | k + 1, s, n, b => by
    unfold diskWriteN
    rw [write_sound hs, writeN_sound hs k]
    rfl

theorem take_zero {n k ss : Nat} (h : (k + 1) * ss ≤ n) : ((List.replicate n 0).drop (k * ss)).take ss = List.replicate ss 0 := by
  rw [Nat.add_mul] at h
  rw [List.drop_replicate, List.take_replicate, Nat.min_eq_left (by omega)]

theorem fill_in (v : Vol) {z : Nat} (hz : 0 < z) : ∀ (k : Nat) (s : St) (n : Nat) (b r : List Nat) (c : Nat), c < k → b.length = z * v.ss → (∀ x ∈ b, x < 256) → r.length = z * v.ss → (∀ x ∈ r, x < 256) →
    Within v n (n + c) s (fill v z k s n b r c).1 ∧ ((fill v z k s n b r c).2 = FR_OK ∨ (fill v z k s n b r c).2 = FR_DISK_ERR)
  | 0, _, _, _, _, _, h, _, _, _, _ => absurd h (Nat.not_lt_zero _)
  | k + 1, s, n, b, r, c, h, hb, hb', hr, hr' => by
    have hm : min c z ≤ z := Nat.min_le_right _ _
    have hm' : min c z ≤ c := Nat.min_le_left _ _
    have hl : b.length = (min c z + (z - min c z)) * v.ss := by rw [hb, Nat.add_sub_cancel' hm]
    have h1 := writeN_in v (min c z) s n b _ hl hb'
    have h2 : Within v n (n + c) s (diskWriteN v s n b (min c z)).1 := h1.trans (.refl _) (c := n) (d := n + c) (a' := n) (b' := n) (.inl (Nat.le_refl _)) (.inl (by omega)) (.inl (Nat.le_refl _)) (.inl (by omega))
    unfold fill
    split
    · split
      · exact ⟨h2, .inl rfl⟩
      · rename_i hc
        have h3 := fill_in v hz k (diskWriteN v s n b (min c z)).1 (n + min c z) r r (c - min c z) (by omega) hr hr' hr hr'
        exact ⟨h1.trans h3.1 (.inl (by omega)) (.inl (by omega)) (.inl (by omega)) (.inl (by omega)), h3.2⟩
    · exact ⟨h2, .inr rfl⟩

theorem fill_at (v : Vol) {z : Nat} (hz : 0 < z) : ∀ (k : Nat) (s : St) (n : Nat) (b : List Nat) (c : Nat), c < k → b.length = z * v.ss → (∀ x ∈ b, x < 256) →
    (fill v z k s n b (List.replicate (z * v.ss) 0) c).2 = FR_OK → b.drop v.ss = List.replicate ((z - 1) * v.ss) 0 →
    ∀ m, m < c → (fill v z k s n b (List.replicate (z * v.ss) 0) c).1.disk (n + m) = if m = 0 then b.take v.ss else List.replicate v.ss 0
  | 0, _, _, _, _, h, _, _, _, _ => absurd h (Nat.not_lt_zero _)
  | k + 1, s, n, b, c, h, hb, hb', hk, ht => by
    intro m hm
    have hle : min c z ≤ z := Nat.min_le_right _ _
    have hl : b.length = (min c z + (z - min c z)) * v.ss := by rw [hb, Nat.add_sub_cancel' hle]
    have hsec (j : Nat) (hj : j < min c z) (h1 : (diskWriteN v s n b (min c z)).2 = true) : (diskWriteN v s n b (min c z)).1.disk (n + j) = if j = 0 then b.take v.ss else List.replicate v.ss 0 := by
      rw [writeN_at v (min c z) s n b _ hl hb' h1 j hj]
      cases j with
      | zero => rw [if_pos rfl, Nat.zero_mul, List.drop_zero]
      | succ j =>
        rw [if_neg (by omega), Nat.add_mul, Nat.one_mul, Nat.add_comm, ← List.drop_drop, ht]
        exact take_zero (Nat.mul_le_mul_right _ (by omega))
    unfold fill at hk ⊢
    split at hk
    · rename_i h1
      rw [if_pos h1]
      split at hk
      · rename_i h2
        rw [if_pos h2]
        exact hsec m (by omega) h1
      · rename_i h2
        rw [if_neg h2]
        have hr : (List.replicate (z * v.ss) 0).length = z * v.ss := List.length_replicate
        by_cases hmin : m < min c z
        · rw [(fill_in v hz k (diskWriteN v s n b (min c z)).1 (n + min c z) _ _ (c - min c z) (by omega) hr (zero_byte _) hr (zero_byte _)).1.out _ (by omega)]
          exact hsec m hmin h1
        · have h3 := fill_at v hz k (diskWriteN v s n b (min c z)).1 (n + min c z) _ (c - min c z) (by omega) hr (zero_byte _) hk
            (by rw [List.drop_replicate, Nat.sub_mul, Nat.one_mul]) (m - min c z) (by omega)
          rw [show n + min c z + (m - min c z) = n + m by omega] at h3
          rw [h3, if_neg (by omega : ¬ m = 0)]
          split
          · have := take_zero (n := z * v.ss) (k := 0) (ss := v.ss) (Nat.mul_le_mul_right _ (by omega))
            rw [Nat.zero_mul, List.drop_zero] at this
            exact this
          · rfl
    · cases hk

theorem fill_sound {v : Vol} (hs : Fat.Spec.Sound v) {z : Nat} (hz : 0 < z) : ∀ (k : Nat) (s : St) (n : Nat) (b r : List Nat) (c : Nat), c < k → (fill v z k s n b r c).2 = FR_OK
  | 0, _, _, _, _, _, h => absurd h (Nat.not_lt_zero _)
  | k + 1, s, n, b, r, c, h => by
    unfold fill
    rw [if_pos (writeN_sound hs _ _ _ _)]
    split
    · rfl
    · exact fill_sound hs hz k _ _ _ _ _ (by omega)

end Fpm.Mkfs
