import Verif.Fat.ChainLemmas
/-!
# `remove_chain` on the table
-/
namespace Fpm.Fat
open Fpm.Fat.Spec

theorem oneMore_inv {v : Vol} {s : St} (h : Inv v s) : Inv v (oneMore v s) := by
  unfold oneMore
  split
  · exact ⟨h.disk, h.win, h.clean, h.dirty, h.fat2⟩
  · exact h

theorem oneMore_view (v : Vol) (s : St) : view (oneMore v s) = view s := by
  unfold oneMore
  split <;> rfl

theorem oneMore_tab (v : Vol) (s : St) : tab v (oneMore v s) = tab v s := by
  unfold tab
  rw [oneMore_view]

theorem oneMore_out {v : Vol} {s t : St} (h : Out v s t) : Out v s (oneMore v t) := by
  intro n h1 h2
  rw [oneMore_view]
  exact h n h1 h2

theorem oneMore_safe {v : Vol} {Q : (Nat → Nat) → Prop} {s t : St} (h : Safe v Q s t) : Safe v Q s (oneMore v t) := by
  unfold oneMore
  split <;> exact h

/-- One cluster more is free. -/
theorem oneMore_count {v : Vol} {s t : St} {c : Nat} (h2 : 2 ≤ c) (hc : c < v.nFatent) (hf : t.freeClst = s.freeClst) (h1 : tab v s c ≠ 0) (h0 : tab v t c = 0)
    (ho : ∀ x, x ≠ c → x < v.nFatent → tab v t x = tab v s x) (hk : CountOk v s) : CountOk v (oneMore v t) := by
  have e := count_less h2 h0 h1 hc fun x hx hn => (ho x hx hn).symm
  have hlt := count_lt h2 hc h1
  unfold CountOk at hk ⊢
  rw [oneMore_tab]
  unfold oneMore
  rw [hf]
  by_cases h : s.freeClst < v.nFatent - 2
  · rw [if_pos h]
    intro _
    have := hk (by omega)
    simp only
    omega
  · rw [if_neg h, hf]
    intro h'
    have := hk h'
    omega

/-- Removing a chain. -/
theorem removeLoop_spec {v : Vol} (hg : Geo v) : ∀ (m : List Nat) (k : Nat) {s : St} {c : Nat}, Inv v s → Links v.nFatent (tab v s) (c :: m) → (c :: m).Nodup → m.length < k →
    ∃ s' r, removeLoop v k s c = (s', r) ∧ Inv v s' ∧ Out v s s' ∧ (∀ x, x ∉ c :: m → x < v.nFatent → tab v s' x = tab v s x) ∧
      (∀ Q : (Nat → Nat) → Prop, (∀ pre suf f, c :: m = pre ++ suf → (∀ x ∈ pre, f x = 0) → (∀ x, x ∉ pre → x < v.nFatent → f x = tab v s x) → Q f) →
        Sound v → (∀ c, 2 ≤ c → c < v.nFatent → ¬ Straddle v c) → Safe v Q s s') ∧
      (r = FR_OK ∧ (∀ x ∈ c :: m, tab v s' x = 0) ∧ (CountOk v s → CountOk v s') ∨ r = FR_DISK_ERR ∧ ¬ Sound v)
  | _, 0, _, _, _, _, _, h => absurd h (by omega)
  | m, k + 1, s, c, hi, hl, hnd, hk => by
    rw [removeLoop.eq_def]
    simp only
    have hr := links_mem hl c (by simp)
    have hu := links_used hl c (by simp)
    have hlt := tab_lt v s c
    obtain ⟨s1, r1, e1, i1, sm1, rr1, tr1, hr1⟩ := get_step hg hi hr.1 hr.2
    unfold withFat
    rw [e1]
    simp only
    rcases hr1 with rfl | ⟨rfl, ns⟩
    rotate_left
    · rw [if_neg (by decide), if_neg (by decide), if_neg (by decide), if_pos rfl]
      exact ⟨s1, _, rfl, i1, sm1.out, fun x _ _ => by rw [tab_same sm1], fun Q _ hs => absurd hs ns, .inr ⟨rfl, ns⟩⟩
    rw [if_neg (by unfold UB; omega), if_neg (by omega), if_neg (by omega), if_neg (by unfold DERR; omega)]
    obtain ⟨s2, r2, e2, i2, rr2, o2, ot2, tr2, hr2⟩ := put_step hg i1 0 hr.1 hr.2
    rw [tab_same sm1] at ot2 tr2
    unfold withPut
    rw [e2]
    simp only
    have crash2 : ∀ Q : (Nat → Nat) → Prop, (∀ pre suf f, c :: m = pre ++ suf → (∀ x ∈ pre, f x = 0) → (∀ x, x ∉ pre → x < v.nFatent → f x = tab v s x) → Q f) →
        Sound v → (∀ c, 2 ≤ c → c < v.nFatent → ¬ Straddle v c) → Safe v Q s s2 := by
      intro Q hq hs hst
      have h0 : Q (tab v s) := hq [] (c :: m) _ rfl (fun x hx => by cases hx) fun _ _ _ => rfl
      exact (tr1 Q h0 hs).trans (tr2 Q h0 hs (hst c hr.1 hr.2))
    rcases hr2 with ⟨rfl, ht2⟩ | ⟨rfl, ns⟩
    rotate_left
    · rw [if_neg (by decide)]
      exact ⟨s2, _, rfl, i2, sm1.out.trans o2, fun x hx hn => ot2 x (by rintro rfl; simp at hx) hn, fun Q _ hs => absurd hs ns, .inr ⟨rfl, ns⟩⟩
    rw [if_pos rfl]
    rw [Nat.zero_mod] at ht2
    have hcount : CountOk v s → CountOk v (oneMore v s2) := oneMore_count hr.1 hr.2 (rr2.2.1.trans rr1.2.1) (by omega) ht2 ot2
    cases m with
    | nil =>
      have hlast : v.nFatent ≤ tab v s c := hl.2.2
      rw [if_neg (by omega)]
      refine ⟨_, _, rfl, oneMore_inv i2, oneMore_out (sm1.out.trans o2), fun x hx hn => ?_, fun Q hq hs hst => oneMore_safe (crash2 Q hq hs hst), .inl ⟨rfl, fun x hx => ?_, hcount⟩⟩
      · rw [oneMore_tab]
        exact ot2 x (by rintro rfl; simp at hx) hn
      · rw [List.mem_singleton] at hx
        rw [oneMore_tab, hx]
        exact ht2
    | cons d m =>
      have hd : tab v s c = d := hl.2.2.1
      have hdr := links_mem hl d (by simp)
      rw [hd, if_pos hdr.2]
      have hnd' := (List.nodup_cons.mp hnd)
      have hl' : Links v.nFatent (tab v (oneMore v s2)) (d :: m) := by
        rw [oneMore_tab]
        refine links_congr hl.2.2.2 fun x hx => ot2 x ?_ (links_mem hl.2.2.2 x hx).2
        rintro rfl
        exact hnd'.1 hx
      obtain ⟨s3, r3, e3, i3, o3, ot3, cr3, hr3⟩ := removeLoop_spec hg m k (oneMore_inv i2) hl' hnd'.2 (by simp at hk; omega)
      rw [oneMore_tab] at ot3 cr3
      refine ⟨s3, r3, e3, i3, (oneMore_out (sm1.out.trans o2)).trans o3, fun x hx hn => ?_, fun Q hq hs hst => ?_, ?_⟩
      · rw [List.mem_cons, not_or] at hx
        exact (ot3 x hx.2 hn).trans (ot2 x hx.1 hn)
      · refine (oneMore_safe (crash2 Q hq hs hst)).trans (cr3 Q (fun pre suf f hps h0 hf => ?_) hs hst)
        by_cases hcp : c ∈ pre
        · refine hq (c :: pre) suf f (by rw [hps]; rfl) (fun x hx => ?_) (fun x hx hn => ?_)
          · rcases List.mem_cons.mp hx with rfl | hx
            · exact h0 x hcp
            · exact h0 x hx
          · rw [List.mem_cons, not_or] at hx
            exact (hf x hx.2 hn).trans (ot2 x hx.1 hn)
        · refine hq (c :: pre) suf f (by rw [hps]; rfl) (fun x hx => ?_) (fun x hx hn => ?_)
          · rcases List.mem_cons.mp hx with rfl | hx
            · rw [hf x hcp hr.2]
              exact ht2
            · exact h0 x hx
          · rw [List.mem_cons, not_or] at hx
            exact (hf x hx.2 hn).trans (ot2 x hx.1 hn)
      · rcases hr3 with ⟨rfl, hz, hck⟩ | h
        · refine .inl ⟨rfl, fun x hx => ?_, fun h => hck (hcount h)⟩
          rcases List.mem_cons.mp hx with rfl | hx
          · rw [ot3 x hnd'.1 hr.2]
            exact ht2
          · exact hz x hx
        · exact .inr h

/-- The loop ends for every table. -/
theorem removeLoop_any {v : Vol} (hg : Geo v) : ∀ (k : Nat) {s : St} {c : Nat}, Inv v s → 2 ≤ c → c < v.nFatent → v.nFatent - 2 - freeCount (tab v s) v.nFatent < k →
    ∃ s' r, removeLoop v k s c = (s', r) ∧ Inv v s' ∧ Out v s s' ∧ (Sound v → ∀ x, x < v.nFatent → tab v s' x = tab v s x ∨ tab v s' x = 0) ∧
      (r = FR_OK ∨ r = FR_INT_ERR ∧ (∃ x, 2 ≤ x ∧ x < v.nFatent ∧ tab v s x = 1) ∨ r = FR_DISK_ERR ∧ ¬ Sound v)
  | 0, _, _, _, _, _, h => absurd h (by omega)
  | k + 1, s, c, hi, c2, cn, hk => by
    rw [removeLoop.eq_def]
    simp only
    have hlt := tab_lt v s c
    obtain ⟨s1, r1, e1, i1, sm1, rr1, tr1, hr1⟩ := get_step hg hi c2 cn
    unfold withFat
    rw [e1]
    simp only
    rcases hr1 with rfl | ⟨rfl, ns⟩
    rotate_left
    · rw [if_neg (by decide), if_neg (by decide), if_neg (by decide), if_pos rfl]
      exact ⟨s1, _, rfl, i1, sm1.out, fun h => absurd h ns, .inr (.inr ⟨rfl, ns⟩)⟩
    rw [if_neg (by unfold UB; omega)]
    by_cases h0 : tab v s c = 0
    · rw [if_pos h0]
      exact ⟨s1, _, rfl, i1, sm1.out, fun _ x _ => .inl (by rw [tab_same sm1]), .inl rfl⟩
    rw [if_neg h0]
    by_cases h1 : tab v s c = 1
    · rw [if_pos h1]
      exact ⟨s1, _, rfl, i1, sm1.out, fun _ x _ => .inl (by rw [tab_same sm1]), .inr (.inl ⟨rfl, c, c2, cn, h1⟩)⟩
    rw [if_neg h1, if_neg (by unfold DERR; omega)]
    obtain ⟨s2, r2, e2, i2, rr2, o2, ot2, tr2, hr2⟩ := put_step hg i1 0 c2 cn
    rw [tab_same sm1] at ot2
    unfold withPut
    rw [e2]
    simp only
    rcases hr2 with ⟨rfl, ht2⟩ | ⟨rfl, ns⟩
    rotate_left
    · rw [if_neg (by decide)]
      exact ⟨s2, _, rfl, i2, sm1.out.trans o2, fun h => absurd h ns, .inr (.inr ⟨rfl, ns⟩)⟩
    rw [if_pos rfl]
    rw [Nat.zero_mod] at ht2
    have chg : ∀ x, x < v.nFatent → tab v s2 x = tab v s x ∨ tab v s2 x = 0 := by
      intro x hx
      by_cases hxc : x = c
      · subst hxc; exact .inr ht2
      · exact .inl (ot2 x hxc hx)
    by_cases hn : tab v s c < v.nFatent
    · rw [if_pos hn]
      have hcnt := count_less c2 ht2 h0 cn fun x hx hxn => (ot2 x hx hxn).symm
      obtain ⟨s3, r3, e3, i3, o3, ot3, hr3⟩ := removeLoop_any hg k (s := oneMore v s2) (c := tab v s c) (oneMore_inv i2) (by omega) hn (by rw [oneMore_tab]; have := count_lt c2 cn h0; omega)
      rw [oneMore_tab] at ot3 hr3
      refine ⟨s3, r3, e3, i3, (oneMore_out (sm1.out.trans o2)).trans o3, fun hs x hx => ?_, ?_⟩
      · rcases ot3 hs x hx with h | h
        · rw [h]; exact chg x hx
        · exact .inr h
      · rcases hr3 with h | ⟨h, x, x2, xn, hx⟩ | h
        · exact .inl h
        · refine .inr (.inl ⟨h, x, x2, xn, ?_⟩)
          rcases chg x xn with h' | h'
          · rw [← h']; exact hx
          · rw [h'] at hx; cases hx
        · exact .inr (.inr h)
    · rw [if_neg hn]
      refine ⟨_, _, rfl, oneMore_inv i2, oneMore_out (sm1.out.trans o2), fun _ x hx => ?_, .inl rfl⟩
      rw [oneMore_tab]
      exact chg x hx

end Fpm.Fat
