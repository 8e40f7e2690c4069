import Verif.Expand.Spec
import Verif.Fat.ChainProps
/-!
# Lemmas about the search for a block and about making the chain
-/
namespace Fpm.Expand
open Fpm.Fat Fpm.Fat.Spec Fpm.FatFile Fpm.Expand.Spec

/-- There is no block of `t` free clusters from `b` on and before `e`. -/
def NoRun (f : Nat → Nat) (b e t : Nat) : Prop := ∀ c, b ≤ c → c + t ≤ e → ¬ ∀ x, c ≤ x → x < c + t → f x = 0

/-- The search between `b` and `clst`: `ncl` free clusters from `scl` on, not enough. -/
structure Seen (f : Nat → Nat) (b t clst scl ncl : Nat) : Prop where
  low : b ≤ scl
  sum : scl + ncl = clst
  free : ∀ x, scl ≤ x → x < clst → f x = 0
  edge : scl = b ∨ f (scl - 1) ≠ 0
  less : ncl < t
  none : NoRun f b clst t

theorem seen_free {f : Nat → Nat} {b t clst scl ncl : Nat} (h : Seen f b t clst scl ncl) (h0 : f clst = 0) (hn : ncl + 1 ≠ t) : Seen f b t (clst + 1) scl (ncl + 1) := by
  have := h.low; have := h.sum; have := h.less
  refine ⟨h.low, by omega, fun x h1 h2 => ?_, h.edge, by omega, fun c h1 h2 h3 => ?_⟩
  · rcases Nat.lt_or_ge x clst with h4 | h4
    · exact h.free x h1 h4
    · rw [show x = clst by omega]; exact h0
  · rcases h.edge with he | he
    · omega
    · have : ¬ (c ≤ scl - 1 ∧ scl - 1 < c + t) := fun hx => he (h3 _ hx.1 hx.2)
      rcases Nat.lt_or_ge (c + t) (clst + 1) with h4 | h4
      · exact h.none c h1 (by omega) h3
      · omega

theorem seen_used {f : Nat → Nat} {b t clst scl ncl : Nat} (h : Seen f b t clst scl ncl) (h0 : f clst ≠ 0) : Seen f b t (clst + 1) (clst + 1) 0 := by
  have := h.low; have := h.sum; have := h.less
  refine ⟨by omega, by omega, fun x h1 h2 => by omega, .inr (by simpa using h0), by omega, fun c h1 h2 h3 => ?_⟩
  rcases Nat.lt_or_ge (c + t) (clst + 1) with h4 | h4
  · exact h.none c h1 (by omega) h3
  · exact h0 (h3 _ (by omega) (by omega))

/-- One round of the search. -/
inductive Round (v : Vol) (stcl t : Nat) (f : Nat → Nat) (k : Nat) (s' : St) (clst scl ncl : Nat) : St × Found → Prop where
  | fail (h : ¬ Sound v) : Round v stcl t f k s' clst scl ncl (s', .ret FR_DISK_ERR)
  | bad (h : f clst = 1) : Round v stcl t f k s' clst scl ncl (s', .ret FR_INT_ERR)
  | hit (h : f clst = 0) (ht : ncl + 1 = t) : Round v stcl t f k s' clst scl ncl (s', .hit scl)
  | freeEnd (h : f clst = 0) (ht : ncl + 1 ≠ t) (he : nextClst v clst = stcl) : Round v stcl t f k s' clst scl ncl (s', .ret FatFile.FR_DENIED)
  | free (h : f clst = 0) (ht : ncl + 1 ≠ t) (he : nextClst v clst ≠ stcl) : Round v stcl t f k s' clst scl ncl (findBlock v stcl t k s' (nextClst v clst) scl (ncl + 1))
  | usedEnd (h : f clst ≠ 0) (he : nextClst v clst = stcl) : Round v stcl t f k s' clst scl ncl (s', .ret FatFile.FR_DENIED)
  | used (h : f clst ≠ 0) (he : nextClst v clst ≠ stcl) : Round v stcl t f k s' clst scl ncl (findBlock v stcl t k s' (nextClst v clst) (nextClst v clst) 0)

theorem round {v : Vol} (hg : Geo v) {s : St} (hi : Inv v s) {clst : Nat} (h2 : 2 ≤ clst) (hc : clst < v.nFatent) (stcl t k scl ncl : Nat) :
    ∃ s', Inv v s' ∧ Same v s s' ∧ Rest s s' ∧ Round v stcl t (tab v s) k s' clst scl ncl (findBlock v stcl t (k + 1) s clst scl ncl) := by
  obtain ⟨s', r, h, i, sm, rr, -, hr⟩ := get_step hg hi h2 hc
  refine ⟨s', i, sm, rr, ?_⟩
  rw [findBlock.eq_def]
  simp only [h]
  rcases hr with rfl | ⟨rfl, ns⟩
  · have hlt := tab_lt v s clst
    rw [if_neg (by unfold UB; omega)]
    by_cases h1 : tab v s clst = 1
    · rw [if_pos h1]; exact .bad h1
    rw [if_neg h1, if_neg (by unfold DERR; omega)]
    by_cases h0 : tab v s clst = 0
    · rw [if_pos h0]
      by_cases ht : ncl + 1 = t
      · rw [if_pos ht]; exact .hit h0 ht
      rw [if_neg ht]
      by_cases he : nextClst v clst = stcl
      · rw [if_pos he]; exact .freeEnd h0 ht he
      · rw [if_neg he]; exact .free h0 ht he
    · rw [if_neg h0]
      by_cases he : nextClst v clst = stcl
      · rw [if_pos he]; exact .usedEnd h0 he
      · rw [if_neg he]; exact .used h0 he
  · rw [if_neg (by decide), if_neg (by decide), if_pos rfl]
    exact .fail ns

/-- What the search finds; `over` is a block that goes on at cluster 2 behind the last cluster. -/
inductive Search (v : Vol) (f : Nat → Nat) (stcl t : Nat) : Found → Prop where
  | hit (c : Nat) (h : Block v.nFatent f c t) : Search v f stcl t (.hit c)
  | over (c : Nat) (h2 : 2 < stcl) (hc : stcl ≤ c) (hn : c < v.nFatent) (ht : v.nFatent < c + t) (hf : ∀ x, c ≤ x → x < v.nFatent → f x = 0) (h0 : f 2 = 0) : Search v f stcl t (.hit c)
  | none (h1 : NoRun f stcl v.nFatent t) (h2 : NoRun f 2 stcl t) : Search v f stcl t (.ret FatFile.FR_DENIED)
  | bad (c : Nat) (h2 : 2 ≤ c) (hc : c < v.nFatent) (h : f c = 1) : Search v f stcl t (.ret FR_INT_ERR)
  | fail (h : ¬ Sound v) : Search v f stcl t (.ret FR_DISK_ERR)

/-- Outcome of the search. -/
def Ends (v : Vol) (stcl t : Nat) (s : St) (p : St × Found) : Prop := Inv v p.1 ∧ Same v s p.1 ∧ Rest s p.1 ∧ Search v (tab v s) stcl t p.2

theorem Ends.after {v : Vol} {stcl t : Nat} {s s' : St} {p : St × Found} (sm : Same v s s') (rr : Rest s s') (h : Ends v stcl t s' p) : Ends v stcl t s p := by
  obtain ⟨h1, h2, h3, h4⟩ := h
  rw [tab_same sm] at h4
  exact ⟨h1, sm.trans h2, rr.trans h3, h4⟩

theorem next_small {v : Vol} {c : Nat} (h : c + 1 < v.nFatent) : nextClst v c = c + 1 := by
  unfold nextClst
  rw [if_neg (by omega)]

theorem next_last {v : Vol} {c : Nat} (h : c + 1 ≥ v.nFatent) : nextClst v c = 2 := by
  unfold nextClst
  rw [if_pos h]

/-- Behind the start again, with a run that began there. -/
theorem search_low {v : Vol} (hg : Geo v) {stcl t : Nat} (hst : stcl < v.nFatent) : ∀ (k : Nat) {s : St} {clst scl ncl : Nat}, Inv v s → 2 ≤ clst → clst < stcl → stcl - clst ≤ k →
    NoRun (tab v s) stcl v.nFatent t → Seen (tab v s) 2 t clst scl ncl → Ends v stcl t s (findBlock v stcl t k s clst scl ncl)
  | 0, _, _, _, _, _, _, h, hk, _, _ => absurd hk (by omega)
  | k + 1, s, clst, scl, ncl, hi, h2, hlt, hk, hno, hs => by
    obtain ⟨s', i, sm, rr, hr⟩ := round hg hi h2 (by omega) stcl t k scl ncl
    have e := next_small (v := v) (c := clst) (by omega)
    generalize hp : findBlock v stcl t (k + 1) s clst scl ncl = p at hr
    have go : ∀ scl' ncl', nextClst v clst ≠ stcl → Seen (tab v s) 2 t (clst + 1) scl' ncl' → Ends v stcl t s (findBlock v stcl t k s' (nextClst v clst) scl' ncl') := by
      intro scl' ncl' hne hs'
      rw [e] at hne ⊢
      exact .after sm rr (search_low hg hst k i (by omega) (by omega) (by omega) (by rw [tab_same sm]; exact hno) (by rw [tab_same sm]; exact hs'))
    cases hr with
    | fail h => exact ⟨i, sm, rr, .fail h⟩
    | bad h => exact ⟨i, sm, rr, .bad clst h2 (by omega) h⟩
    | hit h ht =>
      refine ⟨i, sm, rr, .hit scl ⟨hs.low, ?_, fun x h1 h3 => ?_⟩⟩
      · have := hs.sum; omega
      · have := hs.sum
        rcases Nat.lt_or_ge x clst with h4 | h4
        · exact hs.free x h1 h4
        · rw [show x = clst by omega]; exact h
    | freeEnd h ht he =>
      rw [e] at he
      exact ⟨i, sm, rr, .none hno (by rw [← he]; exact (seen_free hs h ht).none)⟩
    | free h ht he => exact go _ _ he (seen_free hs h ht)
    | usedEnd h he =>
      rw [e] at he
      exact ⟨i, sm, rr, .none hno (by rw [← he]; exact (seen_used hs h).none)⟩
    | used h he =>
      have := go (clst + 1) 0 he (seen_used hs h)
      rw [e] at this ⊢
      exact this

/-- Behind the start again, with a run that began before the last cluster. -/
theorem search_over {v : Vol} (hg : Geo v) {stcl t : Nat} (hst : stcl < v.nFatent) (hst2 : 2 < stcl) : ∀ (k : Nat) {s : St} {clst scl ncl : Nat}, Inv v s → 2 ≤ clst → clst < stcl → stcl - clst ≤ k →
    NoRun (tab v s) stcl v.nFatent t → stcl ≤ scl → scl < v.nFatent → ncl = v.nFatent - scl + (clst - 2) → (∀ x, scl ≤ x → x < v.nFatent → tab v s x = 0) → (∀ x, 2 ≤ x → x < clst → tab v s x = 0) →
    ncl < t → Ends v stcl t s (findBlock v stcl t k s clst scl ncl)
  | 0, _, _, _, _, _, _, h, hk, _, _, _, _, _, _, _ => absurd hk (by omega)
  | k + 1, s, clst, scl, ncl, hi, h2, hlt, hk, hno, hs1, hs2, hn, hf, hf2, hnt => by
    obtain ⟨s', i, sm, rr, hr⟩ := round hg hi h2 (by omega) stcl t k scl ncl
    have e := next_small (v := v) (c := clst) (by omega)
    generalize hp : findBlock v stcl t (k + 1) s clst scl ncl = p at hr
    cases hr with
    | fail h => exact ⟨i, sm, rr, .fail h⟩
    | bad h => exact ⟨i, sm, rr, .bad clst h2 (by omega) h⟩
    | hit h ht =>
      refine ⟨i, sm, rr, .over scl hst2 hs1 hs2 (by omega) hf ?_⟩
      rcases Nat.lt_or_ge 2 clst with h4 | h4
      · exact hf2 2 (by omega) h4
      · rw [show 2 = clst by omega]; exact h
    | freeEnd h ht he =>
      rw [e] at he
      exact ⟨i, sm, rr, .none hno fun c _ _ _ => by omega⟩
    | free h ht he =>
      rw [e] at he ⊢
      refine .after sm rr (search_over hg hst hst2 k i (by omega) (by omega) (by omega) (by rw [tab_same sm]; exact hno) hs1 hs2 (by omega) (by rw [tab_same sm]; exact hf) ?_ (by omega))
      rw [tab_same sm]
      intro x h1 h3
      rcases Nat.lt_or_ge x clst with h4 | h4
      · exact hf2 x h1 h4
      · rw [show x = clst by omega]; exact h
    | usedEnd h he =>
      rw [e] at he
      exact ⟨i, sm, rr, .none hno fun c _ _ _ => by omega⟩
    | used h he =>
      rw [e] at he ⊢
      refine .after sm rr (search_low hg hst k i (by omega) (by omega) (by omega) (by rw [tab_same sm]; exact hno) ?_)
      rw [tab_same sm]
      exact ⟨by omega, by omega, fun x _ _ => by omega, .inr (by simpa using h), by omega, fun c _ _ _ => by omega⟩

/-- From the start up to the last cluster. -/
theorem search_high {v : Vol} (hg : Geo v) {stcl t : Nat} (h2s : 2 ≤ stcl) : ∀ (k : Nat) {s : St} {clst scl ncl : Nat}, Inv v s → stcl ≤ clst → clst < v.nFatent → v.nFatent - clst + (stcl - 2) ≤ k →
    Seen (tab v s) stcl t clst scl ncl → Ends v stcl t s (findBlock v stcl t k s clst scl ncl)
  | 0, _, _, _, _, _, _, h, hk, _ => absurd hk (by omega)
  | k + 1, s, clst, scl, ncl, hi, h2, hlt, hk, hs => by
    obtain ⟨s', i, sm, rr, hr⟩ := round hg hi (by omega) hlt stcl t k scl ncl
    generalize hp : findBlock v stcl t (k + 1) s clst scl ncl = p at hr
    have hno : clst + 1 = v.nFatent → ∀ scl' ncl', Seen (tab v s) stcl t (clst + 1) scl' ncl' → NoRun (tab v s) stcl v.nFatent t := fun he _ _ hs => by rw [← he]; exact hs.none
    have h22 : 0 < t → NoRun (tab v s) 2 2 t := fun ht c _ _ _ => by omega
    have ht0 : 0 < t := by have := hs.less; omega
    have done : nextClst v clst = stcl → ∀ scl' ncl', Seen (tab v s) stcl t (clst + 1) scl' ncl' → Search v (tab v s) stcl t (.ret FatFile.FR_DENIED) := by
      intro he scl' ncl' hs'
      rcases Nat.lt_or_ge (clst + 1) v.nFatent with h3 | h3
      · rw [next_small h3] at he; omega
      · rw [next_last h3] at he
        exact .none (hno (by omega) _ _ hs') (by rw [← he]; exact h22 ht0)
    cases hr with
    | fail h => exact ⟨i, sm, rr, .fail h⟩
    | bad h => exact ⟨i, sm, rr, .bad clst (by omega) hlt h⟩
    | hit h ht =>
      have := hs.sum
      have := hs.low
      refine ⟨i, sm, rr, .hit scl ⟨by omega, by omega, fun x h1 h3 => ?_⟩⟩
      rcases Nat.lt_or_ge x clst with h4 | h4
      · exact hs.free x h1 h4
      · rw [show x = clst by omega]; exact h
    | freeEnd h ht he => exact ⟨i, sm, rr, done he _ _ (seen_free hs h ht)⟩
    | usedEnd h he => exact ⟨i, sm, rr, done he _ _ (seen_used hs h)⟩
    | free h ht he =>
      have hs' := seen_free hs h ht
      refine .after sm rr ?_
      rcases Nat.lt_or_ge (clst + 1) v.nFatent with h3 | h3
      · rw [next_small h3]
        exact search_high hg h2s k i (by omega) h3 (by omega) (by rw [tab_same sm]; exact hs')
      · rw [next_last h3] at he ⊢
        have := hs'.sum
        have := hs.sum
        have := hs.low
        refine search_over hg (by omega) (by omega) k i (by omega) (by omega) (by omega) (by rw [tab_same sm]; exact hno (by omega) _ _ hs') hs.low (by omega) (by omega) ?_ (fun x _ _ => by omega) hs'.less
        rw [tab_same sm]
        exact fun x h1 h4 => hs'.free x h1 (by omega)
    | used h he =>
      have hs' := seen_used hs h
      refine .after sm rr ?_
      rcases Nat.lt_or_ge (clst + 1) v.nFatent with h3 | h3
      · rw [next_small h3]
        exact search_high hg h2s k i (by omega) h3 (by omega) (by rw [tab_same sm]; exact hs')
      · rw [next_last h3] at he ⊢
        refine search_low hg (by omega) k i (by omega) (by omega) (by omega) (by rw [tab_same sm]; exact hno (by omega) _ _ hs') ?_
        exact ⟨by omega, by omega, fun x _ _ => by omega, .inl rfl, ht0, fun c _ _ _ => by omega⟩

/-- The whole search. -/
theorem search_all {v : Vol} (hg : Geo v) {s : St} (hi : Inv v s) {t : Nat} (ht : 0 < t) {stcl : Nat} (h2 : 2 ≤ stcl) (hn : stcl < v.nFatent) :
    Ends v stcl t s (findBlock v stcl t v.nFatent s stcl stcl 0) :=
  search_high hg h2 v.nFatent hi (by omega) hn (by omega) ⟨by omega, by omega, fun x _ _ => by omega, .inl rfl, ht, fun c _ _ _ => by omega⟩

/-! ## Making the chain -/

theorem num_fits_le {v : Vol} (hg : Geo v) {c : Nat} (hc : c ≤ v.nFatent) : c % 2 ^ bits v = c := by
  apply Nat.mod_eq_of_lt
  unfold bits
  rcases hg.kind with h | h | h
  · rw [if_pos h.1]; omega
  · rw [if_neg (by omega), if_pos h.1]; omega
  · rw [if_neg (by omega), if_neg (by omega)]; omega

/-- The result of making a chain of `n` clusters from `c` on: made; stopped behind the last cluster; or the device failed. -/
inductive Made (v : Vol) (n c : Nat) (g : Nat → Nat) : Nat → Prop where
  | ok (h : c + n ≤ v.nFatent) (hg : ∀ x, c ≤ x → x < c + n → (x + 1 < c + n → g x = x + 1) ∧ (x + 1 = c + n → v.nFatent ≤ g x)) : Made v n c g FR_OK
  | over (h : v.nFatent < c + n) (hg : ∀ x, c ≤ x → x < v.nFatent → g x = x + 1) : Made v n c g FR_INT_ERR
  | fail (h : ¬ Sound v) : Made v n c g FR_DISK_ERR

theorem make_spec {v : Vol} (hg : Geo v) : ∀ (n : Nat) {s : St} {c : Nat}, Inv v s → 2 ≤ c → c ≤ v.nFatent →
    ∃ s' r, makeChain v n s c = (s', r) ∧ Inv v s' ∧ Rest s s' ∧ Out v s s' ∧ (∀ x, x < v.nFatent → (x < c ∨ c + n ≤ x) → tab v s' x = tab v s x) ∧ Made v n c (tab v s') r
  | 0, s, c, hi, h2, hc => ⟨s, _, rfl, hi, Rest.refl _, Out.refl _ _, fun _ _ _ => rfl, .ok (by omega) fun x _ _ => by omega⟩
  | n + 1, s, c, hi, h2, hc => by
    rw [makeChain]
    unfold withPut
    rcases Nat.lt_or_ge c v.nFatent with hlt | hge
    · obtain ⟨s1, r1, e, i, rr, ou, ot, -, hr⟩ := put_step hg hi (if n = 0 then 0xFFFFFFFF else c + 1) h2 hlt
      rw [e]
      rcases hr with ⟨rfl, hv⟩ | ⟨rfl, ns⟩
      · rw [if_pos rfl]
        obtain ⟨s2, r2, e2, i2, rr2, ou2, ot2, hm⟩ := make_spec hg n (s := s1) (c := c + 1) i (by omega) (by omega)
        simp only [e2]
        have hc2 : tab v s2 c = (if n = 0 then 0xFFFFFFFF else c + 1) % 2 ^ bits v := by rw [ot2 c hlt (.inl (by omega)), hv]
        refine ⟨s2, r2, rfl, i2, rr.trans rr2, ou.trans ou2, fun x hx h => ?_, ?_⟩
        · rw [ot2 x hx (by omega), ot x (by omega) hx]
        · cases hm with
          | ok h hx =>
            refine .ok (by omega) fun x h1 h3 => ?_
            by_cases hxc : x = c
            · subst hxc
              refine ⟨fun h4 => ?_, fun h4 => ?_⟩
              · rw [hc2, if_neg (by omega), num_fits_le hg (by omega)]
              · rw [hc2, if_pos (by omega)]; exact (eoc_ge hg).1
            · obtain ⟨a, b⟩ := hx x (by omega) (by omega)
              exact ⟨fun h4 => a (by omega), fun h4 => b (by omega)⟩
          | over h hx =>
            refine .over (by omega) fun x h1 h3 => ?_
            by_cases hxc : x = c
            · subst hxc
              rw [hc2, if_neg (by omega), num_fits_le hg (by omega)]
            · exact hx x (by omega) h3
          | fail h => exact .fail h
      · rw [if_neg (show ¬ FR_DISK_ERR = FR_OK by decide)]
        exact ⟨s1, _, rfl, i, rr, ou, fun x hx h => ot x (by omega) hx, .fail ns⟩
    · have e : putFat v s c (if n = 0 then 0xFFFFFFFF else c + 1) = (s, FR_INT_ERR) := by unfold putFat; rw [if_pos (.inr hge)]
      rw [e, if_neg (show ¬ FR_INT_ERR = FR_OK by decide)]
      exact ⟨s, _, rfl, hi, Rest.refl _, Out.refl _ _, fun _ _ _ => rfl, .over (by omega) fun x _ _ => by omega⟩

theorem links_range {n : Nat} {g : Nat → Nat} : ∀ (t c : Nat), 0 < t → 2 ≤ c → c + t ≤ n → (∀ x, c ≤ x → x < c + t → (x + 1 < c + t → g x = x + 1) ∧ (x + 1 = c + t → n ≤ g x)) → Links n g (List.range' c t)
  | 0, _, h, _, _, _ => absurd h (by omega)
  | 1, c, _, h2, hc, hx => ⟨h2, by omega, (hx c (by omega) (by omega)).2 (by omega)⟩
  | t + 2, c, _, h2, hc, hx => by
    rw [List.range'_succ, List.range'_succ]
    refine ⟨h2, by omega, (hx c (by omega) (by omega)).1 (by omega), ?_⟩
    have := links_range (n := n) (g := g) (t + 1) (c + 1) (by omega) (by omega) (by omega) fun x h1 h3 => ⟨fun h4 => (hx x (by omega) (by omega)).1 (by omega), fun h4 => (hx x (by omega) (by omega)).2 (by omega)⟩
    rwa [List.range'_succ] at this

theorem chains_range {n : Nat} {f g : Nat → Nat} {cs : List (List Nat)} (h : Chains n f cs) {c t : Nat} (ht : 0 < t) (hb : Block n f c t)
    (hx : ∀ x, c ≤ x → x < c + t → (x + 1 < c + t → g x = x + 1) ∧ (x + 1 = c + t → n ≤ g x)) (ho : ∀ x, x < n → (x < c ∨ c + t ≤ x) → g x = f x) : Chains n g (List.range' c t :: cs) := by
  have hout : ∀ x ∈ cs.flatten, x < c ∨ c + t ≤ x := by
    intro x hm
    rcases Nat.lt_or_ge x c with h1 | h1
    · exact .inl h1
    · rcases Nat.lt_or_ge x (c + t) with h2 | h2
      · exact absurd hm (chains_free h (hb.free x h1 h2))
      · exact .inr h2
  refine ⟨fun l hl => ?_, ?_, fun x x2 xn hx0 => ?_⟩
  · rcases List.mem_cons.mp hl with rfl | hl'
    · exact links_range t c ht hb.low hb.high hx
    · exact links_congr (h.chain l hl') fun x hm => ho x (links_mem (h.chain l hl') x hm).2 (hout x (List.mem_flatten.mpr ⟨l, hl', hm⟩))
  · rw [List.flatten_cons, List.nodup_append]
    refine ⟨List.nodup_range', h.nodup, fun a ha b hb' e => ?_⟩
    subst e
    rw [List.mem_range'_1] at ha
    have := hout a hb'
    omega
  · rw [List.flatten_cons, List.mem_append, List.mem_range'_1]
    rcases Nat.lt_or_ge x c with h1 | h1
    · exact .inr (h.used x x2 xn (by rw [← ho x xn (.inl h1)]; exact hx0))
    · rcases Nat.lt_or_ge x (c + t) with h3 | h3
      · exact .inl ⟨h1, h3⟩
      · exact .inr (h.used x x2 xn (by rw [← ho x xn (.inr h3)]; exact hx0))

theorem count_range {f g : Nat → Nat} {c t n : Nat} (h2 : 2 ≤ c) (hf : ∀ x, c ≤ x → x < c + t → f x = 0) (hg : ∀ x, c ≤ x → x < c + t → g x ≠ 0) :
    ∀ m, m ≤ n → (∀ x, x < n → (x < c ∨ c + t ≤ x) → g x = f x) → freeCount f m = freeCount g m + (min m (c + t) - c)
  | 0, _, _ => by simp only [freeCount]; omega
  | m + 1, hm, ho => by
    have := count_range h2 hf hg m (by omega) ho
    simp only [freeCount]
    by_cases hx : c ≤ m ∧ m < c + t
    · rw [if_pos ⟨by omega, hf m hx.1 hx.2⟩, if_neg (fun hh => hg m hx.1 hx.2 hh.2)]
      omega
    · rw [ho m (by omega) (by omega)]
      omega

theorem fits_clusters {v : Vol} {size t : Nat} (hb : 0 < v.csize * v.ss) (h : Fits (v.csize * v.ss) size t) : clusters v size = t := by
  unfold clusters
  generalize v.csize * v.ss = b at hb h
  have e := Nat.div_add_mod size b
  have hl := Nat.mod_lt size hb
  obtain ⟨h1, h2⟩ := h
  generalize hq : size / b = q at e ⊢
  generalize hr : size % b = r at e hl ⊢
  have hqt : q * b ≤ t * b := by rw [Nat.mul_comm q b]; omega
  have hq' := Nat.le_of_mul_le_mul_right hqt hb
  by_cases h0 : r = 0
  · rw [if_neg (by omega)]
    have := h2 q (by rw [Nat.mul_comm q b]; omega)
    omega
  · rw [if_pos h0]
    have h3 := h2 (q + 1) (by rw [Nat.add_mul, Nat.mul_comm q b]; omega)
    have : t ≠ q := by
      rintro rfl
      rw [Nat.mul_comm t b] at h1
      omega
    omega

theorem fits_pos {b size t : Nat} (hs : 0 < size) (h : Fits b size t) : 0 < t := by
  rcases Nat.eq_zero_or_pos t with rfl | ht
  · have := h.1; omega
  · exact ht

end Fpm.Expand
