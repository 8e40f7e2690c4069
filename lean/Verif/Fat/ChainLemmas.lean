import Verif.Fat.StepLemmas
import Verif.Fat.TabLemmas
/-!
# `create_chain` and `remove_chain` on the table
-/
namespace Fpm.Fat
open Fpm.Fat.Spec

/-- Clusters looked at so far. -/
def Vis (scl ncl c : Nat) : Prop := if scl ≤ ncl then scl < c ∧ c ≤ ncl else scl < c ∨ c ≤ ncl

/-- Rounds left. -/
def left (n scl ncl : Nat) : Nat := if scl ≤ ncl then n - ncl + scl else scl - ncl

/-- End of the search. -/
inductive Searched (v : Vol) (f : Nat → Nat) : Found → Prop where
  | hit (c : Nat) (h2 : 2 ≤ c) (hc : c < v.nFatent) (h0 : f c = 0) : Searched v f (.hit c)
  | none (h : ∀ c, 2 ≤ c → c < v.nFatent → f c ≠ 0) : Searched v f (.ret 0)
  | bad (c : Nat) (h2 : 2 ≤ c) (hc : c < v.nFatent) (h1 : f c = 1) : Searched v f (.ret 1)
  | fail (h : ¬ Sound v) : Searched v f (.ret DERR)

theorem search_spec {v : Vol} (hg : Geo v) {scl : Nat} (hs1 : 1 ≤ scl) (hsn : scl < v.nFatent) : ∀ (k : Nat) {s : St} {ncl : Nat}, Inv v s → 1 ≤ ncl → ncl < v.nFatent →
    (∀ c, 2 ≤ c → c < v.nFatent → Vis scl ncl c → tab v s c ≠ 0) → left v.nFatent scl ncl ≤ k → 1 ≤ k → (ncl < scl → 2 ≤ ncl) →
    ∃ s' r, search v scl k s ncl = (s', r) ∧ Inv v s' ∧ Same v s s' ∧ Rest s s' ∧ (∀ Q, Q (tab v s) → Sound v → Safe v Q s s') ∧ Searched v (tab v s) r
  | 0, _, _, _, _, _, _, _, h, _ => absurd h (by omega)
  | k + 1, s, ncl, hi, h1, hn, hv, hk, _, hph => by
    rw [search.eq_def]
    simp only
    by_cases hw : ncl + 1 ≥ v.nFatent ∧ 2 > scl
    · rw [if_pos hw]
      refine ⟨s, _, rfl, hi, Same.refl _ _, Rest.refl _, fun Q _ _ => Safe.refl _ _ _, .none fun c c2 cn => hv c c2 cn ?_⟩
      unfold Vis
      rw [if_pos (by omega)]
      omega
    · rw [if_neg hw]
      have hpos := hg.pos
      have hn2 : 2 ≤ nextClst v ncl ∧ nextClst v ncl < v.nFatent := by unfold nextClst; split <;> omega
      obtain ⟨s', r, h, i, sm, rr, tr, hr⟩ := get_step hg hi hn2.1 hn2.2
      rw [h]
      simp only
      rcases hr with rfl | ⟨rfl, ns⟩
      · by_cases h0 : tab v s (nextClst v ncl) = 0
        · rw [if_pos h0]
          exact ⟨s', _, rfl, i, sm, rr, tr, .hit _ hn2.1 hn2.2 h0⟩
        · rw [if_neg h0]
          by_cases h1 : tab v s (nextClst v ncl) = 1
          · rw [if_pos (.inl h1), h1]
            exact ⟨s', _, rfl, i, sm, rr, tr, .bad _ hn2.1 hn2.2 h1⟩
          · have hlt := tab_lt v s (nextClst v ncl)
            rw [if_neg (by unfold DERR UB; omega)]
            have hv' : ∀ c, 2 ≤ c → c < v.nFatent → (Vis scl ncl c ∨ c = nextClst v ncl) → tab v s c ≠ 0 := by
              intro c c2 cn hc
              rcases hc with hc | rfl
              · exact hv c c2 cn hc
              · exact h0
            by_cases he : nextClst v ncl = scl
            · rw [if_pos he]
              refine ⟨s', _, rfl, i, sm, rr, tr, .none fun c c2 cn => hv' c c2 cn ?_⟩
              unfold nextClst at he ⊢
              unfold Vis
              split at he <;> split <;> (try split) <;> omega
            · rw [if_neg he]
              have := search_spec hg hs1 hsn k (s := s') (ncl := nextClst v ncl) i (by omega) hn2.2 ?_ ?_ ?_ ?_
              · obtain ⟨s2, r2, e2, i2, sm2, rr2, tr2, hf⟩ := this
                refine ⟨s2, r2, e2, i2, sm.trans sm2, rr.trans rr2, fun Q hq hs => (tr Q hq hs).trans (tr2 Q (by rw [tab_same sm]; exact hq) hs), ?_⟩
                rw [tab_same sm] at hf
                exact hf
              · intro c c2 cn hc
                rw [tab_same sm]
                refine hv' c c2 cn ?_
                unfold nextClst at hc he ⊢
                unfold Vis at hc ⊢
                split at hc <;> split at he <;> (try split) <;> (try split at hc) <;> omega
              · unfold left at hk ⊢
                unfold nextClst at he ⊢
                split at hk <;> split at he <;> split <;> (try split) <;> omega
              · unfold left at hk
                unfold nextClst at he
                split at hk <;> split at he <;> omega
              · intro; omega
      · rw [if_neg (by decide), if_pos (.inr (.inl rfl))]
        exact ⟨s', _, rfl, i, sm, rr, tr, .fail ns⟩

theorem created_ok (v : Vol) (ncl : Nat) (s : St) : created v ncl (s, FR_OK) = (oneLess v s ncl, ncl) := rfl
theorem created_err (v : Vol) (ncl : Nat) (s : St) : created v ncl (s, FR_DISK_ERR) = (s, DERR) := rfl

/-- Linking a cluster. -/
theorem link_spec {v : Vol} (hg : Geo v) {s : St} (hi : Inv v s) {clst ncl : Nat} (h2 : 2 ≤ ncl) (hn : ncl < v.nFatent) (hc : clst = 0 ∨ 2 ≤ clst ∧ clst < v.nFatent ∧ clst ≠ ncl) :
    ∃ s' r, link v s clst ncl = (s', r) ∧ Inv v s' ∧ Out v s s' ∧ (∀ c, c ≠ ncl → c ≠ clst → 2 ≤ c → c < v.nFatent → tab v s' c = tab v s c) ∧
      (∀ Q : (Nat → Nat) → Prop, Q (tab v s) → (∀ f, (∀ c, c ≠ ncl → c < v.nFatent → f c = tab v s c) → f ncl = 0xFFFFFFFF % 2 ^ bits v → Q f) →
        Sound v → ¬ Straddle v ncl → (clst ≠ 0 → ¬ Straddle v clst) → Safe v Q s s') ∧
      (r = ncl ∧ tab v s' ncl = 0xFFFFFFFF % 2 ^ bits v ∧ (clst ≠ 0 → tab v s' clst = ncl) ∧ s'.lastClst = ncl ∧
          s'.freeClst = (if s.freeClst ≤ v.nFatent - 2 then s.freeClst - 1 else s.freeClst) ∨
        r = DERR ∧ ¬ Sound v) := by
  unfold link withPut
  obtain ⟨s1, r1, e1, i1, rr1, o1, ot1, tr1, hr1⟩ := put_step hg hi 0xFFFFFFFF h2 hn
  rw [e1]
  simp only
  rcases hr1 with ⟨rfl, ht1⟩ | ⟨rfl, ns⟩
  · rw [if_pos rfl]
    by_cases h0 : clst = 0
    · rw [if_neg (by omega), created_ok]
      refine ⟨_, _, rfl, ⟨i1.disk, i1.win, i1.clean, i1.dirty, i1.fat2⟩, o1, fun c hne _ _ hcn => ot1 c hne hcn, fun Q hq _ hs h1 _ => tr1 Q hq hs h1, .inl ⟨rfl, ht1, fun h => absurd h0 h, rfl, ?_⟩⟩
      unfold oneLess
      simp only
      rw [rr1.2.1]
    · rw [if_pos h0]
      obtain ⟨c2, cn, cne⟩ := hc.resolve_left h0
      obtain ⟨s2, r2, e2, i2, rr2, o2, ot2, tr2, hr2⟩ := put_step hg i1 ncl c2 cn
      rw [e2]
      have oth : ∀ c, c ≠ ncl → c ≠ clst → 2 ≤ c → c < v.nFatent → tab v s2 c = tab v s c := fun c a b _ d => (ot2 c b d).trans (ot1 c a d)
      have crash : ∀ Q : (Nat → Nat) → Prop, Q (tab v s) → (∀ f, (∀ c, c ≠ ncl → c < v.nFatent → f c = tab v s c) → f ncl = 0xFFFFFFFF % 2 ^ bits v → Q f) →
          Sound v → ¬ Straddle v ncl → (clst ≠ 0 → ¬ Straddle v clst) → Safe v Q s s2 := by
        intro Q hq hq1 hs st1 st2
        exact (tr1 Q hq hs st1).trans (tr2 Q (hq1 _ ot1 ht1) hs (st2 h0))
      rcases hr2 with ⟨rfl, ht2⟩ | ⟨rfl, ns⟩
      · rw [created_ok]
        refine ⟨_, _, rfl, ⟨i2.disk, i2.win, i2.clean, i2.dirty, i2.fat2⟩, o1.trans o2, oth, crash, .inl ⟨rfl, ?_, fun _ => ?_, rfl, ?_⟩⟩
        · exact (ot2 ncl (fun h => cne h.symm) hn).trans ht1
        · exact ht2.trans (num_fits hg hn)
        · unfold oneLess
          simp only
          rw [rr2.2.1, rr1.2.1]
      · rw [created_err]
        exact ⟨s2, _, rfl, i2, o1.trans o2, oth, crash, .inr ⟨rfl, ns⟩⟩
  · rw [if_neg (by decide), created_err]
    exact ⟨s1, _, rfl, i1, o1, fun c a _ _ d => ot1 c a d, fun Q hq _ hs h1 _ => tr1 Q hq hs h1, .inr ⟨rfl, ns⟩⟩

/-- How `create_chain` ends. -/
inductive Created (v : Vol) (s : St) (clst : Nat) (s' : St) : Nat → Prop where
  | full (sm : Same v s s') (rr : Rest s s') (h : s.freeClst = 0 ∨ ∀ c, 2 ≤ c → c < v.nFatent → tab v s c ≠ 0) (he : clst ≠ 0 → v.nFatent ≤ tab v s clst) : Created v s clst s' 0
  | bad (sm : Same v s s') (rr : Rest s s') (c : Nat) (h2 : 2 ≤ c) (hc : c < v.nFatent) (h : tab v s c = 1 ∨ c = clst ∧ tab v s c = 0) : Created v s clst s' 1
  | next (sm : Same v s s') (rr : Rest s s') (hc : clst ≠ 0) (h2 : 2 ≤ tab v s clst) (hn : tab v s clst < v.nFatent) : Created v s clst s' (tab v s clst)
  | new (r : Nat) (h2 : 2 ≤ r) (hr : r < v.nFatent) (h0 : tab v s r = 0) (hz : s.freeClst ≠ 0) (he : clst ≠ 0 → v.nFatent ≤ tab v s clst)
      (oth : ∀ c, c ≠ r → c ≠ clst → 2 ≤ c → c < v.nFatent → tab v s' c = tab v s c)
      (eoc : tab v s' r = 0xFFFFFFFF % 2 ^ bits v) (lnk : clst ≠ 0 → tab v s' clst = r) (hl : s'.lastClst = r)
      (hf : s'.freeClst = (if s.freeClst ≤ v.nFatent - 2 then s.freeClst - 1 else s.freeClst)) : Created v s clst s' r
  | fail (ns : ¬ Sound v) (r : Nat) (h0 : 2 ≤ r ∧ r < v.nFatent → tab v s r = 0) (oth : ∀ c, c ≠ r → c ≠ clst → 2 ≤ c → c < v.nFatent → tab v s' c = tab v s c) : Created v s clst s' DERR

/-- Contents of the device after a crash in `create_chain`. -/
def Between (v : Vol) (s : St) (f : Nat → Nat) : Prop :=
  f = tab v s ∨ ∃ r, 2 ≤ r ∧ r < v.nFatent ∧ tab v s r = 0 ∧ (∀ c, c ≠ r → c < v.nFatent → f c = tab v s c) ∧ f r = 0xFFFFFFFF % 2 ^ bits v

theorem created_of_link {v : Vol} (hg : Geo v) {s s1 : St} (hi : Inv v s1) (sm : Same v s s1) (rr : Rest s s1) (tr : ∀ Q, Q (tab v s) → Sound v → Safe v Q s s1)
    {clst ncl : Nat} (h2 : 2 ≤ ncl) (hn : ncl < v.nFatent) (h0 : tab v s ncl = 0) (hz : s.freeClst ≠ 0) (hc : clst = 0 ∨ 2 ≤ clst ∧ clst < v.nFatent)
    (he : clst ≠ 0 → v.nFatent ≤ tab v s clst) :
    ∃ s' r, link v s1 clst ncl = (s', r) ∧ Inv v s' ∧ Out v s s' ∧ (Sound v → (∀ c, 2 ≤ c → c < v.nFatent → ¬ Straddle v c) → Safe v (Between v s) s s') ∧ Created v s clst s' r := by
  have hpos := hg.pos
  have hne : clst = 0 ∨ 2 ≤ clst ∧ clst < v.nFatent ∧ clst ≠ ncl := by
    rcases hc with h | h
    · exact .inl h
    · refine .inr ⟨h.1, h.2, ?_⟩
      rintro rfl
      have := he (by omega)
      omega
  obtain ⟨s', r, e, i, o, oth, cr, hr⟩ := link_spec hg hi (clst := clst) h2 hn hne
  rw [tab_same sm] at oth cr
  refine ⟨s', r, e, i, sm.out.trans o, fun hs hst => ?_, ?_⟩
  · refine (tr _ (.inl rfl) hs).trans (cr _ (.inl rfl) (fun f hf he => .inr ⟨ncl, h2, hn, h0, hf, he⟩) hs (hst ncl h2 hn) fun h => ?_)
    rcases hc with h' | h'
    · exact absurd h' h
    · exact hst clst h'.1 h'.2
  · rcases hr with ⟨rfl, a, b, c, d⟩ | ⟨rfl, ns⟩
    · refine .new r h2 hn h0 hz he oth a b c ?_
      rw [d, rr.2.1]
    · exact .fail ns ncl (fun _ => h0) oth

theorem created_of_place {v : Vol} (hg : Geo v) {s s1 : St} (hi : Inv v s1) (sm : Same v s s1) (rr : Rest s s1) (tr : ∀ Q, Q (tab v s) → Sound v → Safe v Q s s1)
    {clst scl : Nat} (h1 : 1 ≤ scl) (hn : scl < v.nFatent) (hz : s.freeClst ≠ 0) (hc : clst = 0 ∨ 2 ≤ clst ∧ clst < v.nFatent) (he : clst ≠ 0 → v.nFatent ≤ tab v s clst) :
    ∃ s' r, place v clst (search v scl v.nFatent s1 scl) = (s', r) ∧ Inv v s' ∧ Out v s s' ∧
      (Sound v → (∀ c, 2 ≤ c → c < v.nFatent → ¬ Straddle v c) → Safe v (Between v s) s s') ∧ Created v s clst s' r := by
  have hpos := hg.pos
  obtain ⟨s2, f, e, i2, sm2, rr2, tr2, hf⟩ := search_spec hg h1 hn v.nFatent hi h1 hn (fun c _ _ hv => by unfold Vis at hv; rw [if_pos (Nat.le_refl _)] at hv; omega)
    (by unfold left; rw [if_pos (Nat.le_refl _)]; omega) (by omega) (fun h => absurd h (by omega))
  rw [e, place]
  rw [tab_same sm] at hf tr2
  have tr' : ∀ Q, Q (tab v s) → Sound v → Safe v Q s s2 := fun Q hq hs => (tr Q hq hs).trans (tr2 Q hq hs)
  cases hf with
  | hit c h2 hcn h0 => exact created_of_link hg i2 (sm.trans sm2) (rr.trans rr2) tr' h2 hcn h0 hz hc he
  | none h => exact ⟨s2, _, rfl, i2, (sm.trans sm2).out, fun hs _ => tr' _ (.inl rfl) hs, .full (sm.trans sm2) (rr.trans rr2) (.inr h) he⟩
  | bad c h2 hcn h1 => exact ⟨s2, _, rfl, i2, (sm.trans sm2).out, fun hs _ => tr' _ (.inl rfl) hs, .bad (sm.trans sm2) (rr.trans rr2) c h2 hcn (.inl h1)⟩
  | fail ns => exact ⟨s2, _, rfl, i2, (sm.trans sm2).out, fun hs _ => tr' _ (.inl rfl) hs, .fail ns 0 (fun h => absurd h.1 (by omega)) fun c _ _ _ _ => by rw [tab_same (sm.trans sm2)]⟩

/-- `create_chain` for every table. -/
theorem create_spec {v : Vol} (hg : Geo v) {s : St} (hi : Inv v s) {clst : Nat} (hc : clst = 0 ∨ 2 ≤ clst ∧ clst < v.nFatent) :
    ∃ s' r, createChain v s clst = (s', r) ∧ Inv v s' ∧ Out v s s' ∧ (Sound v → (∀ c, 2 ≤ c → c < v.nFatent → ¬ Straddle v c) → Safe v (Between v s) s s') ∧ Created v s clst s' r := by
  have hpos := hg.pos
  unfold createChain
  by_cases h0 : clst = 0
  · rw [if_pos h0]
    subst h0
    by_cases hz : s.freeClst = 0
    · rw [if_pos hz]
      exact ⟨s, _, rfl, hi, Out.refl _ _, fun _ _ => Safe.refl _ _ _, .full (Same.refl _ _) (Rest.refl _) (.inl hz) (fun h => absurd rfl h)⟩
    · rw [if_neg hz]
      exact created_of_place hg hi (Same.refl _ _) (Rest.refl _) (fun _ _ _ => Safe.refl _ _ _) (by unfold startNew; split <;> omega) (by unfold startNew; split <;> omega) hz (.inl rfl) fun h => absurd rfl h
  · rw [if_neg h0]
    obtain ⟨c2, cn⟩ := hc.resolve_left h0
    obtain ⟨s1, r1, e1, i1, sm1, rr1, tr1, hr1⟩ := get_step hg hi c2 cn
    have hlt := tab_lt v s clst
    unfold withFat
    rw [e1]
    simp only
    rcases hr1 with rfl | ⟨rfl, ns⟩
    · rw [if_neg (by unfold UB; omega)]
      by_cases h2 : tab v s clst < 2
      · rw [if_pos h2]
        exact ⟨s1, _, rfl, i1, sm1.out, fun hs _ => tr1 _ (.inl rfl) hs, .bad sm1 rr1 clst c2 cn (by omega)⟩
      · rw [if_neg h2, if_neg (by unfold DERR; omega)]
        by_cases hn : tab v s clst < v.nFatent
        · rw [if_pos hn]
          exact ⟨s1, _, rfl, i1, sm1.out, fun hs _ => tr1 _ (.inl rfl) hs, .next sm1 rr1 h0 (by omega) hn⟩
        · rw [if_neg hn]
          by_cases hz : s1.freeClst = 0
          · rw [if_pos hz]
            exact ⟨s1, _, rfl, i1, sm1.out, fun hs _ => tr1 _ (.inl rfl) hs, .full sm1 rr1 (.inl (by rw [← rr1.2.1]; exact hz)) fun _ => by omega⟩
          · rw [if_neg hz]
            have hz' : s.freeClst ≠ 0 := by rw [← rr1.2.1]; exact hz
            have hn2 : 2 ≤ nextClst v clst ∧ nextClst v clst < v.nFatent := by unfold nextClst; split <;> omega
            obtain ⟨s2, r2, e2, i2, sm2, rr2, tr2, hr2⟩ := get_step hg i1 hn2.1 hn2.2
            have hlt2 := tab_lt v s1 (nextClst v clst)
            rw [tab_same sm1] at hr2 hlt2 tr2
            have tr' : ∀ Q, Q (tab v s) → Sound v → Safe v Q s s2 := fun Q hq hs => (tr1 Q hq hs).trans (tr2 Q hq hs)
            have sm' := sm1.trans sm2
            have rr' := rr1.trans rr2
            unfold stretch withFat
            rw [e2]
            simp only
            rcases hr2 with rfl | ⟨rfl, ns⟩
            · rw [if_neg (by unfold UB; omega)]
              by_cases hb : tab v s (nextClst v clst) = 1
              · rw [if_pos (.inl hb), hb]
                exact ⟨s2, _, rfl, i2, sm'.out, fun hs _ => tr' _ (.inl rfl) hs, .bad sm' rr' _ hn2.1 hn2.2 (.inl hb)⟩
              · rw [if_neg (by unfold DERR; omega)]
                by_cases hf : tab v s (nextClst v clst) = 0
                · rw [if_neg (by omega)]
                  exact created_of_link hg i2 sm' rr' tr' hn2.1 hn2.2 hf hz' hc fun _ => by omega
                · rw [if_pos hf]
                  exact created_of_place hg i2 sm' rr' tr' (by unfold startOld; split <;> omega) (by unfold startOld; split <;> omega) hz' hc fun _ => by omega
            · rw [if_neg (by decide), if_pos (.inr rfl)]
              exact ⟨s2, _, rfl, i2, sm'.out, fun hs _ => tr' _ (.inl rfl) hs, .fail ns 0 (fun h => absurd h.1 (by omega)) fun c _ _ _ _ => by rw [tab_same sm']⟩
    · rw [if_neg (by decide), if_neg (by decide), if_pos rfl]
      exact ⟨s1, _, rfl, i1, sm1.out, fun hs _ => tr1 _ (.inl rfl) hs, .fail ns 0 (fun h => absurd h.1 (by omega)) fun c _ _ _ _ => by rw [tab_same sm1]⟩

end Fpm.Fat
