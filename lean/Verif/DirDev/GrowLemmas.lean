import Verif.DirDev.ClearLemmas
/-!
# Lemmas: going to the next entry, with a new cluster if there is none
-/
namespace Fpm.DirDev
open Fpm.Fat Fpm.Fat.Spec Fpm.FatFile Fpm.FatFile.Spec Fpm.FatDir Fpm.FatDir.Spec Fpm.Mount Fpm.Mount.Spec Fpm.DirDev.Spec

/-- Where stretching matters. -/
theorem next_cases (v : Vol) (i : Info) (s : St) (dp : Dp) :
    dirNext v i true s dp = dirNext v i false s dp ∧ ((dirNext v i false s dp).res = FR_NO_FILE → dp.dptr + 32 ≥ MAX_DIR ∨ dp.sect = 0 ∨ dp.clust = 0) ∨
    (dirNext v i false s dp).res = FR_NO_FILE ∧ dirNext v i true s dp = stretched v { dp with sect := dp.sect + 1 } (createChain v (dirNext v i false s dp).st dp.clust) ∧
      dp.dptr + 32 < MAX_DIR ∧ dp.clust ≠ 0 ∧ (dp.dptr + 32) % v.ss = 0 ∧ (dp.dptr + 32) / v.ss &&& (v.csize - 1) = 0 := by
  unfold dirNext
  by_cases h1 : dp.dptr + 32 ≥ MAX_DIR ∨ dp.sect = 0
  · rw [if_pos h1, if_pos h1]
    exact .inl ⟨rfl, fun _ => h1.elim .inl fun h => .inr (.inl h)⟩
  rw [if_neg h1, if_neg h1]
  by_cases h2 : (dp.dptr + 32) % v.ss ≠ 0
  · rw [if_pos h2, if_pos h2]
    exact .inl ⟨rfl, fun h => by cases h⟩
  rw [if_neg h2, if_neg h2]
  by_cases h3 : dp.clust = 0
  · rw [if_pos h3, if_pos h3]
    exact .inl ⟨rfl, fun _ => .inr (.inr h3)⟩
  rw [if_neg h3, if_neg h3]
  by_cases h4 : (dp.dptr + 32) / v.ss &&& (v.csize - 1) = 0
  · rw [if_pos h4, if_pos h4]
    generalize getFat v s dp.clust = p
    unfold nextClust
    by_cases g1 : p.2 = UB
    · rw [if_pos g1, if_pos g1]
      exact .inl ⟨rfl, fun h => by cases h⟩
    rw [if_neg g1, if_neg g1]
    by_cases g2 : p.2 ≤ 1
    · rw [if_pos g2, if_pos g2]
      exact .inl ⟨rfl, fun h => by cases h⟩
    rw [if_neg g2, if_neg g2]
    by_cases g3 : p.2 = DERR
    · rw [if_pos g3, if_pos g3]
      exact .inl ⟨rfl, fun h => by cases h⟩
    rw [if_neg g3, if_neg g3]
    by_cases g4 : p.2 ≥ v.nFatent
    · rw [if_pos g4, if_pos g4]
      exact .inr ⟨rfl, rfl, by omega, h3, by omega, h4⟩
    · rw [if_neg g4, if_neg g4]
      exact .inl ⟨rfl, fun h => by cases h⟩
  · rw [if_neg h4, if_neg h4]
    exact .inl ⟨rfl, fun h => by cases h⟩

/-- Outcome of going to the next entry with stretching. -/
structure Grown (v : Vol) (i : Info) (a b : List (List Nat)) (loc : Loc) (j : Nat) (s : St) (dp : Dp) (r : Ret) : Prop where
  apart : Apart v i a b loc s r.st
  sclust : r.dp.sclust = dp.sclust
  cases : (r.res = FR_OK ∧ ∃ loc', Longer loc loc' ∧ DirVol v a b loc' r.st ∧ At v i loc' (j + 1) r.dp ∧
      (j + 1 < total v i loc ∧ entries v i (view r.st) loc' = entries v i (view s) loc ∧ loc' = loc ∧ Quiet v s r.st ∨
       (∃ l c, loc = .chain l ∧ loc' = .chain (l ++ [c])) ∧ j + 1 = total v i loc ∧ growth v a b loc (j + 1) ≠ 0 ∧ entries v i (view r.st) loc' = entries v i (view s) loc ++ List.replicate (growth v a b loc (j + 1)) blank)) ∨
    ((r.res = FR_NO_FILE ∨ r.res = FR_DENIED) ∧ DirVol v a b loc r.st ∧ entries v i (view r.st) loc = entries v i (view s) loc ∧ j + 1 = total v i loc ∧ growth v a b loc (j + 1) = 0) ∨
    r.res = FR_DISK_ERR ∧ ¬ Sound v

theorem tab_clear {v : Vol} {i : Info} (hr : Ready v i) {s s' : St} {c : Nat} (h : ∀ n, ¬ Fat2 v n → n ∉ sectors v c → view s' n = view s n) : tab v s' = tab v s := by
  refine tab_congr fun n hn => h n (fun h2 => ?_) (fun hc => (cluster_place hr hc).1 hn)
  have h1 := hn.2
  have h3 := h2.2.1
  omega

theorem grow_spec {v : Vol} {i : Info} (hr : Ready v i) {a b : List (List Nat)} {loc : Loc} {s : St} (hv : DirVol v a b loc s) {j : Nat} {dp : Dp} (h : At v i loc j dp) :
    Grown v i a b loc j s dp (dirNext v i true s dp) := by
  have hm := next_spec hr hv.inv hv.linked h
  have hlt := at_lt hr h
  have hpl := at_place hr hv.linked h
  rcases next_cases v i s dp with ⟨e, hno⟩ | ⟨hno, e, g1, g2, g3, g4⟩
  · rw [e]
    refine ⟨apart_quiet hv hm.quiet, hm.sclust, ?_⟩
    rcases hm.cases with ⟨hok, hat⟩ | ⟨hnf, htot, hz⟩ | hd
    · exact .inl ⟨hok, loc, .refl loc, dirvol_same hv hm.quiet, hat, .inl ⟨at_lt hr hat, entries_same hr hv.linked hm.quiet.same, rfl, hm.quiet⟩⟩
    · refine .inr (.inl ⟨.inl hnf, dirvol_same hv hm.quiet, entries_same hr hv.linked hm.quiet.same, htot.symm, ?_⟩)
      cases loc with
      | root => rfl
      | chain l =>
        rw [growth_chain, if_neg]
        rcases hno hnf with h1 | h1 | h1
        · rw [h.dptr] at h1
          unfold MAX_DIR at h1
          omega
        · exact (hpl.2.2 h1).elim
        · have := links_mem hv.linked dp.clust (List.mem_of_getElem? (h.clust l rfl))
          omega
    · exact .inr (.inr hd)
  · rw [e]
    generalize dirNext v i false s dp = r0 at hm hno
    rcases hm.cases with ⟨hok, -⟩ | ⟨-, htot, -⟩ | ⟨her, -⟩
    · rw [hok] at hno; cases hno
    rotate_left
    · rw [her] at hno; cases hno
    cases loc with
    | root => exact (g2 (h.root rfl)).elim
    | chain l =>
      have hv1 := dirvol_same hv hm.quiet
      have hcl := h.clust l rfl
      rw [h.dptr] at g1 g3 g4
      obtain ⟨c1, c2, c3⟩ := clust_change hr g3 g4
      obtain ⟨hs, hp⟩ := per_ss hr
      have hcs := csize_pos hr
      have hlen : l.length * v.csize * per v = j + 1 := by
        unfold total at htot
        simp only [dirSecs] at htot
        rw [secs_length] at htot
        unfold MAX_DIR at g1
        omega
      have hC : 0 < v.csize * per v := Nat.mul_pos hcs hp
      have hdiv : (j + 1) / (v.csize * per v) = l.length := by
        rw [← hlen, Nat.mul_assoc, Nat.mul_div_cancel _ hC]
      have hidx : 32 * j / (v.csize * v.ss) + 1 = l.length := by
        rw [← c1, hs, show v.csize * (32 * per v) = 32 * (v.csize * per v) from by rw [← Nat.mul_assoc, Nat.mul_comm v.csize 32, Nat.mul_assoc], Nat.mul_div_mul_left _ _ (by decide), hdiv]
      obtain ⟨m, hlm⟩ : ∃ m, l = m ++ [dp.clust] := by
        rcases chain_next hv.linked hcl with ⟨d, hd, -⟩ | ⟨-, -, hm⟩
        · rw [hidx, List.getElem?_eq_none (Nat.le_refl _)] at hd
          cases hd
        · exact hm
      have hq := hm.quiet
      generalize r0.st = s1 at hq hv1
      have hw := hv1.chains
      simp only [allChains] at hw
      cases ec : createChain v s1 dp.clust with
      | mk s2 r =>
        have hst := C51_stretch v hr.geo s1 hv1.inv a b m dp.clust (by rw [← hlm]; exact hw) hv1.count s2 r ec
        obtain ⟨i2, o2, hc⟩ := hst
        have ho2 : ∀ n, ¬ Fat1 v n → ¬ Fat2 v n → view s2 n = view s n := fun n h1 h2 => (o2 n h1 h2).trans (hq.same n h2)
        have hnf := nFatent_lt hr.geo
        unfold stretched
        simp only
        rcases hc with ⟨rfl, hf, ht, hk⟩ | ⟨r2, rn, h0, hch, -, hk⟩ | ⟨rfl, hns, hl⟩
        · rw [if_neg (by decide), if_pos rfl]
          have hv2 : DirVol v a b (.chain l) s2 := ⟨i2, hv.kind, by rw [ht]; exact hv1.chains, hk⟩
          refine ⟨⟨hv2.others, fun n h1 h2 _ => ho2 n h1 h2⟩, rfl, .inr (.inl ⟨.inr rfl, hv2, ?_, htot.symm, ?_⟩)⟩
          · exact entries_congr fun n hn => ho2 n (secs_place hr hv.linked hn).1 (secs_place hr hv.linked hn).2.1
          · rw [growth_chain, if_neg]
            have := chains_full hv1.chains hf
            rw [all_length] at this
            rw [hdiv]
            omega
        · have e1 : m ++ [dp.clust, r] = l ++ [r] := by rw [hlm]; simp
          rw [e1] at hch
          have hle := chains_le hch
          have hal := all_length a b (l ++ [r])
          simp only [allChains] at hal
          rw [hal, List.length_append, List.length_singleton] at hle
          have hgr : growth v a b (.chain l) (j + 1) = min (v.csize * per v) (65536 - (j + 1)) := by
            rw [growth_chain, if_pos]
            rw [hdiv]
            refine ⟨by unfold MAX_DIR at g1; omega, by omega⟩
          have hown : Own v (a ++ b).flatten r := by
            refine ⟨r2, rn, fun hmem => ?_⟩
            have hin : r ∈ (a ++ l :: b).flatten := by
              rw [flatten_mid]
              rw [List.flatten_append] at hmem
              simp only [List.mem_append] at hmem ⊢
              rcases hmem with h | h
              · exact .inl h
              · exact .inr (.inr h)
            have := (chains_used hw hin).2.2
            omega
          obtain ⟨s3, r3, e3, a1, a2, a3⟩ := clear_spec hr i2 r2 rn
          rw [if_neg (by unfold UB; omega), if_neg (by omega), if_neg (by omega), if_neg (by unfold DERR; omega), e3]
          simp only
          have ht3 := tab_clear hr a2
          have hap : Apart v i a b (.chain l) s s3 := by
            refine ⟨?_, fun n h1 h2 h3 => ?_⟩
            · rw [ht3]
              intro x hx
              refine hch.chain x ?_
              simp only [List.mem_append, List.mem_cons] at hx ⊢
              rcases hx with h | h
              · exact .inl h
              · exact .inr (.inr h)
            · rw [a2 n h2 fun hn => h3 ⟨r, hown, hn⟩]
              exact ho2 n h1 h2
          rcases a3 with ⟨rfl, i3, hz⟩ | ⟨rfl, hns⟩
          · rw [if_pos rfl]
            unfold enter
            refine ⟨hap, rfl, .inl ⟨rfl, .chain (l ++ [r]), ⟨[r], rfl⟩, ⟨i3, (fun h => by cases h), by rw [ht3]; exact hch, ?_⟩, ?_, .inr ⟨⟨l, r, rfl, rfl⟩, htot.symm, ?_, ?_⟩⟩⟩
            · unfold CountOk
              rw [ht3, a1.2.1]
              exact hk
            · have h64 : j + 1 < 65536 := by unfold MAX_DIR at g1; omega
              have := at_next hr (loc := .chain (l ++ [r])) (dp := { dp with sect := dp.sect + 1 }) h64 g3 (cl := r) (se := clst2sect v r) ?_ (fun h => by cases h) (fun l' hl' => by
                cases hl'
                rw [c1, hidx, List.getElem?_append_right (Nat.le_refl _), Nat.sub_self]
                rfl)
              · rw [h.dptr]
                exact this
              · simp only [dirSecs]
                rw [secs_get hcs, c3, hidx, List.getElem?_append_right (Nat.le_refl _), Nat.sub_self, c2, clst_sect r2 rn]
                rfl
            · rw [hgr]
              unfold MAX_DIR at g1
              omega
            · rw [entries_longer hr (d := view s) (fun n hn => ?_) hz (by rw [htot]; unfold MAX_DIR at g1; omega), htot, hgr]
              have hpn := secs_place hr hv.linked (show n ∈ dirSecs v i (.chain l) from hn)
              rw [a2 n hpn.2.1 (fun hnr => ?_)]
              · exact ho2 n hpn.1 hpn.2.1
              · obtain ⟨c, hc, hnc⟩ := secs_mem hn
                have hc2 := links_mem hv.linked c hc
                have := sectors_inj hnc hnr hc2.1 r2
                subst this
                have hin : c ∈ (a ++ l :: b).flatten := by rw [flatten_mid]; simp [hc]
                have := (chains_used hw hin).2.2
                omega
          · rw [if_neg (by decide)]
            exact ⟨hap, rfl, .inr (.inr ⟨rfl, hns⟩)⟩
        · rw [if_neg (by decide), if_neg (by decide), if_neg (by decide), if_pos (by decide)]
          exact ⟨⟨hl, fun n h1 h2 _ => ho2 n h1 h2⟩, rfl, .inr (.inr ⟨rfl, hns⟩)⟩

end Fpm.DirDev
