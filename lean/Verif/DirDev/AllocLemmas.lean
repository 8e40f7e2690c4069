import Verif.DirDev.GrowLemmas
/-!
# Lemmas: finding free entries on the device
-/
namespace Fpm.DirDev
open Fpm.Fat Fpm.Fat.Spec Fpm.FatFile Fpm.FatFile.Spec Fpm.FatDir Fpm.FatDir.Spec Fpm.Mount Fpm.Mount.Spec Fpm.DirDev.Spec

theorem total_longer {v : Vol} {i : Info} {loc loc' : Loc} (h : Longer loc loc') : total v i loc ≤ total v i loc' := by
  cases loc with
  | root =>
    rw [show loc' = .root from h]
    exact Nat.le_refl _
  | chain l =>
    obtain ⟨m, rfl⟩ := h
    have h1 : (dirSecs v i (.chain l)).length = l.length * v.csize := secs_length v l
    have h2 : (dirSecs v i (.chain (l ++ m))).length = (l ++ m).length * v.csize := secs_length v _
    have h3 : (dirSecs v i (.chain l)).length ≤ (dirSecs v i (.chain (l ++ m))).length := by
      rw [h1, h2]
      exact Nat.mul_le_mul_right _ (by simp)
    have := Nat.mul_le_mul_right (per v) h3
    unfold total
    omega

/-- Outcome of `dir_alloc`, compared with that on the list of entries. -/
structure Allotted (v : Vol) (i : Info) (a b : List (List Nat)) (loc : Loc) (x : List (List Nat) × Option Nat) (s st : St) (dp : Dp) (res : Nat) : Prop where
  longer : ∃ loc', Longer loc loc' ∧ DirVol v a b loc' st ∧ entries v i (view st) loc' = x.1 ∧
    (x.2 = none ∧ (res = FR_NO_FILE ∨ res = FR_DENIED) ∨ ∃ p, x.2 = some p ∧ res = FR_OK ∧ At v i loc' p dp ∧ st.winsect = some dp.sect ∧ (x.1.length = (entries v i (view s) loc).length → loc' = loc ∧ Quiet v s st))

theorem get_lt {t : List (List Nat)} {j : Nat} (h : j < t.length) : t[j]? = some (t.getD j []) := by
  rw [List.getElem?_eq_getElem h, List.getD_eq_getElem?_getD, List.getElem?_eq_getElem h]
  rfl

theorem blank_free : isFree blank = true := by decide

theorem alloc_walk {v : Vol} {i : Info} (hr : Ready v i) {a b : List (List Nat)} {n : Nat} : ∀ (kk : Nat) {loc : Loc} {s : St} {dp : Dp} {j k r N : Nat}, DirVol v a b loc s → At v i loc j dp →
    65536 ≤ j + kk → N ≤ (entries v i (view s) loc).length → (∀ z, N ≤ z → z < (entries v i (view s) loc).length → isFree ((entries v i (view s) loc).getD z []) = true) → k < n →
    (j < N → N - j + 2 * n + 1 ≤ r) → (N ≤ j → 2 * (n - k) ≤ r) →
    Apart v i a b loc s (walk v i true (allocStep n) kk s dp k).st ∧ (walk v i true (allocStep n) kk s dp k).dp.sclust = dp.sclust ∧
      ((walk v i true (allocStep n) kk s dp k).res = FR_DISK_ERR ∧ ¬ Sound v ∨
       Allotted v i a b loc (allocLoop (growth v a b loc) n r (entries v i (view s) loc) j k) s (walk v i true (allocStep n) kk s dp k).st (walk v i true (allocStep n) kk s dp k).dp
         (walk v i true (allocStep n) kk s dp k).res)
  | 0, loc, s, dp, j, k, r, N, _, ha, hkk, _, _, _, _, _ => by
    have := ha.small
    omega
  | kk + 1, loc, s, dp, j, k, r, N, hv, ha, hkk, hN, hfree, hk, hr1, hr2 => by
    have hpl := at_place hr hv.linked ha
    have hlt := at_lt hr ha
    rw [← entries_length v i (view s)] at hlt
    obtain ⟨q1, h1⟩ := move_quiet hr.geo hv.inv hpl.2.1
    unfold walk
    rcases h1 with ⟨h1, hw⟩ | ⟨h1, hns⟩
    rotate_left
    · rw [if_neg (by rw [h1]; decide)]
      exact ⟨apart_quiet hv q1, rfl, .inl ⟨h1, hns⟩⟩
    rw [if_pos h1]
    generalize (moveWindow v s dp.sect).1 = s1 at q1 hw
    have hv1 := dirvol_same hv q1
    have he1 := entries_same hr hv.linked q1.same
    obtain ⟨e, he, hg, -⟩ := ent_spec hr q1.inv ha hw
    rw [he1] at hg
    rw [he]
    simp only
    have hge : (entries v i (view s) loc).getD j [] = e := by
      rw [get_lt hlt] at hg
      exact Option.some.inj hg
    obtain ⟨r, rfl⟩ : ∃ r', r = r' + 1 := ⟨r - 1, by
      rcases Nat.lt_or_ge j N with h | h
      · have := hr1 h
        omega
      · have := hr2 h
        omega⟩
    unfold allocLoop
    rw [hg]
    simp only
    have hstep : ∀ k', k' < n → (j < N ∨ k' = k + 1) →
        Apart v i a b loc s (if (dirNext v i true s1 dp).res = FR_OK then walk v i true (allocStep n) kk (dirNext v i true s1 dp).st (dirNext v i true s1 dp).dp k'
          else ⟨(dirNext v i true s1 dp).st, (dirNext v i true s1 dp).dp, (dirNext v i true s1 dp).res, none⟩).st ∧
        (if (dirNext v i true s1 dp).res = FR_OK then walk v i true (allocStep n) kk (dirNext v i true s1 dp).st (dirNext v i true s1 dp).dp k'
          else ⟨(dirNext v i true s1 dp).st, (dirNext v i true s1 dp).dp, (dirNext v i true s1 dp).res, none⟩).dp.sclust = dp.sclust ∧
        ((if (dirNext v i true s1 dp).res = FR_OK then walk v i true (allocStep n) kk (dirNext v i true s1 dp).st (dirNext v i true s1 dp).dp k'
          else ⟨(dirNext v i true s1 dp).st, (dirNext v i true s1 dp).dp, (dirNext v i true s1 dp).res, none⟩).res = FR_DISK_ERR ∧ ¬ Sound v ∨
         Allotted v i a b loc (allocLoop (growth v a b loc) n r (entries v i (view s) loc) (j + 1) k') s
          (if (dirNext v i true s1 dp).res = FR_OK then walk v i true (allocStep n) kk (dirNext v i true s1 dp).st (dirNext v i true s1 dp).dp k'
            else ⟨(dirNext v i true s1 dp).st, (dirNext v i true s1 dp).dp, (dirNext v i true s1 dp).res, none⟩).st
          (if (dirNext v i true s1 dp).res = FR_OK then walk v i true (allocStep n) kk (dirNext v i true s1 dp).st (dirNext v i true s1 dp).dp k'
            else ⟨(dirNext v i true s1 dp).st, (dirNext v i true s1 dp).dp, (dirNext v i true s1 dp).res, none⟩).dp
          (if (dirNext v i true s1 dp).res = FR_OK then walk v i true (allocStep n) kk (dirNext v i true s1 dp).st (dirNext v i true s1 dp).dp k'
            else ⟨(dirNext v i true s1 dp).st, (dirNext v i true s1 dp).dp, (dirNext v i true s1 dp).res, none⟩).res) := by
      intro k' hk' hor
      have hm := grow_spec hr hv1 ha
      generalize dirNext v i true s1 dp = d at hm
      have hap : Apart v i a b loc s d.st := (apart_quiet hv q1).trans (.refl loc) hm.apart
      have hlen := entries_length v i (view s) loc
      rcases hm.cases with ⟨hok, loc', hlo, hv', hat, hc⟩ | ⟨hno, hvd, hed, htot, hgr⟩ | ⟨her, hns⟩
      · rw [if_pos hok]
        rcases hc with ⟨hlt2, hes, hsame, hquiet⟩ | ⟨⟨l, c, hl1, hl2⟩, htot, hgr, hes⟩
        · rw [he1] at hes
          obtain ⟨b1, b2, b3⟩ := alloc_walk hr kk (n := n) (k := k') (r := r) (N := N) hv' hat (by omega) (by rw [hes]; exact hN) (by rw [hes]; exact hfree) hk'
            (fun h => by have := hr1 (by omega); omega) (fun h => by
              rcases Nat.lt_or_ge j N with h' | h'
              · have := hr1 h'
                omega
              · have := hr2 h'
                omega)
          refine ⟨hap.trans hlo b1, b2.trans hm.sclust, ?_⟩
          rw [hes, growth_longer hlo] at b3
          rcases b3 with b3 | ⟨l2, g1, g2⟩
          · exact .inl b3
          · refine .inr ⟨l2, hlo.trans g1, g2.1, g2.2.1, ?_⟩
            rcases g2.2.2 with g | ⟨p, g3, g4, g5, g6, g7⟩
            · exact .inl g
            · refine .inr ⟨p, g3, g4, g5, g6, fun h => ?_⟩
              have := g7 (by rw [hes]; exact h)
              exact ⟨this.1.trans hsame, (q1.trans hquiet).trans this.2⟩
        · rw [he1] at hes
          have hr'' : 2 * (n - k') + 1 ≤ r := by
            rcases Nat.lt_or_ge j N with h' | h'
            · have := hr1 h'
              omega
            · have := hr2 h'
              omega
          obtain ⟨r', rfl⟩ : ∃ r', r = r' + 1 := ⟨r - 1, by omega⟩
          have hel : (entries v i (view s) loc).length = j + 1 := by omega
          obtain ⟨b1, b2, b3⟩ := alloc_walk hr kk (n := n) (k := k') (r := r') (N := N) hv' hat (by omega) (by rw [hes, List.length_append]; omega) (by
              intro z hz1 hz2
              rw [hes] at hz2 ⊢
              rcases Nat.lt_or_ge z (j + 1) with hz | hz
              · rw [List.getD_eq_getElem?_getD, List.getElem?_append_left (by omega), ← List.getD_eq_getElem?_getD]
                exact hfree z hz1 (by omega)
              · rw [List.length_append, List.length_replicate] at hz2
                rw [List.getD_eq_getElem?_getD, List.getElem?_append_right (by omega), List.getElem?_replicate_of_lt (by omega)]
                exact blank_free) hk'
            (fun h => by omega) (fun h => by omega)
          refine ⟨hap.trans hlo b1, b2.trans hm.sclust, ?_⟩
          have hunf : allocLoop (growth v a b loc) n (r' + 1) (entries v i (view s) loc) (j + 1) k' =
              allocLoop (growth v a b loc) n r' (entries v i (view d.st) loc') (j + 1) k' := by
            rw [hes]
            rw [allocLoop, List.getElem?_eq_none (by omega)]
            simp only
            rw [hel, if_neg hgr]
          rw [hunf]
          rw [growth_longer hlo] at b3
          rcases b3 with b3 | ⟨l2, g1, g2⟩
          · exact .inl b3
          · refine .inr ⟨l2, hlo.trans g1, g2.1, g2.2.1, ?_⟩
            rcases g2.2.2 with g | ⟨p, g3, g4, g5, g6, g7⟩
            · exact .inl g
            · refine .inr ⟨p, g3, g4, g5, g6, fun h => ?_⟩
              rw [← g2.2.1, entries_length, hel] at h
              have h1 := total_longer g1 (v := v) (i := i)
              have h2 := entries_length v i (view d.st) loc'
              rw [hes, List.length_append, List.length_replicate, hel] at h2
              omega
      · rw [if_neg (by rcases hno with h | h <;> rw [h] <;> decide)]
        refine ⟨hap, hm.sclust, .inr ⟨loc, .refl loc, hvd, ?_, .inl ⟨?_, hno⟩⟩⟩
        · rw [hed, he1]
          cases r with
          | zero => rfl
          | succ r =>
            unfold allocLoop
            rw [List.getElem?_eq_none (by omega)]
            simp only
            rw [show (entries v i (view s) loc).length = j + 1 from by omega, if_pos hgr]
        · cases r with
          | zero => rfl
          | succ r =>
            unfold allocLoop
            rw [List.getElem?_eq_none (by omega)]
            simp only
            rw [show (entries v i (view s) loc).length = j + 1 from by omega, if_pos hgr]
      · rw [if_neg (by rw [her]; decide)]
        exact ⟨hap, hm.sclust, .inl ⟨her, hns⟩⟩
    unfold allocStep
    by_cases hf : isFree e = true
    · rw [if_pos hf, if_pos hf]
      by_cases hk1 : k + 1 = n
      · rw [if_pos hk1, if_pos hk1]
        exact ⟨apart_quiet hv q1, rfl, .inr ⟨loc, .refl loc, hv1, he1, .inr ⟨j, rfl, rfl, ha, hw, fun _ => ⟨rfl, q1⟩⟩⟩⟩
      · rw [if_neg hk1, if_neg hk1]
        exact hstep (k + 1) (by omega) (.inr rfl)
    · rw [if_neg hf, if_neg hf]
      refine hstep 0 (by omega) (.inl ?_)
      rcases Nat.lt_or_ge j N with h' | h'
      · exact h'
      · exact (hf (hge ▸ hfree j h' hlt)).elim

/-- `dir_alloc` on the device. -/
theorem alloc_dev {v : Vol} {i : Info} (hr : Ready v i) {a b : List (List Nat)} {loc : Loc} {s : St} {dp : Dp} (hv : DirVol v a b loc s) (hst : Starts v i dp.sclust loc) {n : Nat} (hn : 0 < n) :
    Apart v i a b loc s (dirAlloc v i s dp n).st ∧ (dirAlloc v i s dp n).dp.sclust = dp.sclust ∧
      ((dirAlloc v i s dp n).res = FR_DISK_ERR ∧ ¬ Sound v ∨
       ∃ loc', Longer loc loc' ∧ DirVol v a b loc' (dirAlloc v i s dp n).st ∧ entries v i (view (dirAlloc v i s dp n).st) loc' = (FatDir.dirAlloc (growth v a b loc) (entries v i (view s) loc) n).1 ∧
         ((FatDir.dirAlloc (growth v a b loc) (entries v i (view s) loc) n).2 = none ∧ (dirAlloc v i s dp n).res = FR_DENIED ∨
          ∃ p, (FatDir.dirAlloc (growth v a b loc) (entries v i (view s) loc) n).2 = some p ∧ (dirAlloc v i s dp n).res = FR_OK ∧ At v i loc' p (dirAlloc v i s dp n).dp ∧
            (dirAlloc v i s dp n).st.winsect = some (dirAlloc v i s dp n).dp.sect ∧
            ((FatDir.dirAlloc (growth v a b loc) (entries v i (view s) loc) n).1.length = (entries v i (view s) loc).length → loc' = loc ∧ Quiet v s (dirAlloc v i s dp n).st))) := by
  have hs := sdi_spec hr hv.inv hv.linked hst (j := 0) (total_pos hr hv.linked)
  unfold dirAlloc FatDir.dirAlloc
  rw [show 32 * 0 = 0 from rfl] at hs
  generalize dirSdi v i s dp 0 = r at hs
  obtain ⟨q1, hsc, hcs⟩ := hs
  rcases hcs with ⟨hok, hat⟩ | ⟨her, hns⟩
  rotate_left
  · rw [if_neg (by rw [her]; decide)]
    refine ⟨apart_quiet hv q1, hsc, .inl ⟨?_, hns⟩⟩
    simp only [her]
    decide
  rw [if_pos hok]
  have hv1 := dirvol_same hv q1
  have he1 := entries_same hr hv.linked q1.same
  obtain ⟨b1, b2, b3⟩ := alloc_walk hr ROUNDS (n := n) (k := 0) (r := (entries v i (view s) loc).length + 2 * n + 1) (N := (entries v i (view s) loc).length) hv1 hat (by unfold ROUNDS MAX_DIR; omega)
    (by rw [he1]; exact Nat.le_refl _) (by intro z hz1 hz2; rw [he1] at hz2; omega) hn (fun _ => by omega) (fun h => by
      have := at_lt hr hat
      rw [← entries_length v i (view s)] at this
      omega)
  rw [he1] at b3
  generalize walk v i true (allocStep n) ROUNDS r.st r.dp 0 = w at b1 b2 b3
  refine ⟨(apart_quiet hv q1).trans (.refl loc) b1, b2.trans hsc, ?_⟩
  simp only
  rcases b3 with ⟨b3, hns⟩ | ⟨loc', g1, g2, g3, g4⟩
  · left
    rw [b3]
    exact ⟨by decide, hns⟩
  · refine .inr ⟨loc', g1, g2, g3, ?_⟩
    rcases g4 with ⟨g4, g5⟩ | ⟨p, g4, g5, g6⟩
    · refine .inl ⟨g4, ?_⟩
      rcases g5 with g5 | g5 <;> rw [g5] <;> decide
    · refine .inr ⟨p, g4, ?_, g6.1, g6.2.1, fun h => ?_⟩
      rotate_left
      · have := g6.2.2 (by rw [he1]; exact h)
        exact ⟨this.1, q1.trans this.2⟩
      · rw [g5]
        decide

end Fpm.DirDev
