import Verif.DirDev.WalkLemmas
/-!
# Lemmas: going to an entry, and the loop over entries
-/
namespace Fpm.DirDev
open Fpm.Fat Fpm.Fat.Spec Fpm.FatFile Fpm.FatFile.Spec Fpm.FatDir.Spec Fpm.Mount Fpm.Mount.Spec Fpm.DirDev.Spec

theorem follow_spec {v : Vol} {i : Info} (hr : Ready v i) {l : List Nat} : ∀ (k : Nat) {s : St} {q c : Nat}, Inv v s → Links v.nFatent (tab v s) l → l[q]? = some c → q + k < l.length →
    ∃ s' c' r, follow v k s c = (s', c', r) ∧ Quiet v s s' ∧ (r = FR_OK ∧ l[q + k]? = some c' ∨ r = FR_DISK_ERR ∧ ¬ Sound v)
  | 0, s, q, c, hi, _, hq, _ => ⟨s, c, FR_OK, rfl, .refl hi, .inl ⟨rfl, hq⟩⟩
  | k + 1, s, q, c, hi, hl, hq, hlt => by
    have hmem := links_mem hl c (List.mem_of_getElem? hq)
    obtain ⟨s', r, hg, i1, i2, i3, i4, hr'⟩ := getFat_spec hr.geo hi hmem.1 hmem.2
    have hqt : Quiet v s s' := ⟨i1, i2, i3, i4⟩
    unfold follow
    rw [hg]
    simp only
    rcases hr' with hr' | ⟨rfl, hns⟩
    · have htab : r = tab v s c := hr'
      have hbig := tab_lt v s c
      rcases chain_next hl hq with ⟨d, hd1, hd2⟩ | ⟨hlen, _, _⟩
      · have hdm := links_mem hl d (List.mem_of_getElem? hd1)
        rw [hd2] at htab
        subst htab
        rw [if_neg (by unfold UB; omega), if_neg (by unfold DERR; omega), if_neg (by omega)]
        obtain ⟨s2, c2, r2, e, q2, h2⟩ := follow_spec hr k i1 (by rw [tab_same i2]; exact hl) hd1 (by omega)
        refine ⟨s2, c2, r2, e, hqt.trans q2, ?_⟩
        rw [show q + (k + 1) = q + 1 + k from by omega]
        exact h2
      · omega
    · rw [if_neg (by decide), if_pos rfl]
      exact ⟨s', c, _, rfl, hqt, .inr ⟨rfl, hns⟩⟩

/-- Outcome of `dir_sdi`. -/
structure Sought (v : Vol) (i : Info) (loc : Loc) (j : Nat) (s : St) (dp : Dp) (r : Ret) : Prop where
  quiet : Quiet v s r.st
  sclust : r.dp.sclust = dp.sclust
  cases : r.res = FR_OK ∧ At v i loc j r.dp ∨ r.res = FR_DISK_ERR ∧ ¬ Sound v

theorem total_sect {v : Vol} {i : Info} (hr : Ready v i) {loc : Loc} {j : Nat} (h : j < total v i loc) : j < 65536 ∧ 32 * j / v.ss < (dirSecs v i loc).length := by
  obtain ⟨hs, hp⟩ := per_ss hr
  unfold total at h
  refine ⟨by omega, ?_⟩
  rw [hs, Nat.mul_div_mul_left _ _ (by decide), Nat.div_lt_iff_lt_mul hp]
  omega

/-- Going to an entry. -/
theorem sdi_spec {v : Vol} {i : Info} (hr : Ready v i) {s : St} (hi : Inv v s) {loc : Loc} (hl : Linked v (tab v s) loc) {dp : Dp} (hst : Starts v i dp.sclust loc) {j : Nat}
    (hj : j < total v i loc) : Sought v i loc j s dp (dirSdi v i s dp (32 * j)) := by
  obtain ⟨h64, hix⟩ := total_sect hr hj
  unfold dirSdi
  rw [if_neg (by unfold MAX_DIR; omega)]
  cases loc with
  | root =>
    obtain ⟨h0, h3⟩ := hst
    have e0 : startClust v i dp.sclust = 0 := by unfold startClust; rw [if_neg (fun h => h3 h.2), h0]
    rw [if_pos e0]
    obtain ⟨h1, h2⟩ := root_secs hr h3
    have hlen : (dirSecs v i .root).length = i.nRoot * 32 / v.ss := by simp [dirSecs]
    rw [if_neg (by
      unfold total at hj
      rw [hlen, ← h2] at hj
      omega)]
    have hb := (hr.root h3).1
    have hb2 := hr.reserved
    unfold sdiDone
    rw [if_neg (by omega)]
    refine ⟨.refl hi, rfl, .inl ⟨rfl, rfl, h64, ?_, fun _ => rfl, fun l hl => by cases hl⟩⟩
    rw [hlen] at hix
    simp only [dirSecs, List.getElem?_map]
    rw [List.getElem?_range hix]
    rfl
  | chain l =>
    obtain ⟨hh, h3⟩ := hst
    have hne := links_ne hl
    have hl0 : l[0]? = some (l.headD 0) := by
      cases l with
      | nil => exact (hne rfl).elim
      | cons a l => rfl
    have hm0 := links_mem hl _ (List.mem_of_getElem? hl0)
    have e0 : startClust v i dp.sclust = l.headD 0 := by
      unfold startClust
      rw [hh]
      by_cases h0 : dp.sclust = 0
      · rw [if_pos ⟨h0, h3 h0⟩, if_pos h0]
      · rw [if_neg (fun h => h0 h.1), if_neg h0]
    rw [if_neg (by rw [e0]; omega), e0]
    simp only [dirSecs, secs_length] at hix
    have hk : 32 * j / (v.csize * v.ss) < l.length := by
      rw [Nat.mul_comm v.csize, ← Nat.div_div_eq_div_mul, Nat.div_lt_iff_lt_mul (csize_pos hr)]
      exact hix
    unfold sdiChain
    obtain ⟨s', c', r, e, hq, h2⟩ := follow_spec hr (32 * j / (v.csize * v.ss)) hi hl hl0 (by omega)
    rw [e]
    simp only
    rcases h2 with ⟨rfl, h2⟩ | ⟨rfl, hns⟩
    · rw [if_pos rfl]
      rw [Nat.zero_add] at h2
      have hm := links_mem hl c' (List.mem_of_getElem? h2)
      have hp0 := hr.data.pos
      unfold sdiDone
      rw [clst_sect hm.1 hm.2, if_neg (by omega)]
      refine ⟨hq, rfl, .inl ⟨rfl, rfl, h64, ?_, (fun h => by cases h), fun l' hl' => by cases hl'; exact h2⟩⟩
      simp only [dirSecs]
      rw [secs_get (csize_pos hr), Nat.div_div_eq_div_mul, Nat.mul_comm v.ss, h2]
      simp only [Option.map_some, Option.some.injEq]
      rw [Nat.mul_comm v.csize v.ss, Nat.mod_mul_right_div_self]
    · rw [if_neg (by decide)]
      exact ⟨hq, rfl, .inr ⟨rfl, hns⟩⟩

theorem total_pos {v : Vol} {i : Info} (hr : Ready v i) {f : Nat → Nat} {loc : Loc} (hl : Linked v f loc) : 0 < total v i loc := by
  obtain ⟨hs, hp⟩ := per_ss hr
  have : 0 < (dirSecs v i loc).length := by
    cases loc with
    | root =>
      obtain ⟨h1, h2⟩ := root_secs hr hl
      have := (hr.root hl).2.1
      simp only [dirSecs, List.length_map, List.length_range]
      refine Nat.pos_of_ne_zero fun h0 => ?_
      rw [h0] at h2
      omega
    | chain l =>
      have hne := links_ne hl
      simp only [dirSecs, secs_length]
      exact Nat.mul_pos (List.length_pos_iff.mpr hne) (csize_pos hr)
  unfold total
  have := Nat.mul_pos this hp
  omega

/-- The entry in the window. -/
theorem ent_spec {v : Vol} {i : Info} (hr : Ready v i) {s : St} (hi : Inv v s) {loc : Loc} {j : Nat} {dp : Dp} (h : At v i loc j dp) (hw : s.winsect = some dp.sect) :
    ∃ e, dirEnt v s dp = some e ∧ (entries v i (view s) loc)[j]? = some e ∧ e.length = 32 := by
  obtain ⟨hs, hp⟩ := per_ss hr
  have hlen := hi.win.1
  have hlt : dp.dptr % v.ss + 32 ≤ s.win.length := by
    rw [hlen, h.dptr]
    rw [hs, Nat.mul_mod_mul_left]
    have := Nat.mod_lt j hp
    omega
  unfold dirEnt
  rw [if_pos hlt]
  have hv : view s dp.sect = s.win := by unfold view; rw [if_pos hw]
  refine ⟨_, rfl, by rw [at_entry hr h, hv], ?_⟩
  rw [List.length_take, List.length_drop]
  omega

/-- What a loop does with a list of entries. -/
inductive Run (ρ : Type) where
  | ub
  | fin
  | stop (j : Nat) (r : ρ)

/-- A loop over a list of entries, the first of them with index `j`. -/
def run {σ ρ : Type} (f : Nat → List Nat → σ → Step σ ρ) : List (List Nat) → Nat → σ → Run ρ
  | [], _, _ => .fin
  | e :: t, j, q =>
    match f (32 * j) e q with
    | .ub => .ub
    | .stop r => .stop j r
    | .go q => run f t (j + 1) q

/-- The loop on the device agrees with that on the list. -/
def Agrees {ρ : Type} (v : Vol) (i : Info) (loc : Loc) (x : Run ρ) (w : Walked ρ) : Prop :=
  w.res = FR_DISK_ERR ∧ w.val = none ∧ ¬ Sound v ∨ x = .ub ∧ w.res = UB ∧ w.val = none ∨ x = .fin ∧ w.res = FR_NO_FILE ∧ w.val = none ∧ w.dp.sect = 0 ∨
  ∃ j r, x = .stop j r ∧ w.res = FR_OK ∧ w.val = some r ∧ At v i loc j w.dp ∧ w.st.winsect = some w.dp.sect

theorem entries_congr {v : Vol} {i : Info} {d d' : Disk} {loc : Loc} (h : ∀ n ∈ dirSecs v i loc, d' n = d n) : entries v i d' loc = entries v i d loc := by
  unfold entries
  congr 1
  generalize dirSecs v i loc = L at h
  induction L with
  | nil => rfl
  | cons n L ih =>
    rw [List.flatMap_cons, List.flatMap_cons, h n (by simp), ih fun m hm => h m (List.mem_cons_of_mem _ hm)]

theorem entries_same {v : Vol} {i : Info} (hr : Ready v i) {f : Nat → Nat} {loc : Loc} (hl : Linked v f loc) {s s' : St} (h : Same v s s') :
    entries v i (view s') loc = entries v i (view s) loc := entries_congr fun n hn => h n (secs_place hr hl hn).2.1

theorem move_quiet {v : Vol} (hg : Geo v) {s : St} (hi : Inv v s) {n : Nat} (hn : ¬ Fat2 v n) :
    Quiet v s (moveWindow v s n).1 ∧ ((moveWindow v s n).2 = FR_OK ∧ (moveWindow v s n).1.winsect = some n ∨ (moveWindow v s n).2 = FR_DISK_ERR ∧ ¬ Sound v) := by
  obtain ⟨a, b, c, d, e⟩ := move_spec hg hi hn
  exact ⟨⟨a, b, c, e⟩, d⟩

/-- The loop over a directory that is not stretched. -/
theorem walk_spec {σ ρ : Type} {v : Vol} {i : Info} (hr : Ready v i) (f : Nat → List Nat → σ → Step σ ρ) {loc : Loc} : ∀ (k : Nat) {s : St} {j : Nat} {dp : Dp} {q : σ}, Inv v s →
    Linked v (tab v s) loc → At v i loc j dp → total v i loc ≤ j + k →
    Quiet v s (walk v i false f k s dp q).st ∧ (walk v i false f k s dp q).dp.sclust = dp.sclust ∧
      Agrees v i loc (run f ((entries v i (view s) loc).drop j) j q) (walk v i false f k s dp q)
  | 0, s, j, dp, q, hi, hl, ha, hk => by
    have := at_lt hr ha
    omega
  | k + 1, s, j, dp, q, hi, hl, ha, hk => by
    have hpl := at_place hr hl ha
    obtain ⟨q1, h1⟩ := move_quiet hr.geo hi hpl.2.1
    unfold walk
    rcases h1 with ⟨h1, hw⟩ | ⟨h1, hns⟩
    rotate_left
    · rw [if_neg (by rw [h1]; decide)]
      exact ⟨q1, rfl, .inl ⟨h1, rfl, hns⟩⟩
    rw [if_pos h1]
    generalize (moveWindow v s dp.sect).1 = s1 at q1 hw
    have hl1 := linked_same hl q1.same
    obtain ⟨e, he, hg, -⟩ := ent_spec hr q1.inv ha hw
    rw [entries_same hr hl q1.same] at hg
    rw [he]
    simp only
    have hd : (entries v i (view s) loc).drop j = e :: (entries v i (view s) loc).drop (j + 1) := by
      obtain ⟨hlt, rfl⟩ := List.getElem?_eq_some_iff.mp hg
      exact List.drop_eq_getElem_cons hlt
    rw [hd]
    unfold run
    rw [ha.dptr]
    cases hf : f (32 * j) e q with
    | ub => exact ⟨q1, rfl, .inr (.inl ⟨rfl, rfl, rfl⟩)⟩
    | stop r => exact ⟨q1, rfl, .inr (.inr (.inr ⟨j, r, rfl, rfl, rfl, ha, hw⟩))⟩
    | go q' =>
      simp only
      have hm := next_spec hr q1.inv hl1 ha
      generalize dirNext v i false s1 dp = r at hm
      rcases hm.cases with ⟨hok, hat⟩ | ⟨hno, htot, hz⟩ | ⟨her, hns⟩
      · rw [if_pos hok]
        obtain ⟨a1, a2, a3⟩ := walk_spec hr f k (q := q') hm.quiet.inv (linked_same hl1 hm.quiet.same) hat (by omega)
        rw [entries_same hr hl1 hm.quiet.same, entries_same hr hl q1.same] at a3
        exact ⟨(q1.trans hm.quiet).trans a1, a2.trans hm.sclust, a3⟩
      · rw [if_neg (by rw [hno]; decide)]
        rw [List.drop_eq_nil_of_le (by rw [entries_length]; omega)]
        exact ⟨q1.trans hm.quiet, hm.sclust, .inr (.inr (.inl ⟨rfl, hno, rfl, hz⟩))⟩
      · rw [if_neg (by rw [her]; decide)]
        exact ⟨q1.trans hm.quiet, hm.sclust, .inl ⟨her, rfl, hns⟩⟩

theorem rounds_enough (v : Vol) (i : Info) (loc : Loc) (j : Nat) : total v i loc ≤ j + ROUNDS := by
  unfold total ROUNDS MAX_DIR
  omega

end Fpm.DirDev
