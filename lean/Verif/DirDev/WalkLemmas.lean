import Verif.DirDev.Spec
import Verif.FatFile.StepLemmas
import Verif.Fat.ChainProps
/-!
# Lemmas: from entry to entry
-/
namespace Fpm.DirDev
open Fpm.Fat Fpm.Fat.Spec Fpm.FatFile Fpm.FatFile.Spec Fpm.FatDir.Spec Fpm.Mount Fpm.Mount.Spec Fpm.DirDev.Spec

/-- Entries of a sector. -/
abbrev per (v : Vol) : Nat := v.ss / 32

theorem per_ss {v : Vol} {i : Info} (hr : Ready v i) : v.ss = 32 * per v ∧ 0 < per v := by
  have h1 := hr.whole
  have h2 := hr.geo.ss.2
  unfold per
  omega

theorem csize_pos {v : Vol} {i : Info} (hr : Ready v i) : 0 < v.csize := by
  obtain ⟨k, h⟩ := hr.data.pow
  rw [h]
  exact Nat.pow_pos (by decide)

theorem flatGet {α : Type} {d : Nat → List α} {S : Nat} (hS : 0 < S) : ∀ (L : List Nat) (_ : ∀ n ∈ L, (d n).length = S) (k : Nat),
    (L.flatMap d)[k]? = L[k / S]?.bind fun n => (d n)[k % S]?
  | [], _, k => by simp
  | n :: L, h, k => by
    have hn := h n (by simp)
    rw [List.flatMap_cons]
    by_cases hk : k < S
    · rw [List.getElem?_append_left (by omega), Nat.div_eq_of_lt hk, Nat.mod_eq_of_lt hk]
      rfl
    · have hk : S ≤ k := by omega
      rw [List.getElem?_append_right (by omega), hn, flatGet hS L (fun x hx => h x (List.mem_cons_of_mem _ hx)), (div_ge hS hk).1, (div_ge hS hk).2]
      rfl

theorem flatLength {α : Type} {d : Nat → List α} {S : Nat} : ∀ (L : List Nat) (_ : ∀ n ∈ L, (d n).length = S), (L.flatMap d).length = L.length * S
  | [], _ => by simp
  | n :: L, h => by
    rw [List.flatMap_cons, List.length_append, h n (by simp), flatLength L (fun x hx => h x (List.mem_cons_of_mem _ hx)), List.length_cons, Nat.add_mul]
    omega

theorem pieces_length (v : Vol) (b : List Nat) : (pieces v b).length = per v := by simp [pieces]

theorem pieces_get {v : Vol} {b : List Nat} {j : Nat} (h : j < per v) : (pieces v b)[j]? = some ((b.drop (32 * j)).take 32) := by
  simp [pieces, h]

/-- Number of entries. -/
def total (v : Vol) (i : Info) (loc : Loc) : Nat := min ((dirSecs v i loc).length * per v) 65536

theorem entries_length (v : Vol) (i : Info) (d : Disk) (loc : Loc) : (entries v i d loc).length = total v i loc := by
  unfold entries total
  rw [List.length_take, flatLength _ fun n _ => pieces_length v (d n)]
  omega

/-- Where an entry is. -/
theorem entries_get {v : Vol} {i : Info} (hr : Ready v i) (d : Disk) (loc : Loc) {j : Nat} (hj : j < 65536) :
    (entries v i d loc)[j]? = (dirSecs v i loc)[32 * j / v.ss]?.map fun n => ((d n).drop (32 * j % v.ss)).take 32 := by
  obtain ⟨hs, hp⟩ := per_ss hr
  unfold entries
  rw [List.getElem?_take, if_pos hj, flatGet hp _ fun n _ => pieces_length v (d n)]
  have e1 : 32 * j / v.ss = j / per v := by rw [hs, Nat.mul_div_mul_left _ _ (by decide)]
  have e2 : 32 * j % v.ss = 32 * (j % per v) := by rw [hs, Nat.mul_mod_mul_left]
  rw [e1, e2]
  cases (dirSecs v i loc)[j / per v]? with
  | none => rfl
  | some n => exact pieces_get (Nat.mod_lt _ hp)

theorem root_secs {v : Vol} {i : Info} (hr : Ready v i) (h3 : v.fsType ≠ 3) : i.dirbase + i.nRoot * 32 / v.ss = v.database ∧ i.nRoot = i.nRoot * 32 / v.ss * per v := by
  obtain ⟨hs, hp⟩ := per_ss hr
  obtain ⟨_, _, h⟩ := hr.root h3
  have hle : i.dirbase ≤ v.database := by
    rcases Nat.lt_or_ge v.database i.dirbase with hlt | hge
    · have := Nat.mul_lt_mul_of_pos_right hlt hr.geo.ss.2
      omega
    · exact hge
  have e : i.nRoot * 32 = (v.database - i.dirbase) * v.ss := by rw [Nat.sub_mul]; omega
  have e2 : i.nRoot * 32 / v.ss = v.database - i.dirbase := by rw [e, Nat.mul_div_cancel _ hr.geo.ss.2]
  refine ⟨by omega, ?_⟩
  rw [e2]
  have : i.nRoot * 32 = (v.database - i.dirbase) * per v * 32 := by rw [e, Nat.mul_assoc, Nat.mul_comm (per v) 32, ← hs]
  exact Nat.eq_of_mul_eq_mul_right (by decide) this

/-- Sectors of a directory are outside of the FATs. -/
theorem secs_place {v : Vol} {i : Info} (hr : Ready v i) {f : Nat → Nat} {loc : Loc} (hl : Linked v f loc) {n : Nat} (h : n ∈ dirSecs v i loc) :
    ¬ Fat1 v n ∧ ¬ Fat2 v n ∧ n ≠ 0 := by
  have key : v.fatbase + v.nFats * v.fsize ≤ n := by
    cases loc with
    | root =>
      simp only [dirSecs, List.mem_map] at h
      obtain ⟨k, _, rfl⟩ := h
      have := (hr.root hl).1
      omega
    | chain l =>
      obtain ⟨c, _, hc⟩ := secs_mem h
      have := (mem_sectors.mp hc).1
      have := hr.data.base
      omega
  have h0 := hr.reserved
  have hn : v.fsize ≤ v.nFats * v.fsize := by
    rcases hr.geo.nFats with h | h <;> rw [h] <;> omega
  refine ⟨fun h => ?_, fun h => ?_, by omega⟩
  · have := h.2
    omega
  · have := h.2.2
    have := h.1
    rw [this] at key
    omega

theorem at_place {v : Vol} {i : Info} (hr : Ready v i) {f : Nat → Nat} {loc : Loc} (hl : Linked v f loc) {j : Nat} {dp : Dp} (h : At v i loc j dp) :
    ¬ Fat1 v dp.sect ∧ ¬ Fat2 v dp.sect ∧ dp.sect ≠ 0 := secs_place hr hl (List.mem_of_getElem? h.sect)

theorem at_lt {v : Vol} {i : Info} (hr : Ready v i) {loc : Loc} {j : Nat} {dp : Dp} (h : At v i loc j dp) : j < total v i loc := by
  obtain ⟨hs, hp⟩ := per_ss hr
  have h1 := h.small
  have h2 : 32 * j / v.ss < (dirSecs v i loc).length := by
    rcases Nat.lt_or_ge (32 * j / v.ss) (dirSecs v i loc).length with h2 | h2
    · exact h2
    · have := h.sect
      rw [List.getElem?_eq_none h2] at this
      cases this
  rw [hs, Nat.mul_div_mul_left _ _ (by decide), Nat.div_lt_iff_lt_mul hp] at h2
  unfold total
  omega

/-- What is under the pointer. -/
theorem at_entry {v : Vol} {i : Info} (hr : Ready v i) {loc : Loc} {j : Nat} {dp : Dp} (h : At v i loc j dp) (d : Disk) :
    (entries v i d loc)[j]? = some (((d dp.sect).drop (dp.dptr % v.ss)).take 32) := by
  rw [entries_get hr d loc h.small, h.sect, h.dptr]
  rfl

/-- The neighbour in a chain. -/
theorem chain_next {n : Nat} {f : Nat → Nat} {l : List Nat} (h : Links n f l) {k c : Nat} (hk : l[k]? = some c) :
    (∃ d, l[k + 1]? = some d ∧ f c = d) ∨ (l.length = k + 1 ∧ n ≤ f c ∧ ∃ m, l = m ++ [c]) := by
  obtain ⟨hlt, rfl⟩ := List.getElem?_eq_some_iff.mp hk
  have e := List.take_append_drop k l
  rw [List.drop_eq_getElem_cons hlt] at e
  by_cases h1 : k + 1 < l.length
  · left
    rw [List.drop_eq_getElem_cons h1] at e
    refine ⟨l[k + 1], List.getElem?_eq_getElem h1, ?_⟩
    exact links_next (l := l.take k) (m := l.drop (k + 2)) (by rw [e]; exact h)
  · right
    rw [List.drop_eq_nil_of_le (by omega)] at e
    exact ⟨by omega, links_last (l := l.take k) (by rw [e]; exact h), _, e.symm⟩

theorem mod_pred {j p : Nat} (h : (j + 1) % p ≠ 0) : (j + 1) / p = j / p := by
  rw [Nat.succ_div]
  rw [if_neg fun hd => h (Nat.mod_eq_zero_of_dvd hd)]
  omega

theorem div_succ {j p : Nat} (h : (j + 1) % p = 0) : (j + 1) / p = j / p + 1 := by
  rw [Nat.succ_div]
  rw [if_pos (Nat.dvd_of_mod_eq_zero h)]

/-- A pointer to the next entry in the same or next sector. -/
theorem at_sector {v : Vol} {i : Info} (hr : Ready v i) {loc : Loc} {j : Nat} {dp : Dp} (h : At v i loc j dp) (h1 : j + 1 < 65536) (hm : (32 * j + 32) % v.ss ≠ 0) :
    At v i loc (j + 1) { dp with dptr := 32 * j + 32 } := by
  obtain ⟨hs, hp⟩ := per_ss hr
  have hm' : (j + 1) % per v ≠ 0 := by
    intro h0
    apply hm
    rw [hs, show 32 * j + 32 = 32 * (j + 1) from by omega, Nat.mul_mod_mul_left, h0]
  have e1 : 32 * (j + 1) / v.ss = 32 * j / v.ss := by
    rw [hs, Nat.mul_div_mul_left _ _ (by decide), Nat.mul_div_mul_left _ _ (by decide), mod_pred hm']
  refine ⟨show 32 * j + 32 = 32 * (j + 1) from by omega, h1, ?_, h.root, fun l hl => ?_⟩
  · rw [e1]; exact h.sect
  · have e2 : 32 * (j + 1) / (v.csize * v.ss) = 32 * j / (v.csize * v.ss) := by
      rw [Nat.mul_comm v.csize, ← Nat.div_div_eq_div_mul, ← Nat.div_div_eq_div_mul, e1]
    rw [e2]
    exact h.clust l hl

/-- A pointer to the first entry of the next sector. -/
theorem at_next {v : Vol} {i : Info} (hr : Ready v i) {loc : Loc} {j : Nat} {dp : Dp} (h1 : j + 1 < 65536) (hm : (32 * j + 32) % v.ss = 0) {cl se : Nat}
    (hse : (dirSecs v i loc)[32 * j / v.ss + 1]? = some se) (hroot : loc = .root → cl = 0) (hcl : ∀ l, loc = .chain l → l[32 * (j + 1) / (v.csize * v.ss)]? = some cl) :
    At v i loc (j + 1) { dp with clust := cl, sect := se, dptr := 32 * j + 32 } := by
  obtain ⟨hs, hp⟩ := per_ss hr
  have hm' : (j + 1) % per v = 0 := by
    rw [hs, show 32 * j + 32 = 32 * (j + 1) from by omega, Nat.mul_mod_mul_left] at hm
    omega
  refine ⟨show 32 * j + 32 = 32 * (j + 1) from by omega, h1, ?_, hroot, hcl⟩
  rw [hs, Nat.mul_div_mul_left _ _ (by decide), div_succ hm']
  rw [hs, Nat.mul_div_mul_left _ _ (by decide)] at hse
  exact hse

/-- What moving about does not change. -/
structure Quiet (v : Vol) (s s' : St) : Prop where
  inv : Inv v s'
  same : Same v s s'
  rest : Rest s s'
  trace : Sound v → Trace v s s'

theorem Quiet.refl {v : Vol} {s : St} (h : Inv v s) : Quiet v s s := ⟨h, .refl _ _, .refl _, fun _ => .refl _ _⟩

theorem Quiet.trans {v : Vol} {a b c : St} (h : Quiet v a b) (h' : Quiet v b c) : Quiet v a c :=
  ⟨h'.inv, h.same.trans h'.same, h.rest.trans h'.rest, fun hs => (h.trace hs).trans h.same (h'.trace hs)⟩

theorem linked_same {v : Vol} {s s' : St} {loc : Loc} (h : Linked v (tab v s) loc) (hs : Same v s s') : Linked v (tab v s') loc := by rw [tab_same hs]; exact h

/-- Outcome of going to the next entry without stretching. -/
structure Moved (v : Vol) (i : Info) (loc : Loc) (j : Nat) (s : St) (dp : Dp) (r : Ret) : Prop where
  quiet : Quiet v s r.st
  sclust : r.dp.sclust = dp.sclust
  cases : r.res = FR_OK ∧ At v i loc (j + 1) r.dp ∨ r.res = FR_NO_FILE ∧ total v i loc = j + 1 ∧ r.dp.sect = 0 ∨ r.res = FR_DISK_ERR ∧ ¬ Sound v

theorem total_le {v : Vol} {i : Info} (hr : Ready v i) {loc : Loc} {j : Nat} (hj : 32 * j / v.ss < (dirSecs v i loc).length) (hm : (32 * j + 32) % v.ss = 0) (h : (dirSecs v i loc)[32 * j / v.ss + 1]? = none)
    (h1 : j + 1 ≤ 65536) : total v i loc = j + 1 := by
  obtain ⟨hs, hp⟩ := per_ss hr
  rw [hs, show 32 * j + 32 = 32 * (j + 1) from by omega, Nat.mul_mod_mul_left] at hm
  have hm' : (j + 1) % per v = 0 := by omega
  rw [hs, Nat.mul_div_mul_left _ _ (by decide)] at h hj
  have := List.getElem?_eq_none_iff.mp h
  have hl : (dirSecs v i loc).length = (j + 1) / per v := by rw [div_succ hm']; omega
  unfold total
  rw [hl, Nat.div_mul_cancel (Nat.dvd_of_mod_eq_zero hm')]
  omega

theorem at_index {v : Vol} {i : Info} {loc : Loc} {j : Nat} {dp : Dp} (h : At v i loc j dp) : 32 * j / v.ss < (dirSecs v i loc).length := by
  rcases Nat.lt_or_ge (32 * j / v.ss) (dirSecs v i loc).length with h2 | h2
  · exact h2
  · have := h.sect
    rw [List.getElem?_eq_none h2] at this
    cases this

/-- The cluster changes. -/
theorem clust_change {v : Vol} {i : Info} (hr : Ready v i) {j : Nat} (hm : (32 * j + 32) % v.ss = 0) (hc : (32 * j + 32) / v.ss &&& (v.csize - 1) = 0) :
    32 * (j + 1) / (v.csize * v.ss) = 32 * j / (v.csize * v.ss) + 1 ∧ (32 * j / v.ss + 1) % v.csize = 0 ∧ (32 * j / v.ss + 1) / v.csize = 32 * j / (v.csize * v.ss) + 1 := by
  obtain ⟨k, hk⟩ := hr.data.pow
  obtain ⟨hs, hp⟩ := per_ss hr
  have hm' : (j + 1) % per v = 0 := by
    rw [hs, show 32 * j + 32 = 32 * (j + 1) from by omega, Nat.mul_mod_mul_left] at hm
    omega
  have e1 : (32 * j + 32) / v.ss = 32 * j / v.ss + 1 := by
    rw [hs, show 32 * j + 32 = 32 * (j + 1) from by omega, Nat.mul_div_mul_left _ _ (by decide), Nat.mul_div_mul_left _ _ (by decide), div_succ hm']
  have hz : (32 * j / v.ss + 1) % v.csize = 0 := by
    rw [e1, hk, Nat.and_two_pow_sub_one_eq_mod] at hc
    rw [hk]
    exact hc
  have e2 : (32 * j / v.ss + 1) / v.csize = 32 * j / (v.csize * v.ss) + 1 := by
    rw [div_succ hz, Nat.mul_comm v.csize, Nat.div_div_eq_div_mul]
  refine ⟨?_, hz, e2⟩
  rw [← e2, Nat.mul_comm v.csize, ← Nat.div_div_eq_div_mul, show 32 * (j + 1) = 32 * j + 32 from by omega, e1]

theorem clust_stay {v : Vol} {i : Info} (hr : Ready v i) {j : Nat} (hm : (32 * j + 32) % v.ss = 0) (hc : ¬ (32 * j + 32) / v.ss &&& (v.csize - 1) = 0) :
    32 * (j + 1) / (v.csize * v.ss) = 32 * j / (v.csize * v.ss) ∧ 32 * j / v.ss % v.csize + 1 < v.csize := by
  obtain ⟨k, hk⟩ := hr.data.pow
  obtain ⟨hs, hp⟩ := per_ss hr
  have hm' : (j + 1) % per v = 0 := by
    rw [hs, show 32 * j + 32 = 32 * (j + 1) from by omega, Nat.mul_mod_mul_left] at hm
    omega
  have e1 : (32 * j + 32) / v.ss = 32 * j / v.ss + 1 := by
    rw [hs, show 32 * j + 32 = 32 * (j + 1) from by omega, Nat.mul_div_mul_left _ _ (by decide), Nat.mul_div_mul_left _ _ (by decide), div_succ hm']
  have hz : (32 * j / v.ss + 1) % v.csize ≠ 0 := by
    rw [e1, hk, Nat.and_two_pow_sub_one_eq_mod] at hc
    rw [hk]
    exact hc
  refine ⟨?_, ?_⟩
  · rw [Nat.mul_comm v.csize, ← Nat.div_div_eq_div_mul, ← Nat.div_div_eq_div_mul, show 32 * (j + 1) = 32 * j + 32 from by omega, e1, mod_pred hz]
  · have h1 := Nat.mod_lt (32 * j / v.ss) (csize_pos hr)
    rcases Nat.lt_or_ge (32 * j / v.ss % v.csize + 1) v.csize with h | h
    · exact h
    · exfalso
      apply hz
      rw [Nat.add_mod]
      have : v.csize = 32 * j / v.ss % v.csize + 1 := by omega
      by_cases h1 : v.csize = 1
      · rw [h1]; omega
      · rw [Nat.mod_eq_of_lt (a := 1) (by have := csize_pos hr; omega), ← this, Nat.mod_self]

theorem clst_sect {v : Vol} {c : Nat} (h2 : 2 ≤ c) (hn : c < v.nFatent) : clst2sect v c = v.database + v.csize * (c - 2) := by
  unfold clst2sect
  rw [if_neg (by omega)]

/-- Going to the next entry. -/
theorem next_spec {v : Vol} {i : Info} (hr : Ready v i) {s : St} (hi : Inv v s) {loc : Loc} (hl : Linked v (tab v s) loc) {j : Nat} {dp : Dp} (h : At v i loc j dp) :
    Moved v i loc j s dp (dirNext v i false s dp) := by
  have hpl := at_place hr hl h
  have hlt := at_lt hr h
  have hix := at_index h
  have hsm := h.small
  unfold dirNext
  rw [h.dptr]
  by_cases h1 : 32 * j + 32 ≥ MAX_DIR
  · rw [if_pos (.inl h1)]
    refine ⟨.refl hi, rfl, .inr (.inl ⟨rfl, ?_, rfl⟩)⟩
    unfold total at hlt ⊢
    unfold MAX_DIR at h1
    omega
  rw [if_neg (by rintro (h | h); exact h1 h; exact hpl.2.2 h)]
  have h64 : j + 1 < 65536 := by unfold MAX_DIR at h1; omega
  by_cases hm : (32 * j + 32) % v.ss ≠ 0
  · rw [if_pos hm]
    exact ⟨.refl hi, rfl, .inl ⟨rfl, at_sector hr h h64 hm⟩⟩
  rw [if_neg hm]
  have hm : (32 * j + 32) % v.ss = 0 := by omega
  cases loc with
  | root =>
    have hc0 := h.root rfl
    rw [if_pos hc0]
    obtain ⟨h1, h2⟩ := root_secs hr hl
    have hse := h.sect
    simp only [dirSecs, List.getElem?_map] at hse
    obtain ⟨hs, hp⟩ := per_ss hr
    have hlen : (dirSecs v i .root).length = i.nRoot * 32 / v.ss := by simp [dirSecs]
    have hm' : (j + 1) % per v = 0 := by
      have := hm
      rw [hs, show 32 * j + 32 = 32 * (j + 1) from by omega, Nat.mul_mod_mul_left] at this
      omega
    have ej : 32 * j / v.ss = j / per v := by rw [hs, Nat.mul_div_mul_left _ _ (by decide)]
    have hk : (j + 1) / per v = j / per v + 1 := div_succ hm'
    have hjp : (j + 1) / per v * per v = j + 1 := Nat.div_mul_cancel (Nat.dvd_of_mod_eq_zero hm')
    split
    · rename_i hge
      refine ⟨.refl hi, rfl, .inr (.inl ⟨rfl, total_le hr hix hm ?_ (by omega), rfl⟩)⟩
      rw [List.getElem?_eq_none_iff, hlen, ej]
      have hge : i.nRoot ≤ j + 1 := by omega
      rw [← hk]
      rw [h2] at hge
      rw [← hjp] at hge
      exact Nat.le_of_mul_le_mul_right hge hp
    · rename_i hge
      refine ⟨.refl hi, rfl, .inl ⟨rfl, at_next hr (dp := dp) h64 hm (cl := dp.clust) ?_ (fun _ => hc0) (fun l hl => by cases hl)⟩⟩
      have hge : j + 1 < i.nRoot := by omega
      have hlt2 : j / per v + 1 < i.nRoot * 32 / v.ss := by
        rw [← hk]
        rw [h2, ← hjp] at hge
        exact Nat.lt_of_mul_lt_mul_right hge
      have h1 := h.sect
      rw [ej] at h1 ⊢
      simp only [dirSecs, List.getElem?_map] at h1 ⊢
      rw [List.getElem?_range (by omega)] at h1 ⊢
      simp only [Option.map_some, Option.some.injEq] at h1 ⊢
      omega
  | chain l =>
    have hcl := h.clust l rfl
    have hmem := links_mem hl dp.clust (List.mem_of_getElem? hcl)
    rw [if_neg (by omega)]
    have hsect := h.sect
    simp only [dirSecs] at hsect
    rw [secs_get (csize_pos hr), Nat.div_div_eq_div_mul, Nat.mul_comm v.ss, hcl] at hsect
    simp only [Option.map_some, Option.some.injEq] at hsect
    by_cases hc : (32 * j + 32) / v.ss &&& (v.csize - 1) = 0
    · rw [if_pos hc]
      obtain ⟨c1, c2, c3⟩ := clust_change hr hm hc
      obtain ⟨s', r, hg, i1, i2, i3, i4, hr'⟩ := getFat_spec hr.geo hi hmem.1 hmem.2
      rw [hg]
      have hq : Quiet v s s' := ⟨i1, i2, i3, i4⟩
      unfold nextClust
      simp only
      rcases hr' with hr' | ⟨hr', hns⟩
      · have htab : r = tab v s dp.clust := hr'
        have hbig := tab_lt v s dp.clust
        rw [if_neg (by unfold UB; omega)]
        rcases chain_next hl hcl with ⟨d, hd1, hd2⟩ | ⟨hlen, hend, m, hlm⟩
        · have hdm := links_mem hl d (List.mem_of_getElem? hd1)
          rw [hd2] at htab
          subst htab
          rw [if_neg (by omega), if_neg (by unfold DERR; omega), if_neg (by omega)]
          refine ⟨hq, rfl, .inl ⟨rfl, ?_⟩⟩
          have := at_next hr (loc := .chain l) (dp := { dp with sect := dp.sect + 1 }) h64 hm (cl := r) (se := clst2sect v r) ?_ (fun h => by cases h) (fun l' hl' => by cases hl'; rw [c1]; exact hd1)
          · exact this
          · simp only [dirSecs]
            rw [secs_get (csize_pos hr), c3, hd1, c2, clst_sect hdm.1 hdm.2]
            rfl
        · rw [if_neg (by have := hmem; omega), if_neg (by unfold DERR; omega), if_pos (by omega), if_neg (by decide)]
          refine ⟨hq, rfl, .inr (.inl ⟨rfl, total_le hr hix hm ?_ (by omega), rfl⟩)⟩
          simp only [dirSecs]
          rw [secs_get (csize_pos hr), c3, List.getElem?_eq_none (by omega)]
          rfl
      · subst hr'
        rw [if_neg (by decide), if_neg (by decide), if_pos rfl]
        exact ⟨hq, rfl, .inr (.inr ⟨rfl, hns⟩)⟩
    · rw [if_neg hc]
      obtain ⟨c1, c2⟩ := clust_stay hr hm hc
      refine ⟨.refl hi, rfl, .inl ⟨rfl, at_next hr (dp := dp) h64 hm (cl := dp.clust) ?_ (fun h => by cases h) (fun l' hl' => by cases hl'; rw [c1]; exact hcl)⟩⟩
      have e : (32 * j / v.ss + 1) / v.csize = 32 * j / v.ss / v.csize ∧ (32 * j / v.ss + 1) % v.csize = 32 * j / v.ss % v.csize + 1 := by
        have := Nat.div_add_mod (32 * j / v.ss) v.csize
        have h2 : 32 * j / v.ss + 1 = v.csize * (32 * j / v.ss / v.csize) + (32 * j / v.ss % v.csize + 1) := by omega
        rw [h2, Nat.mul_add_div (csize_pos hr), Nat.mul_add_mod, Nat.div_eq_of_lt c2, Nat.mod_eq_of_lt c2]
        exact ⟨rfl, rfl⟩
      simp only [dirSecs]
      rw [secs_get (csize_pos hr), e.1, e.2, Nat.div_div_eq_div_mul, Nat.mul_comm v.ss, hcl]
      simp only [Option.map_some, Option.some.injEq]
      omega

end Fpm.DirDev
