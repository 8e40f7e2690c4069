import Verif.FatFile.ReadLemmas
/-!
# More clusters
-/
namespace Fpm.FatFile
open Fpm.Fat Fpm.Fat.Spec Fpm.FatFile.Spec

/-- A list without repetition is not longer than one with the same elements. -/
theorem sub_length : ∀ {l k : List Nat}, l.Nodup → (∀ x ∈ l, x ∈ k) → l.length ≤ k.length
  | [], _, _, _ => by simp
  | x :: l, k, hn, h => by
    rw [List.nodup_cons] at hn
    have hx := h x (by simp)
    have hp := List.perm_cons_erase hx
    have := sub_length (l := l) (k := k.erase x) hn.2 fun y hy => by
      have hne : y ≠ x := by rintro rfl; exact hn.1 hy
      exact (List.mem_erase_of_ne hne).mpr (h y (List.mem_cons_of_mem _ hy))
    rw [hp.length_eq, List.length_cons, List.length_cons]
    omega

theorem flatten_withRest (a b : List (List Nat)) (m : List Nat) : (withRest a m b).flatten.length = m.length + (a ++ b).flatten.length := by
  unfold withRest
  split
  · rename_i h
    subst h
    simp
  · rw [flatten_mid, List.flatten_append]
    simp only [List.length_append]
    omega

theorem range2_nodup (n : Nat) : ((List.range n).map (· + 2)).Nodup := by
  rw [List.nodup_iff_pairwise_ne, List.pairwise_map]
  exact (List.nodup_range (n := n)).imp fun h => by omega

/-- Clusters for the file: there are no more than the others leave. -/
theorem room_le {v : Vol} {a b : List (List Nat)} {m : List Nat} {s : St} (h : VolOk v a b m s) : m.length + (a ++ b).flatten.length ≤ v.nFatent - 2 := by
  rw [← flatten_withRest]
  have := sub_length (k := (List.range (v.nFatent - 2)).map (· + 2)) h.chains.nodup fun x hx => by
    have hu := chains_used h.chains hx
    rw [List.mem_map]
    exact ⟨x - 2, List.mem_range.mpr (by omega), by omega⟩
  rwa [List.length_map, List.length_range] at this

/-- If none is free, the file has all that the others leave. -/
theorem room_full {v : Vol} {a b : List (List Nat)} {m : List Nat} {s : St} (h : VolOk v a b m s) (hf : ∀ c, 2 ≤ c → c < v.nFatent → tab v s c ≠ 0) :
    m.length + (a ++ b).flatten.length = v.nFatent - 2 := by
  have h1 := room_le h
  have := sub_length (l := (List.range (v.nFatent - 2)).map (· + 2)) (k := (withRest a m b).flatten) (range2_nodup _) fun x hx => by
    obtain ⟨y, hy, rfl⟩ := List.mem_map.mp hx
    have := List.mem_range.mp hy
    exact h.chains.used _ (by omega) (by omega) (hf _ (by omega) (by omega))
  rw [List.length_map, List.length_range, flatten_withRest] at this
  omega

theorem chains_front {n : Nat} {f : Nat → Nat} {a b : List (List Nat)} {l : List Nat} (h : Chains n f (l :: (a ++ b))) : Chains n f (a ++ l :: b) := by
  have hp : (l :: (a ++ b)).Perm (a ++ l :: b) := List.perm_middle.symm
  refine ⟨fun x hx => h.chain x (hp.mem_iff.mpr hx), ?_, fun c c2 cn hc => ?_⟩
  · exact (hp.flatten.nodup_iff).mp h.nodup
  · exact (hp.flatten.mem_iff).mp (h.used c c2 cn hc)

/-- The next cluster of the file, or a new one, or none. -/
theorem grow_spec {v : Vol} (hg : Geo v) (hd : DataGeo v) {a b : List (List Nat)} {m : List Nat} {s : St} (h : VolOk v a b m s) {i c : Nat}
    (hc : c = 0 ∧ m = [] ∧ i = 0 ∨ ∃ j, i = j + 1 ∧ m[j]? = some c) :
    ∃ s' r, createChain v s c = (s', r) ∧ Others v a b s s' ∧
      ((∃ e, VolOk v a b (m ++ e) s' ∧ SameData v (a ++ b).flatten s s' ∧ (m ++ e)[i]? = some r ∧ 2 ≤ r ∧ r < v.nFatent) ∨
       (r = 0 ∧ VolOk v a b m s' ∧ SameData v (a ++ b).flatten s s' ∧ m.length + (a ++ b).flatten.length = v.nFatent - 2 ∧ m.length = i) ∨
       (r = DERR ∧ ¬ Sound v)) := by
  have hX : ∀ x ∈ (a ++ b).flatten, x < v.nFatent ∧ tab v s x ≠ 0 := by
    intro x hx
    obtain ⟨l, hl, hx⟩ := List.mem_flatten.mp hx
    exact ⟨(links_mem (h.links l hl) x hx).2, by have := links_used (h.links l hl) x hx; omega⟩
  have hnear : Sound v → Fat.Near v (a ++ b).flatten s (createChain v s c).1 := fun hs => by
    refine createChain_near hg hs (fun x hx => (hX x hx).1) h.inv (fun x hx => (hX x hx).2) ?_
    rcases hc with ⟨rfl, -, -⟩ | ⟨j, -, hj⟩
    · exact .inl rfl
    · exact .inr (h.mem (List.mem_of_getElem? hj))
  have hst := stays_create hg s c
  rcases hc with ⟨rfl, rfl, rfl⟩ | ⟨j, rfl, hj⟩
  · cases e : createChain v s 0 with
    | mk s' r =>
      rw [e] at hst hnear
      have hw : Chains v.nFatent (tab v s) (a ++ b) := h.chains
      obtain ⟨hi, ho, hr⟩ := C51_new v hg s h.inv (a ++ b) hw h.count s' r e
      rcases hr with ⟨rfl, hf, ht, hk⟩ | ⟨r2, rn, -, hch, -, hk⟩ | ⟨rfl, hs, hl⟩
      · obtain ⟨hv, hsd⟩ := vol_fat (m' := []) hg hd h hi ho hst (by rw [ht]; exact hw) hk
        exact ⟨s', 0, rfl, others_fat hv.links ho hnear, .inr (.inl ⟨rfl, hv, hsd, room_full h hf, rfl⟩)⟩
      · obtain ⟨hv, hsd⟩ := vol_fat (m' := [r]) hg hd h hi ho hst (by unfold withRest; rw [if_neg (by simp)]; exact chains_front hch) hk
        exact ⟨s', r, rfl, others_fat hv.links ho hnear, .inl ⟨[r], hv, hsd, rfl, r2, rn⟩⟩
      · exact ⟨s', _, rfl, others_fat hl ho hnear, .inr (.inr ⟨rfl, hs⟩)⟩
  · have hm : m ≠ [] := by rintro rfl; cases hj
    have hw := VolOk_chains h hm
    have hcm := h.mem (List.mem_of_getElem? hj)
    have hsp := split_at hj
    have hjl := (List.getElem?_eq_some_iff.mp hj).1
    by_cases hlast : m.length = j + 1
    · rw [List.drop_eq_nil_of_le (by omega)] at hsp
      cases e : createChain v s c with
      | mk s' r =>
        rw [e] at hst hnear
        rw [hsp] at hw
        obtain ⟨hi, ho, hr⟩ := C51_stretch v hg s h.inv a b (m.take j) c hw h.count s' r e
        rcases hr with ⟨rfl, hf, ht, hk⟩ | ⟨r2, rn, -, hch, -, hk⟩ | ⟨rfl, hs, hl⟩
        · obtain ⟨hv, hsd⟩ := vol_fat (m' := m) hg hd h hi ho hst (by rw [ht]; exact h.chains) hk
          exact ⟨s', 0, rfl, others_fat hv.links ho hnear, .inr (.inl ⟨rfl, hv, hsd, room_full h hf, hlast⟩)⟩
        · have e1 : m.take j ++ [c, r] = m ++ [r] := by
            conv => rhs; rw [hsp]
            simp
          obtain ⟨hv, hsd⟩ := vol_fat (m' := m ++ [r]) hg hd h hi ho hst (by unfold withRest; rw [if_neg (by simp), ← e1]; exact hch) hk
          refine ⟨s', r, rfl, others_fat hv.links ho hnear, .inl ⟨[r], hv, hsd, ?_, r2, rn⟩⟩
          rw [List.getElem?_append_right (by omega), hlast]
          simp
        · exact ⟨s', _, rfl, others_fat hl ho hnear, .inr (.inr ⟨rfl, hs⟩)⟩
    · have hj1 : j + 1 < m.length := by omega
      have hd1 : m[j + 1]? = some m[j + 1] := List.getElem?_eq_getElem hj1
      have hdm := h.mem (List.mem_of_getElem? hd1)
      rw [List.drop_eq_getElem_cons hj1] at hsp
      obtain ⟨s', r, e, hi, ho, -, hcr⟩ := create_spec hg h.inv (clst := c) (.inr ⟨hcm.1, hcm.2.1⟩)
      rw [e] at hst hnear
      have hw' := hw
      rw [hsp] at hw'
      obtain ⟨ht, hr⟩ := C51_followed v hg s h.inv a b (m.take j) (m.drop (j + 1 + 1)) c m[j + 1] hw' s' r e
      have hl' : ∀ l ∈ a ++ b, Links v.nFatent (tab v s') l := by rw [ht]; exact h.links
      have hnext := links_next (hw'.chain _ (by simp : m.take j ++ c :: m[j + 1] :: m.drop (j + 1 + 1) ∈ _))
      have hk : r ≠ DERR → CountOk v s' := by
        intro hne
        cases hcr with
        | full sm rr _ he => exact count_same sm rr h.count
        | bad sm rr c' h2 hc' hb => exact count_same sm rr h.count
        | next sm rr _ _ _ => exact count_same sm rr h.count
        | new _ _ _ h0 _ he => exact absurd (he (by have := hcm.1; omega)) (by have := hdm.2.1; omega)
        | fail => exact absurd rfl hne
      refine ⟨s', r, e, others_fat hl' ho hnear, ?_⟩
      rcases hr with rfl | ⟨rfl, hs⟩
      · left
        have hk := hk (by have := nFatent_lt hg; have := hdm.2.1; unfold DERR; omega)
        obtain ⟨hv, hsd⟩ := vol_fat (m' := m) hg hd h hi ho hst (by rw [ht]; exact h.chains) hk
        exact ⟨[], by rw [List.append_nil]; exact hv, hsd, by rw [List.append_nil]; exact hd1, hdm.1, hdm.2.1⟩
      · exact .inr (.inr ⟨rfl, hs⟩)

end Fpm.FatFile
