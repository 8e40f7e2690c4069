import Verif.Fat.RemoveLemmas
import Verif.Fat.Props
/-!
# C51: allocation, C52: removal, C53: crashes, C72: damaged tables
-/
namespace Fpm.Fat
open Fpm.Fat.Spec

theorem count_same {v : Vol} {s s' : St} (sm : Same v s s') (rr : Rest s s') (h : CountOk v s) : CountOk v s' := by
  unfold CountOk
  rw [tab_same sm, rr.2.1]
  exact h

theorem no_free {v : Vol} {s : St} (h : CountOk v s) (h0 : s.freeClst = 0) (c : Nat) (h2 : 2 ≤ c) (hc : c < v.nFatent) : tab v s c ≠ 0 := by
  intro hz
  have := count_pos h2 hc hz
  have := h (by omega)
  omega

theorem count_new {v : Vol} {s s' : St} {r : Nat} (h2 : 2 ≤ r) (hr : r < v.nFatent) (h0 : tab v s r = 0) (h1 : tab v s' r ≠ 0)
    (hz : ∀ c, c ≠ r → 2 ≤ c → c < v.nFatent → (tab v s' c = 0 ↔ tab v s c = 0))
    (hf : s'.freeClst = (if s.freeClst ≤ v.nFatent - 2 then s.freeClst - 1 else s.freeClst)) (hk : CountOk v s) : CountOk v s' := by
  have e : freeCount (tab v s) v.nFatent = freeCount (tab v s') v.nFatent + 1 := by
    have e1 := count_less (f := tab v s) (g := fun c => if c = r then 1 else tab v s c) h2 h0 (by simp) hr (fun c hc _ => by simp [hc])
    rw [e1, count_congr (f := tab v s') (g := fun c => if c = r then 1 else tab v s c)]
    intro c c2 cn
    by_cases hc : c = r
    · subst hc; simp [h1]
    · simp [hc, hz c hc c2 cn]
  intro hle
  rw [hf] at hle ⊢
  by_cases hs : s.freeClst ≤ v.nFatent - 2
  · rw [if_pos hs]
    have := hk hs
    omega
  · rw [if_neg hs] at hle
    exact absurd hle hs

/-- **C51**, a new chain.  It is the one free cluster found, or there is no free cluster, or the device failed. -/
theorem C51_new (v : Vol) (hg : Geo v) (s : St) (hi : Inv v s) (cs : List (List Nat)) (hw : Chains v.nFatent (tab v s) cs) (hk : CountOk v s) (s' : St) (r : Nat)
    (h : createChain v s 0 = (s', r)) :
    Inv v s' ∧ (∀ n, ¬ Fat1 v n → ¬ Fat2 v n → view s' n = view s n) ∧
    (r = 0 ∧ (∀ c, 2 ≤ c → c < v.nFatent → tab v s c ≠ 0) ∧ tab v s' = tab v s ∧ CountOk v s' ∨
     2 ≤ r ∧ r < v.nFatent ∧ tab v s r = 0 ∧ Chains v.nFatent (tab v s') ([r] :: cs) ∧ (∀ c, c ≠ r → 2 ≤ c → c < v.nFatent → tab v s' c = tab v s c) ∧ CountOk v s' ∨
     r = 0xFFFFFFFF ∧ ¬ Sound v ∧ ∀ l ∈ cs, Links v.nFatent (tab v s') l) := by
  obtain ⟨s1, r1, e, i, o, -, hr⟩ := create_spec hg hi (clst := 0) (.inl rfl)
  rw [h] at e
  cases e
  refine ⟨i, o, ?_⟩
  have he := eoc_ge hg
  have hpos := hg.pos
  cases hr with
  | full sm rr hf _ =>
    refine .inl ⟨rfl, ?_, tab_same sm, count_same sm rr hk⟩
    rcases hf with hf | hf
    · exact no_free hk hf
    · exact hf
  | bad sm rr c h2 hc hb =>
    rcases hb with hb | ⟨rfl, -⟩
    · exact absurd hb (chains_ne_one hw h2 hc)
    · omega
  | next _ _ hc => exact absurd rfl hc
  | new _ h2 hr h0 hz _ oth eoc _ hl hf =>
    have oth' : ∀ c, c ≠ r → 2 ≤ c → c < v.nFatent → tab v s' c = tab v s c := fun c hc c2 cn => oth c hc (by omega) c2 cn
    refine .inr (.inl ⟨h2, hr, h0, ?_, oth', count_new h2 hr h0 (by omega) (fun c hc c2 cn => by rw [oth' c hc c2 cn]) hf hk⟩)
    have hw' : Chains v.nFatent (fun c => if 2 ≤ c then tab v s c else tab v s' c) cs := by
      refine ⟨fun l hl => links_congr (hw.chain l hl) fun c hc => ?_, hw.nodup, fun c c2 cn hc => ?_⟩
      · rw [if_pos (links_mem (hw.chain l hl) c hc).1]
      · rw [if_pos c2] at hc
        exact hw.used c c2 cn hc
    refine chains_new hw' h2 hr (by rw [if_pos h2]; exact h0) (by rw [eoc]; exact he.1) fun c hc cn => ?_
    by_cases c2 : 2 ≤ c
    · rw [if_pos c2]; exact oth' c hc c2 cn
    · rw [if_neg c2]
  | fail ns r h0 oth =>
    refine .inr (.inr ⟨rfl, ns, fun l hl => links_congr (hw.chain l hl) fun c hc => ?_⟩)
    have hm := links_mem (hw.chain l hl) c hc
    refine oth c ?_ (by omega) hm.1 hm.2
    rintro rfl
    have := links_used (hw.chain l hl) c hc
    have := h0 hm
    omega

/-- Tables that agree on the clusters have the same chains. -/
theorem chains_agree {n : Nat} {f g : Nat → Nat} {cs : List (List Nat)} (h : Chains n f cs) (e : ∀ c, 2 ≤ c → c < n → g c = f c) : Chains n g cs := by
  refine ⟨fun l hl => links_congr (h.chain l hl) fun c hc => ?_, h.nodup, fun c c2 cn hc => ?_⟩
  · have := links_mem (h.chain l hl) c hc
    exact e c this.1 this.2
  · exact h.used c c2 cn (by rw [← e c c2 cn]; exact hc)

/-- **C51**, a longer chain.  Its last cluster now leads to a free one, or there is no free cluster, or the device failed; all other chains
stay as they are. -/
theorem C51_stretch (v : Vol) (hg : Geo v) (s : St) (hi : Inv v s) (a b : List (List Nat)) (l : List Nat) (c : Nat)
    (hw : Chains v.nFatent (tab v s) (a ++ (l ++ [c]) :: b)) (hk : CountOk v s) (s' : St) (r : Nat) (h : createChain v s c = (s', r)) :
    Inv v s' ∧ (∀ n, ¬ Fat1 v n → ¬ Fat2 v n → view s' n = view s n) ∧
    (r = 0 ∧ (∀ c, 2 ≤ c → c < v.nFatent → tab v s c ≠ 0) ∧ tab v s' = tab v s ∧ CountOk v s' ∨
     2 ≤ r ∧ r < v.nFatent ∧ tab v s r = 0 ∧ Chains v.nFatent (tab v s') (a ++ (l ++ [c, r]) :: b) ∧
       (∀ x, x ≠ r → x ≠ c → 2 ≤ x → x < v.nFatent → tab v s' x = tab v s x) ∧ CountOk v s' ∨
     r = 0xFFFFFFFF ∧ ¬ Sound v ∧ ∀ m ∈ a ++ b, Links v.nFatent (tab v s') m) := by
  have hl := hw.chain (l ++ [c]) (by simp)
  have hcm := links_mem hl c (by simp)
  have hlast := links_last hl
  obtain ⟨s1, r1, e, i, o, -, hr⟩ := create_spec hg hi (clst := c) (.inr hcm)
  rw [h] at e
  cases e
  refine ⟨i, o, ?_⟩
  have he := eoc_ge hg
  have hpos := hg.pos
  cases hr with
  | full sm rr hf _ =>
    refine .inl ⟨rfl, ?_, tab_same sm, count_same sm rr hk⟩
    rcases hf with hf | hf
    · exact no_free hk hf
    · exact hf
  | bad sm rr c' h2 hc hb =>
    rcases hb with hb | ⟨rfl, hb⟩
    · exact absurd hb (chains_ne_one hw h2 hc)
    · omega
  | next _ _ _ _ hn => omega
  | new _ h2 hr h0 hz _ oth eoc lnk hlc hf =>
    have lnk' := lnk (by omega)
    have hcr : c ≠ r := by
      rintro rfl
      omega
    refine .inr (.inl ⟨h2, hr, h0, ?_, oth, count_new h2 hr h0 (by omega) (fun x hx c2 cn => ?_) hf hk⟩)
    · have hw' : Chains v.nFatent (fun c => if 2 ≤ c then tab v s c else tab v s' c) (a ++ (l ++ [c]) :: b) := chains_agree hw fun c c2 _ => by rw [if_pos c2]
      refine chains_stretch hw' h2 hr (by rw [if_pos h2]; exact h0) (by rw [eoc]; exact he.1) lnk' fun x hx hxc xn => ?_
      by_cases c2 : 2 ≤ x
      · rw [if_pos c2]; exact oth x hx hxc c2 xn
      · rw [if_neg c2]
    · by_cases hxc : x = c
      · subst hxc
        rw [lnk']
        constructor <;> intro <;> omega
      · rw [oth x hx hxc c2 cn]
  | fail ns r h0 oth =>
    refine .inr (.inr ⟨rfl, ns, fun m hm => ?_⟩)
    have hm' : m ∈ a ++ (l ++ [c]) :: b := by
      simp only [List.mem_append, List.mem_cons] at hm ⊢
      rcases hm with h | h
      · exact .inl h
      · exact .inr (.inr h)
    refine links_congr (hw.chain m hm') fun x hx => ?_
    have hxm := links_mem (hw.chain m hm') x hx
    refine oth x ?_ ?_ hxm.1 hxm.2
    · rintro rfl
      have := links_used (hw.chain m hm') x hx
      have := h0 hxm
      omega
    · rintro rfl
      have hnd := hw.nodup
      rw [flatten_mid, List.nodup_append] at hnd
      obtain ⟨-, hnd2, hd⟩ := hnd
      rw [List.nodup_append] at hnd2
      rcases List.mem_append.mp hm with h | h
      · exact hd x (List.mem_flatten.mpr ⟨m, h, hx⟩) x (by simp) rfl
      · exact hnd2.2.2 x (by simp) x (List.mem_flatten.mpr ⟨m, h, hx⟩) rfl

/-- **C51**, inside a chain.  The next cluster is returned and nothing changes. -/
theorem C51_followed (v : Vol) (hg : Geo v) (s : St) (hi : Inv v s) (a b : List (List Nat)) (l m : List Nat) (c d : Nat)
    (hw : Chains v.nFatent (tab v s) (a ++ (l ++ c :: d :: m) :: b)) (s' : St) (r : Nat) (h : createChain v s c = (s', r)) :
    tab v s' = tab v s ∧ (r = d ∨ r = 0xFFFFFFFF ∧ ¬ Sound v) := by
  have hl := hw.chain (l ++ c :: d :: m) (by simp)
  have hcm := links_mem hl c (by simp)
  have hdm := links_mem hl d (by simp)
  have hnext := links_next hl
  have hlt := tab_lt v s c
  obtain ⟨s1, r1, e1, i1, sm1, rr1, tr1, hr1⟩ := get_step hg hi hcm.1 hcm.2
  unfold createChain withFat at h
  rw [if_neg (by omega), e1] at h
  simp only at h
  rcases hr1 with rfl | ⟨rfl, ns⟩
  · rw [if_neg (by unfold UB; omega), if_neg (by omega), if_neg (by unfold DERR; omega), if_pos (by omega)] at h
    cases h
    exact ⟨tab_same sm1, .inl hnext⟩
  · rw [if_neg (by decide), if_neg (by decide), if_pos rfl] at h
    cases h
    exact ⟨tab_same sm1, .inr ⟨rfl, ns⟩⟩

theorem chain_nodup {n : Nat} {f : Nat → Nat} {a b : List (List Nat)} {l : List Nat} (h : Chains n f (a ++ l :: b)) : l.Nodup := by
  have hnd := h.nodup
  rw [flatten_mid, List.nodup_append] at hnd
  have := hnd.2.1
  rw [List.nodup_append] at this
  exact this.1

/-- Chains without repetition are shorter than the table. -/
theorem nodup_length {n : Nat} : ∀ {l : List Nat}, l.Nodup → (∀ x ∈ l, x < n) → l.length ≤ n := by
  induction n with
  | zero =>
    intro l _ h
    cases l with
    | nil => simp
    | cons a l => exact absurd (h a (by simp)) (by omega)
  | succ n ih =>
    intro l hnd h
    by_cases hn : n ∈ l
    · have hp := List.perm_cons_erase hn
      have hnd' := (hp.nodup_iff).mp hnd
      rw [List.nodup_cons] at hnd'
      have := ih hnd'.2 fun x hx => by
        have h1 := h x (hp.mem_iff.mpr (List.mem_cons_of_mem _ hx))
        have h2 : x ≠ n := by rintro rfl; exact hnd'.1 hx
        omega
      rw [hp.length_eq]
      simp only [List.length_cons]
      omega
    · have := ih hnd fun x hx => by
        have h1 := h x hx
        have h2 : x ≠ n := by rintro rfl; exact hn hx
        omega
      omega

theorem loop_fuel {v : Vol} (hg : Geo v) {s : St} {c : Nat} {m : List Nat} (hl : Links v.nFatent (tab v s) (c :: m)) (hnd : (c :: m).Nodup) : m.length < v.nFatent := by
  have := nodup_length hnd fun x hx => (links_mem hl x hx).2
  simp only [List.length_cons] at this
  omega

/-- **C52**, a whole chain.  Exactly its clusters are free afterwards; if the device fails, the other chains are intact. -/
theorem C52_remove (v : Vol) (hg : Geo v) (s : St) (hi : Inv v s) (a b : List (List Nat)) (c : Nat) (m : List Nat)
    (hw : Chains v.nFatent (tab v s) (a ++ (c :: m) :: b)) (hk : CountOk v s) (s' : St) (r : Nat) (h : removeChain v s c 0 = (s', r)) :
    Inv v s' ∧ (∀ n, ¬ Fat1 v n → ¬ Fat2 v n → view s' n = view s n) ∧ (∀ x, x ∉ c :: m → x < v.nFatent → tab v s' x = tab v s x) ∧
    (r = 0 ∧ (∀ x ∈ c :: m, tab v s' x = 0) ∧ Chains v.nFatent (tab v s') (a ++ b) ∧ CountOk v s' ∨ r = 1 ∧ ¬ Sound v) := by
  have hl := hw.chain (c :: m) (by simp)
  have hcm := links_mem hl c (by simp)
  have hnd := chain_nodup hw
  unfold removeChain at h
  rw [if_neg (by omega), if_neg (by omega)] at h
  obtain ⟨s1, r1, e1, i1, o1, ot1, -, hr1⟩ := removeLoop_spec hg m v.nFatent hi hl hnd (loop_fuel hg hl hnd)
  rw [h] at e1
  cases e1
  refine ⟨i1, o1, ot1, ?_⟩
  rcases hr1 with ⟨rfl, hz, hck⟩ | h
  · exact .inl ⟨rfl, hz, chains_remove hw hz ot1, hck hk⟩
  · exact .inr h

/-- **C52**, the rest of a chain.  The chain now ends at `p`. -/
theorem C52_truncate (v : Vol) (hg : Geo v) (s : St) (hi : Inv v s) (a b : List (List Nat)) (l : List Nat) (p c : Nat) (m : List Nat)
    (hw : Chains v.nFatent (tab v s) (a ++ (l ++ p :: c :: m) :: b)) (hk : CountOk v s) (s' : St) (r : Nat) (h : removeChain v s c p = (s', r)) :
    Inv v s' ∧ (∀ n, ¬ Fat1 v n → ¬ Fat2 v n → view s' n = view s n) ∧ (∀ x, x ∉ c :: m → x ≠ p → x < v.nFatent → tab v s' x = tab v s x) ∧
    (r = 0 ∧ (∀ x ∈ c :: m, tab v s' x = 0) ∧ Chains v.nFatent (tab v s') (a ++ (l ++ [p]) :: b) ∧ CountOk v s' ∨ r = 1 ∧ ¬ Sound v) := by
  have hl0 := hw.chain (l ++ p :: c :: m) (by simp)
  have hpm := links_mem hl0 p (by simp)
  have hcm := links_mem hl0 c (by simp)
  have hnd0 := chain_nodup hw
  have hnd : (c :: m).Nodup := by
    rw [List.nodup_append] at hnd0
    exact (List.nodup_cons.mp hnd0.2.1).2
  have hpcm : p ∉ c :: m := by
    rw [List.nodup_append] at hnd0
    exact (List.nodup_cons.mp hnd0.2.1).1
  have he := eoc_ge hg
  have hpu := links_used hl0 p (by simp)
  unfold removeChain withPut at h
  rw [if_neg (by omega), if_pos (by omega)] at h
  obtain ⟨s1, r1, e1, i1, rr1, o1, ot1, tr1, hr1⟩ := put_step hg hi 0xFFFFFFFF hpm.1 hpm.2
  rw [e1] at h
  simp only at h
  rcases hr1 with ⟨rfl, ht1⟩ | ⟨rfl, ns⟩
  rotate_left
  · rw [if_neg (by decide)] at h
    cases h
    exact ⟨i1, o1, fun x _ hx hn => ot1 x hx hn, .inr ⟨rfl, ns⟩⟩
  rw [if_pos rfl] at h
  have hw1 : Chains v.nFatent (tab v s1) (a ++ (l ++ [p]) :: (c :: m) :: b) := chains_cut hw (by simp) (by rw [ht1]; exact he.1) ot1
  have hl1 := hw1.chain (c :: m) (by simp)
  have hk1 : CountOk v s1 := by
    unfold CountOk
    rw [rr1.2.1, count_congr (f := tab v s) (g := tab v s1)]
    · exact hk
    · intro x x2 xn
      by_cases hxp : x = p
      · subst hxp
        rw [ht1]
        constructor <;> intro <;> omega
      · rw [ot1 x hxp xn]
  obtain ⟨s2, r2, e2, i2, o2, ot2, -, hr2⟩ := removeLoop_spec hg m v.nFatent i1 hl1 hnd (loop_fuel hg hl1 hnd)
  rw [h] at e2
  cases e2
  refine ⟨i2, o1.trans o2, fun x hx hxp hn => (ot2 x hx hn).trans (ot1 x hxp hn), ?_⟩
  rcases hr2 with ⟨rfl, hz, hck⟩ | h
  · refine .inl ⟨rfl, hz, ?_, hck hk1⟩
    have := chains_remove (a := a ++ [l ++ [p]]) (b := b) (l := c :: m) (by simpa using hw1) hz ot2
    simpa using this
  · exact .inr h

end Fpm.Fat
