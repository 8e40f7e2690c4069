import Verif.Expand.Lemmas
/-!
# C116: allocating a contiguous block with `f_expand`
-/
namespace Fpm.Expand
open Fpm.Fat Fpm.Fat.Spec Fpm.FatFile Fpm.FatFile.Spec Fpm.Expand.Spec

/-- The claim for a state: an empty file gets a block of free clusters if there is one; otherwise the result is `FR_DENIED` (7) and nothing
changes. -/
def C116_statement (v : Vol) (s : St) : Prop :=
  ∀ (cs : List (List Nat)), Chains v.nFatent (tab v s) cs → CountOk v s → ∀ (fp : File), Fresh fp → ∀ (size t : Nat), 0 < size → size < 2 ^ 32 → Fits (v.csize * v.ss) size t →
    ∀ (s' : St) (fp' : File) (r : Nat), fExpand v size true s fp = (s', fp', r) →
      r = 0 ∧ (∃ c, Block v.nFatent (tab v s) c t ∧ Given v cs size c t s s' fp fp') ∨ r = 7 ∧ (¬ ∃ c, Block v.nFatent (tab v s) c t) ∧ Unchanged v s s' fp fp'

/-- The claim for all volumes and states. -/
def C116_full : Prop := ∀ (v : Vol), Geo v → DataGeo v → Sound v → ∀ (s : St), Inv v s → C116_statement v s

/-- The result of `f_expand`, with any device.  A block is found; no block is found, apart from those around the place where the search
starts; a block is taken for found that goes on at cluster 2 behind the last cluster: then the clusters before the end of the FAT are lost in a
chain that belongs to no file; or the device failed. -/
theorem C116_expand_partial (v : Vol) (hg : Geo v) (hd : DataGeo v) (s : St) (hi : Inv v s) (cs : List (List Nat)) (hw : Chains v.nFatent (tab v s) cs) (hk : CountOk v s)
    (fp : File) (hf : Fresh fp) (size t : Nat) (h0 : 0 < size) (h32 : size < 2 ^ 32) (ht : Fits (v.csize * v.ss) size t) (s' : St) (fp' : File) (r : Nat)
    (h : fExpand v size true s fp = (s', fp', r)) :
    r = 0 ∧ (∃ c, Block v.nFatent (tab v s) c t ∧ Given v cs size c t s s' fp fp') ∨
    r = 7 ∧ Unchanged v s s' fp fp' ∧ (∀ c, Block v.nFatent (tab v s) c t → c < s.lastClst ∧ s.lastClst < c + t ∧ s.lastClst < v.nFatent) ∨
    r = 2 ∧ fp' = fp ∧ s'.freeClst = s.freeClst ∧ 2 < s.lastClst ∧ s.lastClst < v.nFatent ∧ tab v s 2 = 0 ∧
      (∃ c, s.lastClst ≤ c ∧ c < v.nFatent ∧ (∀ x, c ≤ x → x < v.nFatent → tab v s x = 0) ∧ Chains v.nFatent (tab v s') (List.range' c (v.nFatent - c) :: cs)) ∨
    r = 1 ∧ ¬ Sound v ∧ fp' = fp ∧ ∀ l ∈ cs, Links v.nFatent (tab v s') l := by
  obtain ⟨f1, f2, f3, f4⟩ := hf
  have hb : 0 < v.csize * v.ss := by
    obtain ⟨k, hk⟩ := hd.pow
    rw [hk]
    exact Nat.mul_pos (Nat.pow_pos (by decide)) hg.ss.2
  have hpos := hg.pos
  have htp := fits_pos h0 ht
  unfold fExpand at h
  rw [if_neg (by rw [f1]; decide), if_neg (by rw [f2, f4]; simp; omega), if_neg (by omega), fits_clusters hb ht] at h
  have hst : 2 ≤ start v s ∧ start v s < v.nFatent ∧ (start v s = 2 ∨ start v s = s.lastClst ∧ 2 ≤ s.lastClst ∧ s.lastClst < v.nFatent) := by unfold start; split <;> omega
  obtain ⟨hi1, sm, rr, hs⟩ := search_all hg hi htp hst.1 hst.2.1
  generalize findBlock v (start v s) t v.nFatent s (start v s) (start v s) 0 = p at h hi1 sm rr hs
  obtain ⟨s1, q⟩ := p
  have hw1 : Chains v.nFatent (tab v s1) cs := by rw [tab_same sm]; exact hw
  simp only at hi1 sm rr hs
  cases hs with
  | hit c hb =>
    obtain ⟨s2, r2, e2, i2, rr2, ou2, ot2, hm⟩ := make_spec hg t hi1 hb.low (show c ≤ v.nFatent by have := hb.high; omega)
    simp only [use, if_true, e2, allocated] at h
    cases hm with
    | ok hle hx =>
      rw [if_pos rfl] at h
      cases h
      refine .inl ⟨rfl, c, hb, ⟨i2.disk, i2.win, i2.clean, i2.dirty, i2.fat2⟩, ?_, fun x x2 xn h => (ot2 x xn h).trans (by rw [tab_same sm]), fun n n1 n2 => (ou2 n n1 n2).trans (sm n n2), ?_, by show c + t - 1 + 1 = c + t; omega, rfl⟩
      · exact chains_range hw1 htp (by rw [tab_same sm]; exact hb) hx ot2
      · have hne : ∀ x, c ≤ x → x < c + t → tab v s2 x ≠ 0 := by
          intro x h1 h2
          obtain ⟨a, b⟩ := hx x h1 h2
          rcases Nat.lt_or_ge (x + 1) (c + t) with h3 | h3
          · rw [a h3]; omega
          · have := b (by omega); omega
        have hc := count_range (n := v.nFatent) (f := tab v s1) (g := tab v s2) hb.low (by rw [tab_same sm]; exact hb.free) hne v.nFatent (Nat.le_refl _) ot2
        rw [tab_same sm, Nat.min_eq_right hb.high] at hc
        have ef : s2.freeClst = s.freeClst := rr2.2.1.trans rr.2.1
        show (if s2.freeClst ≤ v.nFatent - 2 then s2.freeClst - t else s2.freeClst) ≤ v.nFatent - 2 → (if s2.freeClst ≤ v.nFatent - 2 then s2.freeClst - t else s2.freeClst) = freeCount (tab v s2) v.nFatent
        rw [ef]
        by_cases hle' : s.freeClst ≤ v.nFatent - 2
        · rw [if_pos hle']
          have := hk hle'
          omega
        · rw [if_neg hle']
          exact fun hx => absurd hx hle'
    | over hlt _ => have := hb.high; omega
    | fail ns =>
      rw [if_neg (show ¬ FR_DISK_ERR = FR_OK by decide)] at h
      cases h
      refine .inr (.inr (.inr ⟨rfl, ns, rfl, fun l hl => links_congr (hw.chain l hl) fun x hm => ?_⟩))
      have hx := links_mem (hw.chain l hl) x hm
      rw [ot2 x hx.2, tab_same sm]
      rcases Nat.lt_or_ge x c with h1 | h1
      · exact .inl h1
      · rcases Nat.lt_or_ge x (c + t) with h2 | h2
        · exact absurd (List.mem_flatten.mpr ⟨l, hl, hm⟩) (chains_free hw (hb.free x h1 h2))
        · exact .inr h2
  | over c h2 hc hn hlt hfr h20 =>
    obtain ⟨s2, r2, e2, i2, rr2, ou2, ot2, hm⟩ := make_spec hg t hi1 (show 2 ≤ c by omega) (show c ≤ v.nFatent by omega)
    simp only [use, if_true, e2, allocated] at h
    cases hm with
    | ok hle _ => omega
    | over _ hx =>
      rw [if_neg (show ¬ FR_INT_ERR = FR_OK by decide)] at h
      cases h
      refine .inr (.inr (.inl ⟨rfl, rfl, rr2.2.1.trans rr.2.1, by omega, by omega, h20, c, by omega, hn, hfr, ?_⟩))
      refine chains_range hw1 (by omega) ⟨by omega, by omega, fun x h1 _ => by rw [tab_same sm]; exact hfr x h1 (by omega)⟩ (fun x h1 h3 => ?_) fun x hx h3 => ot2 x hx (by omega)
      rw [hx x h1 (by omega)]
      omega
    | fail ns =>
      rw [if_neg (show ¬ FR_DISK_ERR = FR_OK by decide)] at h
      cases h
      refine .inr (.inr (.inr ⟨rfl, ns, rfl, fun l hl => links_congr (hw.chain l hl) fun x hm => ?_⟩))
      have hx := links_mem (hw.chain l hl) x hm
      rw [ot2 x hx.2, tab_same sm]
      rcases Nat.lt_or_ge x c with h1 | h1
      · exact .inl h1
      · exact absurd (List.mem_flatten.mpr ⟨l, hl, hm⟩) (chains_free hw (hfr x h1 hx.2))
  | none h1 h2 =>
    cases h
    refine .inr (.inl ⟨rfl, ⟨sm, rr.2.1, rfl⟩, fun c hb => ?_⟩)
    have a1 := fun h => h1 c h hb.high hb.free
    have a2 := fun h => h2 c hb.low h hb.free
    have := hb.low
    rcases Nat.lt_or_ge c (start v s) with h3 | h3
    · rcases Nat.lt_or_ge (start v s) (c + t) with h4 | h4
      · omega
      · exact absurd (a2 h4) id
    · exact absurd (a1 h3) id
  | bad c h2 hc h1 => exact absurd h1 (chains_ne_one hw h2 hc)
  | fail ns =>
    cases h
    exact .inr (.inr (.inr ⟨rfl, ns, rfl, by rw [tab_same sm]; exact hw.chain⟩))

/-- It holds if no free block is cut where the search starts or at the end of the FAT; thus if the search starts at the first cluster,
as it does on a volume just mounted without FSINFO. -/
theorem C116_uncut_partial (v : Vol) (hg : Geo v) (hd : DataGeo v) (hs : Sound v) (s : St) (hi : Inv v s)
    (h : s.lastClst ≤ 2 ∨ v.nFatent ≤ s.lastClst ∨ (tab v s (s.lastClst - 1) ≠ 0 ∨ tab v s s.lastClst ≠ 0) ∧ (tab v s 2 ≠ 0 ∨ tab v s (v.nFatent - 1) ≠ 0)) : C116_statement v s := by
  intro cs hw hk fp hf size t h0 h32 ht s' fp' r he
  rcases C116_expand_partial v hg hd s hi cs hw hk fp hf size t h0 h32 ht s' fp' r he with h1 | ⟨h1, h2, h3⟩ | ⟨-, -, -, h2, h3, h4, c, h5, h6, h7, -⟩ | ⟨-, h1, -⟩
  · exact .inl h1
  · refine .inr ⟨h1, ?_, h2⟩
    rintro ⟨c, hb⟩
    have := h3 c hb
    have := hb.low
    rcases h with h | h | ⟨h | h, -⟩
    · omega
    · omega
    · exact h (hb.free _ (by omega) (by omega))
    · exact h (hb.free _ (by omega) (by omega))
  · rcases h with h | h | ⟨-, h | h⟩
    · omega
    · omega
    · exact absurd h4 h
    · exact absurd (h7 _ (by omega) (by omega)) h
  · exact absurd hs h1

/-! ## Preparing -/

theorem create_first {v : Vol} (hg : Geo v) (hs : Sound v) {s : St} (hi : Inv v s) (hz : s.freeClst ≠ 0) {c : Nat} (h2 : 2 ≤ c) (hn : c < v.nFatent) (h0 : tab v s c = 0) (hl : s.lastClst = c - 1) :
    (createChain v s 0).2 = c := by
  unfold createChain
  rw [if_pos rfl, if_neg hz]
  have e : startNew v s = c - 1 := by unfold startNew; rw [if_neg (by omega), hl]
  rw [e]
  obtain ⟨k, hk⟩ : ∃ k, v.nFatent = k + 1 := ⟨v.nFatent - 1, by omega⟩
  have e2 : nextClst v (c - 1) = c := by unfold nextClst; rw [if_neg (by omega)]; omega
  obtain ⟨s1, r1, e1, i1, sm1, -, -, hr⟩ := get_step hg hi h2 hn
  have hr := hr.resolve_right fun h => h.2 hs
  have es : search v (c - 1) v.nFatent s (c - 1) = (s1, .hit c) := by
    have : search v (c - 1) (k + 1) s (c - 1) = (s1, .hit c) := by
      rw [search.eq_def]
      simp only [e2, e1, hr, h0]
      rw [if_neg (by omega)]
      rfl
    rw [← this, hk]
  rw [es]
  obtain ⟨s2, r2, e3, -, -, -, -, h | h⟩ := link_spec hg i1 (clst := 0) h2 hn (.inl rfl)
  · show (link v s1 0 c).2 = c
    rw [e3]; exact h.1
  · exact absurd hs h.2

theorem create_next {v : Vol} (hg : Geo v) (hs : Sound v) {s : St} (hi : Inv v s) (hz : s.freeClst ≠ 0) {c : Nat} (h2 : 2 ≤ c) (hn : c + 1 < v.nFatent) (he : v.nFatent ≤ tab v s c) (h0 : tab v s (c + 1) = 0) :
    (createChain v s c).2 = c + 1 := by
  have hlt := tab_lt v s c
  obtain ⟨s1, r1, e1, i1, sm1, rr1, -, hr1⟩ := get_step hg hi h2 (by omega : c < v.nFatent)
  have hr1 := hr1.resolve_right fun h => h.2 hs
  subst hr1
  have e2 := next_small hn
  obtain ⟨s2, r2, e3, i2, sm2, rr2, -, hr2⟩ := get_step hg i1 (c := c + 1) (by omega) hn
  have hr2 := hr2.resolve_right fun h => h.2 hs
  rw [tab_same sm1, h0] at hr2
  subst hr2
  unfold createChain withFat
  rw [if_neg (by omega), e1]
  simp only
  rw [if_neg (by unfold UB; omega), if_neg (by omega), if_neg (by unfold DERR; omega), if_neg (by omega), if_neg (by rw [rr1.2.1]; exact hz)]
  unfold stretch withFat
  rw [e2, e3]
  simp only
  rw [if_neg (by unfold UB; omega), if_neg (by unfold DERR; omega), if_neg (by omega)]
  obtain ⟨s4, r4, e4, -, -, -, -, h | h⟩ := link_spec hg i2 (clst := c) (ncl := c + 1) (by omega) hn (.inr ⟨h2, by omega, by omega⟩)
  · rw [e4]; exact h.1
  · exact absurd hs h.2

theorem free_known {v : Vol} {s : St} (hk : CountOk v s) {c : Nat} (h2 : 2 ≤ c) (hn : c < v.nFatent) (h0 : tab v s c = 0) : s.freeClst ≠ 0 :=
  fun hz => no_free hk hz c h2 hn h0

theorem grown_next {v : Vol} (hg : Geo v) (hs : Sound v) : ∀ (n : Nat) {s : St} {c : Nat} {l : List Nat} {cs : List (List Nat)}, Inv v s → Chains v.nFatent (tab v s) ((l ++ [c]) :: cs) → CountOk v s →
    c + 1 + n ≤ v.nFatent → (∀ x, c + 1 ≤ x → x < c + 1 + n → tab v s x = 0) → following v n s c = List.range' (c + 1) n
  | 0, _, _, _, _, _, _, _, _, _ => rfl
  | n + 1, s, c, l, cs, hi, hw, hk, hn, hf => by
    have hl := hw.chain (l ++ [c]) (by simp)
    have hcm := links_mem hl c (by simp)
    have h0 := hf (c + 1) (by omega) (by omega)
    have e := create_next hg hs hi (free_known hk (by omega) (by omega) h0) hcm.1 (by omega) (links_last hl) h0
    rw [following, e, List.range'_succ]
    obtain ⟨i, -, h | h | h⟩ := C51_stretch v hg s hi [] cs l c hw hk (createChain v s c).1 (createChain v s c).2 rfl
    · exact absurd h0 (h.2.1 (c + 1) (by omega) (by omega))
    · rw [e] at h
      obtain ⟨-, -, -, hw', ho, hk'⟩ := h
      rw [grown_next hg hs n (l := l ++ [c]) i (by rw [List.append_assoc]; exact hw') hk' (by omega) fun x h1 h2 => by rw [ho x (by omega) (by omega) (by omega) (by omega)]; exact hf x (by omega) (by omega)]
    · exact absurd hs h.2.1

/-- With option 0 nothing is allocated, but an empty file that grows next gets the clusters of the block one after the other. -/
theorem C116_prepare_partial (v : Vol) (hg : Geo v) (hd : DataGeo v) (hs : Sound v) (s : St) (hi : Inv v s) (cs : List (List Nat)) (hw : Chains v.nFatent (tab v s) cs) (hk : CountOk v s)
    (fp : File) (hf : Fresh fp) (size t : Nat) (h0 : 0 < size) (h32 : size < 2 ^ 32) (ht : Fits (v.csize * v.ss) size t) (s' : St) (fp' : File) (r : Nat)
    (h : fExpand v size false s fp = (s', fp', r)) :
    Unchanged v s s' fp fp' ∧ (r = 0 ∧ (∃ c, Block v.nFatent (tab v s) c t ∧ following v t s' 0 = List.range' c t) ∨
      r = 7 ∧ (∀ c, Block v.nFatent (tab v s) c t → c < s.lastClst ∧ s.lastClst < c + t ∧ s.lastClst < v.nFatent) ∨
      r = 0 ∧ 2 < s.lastClst ∧ s.lastClst < v.nFatent ∧ tab v s 2 = 0 ∧ tab v s (v.nFatent - 1) = 0) := by
  obtain ⟨f1, f2, f3, f4⟩ := hf
  have hb : 0 < v.csize * v.ss := by
    obtain ⟨k, hk⟩ := hd.pow
    rw [hk]
    exact Nat.mul_pos (Nat.pow_pos (by decide)) hg.ss.2
  have hpos := hg.pos
  have htp := fits_pos h0 ht
  unfold fExpand at h
  rw [if_neg (by rw [f1]; decide), if_neg (by rw [f2, f4]; simp; omega), if_neg (by omega), fits_clusters hb ht] at h
  have hst : 2 ≤ start v s ∧ start v s < v.nFatent ∧ (start v s = 2 ∨ start v s = s.lastClst ∧ 2 ≤ s.lastClst ∧ s.lastClst < v.nFatent) := by unfold start; split <;> omega
  obtain ⟨hi1, sm, rr, hsr⟩ := search_all hg hi htp hst.1 hst.2.1
  generalize findBlock v (start v s) t v.nFatent s (start v s) (start v s) 0 = p at h hi1 sm rr hsr
  obtain ⟨s1, q⟩ := p
  simp only at hi1 sm rr hsr
  cases hsr with
  | hit c hb =>
    cases h
    refine ⟨⟨sm, rr.2.1, rfl⟩, .inl ⟨rfl, c, hb, ?_⟩⟩
    have hi2 : Inv v { s1 with lastClst := c - 1 } := ⟨hi1.disk, hi1.win, hi1.clean, hi1.dirty, hi1.fat2⟩
    have et : tab v { s1 with lastClst := c - 1 } = tab v s := tab_same sm
    have hk2 : CountOk v { s1 with lastClst := c - 1 } := by
      show s1.freeClst ≤ _ → s1.freeClst = freeCount (tab v { s1 with lastClst := c - 1 }) v.nFatent
      rw [et, rr.2.1]
      exact hk
    have hl : ({ s1 with lastClst := c - 1 } : St).lastClst = c - 1 := rfl
    generalize ({ s1 with lastClst := c - 1 } : St) = s2 at hi2 et hk2 hl ⊢
    have hc0 : tab v s2 c = 0 := by rw [et]; exact hb.free c (by omega) (by omega)
    have hlow := hb.low
    have hhigh := hb.high
    have e := create_first hg hs hi2 (free_known hk2 hb.low (by omega) hc0) hb.low (by omega) hc0 hl
    obtain ⟨n, rfl⟩ : ∃ n, t = n + 1 := ⟨t - 1, by omega⟩
    rw [following, e, List.range'_succ]
    obtain ⟨i, -, h | h | h⟩ := C51_new v hg s2 hi2 cs (by rw [et]; exact hw) hk2 (createChain v s2 0).1 (createChain v s2 0).2 rfl
    · exact absurd hc0 (h.2.1 c (by omega) (by omega))
    · rw [e] at h
      obtain ⟨-, -, -, hw', ho, hk'⟩ := h
      rw [grown_next hg hs n (l := []) i hw' hk' (by omega) fun x h1 h2 => by rw [ho x (by omega) (by omega) (by omega), et]; exact hb.free x (by omega) (by omega)]
    · exact absurd hs h.2.1
  | over c h2 hc hn hlt hfr h20 =>
    cases h
    exact ⟨⟨sm, rr.2.1, rfl⟩, .inr (.inr ⟨rfl, by omega, by omega, h20, hfr _ (by omega) (by omega)⟩)⟩
  | none h1 h2 =>
    cases h
    refine ⟨⟨sm, rr.2.1, rfl⟩, .inr (.inl ⟨rfl, fun c hb => ?_⟩)⟩
    have a1 := fun h => h1 c h hb.high hb.free
    have a2 := fun h => h2 c hb.low h hb.free
    have := hb.low
    rcases Nat.lt_or_ge c (start v s) with h3 | h3
    · rcases Nat.lt_or_ge (start v s) (c + t) with h4 | h4
      · omega
      · exact absurd (a2 h4) id
    · exact absurd (a1 h3) id
  | bad c h2 hc h1 => exact absurd h1 (chains_ne_one hw h2 hc)
  | fail ns => exact absurd hs ns

/-! ## What goes wrong -/

/-- A FAT12 volume with the clusters 2 to 9. -/
def xV : Vol := { ss := 64, csize := 1, fatbase := 1, fsize := 1, nFats := 1, nFatent := 10, fsType := 1, database := 2, io := fun _ => .ok }
/-- Its state with a given FAT; the cluster used last is `last`, and `free` are free. -/
def xS (fat : List Nat) (last free : Nat) : St :=
  { disk := fun n => if n = 1 then fat else List.replicate 64 0, past := [], cnt := 0, win := List.replicate 64 0, winsect := none, wflag := false, lastClst := last, freeClst := free, fsiFlag := false }
/-- Clusters 7 and 9 are in use. -/
def xA : List Nat := List.replicate 10 0 ++ [0xF0, 0xFF, 0, 0xF0, 0xFF] ++ List.replicate 49 0
/-- Cluster 4 is in use. -/
def xB : List Nat := List.replicate 6 0 ++ [0xFF, 0x0F] ++ List.replicate 56 0
/-- A file just created. -/
def xF : File := { fptr := 0, objsize := 0, sclust := 0, clust := 0, sect := 0, buf := List.replicate 64 0, dirty := false, modified := true, canRead := false, canWrite := true, err := 0 }

theorem x_geo : Geo xV := { ss := by decide, nFats := by decide, kind := by decide, size := by decide, pos := by decide, junk := fun _ _ h => by cases h }
theorem x_data : DataGeo xV := { pow := ⟨0, rfl⟩, base := by decide, pos := by decide }

theorem x_inv {fat : List Nat} (h : Sec xV fat) (last free : Nat) : Inv xV (xS fat last free) := by
  have hz : Sec xV (List.replicate 64 0) := ⟨List.length_replicate, fun b hb => by rw [(List.mem_replicate.mp hb).2]; decide⟩
  refine ⟨fun n => ?_, hz, (fun _ n h => by cases h), (fun h => by cases h), fun n h => by cases h⟩
  show Sec xV (if n = 1 then fat else List.replicate 64 0)
  split
  · exact h
  · exact hz

theorem x_a : Sec xV xA := ⟨by decide, by decide⟩
theorem x_b : Sec xV xB := ⟨by decide, by decide⟩

theorem x_fits : Fits (xV.csize * xV.ss) 256 4 := ⟨by decide, fun u h => by have h : 256 ≤ u * (1 * 64) := h; omega⟩

theorem x_chains_a (last free : Nat) : Chains 10 (tab xV (xS xA last free)) [[7], [9]] := by
  have key : ∀ c < 10, 2 ≤ c → tab xV (xS xA 0 0) c ≠ 0 → c ∈ [7, 9] := by decide +kernel
  have k7 : 10 ≤ tab xV (xS xA 0 0) 7 := by decide +kernel
  have k9 : 10 ≤ tab xV (xS xA 0 0) 9 := by decide +kernel
  refine ⟨fun l hl => ?_, by decide, fun c h2 hc h => key c hc h2 h⟩
  simp only [List.mem_cons, List.not_mem_nil, or_false] at hl
  rcases hl with rfl | rfl
  · exact ⟨by decide, by decide, k7⟩
  · exact ⟨by decide, by decide, k9⟩

theorem x_chains_b (last free : Nat) : Chains 10 (tab xV (xS xB last free)) [[4]] := by
  have key : ∀ c < 10, 2 ≤ c → tab xV (xS xB 0 0) c ≠ 0 → c ∈ [4] := by decide +kernel
  have k4 : 10 ≤ tab xV (xS xB 0 0) 4 := by decide +kernel
  refine ⟨fun l hl => ?_, by decide, fun c h2 hc h => key c hc h2 h⟩
  simp only [List.mem_cons, List.not_mem_nil, or_false] at hl
  subst hl
  exact ⟨by decide, by decide, k4⟩

theorem x_count_a (last : Nat) : CountOk xV (xS xA last 6) := fun _ => by
  have : 6 = freeCount (tab xV (xS xA 0 6)) 10 := by decide +kernel
  exact this

theorem x_count_b (last : Nat) : CountOk xV (xS xB last 7) := fun _ => by
  have : 7 = freeCount (tab xV (xS xB 0 7)) 10 := by decide +kernel
  exact this

/-- Clusters 2 to 6 are free, but the search starts at 5: a block of four is not found. -/
theorem C116_missed : Block xV.nFatent (tab xV (xS xA 5 6)) 2 4 ∧ (fExpand xV 256 true (xS xA 5 6) xF).2.2 = 7 := by
  have key : ∀ x < 6, 2 ≤ x → tab xV (xS xA 5 6) x = 0 := by decide +kernel
  exact ⟨⟨by decide, by decide, fun x h1 h2 => key x h2 h1⟩, by decide +kernel⟩

/-- Clusters 5 to 9 are free, but the search starts at 7 and goes on at 2: the result is `FR_INT_ERR`, and the clusters 7, 8 and 9 are lost:
they are marked as in use, without a file, and still counted as free. -/
theorem C116_lost : Block xV.nFatent (tab xV (xS xB 7 7)) 5 4 ∧ (fExpand xV 256 true (xS xB 7 7) xF).2.2 = 2 ∧ Links xV.nFatent (tab xV (fExpand xV 256 true (xS xB 7 7) xF).1) [7, 8, 9] ∧
    (fExpand xV 256 true (xS xB 7 7) xF).2.1.sclust = 0 ∧ ¬ CountOk xV (fExpand xV 256 true (xS xB 7 7) xF).1 := by
  have key : ∀ x < 9, 5 ≤ x → tab xV (xS xB 7 7) x = 0 := by decide +kernel
  have h1 : (fExpand xV 256 true (xS xB 7 7) xF).1.freeClst = 7 ∧ freeCount (tab xV (fExpand xV 256 true (xS xB 7 7) xF).1) 10 = 4 := by decide +kernel
  have h2 : tab xV (fExpand xV 256 true (xS xB 7 7) xF).1 7 = 8 ∧ tab xV (fExpand xV 256 true (xS xB 7 7) xF).1 8 = 9 ∧ 10 ≤ tab xV (fExpand xV 256 true (xS xB 7 7) xF).1 9 := by decide +kernel
  refine ⟨⟨by decide, by decide, fun x h1 h2 => key x h2 h1⟩, by decide +kernel, ⟨by decide, by decide, h2.1, by decide, by decide, h2.2.1, by decide, by decide, h2.2.2⟩, by decide +kernel, fun h => ?_⟩
  have := h (by rw [h1.1]; decide)
  rw [h1.1] at this
  exact absurd (this.trans h1.2) (by decide)

theorem C116_violated : ¬ C116_full := by
  intro h
  have hb := C116_missed
  rcases h xV x_geo x_data (fun _ => rfl) _ (x_inv x_a 5 6) _ (x_chains_a 5 6) (x_count_a 5) xF ⟨rfl, rfl, rfl, rfl⟩ 256 4 (by decide) (by decide) x_fits (fExpand xV 256 true (xS xA 5 6) xF).1 (fExpand xV 256 true (xS xA 5 6) xF).2.1 (fExpand xV 256 true (xS xA 5 6) xF).2.2 rfl with h1 | h1
  · have := h1.1
    rw [hb.2] at this
    cases this
  · exact h1.2.1 ⟨2, hb.1⟩

/-- Files that are not empty or not open for writing, and sizes of 0 or of 4 GBytes and more, are refused, and nothing changes; an error of the file is reported again. -/
theorem C116_refused (v : Vol) (size : Nat) (opt : Bool) (s : St) (fp : File) :
    (fp.err ≠ 0 → fExpand v size opt s fp = (s, fp, fp.err)) ∧ (fp.err = 0 → (size = 0 ∨ 2 ^ 32 ≤ size ∨ fp.objsize ≠ 0 ∨ fp.canWrite = false) → fExpand v size opt s fp = (s, fp, 7)) := by
  unfold fExpand
  refine ⟨fun h => if_pos h, fun h0 h => ?_⟩
  rw [if_neg (fun hx => hx h0)]
  by_cases h1 : size = 0 ∨ fp.objsize ≠ 0 ∨ fp.canWrite = false
  · rw [if_pos h1]; rfl
  · rw [if_neg h1, if_pos (by
      rcases h with h | h | h
      · exact absurd (.inl h) h1
      · exact h
      · exact absurd (.inr h) h1)]
    rfl

/-! ## Examples -/

example : Geo xV ∧ DataGeo xV ∧ Sound xV ∧ Inv xV (xS xB 0xFFFFFFFF 7) ∧ Chains xV.nFatent (tab xV (xS xB 0xFFFFFFFF 7)) [[4]] ∧ CountOk xV (xS xB 0xFFFFFFFF 7) ∧ Fresh xF ∧ Fits (xV.csize * xV.ss) 256 4 ∧
    xV.nFatent ≤ (xS xB 0xFFFFFFFF 7).lastClst :=
  ⟨x_geo, x_data, fun _ => rfl, x_inv x_b _ _, x_chains_b _ _, x_count_b _, ⟨rfl, rfl, rfl, rfl⟩, x_fits, by decide⟩

example : (fExpand xV 256 true (xS xB 0xFFFFFFFF 7) xF).2.2 = 0 ∧ (fExpand xV 256 true (xS xB 0xFFFFFFFF 7) xF).2.1.sclust = 5 ∧ (fExpand xV 256 true (xS xB 0xFFFFFFFF 7) xF).1.freeClst = 3 ∧
    (fExpand xV 321 true (xS xB 0xFFFFFFFF 7) xF).2.2 = 7 ∧ (fExpand xV 256 false (xS xB 0xFFFFFFFF 7) xF).1.lastClst = 4 := by decide +kernel

/-- In the middle of a volume in use, the condition that no block is cut. -/
example : tab xV (xS xA 7 6) 7 ≠ 0 ∧ tab xV (xS xA 7 6) 9 ≠ 0 ∧ (fExpand xV 256 true (xS xA 7 6) xF).2.2 = 0 ∧ (fExpand xV 256 true (xS xA 7 6) xF).2.1.sclust = 2 := by decide +kernel

end Fpm.Expand
