import Verif.Fat.ChainLemmas
import Verif.Fat.RemoveLemmas
/-!
# Entries of other chains at all times
What the chain functions leave on the device while they work, for the entries of clusters that are none of their business. Unlike
`Safe` this does not need that entries do not straddle two sectors.
-/
namespace Fpm.Fat
open Fpm.Fat.Spec Fpm.FatBytes

/-- The same besides the FATs, and in the FAT the same entries of `X`. -/
def Like (v : Vol) (X : List Nat) (d0 d : Disk) : Prop :=
  (∀ n, ¬ Fat1 v n → ¬ Fat2 v n → d n = d0 n) ∧ ∀ x ∈ X, fat v d x = fat v d0 x

theorem Like.refl (v : Vol) (X : List Nat) (d : Disk) : Like v X d d := ⟨fun _ _ _ => rfl, fun _ _ => rfl⟩
theorem Like.trans {v : Vol} {X : List Nat} {a b c : Disk} (h : Like v X a b) (h' : Like v X b c) : Like v X a c :=
  ⟨fun n h1 h2 => (h'.1 n h1 h2).trans (h.1 n h1 h2), fun x hx => (h'.2 x hx).trans (h.2 x hx)⟩

theorem Like.of_same {v : Vol} {X : List Nat} {a b : Disk} (h : ∀ n, ¬ Fat2 v n → b n = a n) : Like v X a b :=
  ⟨fun n _ h2 => h n h2, fun x _ => congrFun (fat_congr h) x⟩

/-- Each content of the device is an old one or like what was to be there. -/
def Near (v : Vol) (X : List Nat) (s s' : St) : Prop :=
  (∀ d ∈ s'.disk :: s'.past, d ∈ s.disk :: s.past ∨ Like v X (view s) d) ∧ (s'.disk = s.disk ∨ Like v X (view s) s'.disk) ∧ Like v X (view s) (view s')

theorem Near.refl (v : Vol) (X : List Nat) (s : St) : Near v X s s := ⟨fun _ h => .inl h, .inl rfl, .refl _ _ _⟩

theorem Near.trans {v : Vol} {X : List Nat} {s t u : St} (h : Near v X s t) (h' : Near v X t u) : Near v X s u := by
  refine ⟨fun d hd => ?_, ?_, h.2.2.trans h'.2.2⟩
  · rcases h'.1 d hd with h1 | h1
    · exact h.1 d h1
    · exact .inr (h.2.2.trans h1)
  · rcases h'.2.1 with h1 | h1
    · rw [h1]; exact h.2.1
    · exact .inr (h.2.2.trans h1)

theorem Trace.near {v : Vol} {X : List Nat} {s s' : St} (h : Trace v s s') (sm : Same v s s') : Near v X s s' :=
  ⟨fun d hd => (h.1 d hd).imp id Like.of_same, h.2.imp id Like.of_same, .of_same sm⟩

/-- A window changed in place. -/
theorem near_still {v : Vol} {X : List Nat} {s s' : St} (hd : s'.disk = s.disk) (hp : s'.past = s.past) (hl : Like v X (view s) (view s')) : Near v X s s' :=
  ⟨fun d h => .inl (by rwa [hd, hp] at h), .inl hd, hl⟩

theorem near_trace {v : Vol} {X : List Nat} {s s' : St} (h : Trace v s s') (hl : Like v X (view s) (view s')) : Near v X s s' :=
  ⟨fun d hd => (h.1 d hd).imp id Like.of_same, h.2.imp id Like.of_same, hl⟩

theorem get_near {v : Vol} (hg : Geo v) (hs : Sound v) (X : List Nat) {s : St} (hi : Inv v s) {c : Nat} (h2 : 2 ≤ c) (hc : c < v.nFatent) :
    ∃ s', getFat v s c = (s', tab v s c) ∧ Inv v s' ∧ Same v s s' ∧ Near v X s s' := by
  obtain ⟨s', r, h, i, sm, rr, tr, hr⟩ := getFat_spec hg hi h2 hc
  rcases hr with rfl | hr
  · exact ⟨s', h, i, sm, (tr hs).near sm⟩
  · exact absurd hs hr.2

theorem put_near {v : Vol} (hg : Geo v) (hs : Sound v) {X : List Nat} (hX : ∀ x ∈ X, x < v.nFatent) {s : St} (hi : Inv v s) {c : Nat} (val : Nat) (h2 : 2 ≤ c) (hc : c < v.nFatent) (hcX : c ∉ X) :
    ∃ s', putFat v s c val = (s', FR_OK) ∧ Inv v s' ∧ (∀ c', c' ≠ c → c' < v.nFatent → tab v s' c' = tab v s c') ∧ tab v s' c = val % 2 ^ bits v ∧ Near v X s s' := by
  obtain ⟨s', r, h, i, rr, o, hoth, -, hr⟩ := put_step hg hi val h2 hc
  obtain ⟨s0, r0, h0, -, -, tr, -⟩ := putFat_spec (val := val) hg hi h2 hc
  rcases hr with ⟨rfl, hr⟩ | hr
  rotate_left
  · exact absurd hs hr.2
  have hlike : Like v X (view s) (view s') := ⟨o, fun x hx => hoth x (by rintro rfl; exact hcX hx) (hX x hx)⟩
  refine ⟨s', h, i, hoth, hr, ?_⟩
  rw [h] at h0
  obtain ⟨rfl, rfl⟩ := Prod.mk.inj h0
  by_cases hst : Straddle v c
  rotate_left
  · exact near_trace (tr hs hst) hlike
  -- the entry lies in two sectors
  have ht := hst.1
  have hb := bytes_of hg hi
  have hk := size12 hg ht hc
  have hk0 : bc12 c < v.fsize * v.ss := by omega
  unfold putFat at h
  rw [if_neg (by omega), if_pos ht] at h
  unfold putFat12 at h
  rcases window_spec hg hi (fat1_not2 (sector_fat1 hg hk0)) FR_DISK_ERR _ with ⟨s1, h1, i1, sm1, r1, ns, nw1⟩ | ⟨s1, h1, i1, sm1, r1, tr1, w1, win1, un1⟩
  · exact absurd hs ns
  rw [h1, win_get hg hi win1, fromWin] at h
  have b0 := hb.lt (bc12 c)
  have hf := first12_eq c val (B v (view s) (bc12 c))
  have hflt : first12 c val (B v (view s) (bc12 c)) < 256 := by rw [hf]; split <;> omega
  obtain ⟨i2, o2, by2⟩ := set_byte hg i1 w1 hflt
  obtain ⟨t, ht'⟩ : ∃ t, t = setWin s1 (s1.win.set (bc12 c % v.ss) (first12 c val (B v (view s) (bc12 c)))) := ⟨_, rfl⟩
  rw [← ht'] at i2 o2 by2 h
  have half : ∀ c', c' ≠ c → c' < v.nFatent → byBytes v (view t) c' = byBytes v (view s) c' := by
    intro c' hne hc'
    have hk' := size12 hg ht hc'
    have e0 := by2 (bc12 c')
    have e1 := by2 (bc12 c' + 1)
    rw [B_same hg sm1 (by omega)] at e0
    rw [B_same hg sm1 (by omega)] at e1
    unfold byBytes
    rw [if_pos ht, if_pos ht]
    have g0 := hb.lt (bc12 c')
    have g1 := hb.lt (bc12 c' + 1)
    rw [hf] at e0 e1
    unfold bc12 at *
    by_cases p1 : c' % 2 = 1 <;> by_cases p2 : c % 2 = 1
    · rw [if_pos p1, if_pos p1, e0, e1, if_neg (by omega), if_neg (by omega)]
    · rw [if_pos p1, if_pos p1, e0, e1, if_neg (by omega), if_neg (by omega)]
    · rw [if_neg p1, if_neg p1, e0, e1, if_neg (by omega)]
      by_cases hh : c' + c' / 2 + 1 = c + c / 2
      · rw [if_pos hh, if_pos p2, hh]; omega
      · rw [if_neg hh]
    · rw [if_neg p1, if_neg p1, e0, e1, if_neg (by omega), if_neg (by omega)]
  have ht1 : Near v X s t := by
    refine ((tr1 hs).near sm1).trans (near_still (by rw [ht']; rfl) (by rw [ht']; rfl) ⟨fun n n1 _ => o2 n (by rintro rfl; exact n1 (sector_fat1 hg hk0)), fun x hx => ?_⟩)
    have hx' := half x (by rintro rfl; exact hcX hx) (hX x hx)
    have e1 : fat v (view s1) x = fat v (view s) x := congrFun (tab_same sm1) x
    rw [e1]
    unfold fat
    rw [entry_eq hg (bytes_of hg i2) (hX x hx), entry_eq hg hb (hX x hx), hx']
  have htl : Like v X (view t) (view s') := ⟨fun n n1 n2 => (hlike.1 n n1 n2).trans (ht1.2.2.1 n n1 n2).symm, fun x hx => (hlike.2 x hx).trans (ht1.2.2.2 x hx).symm⟩
  refine ht1.trans ?_
  rcases window_spec hg i2 (fat1_not2 (sector_fat1 hg hk)) FR_DISK_ERR _ with ⟨s3, h3, i3, sm3, r3, ns, nw3⟩ | ⟨s3, h3, i3, sm3, r3, tr3, w3, win3, un3⟩
  · exact absurd hs ns
  rw [h3] at h
  unfold fromWin at h
  refine ((tr3 hs).near sm3).trans (near_still ?_ ?_ ?_)
  · split at h <;> (obtain ⟨rfl, -⟩ := Prod.mk.inj h; rfl)
  · split at h <;> (obtain ⟨rfl, -⟩ := Prod.mk.inj h; rfl)
  have e3 : Like v X (view t) (view s3) := .of_same sm3
  exact ⟨fun n n1 n2 => (htl.1 n n1 n2).trans (e3.1 n n1 n2).symm, fun x hx => (htl.2 x hx).trans (e3.2 x hx).symm⟩

theorem near_count {v : Vol} {X : List Nat} {s t u : St} (h : Near v X s t) (hd : u.disk = t.disk) (hp : u.past = t.past) (hv : view u = view t) : Near v X s u :=
  h.trans (near_still hd hp (by rw [hv]; exact .refl _ _ _))

theorem removeLoop_near {v : Vol} (hg : Geo v) (hs : Sound v) {X : List Nat} (hX : ∀ x ∈ X, x < v.nFatent) : ∀ (m : List Nat) (k : Nat) {s : St} {c : Nat}, Inv v s → Links v.nFatent (tab v s) (c :: m) → (c :: m).Nodup →
    (∀ x ∈ c :: m, x ∉ X) → Near v X s (removeLoop v k s c).1
  | _, 0, s, c, _, _, _, _ => by
    rw [removeLoop.eq_def]
    exact .refl _ _ _
  | m, k + 1, s, c, hi, hl, hnd, hm => by
    have hc := links_mem hl c (by simp)
    obtain ⟨s1, e1, i1, sm1, n1⟩ := get_near hg hs X hi hc.1 hc.2
    rw [removeLoop.eq_def]
    simp only
    unfold withFat
    rw [e1]
    simp only
    split
    · exact n1
    split
    · exact n1
    split
    · exact n1
    split
    · exact n1
    obtain ⟨s2, e2, i2, ot2, -, n2⟩ := put_near hg hs hX i1 0 hc.1 hc.2 (hm c (by simp))
    unfold withPut
    rw [e2]
    simp only
    rw [if_pos trivial]
    have n3 : Near v X s (oneMore v s2) := by
      refine near_count (n1.trans n2) ?_ ?_ ?_ <;> (unfold oneMore; split <;> rfl)
    split
    rotate_left
    · exact n3
    rename_i hlt
    cases m with
    | nil => exact absurd hlt (by have := hl.2.2; omega)
    | cons c' m =>
      have ec : tab v s c = c' := hl.2.2.1
      rw [ec]
      refine n3.trans (removeLoop_near hg hs hX m k (oneMore_inv i2) ?_ (List.nodup_cons.mp hnd).2 fun x hx => hm x (List.mem_cons_of_mem _ hx))
      refine links_congr hl.2.2.2 fun x hx => ?_
      rw [oneMore_tab, ot2 x (by rintro rfl; exact (List.nodup_cons.mp hnd).1 hx) (links_mem hl x (List.mem_cons_of_mem _ hx)).2, tab_same sm1]

theorem removeChain_near {v : Vol} (hg : Geo v) (hs : Sound v) {X : List Nat} (hX : ∀ x ∈ X, x < v.nFatent) {m : List Nat} {s : St} {c p : Nat} (hi : Inv v s) (hl : Links v.nFatent (tab v s) (c :: m)) (hnd : (c :: m).Nodup)
    (hm : ∀ x ∈ c :: m, x ∉ X) (hp : p = 0 ∨ 2 ≤ p ∧ p < v.nFatent ∧ p ∉ X ∧ p ∉ c :: m) : Near v X s (removeChain v s c p).1 := by
  unfold removeChain
  split
  · exact .refl _ _ _
  split
  · rename_i hp0
    obtain ⟨p2, pn, pX, pm⟩ := hp.resolve_left hp0
    obtain ⟨s2, e2, i2, ot2, -, n2⟩ := put_near hg hs hX hi 0xFFFFFFFF p2 pn pX
    unfold withPut
    rw [e2]
    simp only
    rw [if_pos trivial]
    refine n2.trans (removeLoop_near hg hs hX m _ i2 (links_congr hl fun x hx => ?_) hnd hm)
    exact ot2 x (by rintro rfl; exact pm hx) (links_mem hl x hx).2
  · exact removeLoop_near hg hs hX m _ hi hl hnd hm

theorem search_near {v : Vol} (hg : Geo v) (hs : Sound v) (X : List Nat) (scl : Nat) : ∀ (k : Nat) {s : St} (ncl : Nat), Inv v s → 1 ≤ ncl → ncl < v.nFatent →
    Inv v (search v scl k s ncl).1 ∧ Same v s (search v scl k s ncl).1 ∧ Near v X s (search v scl k s ncl).1 ∧
      ∀ c, (search v scl k s ncl).2 = .hit c → 2 ≤ c ∧ c < v.nFatent ∧ tab v s c = 0
  | 0, s, _, hi, _, _ => by
    rw [search.eq_def]
    exact ⟨hi, Same.refl _ _, .refl _ _ _, fun c h => by cases h⟩
  | k + 1, s, ncl, hi, h1, hn => by
    rw [search.eq_def]
    simp only
    have hpos := hg.pos
    split
    · exact ⟨hi, Same.refl _ _, .refl _ _ _, fun c h => by cases h⟩
    have c2 : 2 ≤ nextClst v ncl := by unfold nextClst; split <;> omega
    have cn : nextClst v ncl < v.nFatent := by unfold nextClst; split <;> omega
    obtain ⟨s1, e1, i1, sm1, n1⟩ := get_near hg hs X hi c2 cn
    rw [e1]
    simp only
    split
    · rename_i h0
      exact ⟨i1, sm1, n1, fun c h => by cases h; exact ⟨c2, cn, h0⟩⟩
    split
    · exact ⟨i1, sm1, n1, fun c h => by cases h⟩
    split
    · exact ⟨i1, sm1, n1, fun c h => by cases h⟩
    obtain ⟨a1, a2, a3, a4⟩ := search_near hg hs X scl k (nextClst v ncl) i1 (by omega) cn
    exact ⟨a1, sm1.trans a2, n1.trans a3, fun c h => by have := a4 c h; rwa [tab_same sm1] at this⟩

theorem link_near {v : Vol} (hg : Geo v) (hs : Sound v) {X : List Nat} (hX : ∀ x ∈ X, x < v.nFatent) {s : St} {c n : Nat} (hi : Inv v s) (hc : c = 0 ∨ 2 ≤ c ∧ c < v.nFatent ∧ c ∉ X)
    (h2 : 2 ≤ n) (hn : n < v.nFatent) (hnX : n ∉ X) : Near v X s (link v s c n).1 := by
  obtain ⟨s1, e1, i1, -, -, n1⟩ := put_near hg hs hX hi 0xFFFFFFFF h2 hn hnX
  unfold link withPut
  rw [e1]
  simp only
  rw [if_pos trivial]
  have fin : ∀ p : St × Nat, Near v X s p.1 → Near v X s (created v n p).1 := by
    intro p hp
    unfold created
    split
    · exact near_count hp rfl rfl rfl
    split <;> exact hp
  refine fin _ ?_
  split
  · rename_i h0
    obtain ⟨c2, cn, cX⟩ := hc.resolve_left h0
    obtain ⟨s2, e2, i2, -, -, n2⟩ := put_near hg hs hX i1 n c2 cn cX
    rw [e2]
    exact n1.trans n2
  · exact n1

theorem createChain_near {v : Vol} (hg : Geo v) (hs : Sound v) {X : List Nat} (hX : ∀ x ∈ X, x < v.nFatent) {s : St} {c : Nat} (hi : Inv v s) (hu : ∀ x ∈ X, tab v s x ≠ 0)
    (hc : c = 0 ∨ 2 ≤ c ∧ c < v.nFatent ∧ c ∉ X) : Near v X s (createChain v s c).1 := by
  have hpos := hg.pos
  have pl : ∀ {t : St} (scl : Nat), Inv v t → Same v s t → Near v X s t → 1 ≤ scl → scl < v.nFatent → Near v X s (place v c (search v scl v.nFatent t scl)).1 := by
    intro t scl it smt nt h1 hn
    obtain ⟨a1, a2, a3, a4⟩ := search_near hg hs X scl v.nFatent scl it h1 hn
    unfold place
    split
    · exact nt.trans a3
    · rename_i ncl hncl
      obtain ⟨b1, b2, b3⟩ := a4 ncl hncl
      rw [tab_same smt] at b3
      exact (nt.trans a3).trans (link_near hg hs hX a1 hc b1 b2 fun hx => hu _ hx b3)
  unfold createChain
  split
  · rename_i h0
    subst h0
    split
    · exact .refl _ _ _
    · exact pl _ hi (Same.refl _ _) (.refl _ _ _) (by unfold startNew; split <;> omega) (by unfold startNew; split <;> omega)
  · rename_i h0
    obtain ⟨c2, cn, cX⟩ := hc.resolve_left h0
    obtain ⟨s1, e1, i1, sm1, n1⟩ := get_near hg hs X hi c2 cn
    unfold withFat
    rw [e1]
    simp only
    split
    · exact n1
    split
    · exact n1
    split
    · exact n1
    split
    · exact n1
    split
    · exact n1
    have d2 : 2 ≤ nextClst v c := by unfold nextClst; split <;> omega
    have dn : nextClst v c < v.nFatent := by unfold nextClst; split <;> omega
    obtain ⟨s2, e2, i2, sm2, n2⟩ := get_near hg hs X i1 d2 dn
    unfold stretch withFat
    rw [e2]
    simp only
    split
    · exact n1.trans n2
    split
    · exact n1.trans n2
    split
    · exact pl _ i2 (sm1.trans sm2) (n1.trans n2) (by unfold startOld; split <;> omega) (by unfold startOld; split <;> omega)
    · rename_i h
      refine (n1.trans n2).trans (link_near hg hs hX i2 hc d2 dn fun hx => hu _ hx ?_)
      rw [tab_same sm1] at h
      simpa using h

end Fpm.Fat
