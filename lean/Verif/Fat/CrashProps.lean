import Verif.Fat.ChainProps
/-!
# C53: crashes, C72: damaged tables
-/
namespace Fpm.Fat
open Fpm.Fat.Spec

/-! ## C53 -/

/-- While a chain is made longer, the FAT on the device has all chains as before, or in addition a lost cluster, or the longer chain. -/
def Spec.CrashStretch (v : Vol) : Prop := ∀ s, Inv v s → ∀ a b l c, Chains v.nFatent (tab v s) (a ++ (l ++ [c]) :: b) → CountOk v s →
  AtAllTimes s (createChain v s c).1 fun d =>
    Chains v.nFatent (fat v d) (a ++ (l ++ [c]) :: b) ∨ (∃ r, Chains v.nFatent (fat v d) ([r] :: a ++ (l ++ [c]) :: b)) ∨
    ∃ r, Chains v.nFatent (fat v d) (a ++ (l ++ [c, r]) :: b)

/-- While a chain is made, the FAT on the device has all chains as before, and perhaps the new one. -/
def Spec.CrashNew (v : Vol) : Prop := ∀ s, Inv v s → ∀ cs, Chains v.nFatent (tab v s) cs → CountOk v s →
  AtAllTimes s (createChain v s 0).1 fun d => Chains v.nFatent (fat v d) cs ∨ ∃ r, Chains v.nFatent (fat v d) ([r] :: cs)

/-- While a chain is removed, the FAT on the device has all other chains, and a rest of the one being removed. -/
def Spec.CrashRemove (v : Vol) : Prop := ∀ s, Inv v s → ∀ a b c m, Chains v.nFatent (tab v s) (a ++ (c :: m) :: b) →
  AtAllTimes s (removeChain v s c 0).1 fun d => ∃ pre suf, c :: m = pre ++ suf ∧ Chains v.nFatent (fat v d) (withRest a suf b)

/-- While a chain is cut behind `p`, the FAT on the device has all other chains, and the chain or its beginning with a (lost) rest of what is being removed. -/
def Spec.CrashTruncate (v : Vol) : Prop := ∀ s, Inv v s → ∀ a b l p c m, Chains v.nFatent (tab v s) (a ++ (l ++ p :: c :: m) :: b) →
  AtAllTimes s (removeChain v s c p).1 fun d => Chains v.nFatent (fat v d) (a ++ (l ++ p :: c :: m) :: b) ∨
    ∃ pre suf, c :: m = pre ++ suf ∧ Chains v.nFatent (fat v d) (withRest (a ++ [l ++ [p]]) suf b)

/-- The claim: on each volume whose device does not fail, a crash at any time leaves all other chains intact, and disjoint. -/
def C53_full : Prop := ∀ v, Geo v → Sound v → CrashNew v ∧ CrashStretch v ∧ CrashRemove v ∧ CrashTruncate v

theorem no_straddle {v : Vol} (h : ∀ c, 2 ≤ c → c < v.nFatent → ¬ TwoSectors v c) : ∀ c, 2 ≤ c → c < v.nFatent → ¬ Straddle v c :=
  fun c h2 hc hs => h c h2 hc (straddle_two c hs)

/-- `Between`, below cluster 2 too. -/
theorem between_new {v : Vol} (hg : Geo v) {s : St} {cs : List (List Nat)} (hw : Chains v.nFatent (tab v s) cs) {f : Nat → Nat} (h : Between v s f) :
    Chains v.nFatent f cs ∨ ∃ r, Chains v.nFatent f ([r] :: cs) := by
  rcases h with rfl | ⟨r, h2, hr, h0, ho, he⟩
  · exact .inl hw
  · exact .inr ⟨r, chains_new hw h2 hr h0 (by rw [he]; exact (eoc_ge hg).1) ho⟩

/-- **C53** (partly).  It holds where no entry of the FAT crosses the border of two sectors. -/
theorem C53_crash_partial (v : Vol) (hg : Geo v) (hs : Sound v) (hb : ∀ c, 2 ≤ c → c < v.nFatent → ¬ TwoSectors v c) :
    CrashNew v ∧ CrashStretch v ∧ CrashRemove v ∧ CrashTruncate v := by
  have hst := no_straddle hb
  refine ⟨fun s hi cs hw hk => ?_, fun s hi a b l c hw hk => ?_, fun s hi a b c m hw => ?_, fun s hi a b l p c m hw => ?_⟩
  · obtain ⟨s1, r1, e, i, o, sf, hr⟩ := create_spec hg hi (clst := 0) (.inl rfl)
    obtain ⟨-, -, hp⟩ := C51_new v hg s hi cs hw hk s1 r1 e
    rw [e]
    refine ⟨fun d hd => ?_, ?_⟩
    · rcases sf hs hst d hd with h | h
      · exact .inl h
      · exact .inr (between_new hg hw h)
    · rcases hp with ⟨-, -, h, -⟩ | ⟨-, -, -, h, -⟩ | ⟨-, h, -⟩
      · refine .inl ?_
        show Chains v.nFatent (tab v s1) cs
        rw [h]; exact hw
      · exact .inr ⟨_, h⟩
      · exact absurd hs h
  · have hcm := links_mem (hw.chain (l ++ [c]) (by simp)) c (by simp)
    obtain ⟨s1, r1, e, i, o, sf, hr⟩ := create_spec hg hi (clst := c) (.inr hcm)
    obtain ⟨-, -, hp⟩ := C51_stretch v hg s hi a b l c hw hk s1 r1 e
    rw [e]
    refine ⟨fun d hd => ?_, ?_⟩
    · rcases sf hs hst d hd with h | h
      · exact .inl h
      · rcases between_new hg hw h with h | h
        · exact .inr (.inl h)
        · exact .inr (.inr (.inl h))
    · rcases hp with ⟨-, -, h, -⟩ | ⟨-, -, -, h, -⟩ | ⟨-, h, -⟩
      · refine .inl ?_
        show Chains v.nFatent (tab v s1) _
        rw [h]; exact hw
      · exact .inr (.inr ⟨_, h⟩)
      · exact absurd hs h
  · have hl := hw.chain (c :: m) (by simp)
    have hcm := links_mem hl c (by simp)
    have hnd := chain_nodup hw
    obtain ⟨s1, r1, e1, i1, o1, ot1, cr1, hr1⟩ := removeLoop_spec hg m v.nFatent hi hl hnd (loop_fuel hg hl hnd)
    unfold removeChain
    rw [if_neg (by omega), if_neg (by omega), e1]
    refine ⟨?_, ?_⟩
    · exact cr1 (fun f => ∃ pre suf, c :: m = pre ++ suf ∧ Chains v.nFatent f (withRest a suf b))
        (fun pre suf f hps h0 hf => ⟨pre, suf, hps, chains_prefix (by rw [← hps]; exact hw) h0 hf⟩) hs hst
    · rcases hr1 with ⟨-, hz, -⟩ | ⟨-, ns⟩
      · exact ⟨c :: m, [], by simp, chains_prefix (by rw [List.append_nil]; exact hw) hz ot1⟩
      · exact absurd hs ns
  · have hl0 := hw.chain (l ++ p :: c :: m) (by simp)
    have hpm := links_mem hl0 p (by simp)
    have hcm := links_mem hl0 c (by simp)
    have hnd0 := chain_nodup hw
    have hnd : (c :: m).Nodup := by
      rw [List.nodup_append] at hnd0
      exact (List.nodup_cons.mp hnd0.2.1).2
    obtain ⟨s1, r1, e1, i1, rr1, o1, ot1, tr1, hr1⟩ := put_step hg hi 0xFFFFFFFF hpm.1 hpm.2
    rcases hr1 with ⟨rfl, ht1⟩ | ⟨-, ns⟩
    rotate_left
    · exact absurd hs ns
    have hw1 : Chains v.nFatent (tab v s1) (a ++ (l ++ [p]) :: (c :: m) :: b) := chains_cut hw (by simp) (by rw [ht1]; exact (eoc_ge hg).1) ot1
    have hw2 : Chains v.nFatent (tab v s1) ((a ++ [l ++ [p]]) ++ (c :: m) :: b) := by simpa using hw1
    have hl1 := hw1.chain (c :: m) (by simp)
    obtain ⟨s2, r2, e2, i2, o2, ot2, cr2, hr2⟩ := removeLoop_spec hg m v.nFatent i1 hl1 hnd (loop_fuel hg hl1 hnd)
    unfold removeChain withPut
    rw [if_neg (by omega), if_pos (by omega), e1]
    simp only [if_true]
    rw [e2]
    refine ⟨?_, ?_⟩
    · refine Safe.trans (v := v) (Q := fun f => Chains v.nFatent f (a ++ (l ++ p :: c :: m) :: b) ∨
          ∃ pre suf, c :: m = pre ++ suf ∧ Chains v.nFatent f (withRest (a ++ [l ++ [p]]) suf b)) (tr1 _ (.inl hw) hs (hst p hpm.1 hpm.2)) ?_
      exact cr2 _ (fun pre suf f hps h0 hf => .inr ⟨pre, suf, hps, chains_prefix (by rw [← hps]; exact hw2) h0 hf⟩) hs hst
    · rcases hr2 with ⟨-, hz, -⟩ | ⟨-, ns⟩
      · exact .inr ⟨c :: m, [], by simp, chains_prefix (by rw [List.append_nil]; exact hw2) hz ot2⟩
      · exact absurd hs ns

/-- The condition of `C53_crash_partial` holds for FAT16 and FAT32, and for FAT12 with a FAT of one sector. -/
theorem C53_kinds (v : Vol) (hg : Geo v) (h : v.fsType = 2 ∨ v.fsType = 3 ∨ v.fsize = 1) (c : Nat) (hc : c < v.nFatent) : ¬ TwoSectors v c := by
  obtain ⟨q, hq⟩ := Nat.dvd_of_mod_eq_zero hg.ss.1
  have hq0 : 0 < q := by have := hg.ss.2; omega
  have hsz := hg.size
  unfold TwoSectors
  by_cases h1 : v.fsize = 1
  · rw [h1, Nat.one_mul] at hsz
    have e : width v * (c + 1) ≤ width v * v.nFatent := Nat.mul_le_mul_left _ hc
    rw [Nat.mul_succ] at e
    have hw : 0 < width v := by unfold width; split <;> (try split) <;> omega
    rw [Nat.div_eq_of_lt (by omega), Nat.div_eq_of_lt (by omega)]
    exact fun h => h rfl
  · have key : ∀ w, (w = 16 ∨ w = 32) → ¬ w * c / (8 * v.ss) ≠ (w * c + w - 1) / (8 * v.ss) := by
      intro w hw
      rw [hq]
      have e1 : w * c / (8 * (4 * q)) = w * c / 32 / q := by rw [Nat.div_div_eq_div_mul]; congr 1; omega
      have e2 : (w * c + w - 1) / (8 * (4 * q)) = (w * c + w - 1) / 32 / q := by rw [Nat.div_div_eq_div_mul]; congr 1; omega
      rw [e1, e2]
      have : w * c / 32 = (w * c + w - 1) / 32 := by rcases hw with rfl | rfl <;> omega
      rw [this]
      exact fun h => h rfl
    have hw : width v = 16 ∨ width v = 32 := by
      unfold width
      rcases h with h | h | h
      · rw [if_neg (by omega), if_pos h]; exact .inl rfl
      · rw [if_neg (by omega), if_neg (by omega)]; exact .inr rfl
      · exact absurd h h1
    exact key _ hw

/-! ### The counterexample, and examples for the hypotheses -/

/-- First sector of a FAT12: cluster 291 ends a chain, 303 is a chain of its own, 341 leads to 291 (or where the next sector says). -/
def cxSector : List Nat := ((((List.replicate 512 0).set 436 0xF0).set 437 0xFF).set 454 0xF0 |>.set 455 0xFF).set 511 0x30

/-- Second sector: the rest of entry 341. -/
def cxSector2 : List Nat := (List.replicate 512 0).set 0 0x12

/-- A device with two files, one of the clusters 341 and 291, and one of cluster 303; nothing in the window. -/
def cxSt : St :=
  { disk := fun n => if n = 1 ∨ n = 3 then cxSector else if n = 2 ∨ n = 4 then cxSector2 else List.replicate 512 0,
    past := [], cnt := 0, win := List.replicate 512 0, winsect := none, wflag := false, lastClst := 0, freeClst := 0xFFFFFFFF, fsiFlag := false }

/-- The volume of the example in C50, on a device without failures. -/
def cxVol : Vol := exVol fun _ => .ok

theorem cxGeo : Geo cxVol := exGeo _ fun _ _ h => by cases h

theorem cxInv : Inv cxVol cxSt where
  disk n := by
    show Sec cxVol (if n = 1 ∨ n = 3 then cxSector else if n = 2 ∨ n = 4 then cxSector2 else List.replicate 512 0)
    have h1 : Sec cxVol cxSector := ⟨by decide +kernel, by decide +kernel⟩
    have h2 : Sec cxVol cxSector2 := ⟨by decide +kernel, by decide +kernel⟩
    split
    · exact h1
    · split
      · exact h2
      · exact sec_replicate _ 0 (by decide)
  win := sec_replicate _ 0 (by decide)
  clean _ n h := by cases h
  dirty h := by cases h
  fat2 n h := by cases h

theorem cxTab (c : Nat) (hc : c < 600) : tab cxVol cxSt c = byBytes cxVol (view cxSt) c % 2 ^ 12 := by
  unfold tab fat
  rw [entry_eq cxGeo (bytes_of cxGeo cxInv) hc]
  rfl

theorem cxAll : ∀ c, c < 600 → byBytes cxVol (view cxSt) c % 2 ^ 12 = if c = 291 ∨ c = 303 then 0xFFF else if c = 341 then 291 else 0 := by decide +kernel

theorem cxChains : Chains cxVol.nFatent (tab cxVol cxSt) [[341, 291], [303]] := by
  have e : ∀ c, c < 600 → tab cxVol cxSt c = if c = 291 ∨ c = 303 then 0xFFF else if c = 341 then 291 else 0 := fun c hc => (cxTab c hc).trans (cxAll c hc)
  have hn : cxVol.nFatent = 600 := rfl
  rw [hn]
  refine ⟨fun l hl => ?_, by decide, fun c _ hc h => ?_⟩
  · rcases List.mem_cons.mp hl with rfl | hl
    · refine ⟨by decide, by decide, ?_, by decide, by decide, ?_⟩
      · rw [e 341 (by decide)]; rfl
      · rw [e 291 (by decide)]; decide
    · rw [List.mem_singleton] at hl
      subst hl
      refine ⟨by decide, by decide, ?_⟩
      rw [e 303 (by decide)]; decide
  · rw [e c hc] at h
    split at h
    · rename_i h'; rcases h' with rfl | rfl <;> decide
    · split at h
      · rename_i h'; subst h'; decide
      · exact absurd rfl h

/-- Hypotheses of C51, C52 and C53 can be met. -/
example : Geo cxVol ∧ Inv cxVol cxSt ∧ Sound cxVol ∧ Chains cxVol.nFatent (tab cxVol cxSt) ([] ++ ([] ++ 341 :: 291 :: []) :: [[303]]) ∧ CountOk cxVol cxSt :=
  ⟨cxGeo, cxInv, fun _ => rfl, cxChains, fun h => absurd h (by decide)⟩

theorem cxCrash : ((removeChain cxVol cxSt 291 341).1.past.map fun d => byBytes cxVol d 341).contains 303 = true := by decide +kernel

/-- Contents met on the way consist of sectors. -/
theorem cxBytes : ∀ d ∈ (removeChain cxVol cxSt 291 341).1.past, (d 1).length = 512 ∧ (∀ x ∈ d 1, x < 256) ∧ (d 2).length = 512 ∧ ∀ x ∈ d 2, x < 256 := by decide +kernel

/-- **C53**, as stated.  If an entry of a FAT12 crosses the border of two sectors, one half of it is written before the other; cutting the chain 341, 291 behind its first
cluster makes it lead into the chain of another file for a while. -/
theorem C53_violated : ¬ C53_full := by
  intro h
  have hc := (h cxVol cxGeo (fun _ => rfl)).2.2.2 cxSt cxInv [] [[303]] [] 341 291 [] cxChains
  have hx := cxCrash
  rw [List.contains_iff_mem] at hx
  obtain ⟨d, hd, hd3⟩ := List.mem_map.mp hx
  have hb := cxBytes d hd
  have hval : fat cxVol d 341 = 303 := by
    have e : area cxVol d = area cxVol (fun n => if n = 1 then d 1 else if n = 2 then d 2 else List.replicate 512 0) := rfl
    have hbytes : Bytes cxVol (fun n => if n = 1 then d 1 else if n = 2 then d 2 else List.replicate 512 0) := by
      refine ⟨cxGeo.ss, fun n => ?_⟩
      show Sec cxVol (if n = 1 then d 1 else if n = 2 then d 2 else List.replicate 512 0)
      split
      · exact ⟨hb.1, hb.2.1⟩
      · split
        · exact ⟨hb.2.2.1, hb.2.2.2⟩
        · exact sec_replicate _ 0 (by decide)
    unfold fat
    rw [e, entry_eq cxGeo hbytes (by decide)]
    have e2 : byBytes cxVol (fun n => if n = 1 then d 1 else if n = 2 then d 2 else List.replicate 512 0) 341 = byBytes cxVol d 341 := rfl
    rw [e2, hd3]
    rfl
  rcases hc.1 d (List.mem_cons_of_mem _ hd) with hold | hcut | ⟨pre, suf, -, hcut⟩
  · have : d = cxSt.disk := by
      rcases List.mem_cons.mp hold with h | h
      · exact h
      · cases h
    have e2 : fat cxVol d 341 = tab cxVol cxSt 341 := by
      rw [this]
      rfl
    rw [hval, cxTab 341 (by decide), cxAll 341 (by decide)] at e2
    exact absurd e2 (by decide)
  · have : fat cxVol d 341 = 291 := (hcut.chain [341, 291] (by simp)).2.2.1
    rw [hval] at this
    exact absurd this (by decide)
  · have hm : [341] ∈ withRest ([] ++ [[] ++ [341]]) suf [[303]] := by
      unfold withRest
      split <;> simp
    have : 600 ≤ fat cxVol d 341 := (hcut.chain [341] hm).2.2
    rw [hval] at this
    exact absurd this (by decide)

/-! ## C72 -/

/-- **C72**, allocation.  For every FAT, well-formed or not, `create_chain` ends with a defined result; it changes nothing but the entry of
the cluster to be stretched and that of one free cluster. -/
theorem C72_create (v : Vol) (hg : Geo v) (s : St) (hi : Inv v s) (clst : Nat) (s' : St) (r : Nat) (h : createChain v s clst = (s', r)) :
    Inv v s' ∧ (∀ n, ¬ Fat1 v n → ¬ Fat2 v n → view s' n = view s n) ∧
    (r = 0 ∨ r = 1 ∨ 2 ≤ r ∧ r < v.nFatent ∨ r = 0xFFFFFFFF ∧ ¬ Sound v) ∧
    ∃ n, (2 ≤ n ∧ n < v.nFatent → tab v s n = 0) ∧ ∀ c, c ≠ n → c ≠ clst → 2 ≤ c → c < v.nFatent → tab v s' c = tab v s c := by
  by_cases hc : clst = 0 ∨ 2 ≤ clst ∧ clst < v.nFatent
  · obtain ⟨s1, r1, e, i, o, -, hr⟩ := create_spec hg hi hc
    rw [h] at e
    cases e
    refine ⟨i, o, ?_, ?_⟩
    · cases hr with
      | full => exact .inl rfl
      | bad => exact .inr (.inl rfl)
      | next _ _ _ h2 hn => exact .inr (.inr (.inl ⟨h2, hn⟩))
      | new _ h2 hr => exact .inr (.inr (.inl ⟨h2, hr⟩))
      | fail ns => exact .inr (.inr (.inr ⟨rfl, ns⟩))
    · cases hr with
      | full sm => exact ⟨0, fun h => absurd h.1 (by omega), fun c _ _ _ _ => by rw [tab_same sm]⟩
      | bad sm => exact ⟨0, fun h => absurd h.1 (by omega), fun c _ _ _ _ => by rw [tab_same sm]⟩
      | next sm => exact ⟨0, fun h => absurd h.1 (by omega), fun c _ _ _ _ => by rw [tab_same sm]⟩
      | new _ h2 hr h0 _ _ oth => exact ⟨r, fun _ => h0, oth⟩
      | fail _ n h0 oth => exact ⟨n, h0, oth⟩
  · have hgf : getFat v s clst = (s, 1) := by
      unfold getFat
      rw [if_pos (by omega)]
    unfold createChain withFat at h
    rw [if_neg (by omega), hgf] at h
    simp only at h
    rw [if_neg (by decide), if_pos (by decide)] at h
    cases h
    exact ⟨hi, fun _ _ _ => rfl, .inr (.inl rfl), 0, fun h => absurd h.1 (by omega), fun _ _ _ _ _ => rfl⟩

/-- **C72**, removal.  For every FAT, also with loops, `remove_chain` ends with a defined result; it changes no entries but to free them and
to mark the end of the chain. -/
theorem C72_remove (v : Vol) (hg : Geo v) (s : St) (hi : Inv v s) (clst p : Nat) (s' : St) (r : Nat) (h : removeChain v s clst p = (s', r)) :
    Inv v s' ∧ (∀ n, ¬ Fat1 v n → ¬ Fat2 v n → view s' n = view s n) ∧ (r = 0 ∨ r = 2 ∨ r = 1 ∧ ¬ Sound v) ∧
    (Sound v → ∀ c, c ≠ p → c < v.nFatent → tab v s' c = tab v s c ∨ tab v s' c = 0) := by
  have hpos := hg.pos
  unfold removeChain at h
  by_cases hc : clst < 2 ∨ clst ≥ v.nFatent
  · rw [if_pos hc] at h
    cases h
    exact ⟨hi, fun _ _ _ => rfl, .inr (.inl rfl), fun _ _ _ _ => .inl rfl⟩
  rw [if_neg hc] at h
  have fin : ∀ {t : St}, Inv v t → ∀ {s' r}, removeLoop v v.nFatent t clst = (s', r) → Inv v s' ∧ Out v t s' ∧ (r = 0 ∨ r = 2 ∨ r = 1 ∧ ¬ Sound v) ∧
      (Sound v → ∀ c, c < v.nFatent → tab v s' c = tab v t c ∨ tab v s' c = 0) := by
    intro t it s' r h
    obtain ⟨s1, r1, e, i, o, ot, hr⟩ := removeLoop_any hg v.nFatent it (c := clst) (by omega) (by omega) (by omega)
    rw [h] at e
    cases e
    refine ⟨i, o, ?_, ot⟩
    rcases hr with h | h | h
    · exact .inl h
    · exact .inr (.inl h.1)
    · exact .inr (.inr h)
  by_cases hp : p = 0
  · rw [if_neg (by omega)] at h
    obtain ⟨i, o, hr, ot⟩ := fin hi h
    exact ⟨i, o, hr, fun hs c _ hc => ot hs c hc⟩
  rw [if_pos hp] at h
  unfold withPut at h
  by_cases hpr : p < 2 ∨ p ≥ v.nFatent
  · unfold putFat at h
    rw [if_pos hpr] at h
    simp only at h
    rw [if_neg (by decide)] at h
    cases h
    exact ⟨hi, fun _ _ _ => rfl, .inr (.inl rfl), fun _ _ _ _ => .inl rfl⟩
  · obtain ⟨s1, r1, e1, i1, rr1, o1, ot1, tr1, hr1⟩ := put_step hg hi (c := p) 0xFFFFFFFF (by omega) (by omega)
    rw [e1] at h
    simp only at h
    rcases hr1 with ⟨rfl, -⟩ | ⟨rfl, ns⟩
    · rw [if_pos rfl] at h
      obtain ⟨i, o, hr, ot⟩ := fin i1 h
      refine ⟨i, o1.trans o, hr, fun hs c hcp hc => ?_⟩
      rw [← ot1 c hcp hc]
      exact ot hs c hc
    · rw [if_neg (by decide)] at h
      cases h
      exact ⟨i1, o1, .inr (.inr ⟨rfl, ns⟩), fun h => absurd h ns⟩

end Fpm.Fat
