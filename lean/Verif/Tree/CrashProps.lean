import Verif.Tree.CrashLemmas
/-!
# C115: loss of power while an object is removed
-/
namespace Fpm.Tree
open Fpm.Fat Fpm.Fat.Spec Fpm.FatFile Fpm.FatFile.Spec Fpm.Lfn Fpm.Names Fpm.Names.Spec Fpm.TextIo.Spec Fpm.FatDir Fpm.FatDir.Spec Fpm.Mount Fpm.Mount.Spec Fpm.DirDev Fpm.DirDev.Spec Fpm.Tree.Spec Fpm.FatSync

/-- The claim: while an object is removed, the device shows at all times everything else as it was, and the object either still there with all of its clusters or gone. -/
def C115_statement (v : Vol) : Prop :=
  ∀ (i : Info), Ready v i → (i.fsi ≠ none → 512 ≤ v.ss) → Sound v → ∀ (T : List Dir) (F : List (List Nat)) (s : St), Tree v i T F s → ∀ (cdir : Nat), (∃ d ∈ T, d.sclust = cdir) →
    ∀ (share : Dp → Nat) (path : List Nat) (abs : Bool) (l : List (List Nat)), PathOf path abs l → ∀ (dp : Dp) (buf : List Nat), buf.length = 256 → ∀ (G : Goal), Resolves v T cdir abs l G →
    AtAllTimes s (fUnlink v i cdir share path s dp buf).1 (fun q => ∀ n, ¬ Fat2 v n → q n = view s n) ∨
    ∃ d cs o x y, G = .object d cs o ∧ d.os = x ++ o :: y ∧ AtAllTimes s (fUnlink v i cdir share path s dp buf).1 fun q => Untouched v i T F s d q ∧ (StillThere v i T F d x o y q ∨ Gone v i T F d x o y q)

theorem times_trans {a b c : St} {P : Disk → Prop} (h : AtAllTimes a b P) (h' : AtAllTimes b c P) : AtAllTimes a c P :=
  ⟨fun d hd => (h'.1 d hd).elim (h.1 d) .inr, h'.2⟩

theorem fat_area {v : Vol} {d d' : Disk} (h : ∀ n, Fat1 v n → d n = d' n) : fat v d = fat v d' := by
  have e : area v d = area v d' := by
    unfold area
    exact flatMap_congr' fun x hx => h _ ⟨by omega, by have := List.mem_range.1 hx; omega⟩
  unfold fat
  rw [e]

/-- It holds where no entry of the FAT crosses the border of two sectors. -/
theorem C115_unlink_partial (v : Vol) (hb2 : ∀ c, 2 ≤ c → c < v.nFatent → ¬ TwoSectors v c) : C115_statement v := by
  intro i hr hbig hs T F s h cdir hc share path abs l hp dp buf hb G hG
  generalize hu : fUnlink v i cdir share path s dp buf = p
  rcases unlink_cases hr h hc share hp dp hb hG hu.symm with ⟨q, -⟩ | ⟨d, cs, o, s1, dp1, buf1, fn1, fl1, blk, rfl, q, hri, hu⟩
  · exact .inl ⟨(q.trace hs).1, q.same⟩
  right
  have hst := no_straddle hb2
  obtain ⟨R, hT, hdir⟩ := ripe_perm hri
  have ht := tree_perm hT (.refl _) hri.tree
  have ht0 := tree_perm hT (.refl _) h
  obtain ⟨h1, h2, h3⟩ := remove_tree hr ht hri.start hri.obj hri.place hri.name hri.means hri.find
  generalize dirRemove v i s1 dp1 (blk.map (32 * ·)) = r at h1 h2 h3 hu
  rcases h3 with ⟨-, h3⟩ | ⟨h3, x, y, hos, h4, h5⟩
  · exact absurd hs h3
  obtain ⟨m, R', F', hm, hmid, hno, -, F1, hF, hun, hsub, hperm⟩ := mid_tree ht hri.nodots hos h1 h4 fun hx => ⟨(hdir hx).1, (hdir hx).2.2⟩
  obtain ⟨k1, k2, k3, k4⟩ := chain_tree hr hbig hs h3 hmid hno
  have hl0 : Linked v (tab v s) d.loc := tree_linked h hri.mem
  have hbase := fun n (hn : n ∈ dirSecs v i d.loc) => secs_base hr hl0 hn
  have hplace := fun n (hn : n ∈ dirSecs v i d.loc) => secs_place hr hl0 hn
  have hunt : ∀ q : Disk, (∀ n, v.fatbase ≤ n → ¬ Fat1 v n → ¬ Fat2 v n → n ∉ dirSecs v i d.loc → q n = view s n) → Untouched v i T F s d q := by
    intro q hq
    obtain ⟨a1, a2⟩ := untouched_secs hr ht0 hq
    exact ⟨fun d' hd' hne => a1 d' ((List.mem_cons.mp (hT.mem_iff.mp hd')).resolve_left hne), a2⟩
  have hperm' : (dirChains T ++ F).Perm (withRest [] m (dirChains ({ d with os := x ++ y } :: R') ++ F')) := (((hT.flatMap_right _).append (.refl _))).trans hperm
  refine ⟨d, cs, o, x, y, rfl, hos, ?_⟩
  -- removing the entries
  obtain ⟨t1, t2⟩ := h5 s q hs
  have first : ∀ q : Disk, Elsewhere v i d.loc (view s) q ∧
      ((∃ long, (long = o.long ∨ long = none) ∧ Directory false (entries v i q d.loc) (x ++ { o with long := long } :: y)) ∨ Directory true (entries v i q d.loc) (x ++ y)) →
      Untouched v i T F s d q ∧ (StillThere v i T F d x o y q ∨ Gone v i T F d x o y q) := by
    rintro q ⟨e1, e2⟩
    have hfat : fat v q = tab v s := fat_area fun n hn => e1 n (fat1_not2 hn) fun hx => (hplace n hx).1 hn
    refine ⟨hunt q fun n _ _ n2 n3 => e1 n n2 n3, e2.imp (fun e => ⟨e, ?_⟩) fun e => ⟨e, m, _, [], m, hperm', hm.symm, rfl, ?_⟩⟩
    · rw [hfat]; exact h.chains
    · rw [hfat]; exact chains_perm hperm' h.chains
  have ftimes : AtAllTimes s r.st fun q => Untouched v i T F s d q ∧ (StillThere v i T F d x o y q ∨ Gone v i T F d x o y q) := ⟨fun q hq => (t1 q hq).imp id (first q), first _ t2⟩
  have hrd : Directory true (entries v i (view r.st) d.loc) (x ++ y) := (h4 _ List.mem_cons_self).dir
  -- the clusters, and what is written at the end
  have second : ∀ (q : Disk) (pre suf : List Nat), m = pre ++ suf → (∀ n, v.fatbase ≤ n → ¬ Fat1 v n → ¬ Fat2 v n → q n = view r.st n) →
      Chains v.nFatent (fat v q) (withRest [] suf (dirChains ({ d with os := x ++ y } :: R') ++ F')) → Untouched v i T F s d q ∧ (StillThere v i T F d x o y q ∨ Gone v i T F d x o y q) := by
    intro q pre suf e1 e2 e3
    refine ⟨hunt q fun n n0 n1 n2 n3 => (e2 n n0 n1 n2).trans (t2.1 n n2 n3), .inr ⟨?_, m, _, pre, suf, hperm', hm.symm, e1, e3⟩⟩
    rw [entries_congr fun n hn => e2 n (hbase n hn) (hplace n hn).1 (hplace n hn).2.1]
    exact hrd
  have flush : ∀ (t : St), Inv v t → (∀ n, v.fatbase ≤ n → ¬ Fat1 v n → ¬ Fat2 v n → view t n = view r.st n) → (∃ pre suf, m = pre ++ suf ∧ Chains v.nFatent (tab v t) (withRest [] suf (dirChains ({ d with os := x ++ y } :: R') ++ F'))) →
      AtAllTimes t (syncFs v i.fsi t).1 fun q => Untouched v i T F s d q ∧ (StillThere v i T F d x o y q ∨ Gone v i T F d x o y q) := by
    rintro t hi hv ⟨pre, suf, e1, e2⟩
    have one : ∀ q : Disk, (∀ n, v.fatbase ≤ n → ¬ Fat2 v n → q n = view t n) → Untouched v i T F s d q ∧ (StillThere v i T F d x o y q ∨ Gone v i T F d x o y q) := by
      intro q hq
      refine second q pre suf e1 (fun n n0 n1 n2 => (hq n n0 n2).trans (hv n n0 n1 n2)) ?_
      rw [fat_area fun n hn => hq n hn.1 (fat1_not2 hn)]
      exact e2
    exact ⟨fun q hq => (sync_keep hr hs hi q hq).imp id (one q), one _ fun n n0 n2 => (syncfs_spec hr hbig hi).1 n n2 (fsi_free hr n0)⟩
  subst hu
  unfold unlinkChain
  rw [if_pos h3]
  cases m with
  | nil =>
    rw [hm, if_neg (by simp)]
    exact times_trans ftimes (flush r.st hmid.inv (fun _ _ _ _ => rfl) ⟨[], [], rfl, hmid.chains⟩)
  | cons c m =>
    rw [if_neg (fun h => by cases h)] at hmid
    have hc2 := links_mem (hmid.chains.chain (c :: m) (by simp)) c (by simp)
    rw [hm, List.headD_cons, if_pos (by omega)]
    obtain ⟨f0, f1, -, f3⟩ := tree_freed hr hmid (fun d hd o ho hdo e => hno d hd o ho hdo (by omega) e)
    have hch : Chains v.nFatent (tab v r.st) ([] ++ (c :: m) :: (dirChains ({ d with os := x ++ y } :: R') ++ F')) := chains_perm List.perm_middle hmid.chains
    have g1 := (C53_crash_partial v hr.geo hs hb2).2.2.1 r.st hmid.inv [] _ c m hch
    have g2 := chain_keep hr.geo hs hst hmid.inv c
    generalize removeChain v r.st c 0 = p at f0 f1 f3 g1 g2
    rcases f3 with ⟨-, f3⟩ | ⟨f3, f4⟩
    · exact absurd hs f3
    unfold synced
    rw [if_pos f3]
    refine times_trans ftimes (times_trans (b := p.1) ⟨fun q hq => ?_, ?_⟩ (flush p.1 f0 (fun n _ => f1 n) ?_))
    · rcases g1.1 q hq with g3 | ⟨pre, suf, g3, g4⟩
      · exact .inl g3
      · rcases g2 q hq with g5 | g5
        · exact .inl g5
        · exact .inr (second q pre suf g3 (fun n _ => g5 n) g4)
    · obtain ⟨pre, suf, g3, g4⟩ := g1.2
      exact second _ pre suf g3 (fun n _ => f1 n) g4
    · exact g1.2

/-- Thus it holds for FAT16 and FAT32, and where the FAT is one sector, as on the flash disk. -/
theorem C115_kinds (v : Vol) (h : v.fsType = 2 ∨ v.fsType = 3 ∨ v.fsize = 1) : C115_statement v :=
  fun i hr => C115_unlink_partial v (fun c _ hc => C53_kinds v hr.geo h c hc) i hr

/-! ## Entries that cross the border of two sectors -/

/-- The claim for all volumes. -/
def C115_full : Prop := ∀ v, C115_statement v

/-- A FAT12 volume with sectors of 64 bytes: file `X.C` has the clusters 85 and 19, file `Y` has 16.  The entry of cluster 85 is in two sectors of the FAT. -/
def crV : Vol := { ss := 64, csize := 1, fatbase := 1, fsize := 3, nFats := 1, nFatent := 86, fsType := 1, database := 6, io := fun _ => .ok }
def crI : Info := { volbase := 0, totsec := 90, nRoot := 4, dirbase := 4, fsi := none }
def crX : List Nat := trEnt [88, 32, 32, 32, 32, 32, 32, 32, 67, 32, 32] 0x20 85 100
def crY : List Nat := trEnt (pad 11 [89]) 0x20 16 10
def crDisk : Disk := fun n =>
  if n = 1 then List.replicate 24 0 ++ [0xFF, 0x0F, 0, 0, 0xF0, 0xFF] ++ List.replicate 34 0 else if n = 2 then List.replicate 63 0 ++ [0x30] else if n = 3 then 1 :: List.replicate 63 0
  else if n = 4 then crX ++ crY else List.replicate 64 0
def crS : St := { disk := crDisk, past := [], cnt := 0, win := List.replicate 64 0, winsect := none, wflag := false, lastClst := 2, freeClst := 0xFFFFFFFF, fsiFlag := false }
def crRoot : Dir := ⟨0, .root, plain 0 [crX, crY]⟩
def crF : List (List Nat) := [[85, 19], [16]]

theorem cr_ready : Ready crV crI where
  geo := { ss := by decide, nFats := by decide, kind := by decide, size := by decide, pos := by decide, junk := fun _ _ h => by cases h }
  data := { pow := ⟨0, rfl⟩, base := by decide, pos := by decide }
  reserved := by decide
  root := by decide
  root32 := by decide
  inside := by decide
  rest := by decide
  limit := by decide
  kind := by decide
  fsi := fun _ h => by cases h
  whole := by decide

theorem cr_inv : Fat.Spec.Inv crV crS := by
  refine ⟨fun n => ?_, ⟨List.length_replicate, fun b hb => by rw [(List.mem_replicate.mp hb).2]; decide⟩, (fun _ n h => by cases h), (fun h => by cases h), fun n h => by cases h⟩
  show Sec crV (crDisk n)
  unfold crDisk
  split
  · exact ⟨by decide, by decide⟩
  · split
    · exact ⟨by decide, by decide⟩
    · split
      · exact ⟨by decide, by decide⟩
      · split
        · exact ⟨by decide, by decide⟩
        · exact ⟨List.length_replicate, fun b hb => by rw [(List.mem_replicate.mp hb).2]; decide⟩

theorem cr_tree : Tree crV crI [crRoot] crF crS where
  inv := cr_inv
  count := fun h => absurd h (by decide)
  chains := by
    have key : ∀ c < 86, 2 ≤ c → tab crV crS c ≠ 0 → c ∈ [85, 19, 16] := by decide +kernel
    refine ⟨fun l hl => ?_, by decide, fun c h2 hc h => key c hc h2 h⟩
    have hl : l ∈ [[85, 19], [16]] := hl
    simp only [List.mem_cons, List.not_mem_nil, or_false] at hl
    rcases hl with rfl | rfl
    · show 2 ≤ 85 ∧ 85 < 86 ∧ tab crV crS 85 = 19 ∧ 2 ≤ 19 ∧ 19 < 86 ∧ 86 ≤ tab crV crS 19
      decide +kernel
    · show 2 ≤ 16 ∧ 16 < 86 ∧ 86 ≤ tab crV crS 16
      decide +kernel
  root := ⟨crRoot, by simp, rfl⟩
  once := by decide
  dirs := by
    intro d hd
    rw [List.mem_singleton] at hd
    subst hd
    have hl : ∀ o ∈ plain 0 [crX, crY], o.long = none := by
      intro o ho
      obtain ⟨p, -, rfl⟩ := List.mem_map.mp ho
      rfl
    have he : entries crV crI (view crS) .root = [crX, crY] ++ List.replicate 2 blank := by decide +kernel
    refine ⟨⟨rfl, by decide⟩, ?_, plain_names hl (by decide), fun o ho => by rw [hl o ho]; exact ⟨(fun h => by cases h), (fun h => by cases h)⟩⟩
    show Directory true (entries crV crI (view crS) .root) _
    rw [he]
    exact plain_dir (by decide) (by unfold FatDir.Spec.Table; decide)
  refs := by decide +kernel
  files := by
    intro d hd o ho h1 h2
    rw [List.mem_singleton] at hd
    subst hd
    simp only [crRoot, plain, List.zipIdx_cons, List.zipIdx_nil, List.map_cons, List.map_nil, List.mem_cons, List.not_mem_nil, or_false] at ho
    rcases ho with rfl | rfl
    · exact ⟨[85, 19], .inr (by decide), by decide, by decide⟩
    · exact ⟨[16], .inr (by decide), by decide, by decide⟩
  subs := by
    intro d hd o ho h1 h2
    rw [List.mem_singleton] at hd
    subst hd
    simp only [crRoot, plain, List.zipIdx_cons, List.zipIdx_nil, List.map_cons, List.map_nil, List.mem_cons, List.not_mem_nil, or_false] at ho
    rcases ho with rfl | rfl <;> exact absurd h2 (by decide)
  dots := by
    intro d hd o ho h1
    rw [List.mem_singleton] at hd
    subst hd
    simp only [crRoot, plain, List.zipIdx_cons, List.zipIdx_nil, List.map_cons, List.map_nil, List.mem_cons, List.not_mem_nil, or_false] at ho
    rcases ho with rfl | rfl <;> exact absurd h1 (by decide)

theorem cr_path : PathOf [120, 46, 99, 0] false [[120, 46, 99]] := .segs (z := []) (p := [120, 46, 99, 0]) (by decide) (.last (cs := [120, 46, 99]) (t := [0]) (rest := []) (by decide) (by decide) (.fin (by decide)))

theorem cr_leads : Resolves crV [crRoot] 0 false [[120, 46, 99]] (.object crRoot [120, 46, 99] ⟨0, none, crX⟩) := by
  refine ⟨crRoot, by simp, rfl, .inr (.object (by decide) (by decide) ?_)⟩
  unfold Calls
  rw [if_neg (by decide)]
  exact .inr ⟨[120], [99], ⟨by decide, by decide, by decide, by decide, by decide, by decide⟩, by decide⟩

theorem cr_crash : ((fUnlink crV crI 0 (fun _ => 0) [120, 46, 99, 0] crS trDp (List.replicate 256 7)).1.past.map fun d => fat crV d 85).contains 16 = true := by decide +kernel

/-- One half of such an entry is written before the other: for a while the cluster 85, which is no longer in use, leads into the file `Y`. -/
theorem C115_violated : ¬ C115_full := by
  intro h
  have hx := cr_crash
  rw [List.contains_iff_mem] at hx
  obtain ⟨q, hq, hq3⟩ := List.mem_map.mp hx
  have h0 : tab crV crS 85 = 19 := by decide +kernel
  have hold : q ∉ crS.disk :: crS.past := by
    intro hm
    have : q = crS.disk := by
      rcases List.mem_cons.mp hm with h | h
      · exact h
      · cases h
    have e2 : fat crV q 85 = tab crV crS 85 := by rw [this]; rfl
    rw [hq3, h0] at e2
    cases e2
  rcases h crV crI cr_ready (fun h => absurd rfl h) (fun _ => rfl) [crRoot] crF crS cr_tree 0 ⟨crRoot, by simp, rfl⟩ (fun _ => 0) _ _ _ cr_path trDp _ List.length_replicate _ cr_leads with h | ⟨d, cs, o, x, y, hG, -, h⟩
  · have h1 := (h.1 q (List.mem_cons_of_mem _ hq)).resolve_left hold
    have e2 : fat crV q 85 = tab crV crS 85 := congrFun (fat_area fun n hn => h1 n (fat1_not2 hn)) 85
    rw [hq3, h0] at e2
    cases e2
  · cases hG
    rcases ((h.1 q (List.mem_cons_of_mem _ hq)).resolve_left hold).2 with h1 | ⟨-, m, A, pre, suf, h1, h2, h3, h4⟩
    · have : fat crV q 85 = 19 := (h1.2.chain [85, 19] (by decide)).2.2.1
      rw [hq3] at this
      cases this
    · have hm : m ≠ [] := by
        rintro rfl
        exact absurd h2 (by decide)
      unfold withRest at h1
      rw [if_neg hm] at h1
      have h1 : [[85, 19], [16]].Perm (m :: A) := h1
      have hm1 : m = [85, 19] := by
        have : m ∈ [[85, 19], [16]] := h1.mem_iff.mpr (by simp)
        simp only [List.mem_cons, List.not_mem_nil, or_false] at this
        rcases this with e | e
        · exact e
        · rw [e] at h2; exact absurd h2 (by decide)
      rw [hm1] at h1 h3
      have hA : A = [[16]] := List.perm_singleton.mp (List.Perm.cons_inv h1).symm
      rw [hA] at h4
      have hin := h4.used 85 (by decide) (by decide) (by rw [hq3]; decide)
      have hsuf : suf = [85, 19] ∨ 85 ∉ suf := by
        match pre, h3 with
        | [], h3 => exact .inl h3.symm
        | [a], h3 => injection h3 with _ h3; have h3 : [19] = suf := h3; rw [← h3]; exact .inr (by decide)
        | [a, b], h3 => injection h3 with _ h3; injection h3 with _ h3; have h3 : [] = suf := h3; rw [← h3]; exact .inr (by decide)
        | a :: b :: c :: l, h3 => injection h3 with _ h3; injection h3 with _ h3; cases h3
      rcases hsuf with rfl | hsuf
      · have : fat crV q 85 = 19 := (h4.chain [85, 19] (by unfold withRest; simp)).2.2.1
        rw [hq3] at this
        cases this
      · unfold withRest at hin
        split at hin
        · exact absurd hin (by decide)
        · simp only [List.nil_append, List.flatten_cons, List.mem_append, hsuf, false_or] at hin
          exact absurd hin (by decide)

/-! ## Examples -/

example : (∀ c, 2 ≤ c → c < trV.nFatent → ¬ TwoSectors trV c) ∧ Ready trV trI ∧ Sound trV ∧ Tree trV trI trT trF trS ∧ (∃ d ∈ trT, d.sclust = 0) ∧ PathOf [47, 65, 47, 98, 0] true [[65], [98]] ∧
    Resolves trV trT 0 true [[65], [98]] (.object trDirA [98] ⟨2, none, trB⟩) := by
  have : ∀ c < 8, ¬ (width trV * c / (8 * trV.ss) ≠ (width trV * c + width trV - 1) / (8 * trV.ss)) := by decide
  refine ⟨fun c _ hc => this c hc, tr_ready, tr_sound, tr_tree, ⟨trRoot, by simp [trT], rfl⟩, tr_path, ?_⟩
  exact ⟨trRoot, by simp [trT], rfl, .inr (.enter (o := ⟨0, none, trA⟩) (d' := trDirA) (by decide) (by decide) tr_calls_a (by decide) (by simp [trT]) (by decide) (.object (by decide) (by decide) tr_calls_b))⟩

end Fpm.Tree
