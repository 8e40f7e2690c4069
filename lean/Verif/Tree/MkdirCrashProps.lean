import Verif.Tree.MkdirCrashLemmas
import Verif.Tree.MoveCrashProps
/-!
# C124: loss of power while a directory is made
-/
namespace Fpm.Tree
open Fpm.Fat Fpm.Fat.Spec Fpm.FatFile Fpm.FatFile.Spec Fpm.Lfn Fpm.Names Fpm.Names.Spec Fpm.TextIo.Spec Fpm.FatDir Fpm.FatDir.Spec Fpm.Mount Fpm.Mount.Spec Fpm.DirDev Fpm.DirDev.Spec Fpm.Tree.Spec Fpm.FatSync

/-- The claim for a volume, with a condition `C` on the name: while a directory is made, the device shows at all times either no new directory, or the complete one, and all else as it was. -/
def C124_statement (v : Vol) (C : Info → St → Dir → List Nat → Prop) : Prop :=
  ∀ (i : Info), Ready v i → (i.fsi ≠ none → 512 ≤ v.ss) → 64 ≤ v.ss → Sound v → ∀ (T : List Dir) (F : List (List Nat)) (s : St), Tree v i T F s → ∀ (cdir : Nat), (∃ d ∈ T, d.sclust = cdir) →
    ∀ (tm : Nat) (path : List Nat) (abs : Bool) (l : List (List Nat)), PathOf path abs l → (∀ cs ∈ l, 0xFFFF ∉ cs) → ∀ (dp : Dp) (buf : List Nat), buf.length = 256 → ∀ (d : Dir) (cs : List Nat), Resolves v T cdir abs l (.free d cs) →
    (fMkdir v i cdir tm path s dp buf).2 = FR_OK → C i s d cs → AtAllTimes s (fMkdir v i cdir tm path s dp buf).1 (Making v i tm T F s d cs)

theorem shown_congr {v : Vol} {i : Info} (hr : Ready v i) {T : List Dir} {F : List (List Nat)} {s : St} (h : Tree v i T F s) {q : Disk} (hq : ∀ n, v.fatbase ≤ n → ¬ Fat2 v n → q n = view s n) : Shown v i T F q := by
  refine ⟨fun e he => ?_, ?_⟩
  · rw [entries_congr fun n hn => hq n (secs_base hr (tree_linked h he) hn) (secs_place hr (tree_linked h he) hn).2.1]
    exact dir_loose (h.dirs e he).dir
  · rw [fat_area fun n hn => hq n hn.1 (fat1_not2 hn)]
    exact h.chains

theorem shown_perm {v : Vol} {i : Info} {T T' : List Dir} (hT : T.Perm T') {F : List (List Nat)} {q : Disk} (h : Shown v i T F q) : Shown v i T' F q :=
  ⟨fun e he => h.1 e (hT.mem_iff.mpr he), chains_perm ((hT.flatMap_right _).append_right F) h.2⟩

/-- It holds if no entry of the FAT crosses the border of two sectors, and there is room for the name without another cluster. -/
theorem C124_mkdir_partial (v : Vol) (hb2 : ∀ c, 2 ≤ c → c < v.nFatent → ¬ TwoSectors v c) : C124_statement v (HasRoom v) := by
  intro i hr hbig h64 hs T F s h cdir hc tm path abs l hp hff dp buf hb d cs hG hok hroom
  obtain ⟨a1, a2⟩ := C83_mkdir v i hr hbig h64 hs T F s h cdir hc tm path abs l hp hff dp buf hb _ hG _ rfl
  have hfile : ∀ l ∈ F, ∀ n ∈ secs v l, ¬ Fat2 v n ∧ v.fatbase ≤ n := fun l hl n hn => by
    have h1 := chain_secs hr (h.chains.chain l (by simp [hl])) hn
    have := hr.data.base
    exact ⟨h1.2.1, by omega⟩
  obtain ⟨q, h1⟩ := follow_spec hr h hc hp dp hb
  rcases a2 with ⟨a2, -⟩ | ⟨d', cs', R, hG', hT, ⟨a2, -⟩ | ⟨-, -, T2, a2, a3⟩⟩
  · rw [hok] at a2; cases a2
  · rw [hok] at a2; cases a2
  cases hG'
  unfold fMkdir at hok a1 a3 ⊢
  generalize followPath v i cdir path s dp buf = f at q h1 hok a1 a3
  obtain ⟨G', h1, h2⟩ := h1.resolve_left fun hx => hx.2 hs
  obtain ⟨G0, -, hun⟩ := C81_place v i T F s h cdir hc abs l
  cases (hun G' h1).trans (hun _ hG).symm
  have hqt := tree_quiet hr q h
  unfold mkdirAt at hok a1 a3 ⊢
  obtain ⟨c1, c2, c3, c4, c5⟩ := h2
  have h20 : ¬ f.fl &&& 0x20 ≠ 0 := fun hx => c4.nodot ((named_bits c4.named).2.1.mp hx)
  rw [c1, if_neg (by decide), if_pos rfl, if_neg h20] at hok a1 a3 ⊢
  obtain ⟨d0, -, -, hl⟩ := hG
  have hleads : Leads v T d0 l (.free d cs) := by
    rcases hl with ⟨-, hl⟩ | hl
    · cases hl
    · exact hl
  obtain ⟨hcs, hno⟩ := leads_free hleads rfl
  have hnr : ¬ NoRoom (entries v i (view f.st) d.loc) (f.fl &&& 2 ≠ 0) (units (trimmed cs)).length := by
    rw [entries_same hr (tree_linked h c2) q.same]
    exact hroom _ _ _ c4
  obtain ⟨s6, k1, k2, k3⟩ := mkdir_times hr h64 hs (no_straddle hb2) (tree_perm hT (.refl _) hqt) c3 c4 (hff cs hcs) c5 hno hnr tm rfl hok
  generalize mkdirNew v i tm f (createChain v f.st 0) = p at hok a1 a3 k2
  subst k2
  have hend : ∀ n, v.fatbase ≤ n → ¬ Fat2 v n → view (syncFs v i.fsi s6).1 n = view s6 n := fun n n0 n2 => (syncfs_spec hr hbig k1).1 n n2 (fsi_free hr n0)
  have done : ∀ w : Disk, (∀ n, v.fatbase ≤ n → ¬ Fat2 v n → w n = view (syncFs v i.fsi s6).1 n) → Making v i tm T F s d cs w := fun w hw =>
    ⟨fun l hl n hn => (hw n (hfile l hl n hn).2 (hfile l hl n hn).1).trans (a1 l hl n hn), .inr (.inr ⟨R, T2, hT, a2, shown_congr hr a3 hw⟩)⟩
  refine ⟨fun w hw => ?_, done _ fun n _ _ => rfl⟩
  rcases sync_keep hr hs k1 w hw with hw | hw
  · rcases k3 w hw with hw | ⟨m1, m2⟩
    · rcases (q.trace hs).1 w hw with hw | hw
      · exact .inl hw
      · exact .inr ⟨fun l hl n hn => hw n (hfile l hl n hn).1, .inl (shown_congr hr h fun n _ n2 => hw n n2)⟩
    · refine .inr ⟨fun l hl n hn => (m1 l hl n hn).trans (q.same n (hfile l hl n hn).1), ?_⟩
      rcases m2 with m2 | ⟨c, m2⟩
      · exact .inl (shown_perm hT.symm m2)
      · exact .inr (.inl ⟨c, shown_perm hT.symm m2⟩)
  · exact .inr (done w fun n n0 n2 => (hw n n0 n2).trans (hend n n0 n2).symm)

/-- Thus it holds for FAT16 and FAT32, and where the FAT is one sector, as on the flash disk. -/
theorem C124_kinds_partial (v : Vol) (h : v.fsType = 2 ∨ v.fsType = 3 ∨ v.fsize = 1) : C124_statement v (HasRoom v) :=
  fun i hr => C124_mkdir_partial v (fun c _ hc => C53_kinds v hr.geo h c hc) i hr

/-! ## Entries that cross the border of two sectors -/

/-- The claim for all volumes and names. -/
def C124_full : Prop := ∀ v, C124_statement v fun _ _ _ _ => True

/-- The FAT12 volume `crV` with one file `Y`, which has the cluster 16.  The entry of cluster 85, which is the next one to be used, is in two sectors of the FAT. -/
def mcDisk : Disk := fun n => if n = 1 then List.replicate 24 0 ++ [0xFF, 0x0F] ++ List.replicate 38 0 else if n = 4 then crY ++ List.replicate 32 0 else List.replicate 64 0
def mcS : St := { disk := mcDisk, past := [], cnt := 0, win := List.replicate 64 0, winsect := none, wflag := false, lastClst := 84, freeClst := 0xFFFFFFFF, fsiFlag := false }
def mcRoot : Dir := ⟨0, .root, plain 0 [crY]⟩
def mcF : List (List Nat) := [[16]]

theorem mc_inv : Fat.Spec.Inv crV mcS := by
  refine ⟨fun n => ?_, ⟨List.length_replicate, fun b hb => by rw [(List.mem_replicate.mp hb).2]; decide⟩, (fun _ n h => by cases h), (fun h => by cases h), fun n h => by cases h⟩
  show Sec crV (mcDisk n)
  unfold mcDisk
  split
  · exact ⟨by decide, by decide⟩
  · split
    · exact ⟨by decide, by decide⟩
    · exact ⟨List.length_replicate, fun b hb => by rw [(List.mem_replicate.mp hb).2]; decide⟩

theorem mc_tree : Tree crV crI [mcRoot] mcF mcS where
  inv := mc_inv
  count := fun h => absurd h (by decide)
  chains := by
    have key : ∀ c < 86, 2 ≤ c → tab crV mcS c ≠ 0 → c ∈ [16] := by decide +kernel
    refine ⟨fun l hl => ?_, by decide, fun c h2 hc h => key c hc h2 h⟩
    have hl : l ∈ [[16]] := hl
    simp only [List.mem_cons, List.not_mem_nil, or_false] at hl
    subst hl
    show 2 ≤ 16 ∧ 16 < 86 ∧ 86 ≤ tab crV mcS 16
    decide +kernel
  root := ⟨mcRoot, by simp, rfl⟩
  once := by decide
  dirs := by
    intro d hd
    rw [List.mem_singleton] at hd
    subst hd
    have he : entries crV crI (view mcS) .root = [crY] ++ List.replicate 3 blank := by decide +kernel
    refine ⟨⟨rfl, by decide⟩, ?_, plain_names plain_long (by decide), fun o ho => by rw [plain_long o ho]; exact ⟨(fun h => by cases h), (fun h => by cases h)⟩⟩
    show Directory true (entries crV crI (view mcS) .root) _
    rw [he]
    exact plain_dir (by decide) (by unfold FatDir.Spec.Table; decide)
  refs := by decide +kernel
  files := by
    intro d hd o ho h1 h2
    rw [List.mem_singleton] at hd
    subst hd
    simp only [mcRoot, plain, List.zipIdx_cons, List.zipIdx_nil, List.map_cons, List.map_nil, List.mem_cons, List.not_mem_nil, or_false] at ho
    subst ho
    exact ⟨[16], .inr (by decide), by decide, by decide⟩
  subs := by
    intro d hd o ho h1 h2
    rw [List.mem_singleton] at hd
    subst hd
    simp only [mcRoot, plain, List.zipIdx_cons, List.zipIdx_nil, List.map_cons, List.map_nil, List.mem_cons, List.not_mem_nil, or_false] at ho
    subst ho
    exact absurd h2 (by decide)
  dots := by
    intro d hd o ho h1
    rw [List.mem_singleton] at hd
    subst hd
    simp only [mcRoot, plain, List.zipIdx_cons, List.zipIdx_nil, List.map_cons, List.map_nil, List.mem_cons, List.not_mem_nil, or_false] at ho
    subst ho
    exact absurd h1 (by decide)

theorem mc_leads : Resolves crV [mcRoot] 0 false [[99]] (.free mcRoot [99]) := by
  refine ⟨mcRoot, by simp, rfl, .inr (.free (by decide) (by decide) ?_)⟩
  intro o ho hx
  unfold Calls at hx
  rw [if_neg (by decide)] at hx
  rcases hx with ⟨m, hm, -⟩ | ⟨body, ext, h8, e⟩
  · rw [plain_long o ho] at hm; cases hm
  · have he : [99] = body ++ if ext = [] then [] else 46 :: ext := h8.eq
    cases body with
    | nil => exact h8.ne rfl
    | cons b body =>
      rw [List.cons_append] at he
      obtain ⟨rfl, he2⟩ := List.cons.inj he
      obtain ⟨hb, he⟩ := List.append_eq_nil_iff.mp he2.symm
      subst hb
      have hx : ext = [] := by
        by_cases h : ext = []
        · exact h
        · rw [if_neg h] at he; cases he
      subst hx
      have key : ∀ o ∈ mcRoot.os, o.fn ≠ form [99] [] := by decide
      exact key o ho e

/-- The directory `c` is made. -/
def mcMake : St × Nat := fMkdir crV crI 0 12345 [99, 0] mcS trDp (List.replicate 256 7)

theorem mc_crash : mcMake.2 = FR_OK ∧ (mcMake.1.past.map fun q => (fat crV q 85, entries crV crI q .root)).contains (15, [crY, blank, blank, blank]) = true := by decide +kernel

/-- One half of such an entry is written before the other: for a while the cluster 85, which belongs to nothing yet, leads to the free cluster 15. -/
theorem C124_violated : ¬ C124_full := by
  intro h
  obtain ⟨hok, hx⟩ := mc_crash
  rw [List.contains_iff_mem] at hx
  obtain ⟨q, hq, hq3⟩ := List.mem_map.mp hx
  obtain ⟨f85, ents⟩ := Prod.mk.injEq .. ▸ hq3
  clear hx hq3
  unfold mcMake at hok hq
  have h0 : tab crV mcS 85 = 0 := by decide +kernel
  have hold : q ∉ mcS.disk :: mcS.past := by
    intro hm
    have : q = mcS.disk := by
      rcases List.mem_cons.mp hm with h | h
      · exact h
      · cases h
    have e2 : fat crV q 85 = tab crV mcS 85 := by rw [this]; rfl
    rw [f85, h0] at e2
    cases e2
  have hm := h crV crI cr_ready (fun h => absurd rfl h) (by decide) (fun _ => rfl) [mcRoot] mcF mcS mc_tree 0 ⟨mcRoot, by simp, rfl⟩ 12345 [99, 0] _ _ tr_path_cc (by decide) trDp (List.replicate 256 7) List.length_replicate _ _ mc_leads hok trivial
  obtain ⟨-, hm⟩ := (hm.1 q (List.mem_cons_of_mem _ hq)).resolve_left hold
  rcases hm with ⟨-, hm⟩ | ⟨c, -, hm⟩ | ⟨R, T2, hT, hmade, hm, -⟩
  · have := hm.used 85 (by decide) (by decide) (by rw [f85]; decide)
    exact absurd this (by decide)
  · have h85 : 85 ∈ ([] ++ [c] :: [[16]]).flatten := hm.used 85 (by decide) (by decide) (by rw [f85]; decide)
    have : c = 85 := by
      simp only [List.nil_append, List.flatten_cons, List.flatten_nil, List.cons_append, List.append_nil, List.mem_cons, List.not_mem_nil, or_false] at h85
      omega
    subst this
    have : 2 ≤ 85 ∧ 85 < 86 ∧ 86 ≤ fat crV q 85 := hm.chain [85] (by simp)
    omega
  · generalize hT1 : mcRoot :: R = T1 at hmade
    cases hmade with
    | @mk x y o a b loc n R' h1 h2 h3 h4 h5 h6 h7 h8 h9 h10 h11 _ _ =>
      have hloc : loc = .root := by
        cases loc with
        | root => rfl
        | chain l => cases h2
      subst hloc
      have hd := hm _ List.mem_cons_self
      have hd : Directory false (entries crV crI q .root) (x ++ o :: y) := hd
      rw [ents] at hd
      have ho := List.mem_of_getElem? (rep_entry hd.rep o (by simp))
      have key : ∀ e ∈ [crY, blank, blank, blank], byte e 11 &&& 0x10 = 0 := by decide
      exact h4 (key _ ho)

/-! ## The hypotheses hold -/

example : (∀ c, 2 ≤ c → c < trV.nFatent → ¬ TwoSectors trV c) ∧ Ready trV trI ∧ (trI.fsi ≠ none → 512 ≤ trV.ss) ∧ 64 ≤ trV.ss ∧ Sound trV ∧ Tree trV trI trT trF trS ∧ (∃ d ∈ trT, d.sclust = 0) ∧ PathOf [99, 0] false [[99]] ∧
    (∀ cs ∈ [[99]], 0xFFFF ∉ cs) ∧ Resolves trV trT 0 false [[99]] (.free trRoot [99]) ∧ (fMkdir trV trI 0 12345 [99, 0] trS trDp (List.replicate 256 7)).2 = FR_OK ∧ HasRoom trV trI trS trRoot [99] ∧
    (fMkdir trV trI 0 12345 [99, 0] trS trDp (List.replicate 256 7)).1.past.length = 4 := by
  have : ∀ c < 8, ¬ (width trV * c / (8 * trV.ss) ≠ (width trV * c + width trV - 1) / (8 * trV.ss)) := by decide
  exact ⟨fun c _ hc => this c hc, tr_ready, fun h => absurd rfl h, by decide, tr_sound, tr_tree, ⟨trRoot, by simp [trT], rfl⟩, tr_path_cc, by decide, tr_leads_cc, by decide +kernel, tr_room, by decide +kernel⟩

end Fpm.Tree
