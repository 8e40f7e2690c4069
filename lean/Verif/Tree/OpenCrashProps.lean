import Verif.Tree.OpenCrashLemmas
/-!
# C126: loss of power while a file is opened
-/
namespace Fpm.Tree
open Fpm.Fat Fpm.Fat.Spec Fpm.FatFile Fpm.FatFile.Spec Fpm.Lfn Fpm.Names Fpm.Names.Spec Fpm.TextIo.Spec Fpm.FatDir Fpm.FatDir.Spec Fpm.Mount Fpm.Mount.Spec Fpm.DirDev Fpm.DirDev.Spec Fpm.Tree.Spec Fpm.FatSync Fpm.FatBytes Fpm.FatBytes.Spec
open Fpm.FatLock (Sem Key chkShare enqShare incShare decShare)

/-- The claim for a volume, with a condition `C` on new names: while a file is opened, made, or made empty, the device shows at all times all data of files, and the directories as they were or with the new file, or
with the file empty. -/
def C126_statement (v : Vol) (C : Info → St → Dir → List Nat → Prop) : Prop :=
  ∀ (i : Info), Ready v i → Sound v → ∀ (T : List Dir) (F : List (List Nat)) (s : St), Tree v i T F s → ∀ (cdir : Nat), (∃ d ∈ T, d.sclust = cdir) → ∀ (files : List Sem) (fs : Nat), fs ≠ 0 →
    ∀ (tm mode old : Nat) (path : List Nat) (abs : Bool) (l : List (List Nat)), PathOf path abs l → (∀ cs ∈ l, 0xFFFF ∉ cs) → ∀ (dp : Dp) (buf : List Nat), buf.length = 256 → ∀ (G : Goal), Resolves v T cdir abs l G →
    ∀ (p : Opd), p = fOpen v i cdir files fs tm mode old path s dp buf → p.res = FR_OK → (∀ d cs, G = .free d cs → C i s d cs) → AtAllTimes s p.st (Opening v i tm mode G T F s)

/-- It holds if no entry of the FAT crosses the border of two sectors, and there is room for a new name without another cluster. -/
theorem C126_open_partial (v : Vol) (hb2 : ∀ c, 2 ≤ c → c < v.nFatent → ¬ TwoSectors v c) : C126_statement v (HasRoom v) := by
  intro i hr hs T F s h cdir hc files fs hfs tm mode old path abs l hp hff dp buf hb G hG p hu hok hroom
  have hfile : ∀ l ∈ F, ∀ n ∈ secs v l, ¬ Fat2 v n := fun l hl n hn => (chain_secs hr (h.chains.chain l (by simp [hl])) hn).2.1
  obtain ⟨q, h1⟩ := follow_spec hr h hc hp dp hb
  unfold fOpen at hu
  have hM := mode_bits mode
  generalize mode &&& 0x3F = M at hu hM
  generalize followPath v i cdir path s dp buf = f at q h1 hu
  obtain ⟨G', h1, h2⟩ := h1.resolve_left fun hx => hx.2 hs
  obtain ⟨G0, -, hun⟩ := C81_place v i T F s h cdir hc abs l
  cases (hun G' h1).trans (hun G hG).symm
  clear h1 hun
  have hqt := tree_quiet hr q h
  -- before anything has changed
  have early : ∀ w : Disk, (∀ n, ¬ Fat2 v n → w n = view s n) → Opening v i tm mode G T F s w := fun w hw =>
    ⟨fun l hl n hn => hw n (hfile l hl n hn), .inl (shown_congr hr h fun n _ n2 => hw n n2)⟩
  have first : ∀ w ∈ f.st.disk :: f.st.past, w ∈ s.disk :: s.past ∨ Opening v i tm mode G T F s w := fun w hw => ((q.trace hs).1 w hw).imp id (early w)
  have quiet : ∀ {t : St}, Quiet v f.st t → AtAllTimes s t (Opening v i tm mode G T F s) := by
    intro t k
    refine ⟨fun w hw => ?_, early _ fun n n2 => (k.same n n2).trans (q.same n n2)⟩
    rcases (k.trace hs).1 w hw with hw | hw
    · exact first w hw
    · exact .inr (early w fun n n2 => (hw n n2).trans (q.same n n2))
  -- refused
  have same : ∀ (r : Ret) (M' : Nat), p = openLock v i files fs M' old r → r.res ≠ FR_OK → AtAllTimes s p.st (Opening v i tm mode G T F s) := by
    intro r M' e1 e3
    unfold openLock at e1
    rw [if_neg e3] at e1
    rw [e1] at hok
    exact absurd hok e3
  have fail : ∀ res, openTest files fs M f = res → res ≠ FR_OK → res ≠ FR_NO_FILE → AtAllTimes s p.st (Opening v i tm mode G T F s) := by
    intro res e1 e2 e3
    unfold openAt at hu
    rw [e1] at hu
    have e5 : openObj v i files tm M f res = ⟨f.st, f.dp, res⟩ := by
      unfold openObj openTrunc openNew openKeep
      rw [if_pos e2, if_neg e3, if_neg e2]
      split
      · rw [if_neg fun hx => e2 hx.1]
      · rfl
    rw [e5] at hu
    exact same _ _ hu e2
  cases G with
  | badName =>
    have e : openTest files fs M f = FR_INVALID_NAME := by unfold openTest; rw [show f.res = _ from h2, if_neg (by decide)]
    exact fail _ e (by decide) (by decide)
  | noPath =>
    have e : openTest files fs M f = FR_NO_PATH := by unfold openTest; rw [show f.res = _ from h2, if_neg (by decide)]
    exact fail _ e (by decide) (by decide)
  | self d =>
    have e : openTest files fs M f = FR_INVALID_NAME := by unfold openTest; rw [if_pos h2.1, h2.2.2.2, if_pos (by decide)]
    exact fail _ e (by decide) (by decide)
  | free d cs =>
    obtain ⟨c1, c2, c3, c4, c5⟩ := h2
    have e : openTest files fs M f = FR_NO_FILE := by unfold openTest; rw [c1, if_neg (by decide)]
    unfold openAt at hu
    rw [e] at hu
    unfold openObj at hu
    by_cases hcr : Creates mode
    · rw [if_pos (hM.create.mpr hcr), if_pos (by decide)] at hu
      have eM : openMode M FR_NO_FILE = M ||| 8 := by unfold openMode; rw [if_pos ⟨hM.create.mpr hcr, by decide⟩]
      rw [eM] at hu
      unfold openNew at hu
      rw [if_pos rfl] at hu
      by_cases henq : enqShare files = true
      · rw [if_pos henq] at hu
        obtain ⟨A, B, hT⟩ := List.append_of_mem c2
        have hperm : T.Perm (d :: (A ++ B)) := by rw [hT]; exact List.perm_middle
        obtain ⟨d0, -, -, hl⟩ := hG
        have hleads : Leads v T d0 l (.free d cs) := by
          rcases hl with ⟨-, hl⟩ | hl
          · cases hl
          · exact hl
        obtain ⟨hcs, hno⟩ := leads_free hleads rfl
        have hqp := tree_perm hperm (.refl F) hqt
        have hnr : ¬ NoRoom (entries v i (view f.st) d.loc) (f.fl &&& 2 ≠ 0) (units (trimmed cs)).length := by
          rw [entries_same hr (tree_linked h c2) q.same]
          exact hroom d cs rfl _ _ _ c4
        have hbef := register_before hr hs (g := dirRegister v i f.st f.dp f.fn f.fl f.buf) ⟨tree_vol hqp (A := []) rfl, (hqp.dirs d (by simp)).dir⟩ (by rw [c3]; exact (hqp.dirs d (by simp)).starts) c4 (hff cs hcs) c5 hnr rfl
        obtain ⟨g1, g2⟩ := register_tree hr hqp c3 c4 (hff cs hcs) c5 hno (g := dirRegister v i f.st f.dp f.fn f.fl f.buf) rfl
        have hdps := register_sclust hr hqp c3 c4
        generalize dirRegister v i f.st f.dp f.fn f.fl f.buf = g at g1 g2 hu hdps hbef
        have a5 := (apart_dirs hr hqp g1).2
        have g2 := g2.resolve_left fun hx => hx.2 hs
        unfold openTrunc at hu
        rcases g2 with ⟨g2, loc, g3, g4, g5⟩ | ⟨g2, loc, x, o, y, g3, g4, g5, g6, g7, g8, g9, g10⟩
        · rw [if_neg (by rw [g2]; exact fun hx => absurd hx.1 (by decide))] at hu
          exact same _ _ hu (by rw [g2]; decide)
        · have hg : g = ⟨g.st, g.dp, FR_OK⟩ := by rw [← g2]
          have hbef := hbef g2
          rw [if_pos ⟨g2, hM.set8⟩, hg] at hu
          obtain ⟨nw1, nw2, nw3, nw4, nw5, nw6⟩ := new_entry (v := v) g5
          have gdp : g.dp.sclust = d.sclust := hdps.trans c3
          obtain ⟨e2, u1, u2, u3, u4⟩ := wipe_times hr hs hb2 (m := []) (F := F) g7 (o := o) (x := x) (y := y) rfl nw1 nw2 nw4 g8 g10 tm rfl
          obtain ⟨e', w1, w2, w3, w4, w5, w6, w7⟩ := wipe_tree hr hs (m := []) (F := F) g7 (o := o) (x := x) (y := y) rfl nw1 nw2 nw4 g8 g10 tm rfl
          generalize openWipe v tm ⟨g.st, g.dp, FR_OK⟩ = r at w1 w2 w3 w6 w7 hu u3 u4
          obtain ⟨k1, k2, k3⟩ := lock_spec hr hs (m := []) (F := F) w6 (o := { o with entry := e' }) (by simp) w5.first (by rw [w5.size]; exact Nat.zero_le _) (by rw [w2]; exact gdp) (by rw [w2]; exact g8) (by rw [w2]; exact w3) w1 (hM.kind8 hcr) hM.tail8 hM.write8
            hM.read8 old hu
          have hdata : ∀ l ∈ F, ∀ n ∈ secs v l, view r.st n = view s n := fun l hl n hn => (u3 l hl n hn).trans ((a5 l hl n hn).trans (q.same n (hfile l hl n hn)))
          have late : ∀ w : Disk, (∀ n, ¬ Fat2 v n → w n = view r.st n) → Opening v i tm mode (.free d cs) T F s w := fun w hw =>
            ⟨fun l hl n hn => (hw n (hfile l hl n hn)).trans (hdata l hl n hn), .inr ⟨_, F, _, _, F, _, [], [], hperm, .refl _, .new hcr g4 g3 (calls_update w4 g6) w5, .inl rfl, shown_congr hr w6 fun n _ n2 => hw n n2⟩⟩
          have newer : ∀ w : Disk, ((∀ l ∈ F, ∀ n ∈ secs v l, w n = view g.st n) ∧ Shown v i ({ d with loc := loc, os := x ++ { o with entry := e2 } :: y } :: (A ++ B)) F w) → Opening v i tm mode (.free d cs) T F s w := fun w hw =>
            ⟨fun l hl n hn => (hw.1 l hl n hn).trans ((a5 l hl n hn).trans (q.same n (hfile l hl n hn))), .inr ⟨_, F, _, _, F, _, [], [], hperm, .refl _, .new hcr g4 g3 (calls_update u1 g6) u2, .inl rfl, hw.2⟩⟩
          refine ⟨fun w hw => ?_, late _ k1.same⟩
          rcases (k1.trace hs).1 w hw with hw | hw
          rotate_left
          · exact .inr (late w hw)
          rcases u4 w hw with hw | ⟨z1, pre, suf, z2, z3⟩
          rotate_left
          · have : suf = [] := (List.append_eq_nil_iff.mp z2.symm).2
            subst this
            exact .inr (newer w ⟨z1, z3⟩)
          rcases hbef w hw with hw | ⟨z1, z2⟩
          · exact first w hw
          · have z4 : ∀ n, ¬ Fat2 v n → n ∉ dirSecs v i d.loc → w n = view s n := fun n a1 a2 => (z1 n a1 a2).trans (q.same n a1)
            refine .inr ⟨fun l hl n hn => z4 n (hfile l hl n hn) (file_secs hr hqp (by simp) hl hn), .inl ⟨fun a ha => ?_, ?_⟩⟩
            · by_cases hx : a = d
              · rw [hx]; exact z2
              · rw [entries_congr fun n hn => z4 n (secs_place hr (tree_linked h ha) hn).2.1 (apart_secs hr h c2 ha hx hn)]
                exact dir_loose (h.dirs a ha).dir
            · rw [fat_area fun n hn => z4 n (fat1_not2 hn) fun hx => (secs_place hr (tree_linked h c2) hx).1 hn]
              exact h.chains
      · rw [if_neg henq] at hu
        unfold openTrunc at hu
        rw [if_neg (fun hx => absurd hx.1 (show ¬ FR_TOO_MANY_OPEN_FILES = FR_OK by decide))] at hu
        exact same _ _ hu (show FR_TOO_MANY_OPEN_FILES ≠ FR_OK by decide)
    · rw [if_neg fun hx => hcr (hM.create.mp hx)] at hu
      unfold openKeep at hu
      rw [if_neg (by decide)] at hu
      exact same _ _ hu (show FR_NO_FILE ≠ FR_OK by decide)
  | object d cs o =>
    obtain ⟨c1, c2, c3, c4, c5, -, c7, c8, c9, c10, c11, -⟩ := h2
    have hkey : keyOf fs f.dp = ⟨fs, d.sclust, 32 * o.pos⟩ := by unfold keyOf; rw [c3, c9.dptr]
    have e : openTest files fs M f = lock files fs mode d o := by
      unfold openTest lock
      rw [if_pos c1, if_neg (by have := (named_bits c5).2.2; omega), hkey, hM.kind]
    by_cases hlk : lock files fs mode d o = 0
    case neg => exact fail _ e hlk chk_codes
    have hob := (hqt.dirs d c2).dir.table _ (List.mem_of_getElem? (rep_entry (hqt.dirs d c2).dir.rep o c7))
    obtain ⟨b1, b2⟩ := attr_dir hob.2
    have b3 : attr o.entry &&& 0x11 ≠ 0 ↔ IsDir o ∨ ReadOnly o := attr_both _ (byte_lt hob.2 11)
    obtain ⟨A, B, hT⟩ := List.append_of_mem c2
    have hperm : T.Perm (d :: (A ++ B)) := by rw [hT]; exact List.perm_middle
    have keep : ¬ IsDir o → p = openLock v i files fs M old ⟨f.st, f.dp, FR_OK⟩ → AtAllTimes s p.st (Opening v i tm mode (.object d cs o) T F s) := by
      intro n3 hp'
      obtain ⟨-, m, F', hF, hm1, hm2⟩ := file_long h c2 c7 n3
      exact quiet (lock_spec hr hs (r := ⟨f.st, f.dp, FR_OK⟩) (tree_perm hperm hF hqt) c7 hm1 hm2 c3 c9 c10 rfl hM.kind hM.tail hM.write hM.read old hp').1
    unfold openAt at hu
    rw [e, hlk] at hu
    have eM : openMode M 0 = M := by unfold openMode; rw [if_neg fun hx => hx.2 rfl]
    rw [eM] at hu
    unfold openObj at hu
    rw [eM] at hu
    by_cases hcr : Creates mode
    · rw [if_pos (hM.create.mpr hcr), if_neg (fun hx => hx rfl)] at hu
      unfold openOver at hu
      rw [c11] at hu
      simp only at hu
      unfold openTrunc at hu
      simp only at hu
      by_cases hx : IsDir o ∨ ReadOnly o
      · rw [if_pos (b3.mpr hx), if_neg (fun hx => absurd hx.1 (by decide))] at hu
        exact same _ _ hu (show DirDev.FR_DENIED ≠ FR_OK by decide)
      · rw [if_neg fun hy => hx (b3.mp hy)] at hu
        by_cases hnew : MustBeNew mode
        · rw [if_pos (hM.new.mpr hnew), if_neg (fun hx => absurd hx.1 (by decide))] at hu
          exact same _ _ hu (show FR_EXIST ≠ FR_OK by decide)
        · rw [if_neg fun hy => hnew (hM.new.mp hy)] at hu
          by_cases hwi : Wipes mode
          · rw [if_pos ⟨rfl, hM.wipe.mpr hwi⟩] at hu
            obtain ⟨x, y, hos⟩ := List.append_of_mem c7
            obtain ⟨hdo, m, F', hF, hm1, hm2⟩ := file_long h c2 c7 (fun h => hx (.inl h))
            have ht1 := tree_perm hperm hF hqt
            obtain ⟨e2, u1, u2, u3, u4⟩ := wipe_times hr hs hb2 ht1 hos hdo (fun h => hx (.inl h)) hm1 c9 c10 tm rfl
            obtain ⟨e', w1, w2, w3, w4, w5, w6, w7⟩ := wipe_tree hr hs ht1 hos hdo (fun h => hx (.inl h)) hm1 c9 c10 tm rfl
            generalize openWipe v tm ⟨f.st, f.dp, FR_OK⟩ = r at w1 w2 w3 w6 w7 hu u3 u4
            obtain ⟨k1, k2, k3⟩ := lock_spec hr hs (m := []) (F := F') w6 (o := { o with entry := e' }) (by simp) w5.first (by rw [w5.size]; exact Nat.zero_le _) (by rw [w2]; exact c3) (by rw [w2]; exact c9) (by rw [w2]; exact w3) w1 hM.kind hM.tail hM.write
              hM.read old hu
            have hin : ∀ l ∈ F, l ∈ withRest [] m F' := fun l hl => hF.mem_iff.mp hl
            have late : ∀ w : Disk, (∀ n, ¬ Fat2 v n → w n = view r.st n) → Opening v i tm mode (.object d cs o) T F s w := fun w hw =>
              ⟨fun l hl n hn => (hw n (hfile l hl n hn)).trans ((u3 l (hin l hl) n hn).trans (q.same n (hfile l hl n hn))),
                .inr ⟨_, _, _, _, F', _, [], [], hperm, hF, .wiped (o' := { o with entry := e' }) hwi hnew (fun h => hx (.inl h)) (fun h => hx (.inr h)) hos hm1 rfl rfl w4 w5, .inl rfl, shown_congr hr w6 fun n _ n2 => hw n n2⟩⟩
            refine ⟨fun w hw => ?_, late _ k1.same⟩
            rcases (k1.trace hs).1 w hw with hw | hw
            rotate_left
            · exact .inr (late w hw)
            rcases u4 w hw with hw | ⟨z1, pre, suf, z2, z3⟩
            · exact first w hw
            · refine .inr ⟨fun l hl n hn => (z1 l (hin l hl) n hn).trans (q.same n (hfile l hl n hn)),
                .inr ⟨_, _, _, _, F', _, [], suf, hperm, hF, .wiped (o' := { o with entry := e2 }) hwi hnew (fun h => hx (.inl h)) (fun h => hx (.inr h)) hos hm1 rfl rfl u1 u2, ?_, z3⟩⟩
              by_cases hm : m = []
              · rw [hm] at z2
                exact .inl (List.append_eq_nil_iff.mp z2.symm).2
              · refine .inr ⟨m, hF.mem_iff.mpr ?_, pre, z2.symm⟩
                rw [rest_nil, if_neg hm]
                simp
          · rw [if_neg fun hy => hwi (hM.wipe.mp hy.2)] at hu
            exact keep (fun h => hx (.inl h)) hu
    · rw [if_neg fun hy => hcr (hM.create.mp hy)] at hu
      unfold openKeep at hu
      rw [if_pos (show 0 = FR_OK from rfl), c11] at hu
      simp only at hu
      by_cases hdir : IsDir o
      · rw [if_pos (by rw [b1]; exact hdir)] at hu
        exact same _ _ hu (show FR_NO_FILE ≠ FR_OK by decide)
      · rw [if_neg (by rw [b1]; exact hdir)] at hu
        by_cases hro : Writes mode ∧ ReadOnly o
        · rw [if_pos (by rw [b2]; exact ⟨hM.write.mpr hro.1, hro.2⟩)] at hu
          exact same _ _ hu (show DirDev.FR_DENIED ≠ FR_OK by decide)
        · rw [if_neg (by rw [b2]; exact fun hy => hro ⟨hM.write.mp hy.1, hy.2⟩)] at hu
          exact keep hdir hu

/-- Thus it holds for FAT16 and FAT32, and where the FAT is one sector, as on the flash disk. -/
theorem C126_kinds_partial (v : Vol) (h : v.fsType = 2 ∨ v.fsType = 3 ∨ v.fsize = 1) : C126_statement v (HasRoom v) :=
  fun i hr => C126_open_partial v (fun c _ hc => C53_kinds v hr.geo h c hc) i hr

/-! ## Entries that cross the border of two sectors -/

/-- The claim for all volumes and names. -/
def C126_full : Prop := ∀ v, C126_statement v fun _ _ _ _ => True

/-- The file `x.c` of volume `crV` is opened to be written from the start. -/
def crOpen : Opd := fOpen crV crI 0 [⟨⟨0, 0, 0⟩, 0⟩] 9 12345 10 77 [120, 46, 99, 0] crS trDp (List.replicate 256 7)

theorem co_crash : crOpen.res = FR_OK ∧ (crOpen.st.past.map fun q => fat crV q 85).contains 16 = true := by decide +kernel

/-- One half of such an entry is written before the other: for a while the cluster 85, which is no longer in use, leads into the file `Y`. -/
theorem C126_violated : ¬ C126_full := by
  intro h
  obtain ⟨hok, hx⟩ := co_crash
  rw [List.contains_iff_mem] at hx
  obtain ⟨q, hq, hq3⟩ := List.mem_map.mp hx
  have h0 : tab crV crS 85 = 19 := by decide +kernel
  have hold : q ∉ crS.disk :: crS.past := by
    intro hm
    have : q = crS.disk := by
      rcases List.mem_cons.mp hm with h | h
      · exact h
      · cases h
    have e2 : fat crV q 85 = tab crV crS 85 := by rw [this]; rfl
    rw [hq3, h0] at e2
    cases e2
  clear hx
  unfold crOpen at hok hq
  have hm := h crV crI cr_ready (fun _ => rfl) [crRoot] crF crS cr_tree 0 ⟨crRoot, by simp, rfl⟩ [⟨⟨0, 0, 0⟩, 0⟩] 9 (by decide) 12345 10 77 _ _ _ cr_path (by decide) trDp _ List.length_replicate _ cr_leads _ rfl hok (fun _ _ hx => by cases hx)
  obtain ⟨-, hm⟩ := (hm.1 q (List.mem_cons_of_mem _ hq)).resolve_left hold
  -- all chains that may be there lead from 85 to 19, or not at all
  have stop : ∀ cs : List (List Nat), Chains 86 (fat crV q) cs → (∀ l ∈ cs, 85 ∈ l → l = [85, 19]) → False := by
    intro cs h1 h2
    obtain ⟨l, hl, h85⟩ := List.mem_flatten.mp (h1.used 85 (by decide) (by decide) (by rw [hq3]; decide))
    have : fat crV q 85 = 19 := by
      have := h1.chain l hl
      rw [h2 l hl h85] at this
      exact this.2.2.1
    rw [hq3] at this
    cases this
  rcases hm with ⟨-, hm⟩ | ⟨T1, F1, d, R, F2, o, m, rest, hT, hF, hop, hrest, -, hm⟩
  · refine stop _ hm fun l hl h85 => ?_
    have hl : l ∈ [[85, 19], [16]] := hl
    simp only [List.mem_cons, List.not_mem_nil, or_false] at hl
    rcases hl with rfl | rfl
    · rfl
    · exact absurd h85 (by decide)
  · have hR : T1 = [crRoot] := List.perm_singleton.mp hT.symm
    generalize hG : Goal.object crRoot [120, 46, 99] ⟨0, none, crX⟩ = G at hop
    have hF1 : ∀ l ∈ F1, l = [85, 19] ∨ l = [16] := fun l hl => by
      have : l ∈ [[85, 19], [16]] := hF.mem_iff.mpr hl
      simpa using this
    have hsuf : rest = [] ∨ ∀ l, l = rest → 85 ∈ l → l = [85, 19] := by
      rcases hrest with hx | ⟨l, hl, pre, hx⟩
      · exact .inl hx
      · right
        intro l' hl' h85
        rw [hl'] at h85 ⊢
        have hl : l ∈ [[85, 19], [16]] := hl
        have hx : rest <:+ l := ⟨pre, hx⟩
        simp only [List.mem_cons, List.not_mem_nil, or_false] at hl
        rcases hl with e | e
        · rw [e, List.suffix_cons_iff, List.suffix_cons_iff, List.suffix_nil] at hx
          rcases hx with hx | hx | hx
          · exact hx
          · rw [hx] at h85; exact absurd h85 (by decide)
          · rw [hx] at h85; cases h85
        · rw [e] at hx
          exact absurd (hx.subset h85) (show ¬ 85 ∈ [16] by decide)
    have key : ∀ A : List (List Nat), (∀ l ∈ A, l = [85, 19] ∨ l = [16]) → Chains 86 (fat crV q) (withRest [] rest A) → False := by
      intro A hA hx
      refine stop _ hx fun l hl h85 => ?_
      have hl2 : l ∈ A ∨ (rest ≠ [] ∧ l = rest) := by
        rw [rest_nil] at hl
        split at hl
        · exact .inl hl
        · rename_i hne
          rcases List.mem_cons.mp hl with hl | hl
          · exact .inr ⟨hne, hl⟩
          · exact .inl hl
      rcases hl2 with hl | ⟨hne, hl⟩
      · rcases hA l hl with rfl | rfl
        · rfl
        · exact absurd h85 (by decide)
      · exact (hsuf.resolve_left hne) l hl h85
    cases hop with
    | kept =>
      obtain ⟨rfl, rfl⟩ := List.cons.inj hR
      exact key _ hF1 hm
    | wiped =>
      obtain ⟨rfl, rfl⟩ := List.cons.inj hR
      exact key _ (fun l hl => hF1 l (rest_mem hl)) hm
    | new => cases hG

/-! ## The hypotheses hold: for a file that is made empty, and a new one -/

example : (∀ c, 2 ≤ c → c < trV.nFatent → ¬ TwoSectors trV c) ∧ Ready trV trI ∧ Sound trV ∧ Tree trV trI trT trF trS ∧ (∃ d ∈ trT, d.sclust = 0) ∧ PathOf [120, 46, 99, 0] false [[120, 46, 99]] ∧
    (∀ cs ∈ [[120, 46, 99]], 0xFFFF ∉ cs) ∧ Resolves trV trT 0 false [[120, 46, 99]] (.object trRoot [120, 46, 99] ⟨1, none, trX⟩) ∧ (trOpen 10 [120, 46, 99, 0]).res = FR_OK ∧ (trOpen 10 [120, 46, 99, 0]).st.past.length = 2 := by
  have : ∀ c < 8, ¬ (width trV * c / (8 * trV.ss) ≠ (width trV * c + width trV - 1) / (8 * trV.ss)) := by decide
  refine ⟨fun c _ hc => this c hc, tr_ready, tr_sound, tr_tree, ⟨trRoot, by simp [trT], rfl⟩, tr_path_x, by decide, ?_, by decide +kernel, by decide +kernel⟩
  exact ⟨trRoot, by simp [trT], rfl, .inr (.object (by decide) (by decide) tr_calls_x)⟩

example : PathOf [99, 0] false [[99]] ∧ (∀ cs ∈ [[99]], 0xFFFF ∉ cs) ∧ Resolves trV trT 0 false [[99]] (.free trRoot [99]) ∧ (trOpen 10 [99, 0]).res = FR_OK ∧ HasRoom trV trI trS trRoot [99] ∧ (trOpen 10 [99, 0]).st.past.length = 0 :=
  ⟨tr_path_cc, by decide, tr_leads_cc, by decide +kernel, tr_room, by decide +kernel⟩

end Fpm.Tree
