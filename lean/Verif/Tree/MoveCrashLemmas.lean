import Verif.Tree.MoveCrashSpec
import Verif.Tree.CrashProps
import Verif.Tree.RenameProps
/-!
# Contents of the device while an object is renamed: lemmas
-/
namespace Fpm.Tree
open Fpm.Fat Fpm.Fat.Spec Fpm.FatFile Fpm.FatFile.Spec Fpm.Lfn Fpm.Names Fpm.Names.Spec Fpm.TextIo.Spec Fpm.FatDir Fpm.FatDir.Spec Fpm.Mount Fpm.Mount.Spec Fpm.DirDev Fpm.DirDev.Spec Fpm.Tree.Spec Fpm.FatSync

theorem dir_loose {c : Bool} {t : List (List Nat)} {os : List Obj} (h : Directory c t os) : Directory false t os := ⟨h.table, rep_mono (.inr rfl) h.rep, h.ended⟩

/-- Directories have sectors of their own. -/
theorem apart_secs {v : Vol} {i : Info} (hr : Ready v i) {T : List Dir} {F : List (List Nat)} {s : St} (h : Tree v i T F s) {d e : Dir} (hd : d ∈ T) (he : e ∈ T) (hne : e ≠ d) {n : Nat} (hn : n ∈ dirSecs v i e.loc) : n ∉ dirSecs v i d.loc := by
  obtain ⟨A, B, hT⟩ := List.append_of_mem hd
  have hp : T.Perm (d :: (A ++ B)) := by rw [hT]; exact List.perm_middle
  have h' := tree_perm hp (.refl _) h
  have heR : e ∈ A ++ B := (List.mem_cons.mp (hp.mem_iff.mp he)).resolve_left hne
  have hl' := tree_linked h he
  cases hloc : e.loc with
  | chain l =>
    rw [hloc] at hn
    exact foreign_secs hr h' (List.mem_append_left _ (List.mem_flatMap.mpr ⟨e, heR, by rw [hloc]; simp [chainOf]⟩)) hn
  | root =>
    rw [hloc] at hn hl'
    intro hown
    cases hd' : d.loc with
    | chain m =>
      rw [hd'] at hown
      obtain ⟨c, -, hc⟩ := secs_mem (show n ∈ secs v m from hown)
      have := (mem_sectors.mp hc).1
      have := root_secs hr hl' hn
      omega
    | root =>
      have e1 := (h.dirs e he).starts
      have e2 := (h.dirs d hd).starts
      rw [hloc] at e1
      rw [hd'] at e2
      exact hne (dir_unique h.once he hd (by rw [e1.1, e2.1]))

/-- Files have sectors of their own. -/
theorem file_secs {v : Vol} {i : Info} (hr : Ready v i) {T : List Dir} {F : List (List Nat)} {s : St} (h : Tree v i T F s) {d : Dir} (hd : d ∈ T) {l : List Nat} (hl : l ∈ F) {n : Nat} (hn : n ∈ secs v l) : n ∉ dirSecs v i d.loc := by
  obtain ⟨A, B, hT⟩ := List.append_of_mem hd
  have hp : T.Perm (d :: (A ++ B)) := by rw [hT]; exact List.perm_middle
  exact foreign_secs hr (tree_perm hp (.refl _) h) (List.mem_append_right _ hl) hn

/-- A device with the same sectors behind the reserved ones shows the same. -/
theorem surv_congr {v : Vol} {i : Info} (hr : Ready v i) {T : List Dir} {F : List (List Nat)} {s : St} (h : Tree v i T F s) {d n : Dir} {cs : List Nat} {o : Obj} {w q : Disk} (hw : Survives v i T F s d n cs o w)
    (hq : ∀ n, v.fatbase ≤ n → ¬ Fat2 v n → q n = w n) : Survives v i T F s d n cs o q := by
  obtain ⟨h1, h2, moved, h3⟩ := hw
  refine ⟨?_, fun l hl k hk => ?_, moved, fun e he => ?_⟩
  · rw [← h1]
    exact fat_area fun n hn => hq n hn.1 (fat1_not2 hn)
  · have := chain_secs hr (h.chains.chain l (by simp [hl])) hk
    have hb := hr.data.base
    rw [hq k (by omega) this.2.1]
    exact h2 l hl k hk
  · rw [entries_congr fun n hn => hq n (secs_base hr (tree_linked h he) hn) (secs_place hr (tree_linked h he) hn).2.1]
    exact h3 e he

/-- One directory `c` has changed. -/
theorem surv_one {v : Vol} {i : Info} (hr : Ready v i) {T : List Dir} {F : List (List Nat)} {s : St} (h : Tree v i T F s) {d n : Dir} {cs : List Nat} {o : Obj} {w q : Disk} {c : Dir} (hc : c ∈ T) (hq : Elsewhere v i c.loc w q)
    (hfat : fat v w = tab v s) (hF : ∀ l ∈ F, ∀ k ∈ secs v l, w k = view s k) {moved : Bool} (hrest : ∀ e ∈ T, e ≠ c → ∃ os, Directory false (entries v i w e.loc) os ∧ SeenMoved v d n cs o moved e os)
    {os : List Obj} (hos : Directory false (entries v i q c.loc) os) (hseen : SeenMoved v d n cs o moved c os) : Survives v i T F s d n cs o q := by
  refine ⟨?_, fun l hl k hk => ?_, moved, fun e he => ?_⟩
  · rw [← hfat]
    exact fat_area fun n hn => hq n (fat1_not2 hn) fun hx => (secs_place hr (tree_linked h hc) hx).1 hn
  · rw [← hF l hl k hk]
    exact hq k (chain_secs hr (h.chains.chain l (by simp [hl])) hk).2.1 (file_secs hr h hc hl hk)
  · by_cases hx : e = c
    · subst hx
      exact ⟨os, hos, hseen⟩
    · rw [entries_congr fun n hn => hq n (secs_place hr (tree_linked h he) hn).2.1 (apart_secs hr h hc he hx hn)]
      exact hrest e he hx

/-- Removing an object, with what the device shows meanwhile. -/
theorem remove_times {v : Vol} {i : Info} (hr : Ready v i) (hs : Sound v) {d : Dir} {R : List Dir} {F : List (List Nat)} {s : St} (h : Base v i (d :: R) F s) {dp : Dp} (hdp : dp.sclust = d.sclust) {o : Obj} {x y : List Obj} (hos : d.os = x ++ o :: y)
    (hat : At v i d.loc o.pos dp) {blk : Option Nat} (hblk : blk.getD o.pos = o.pos - width o) {r : Ret} (hrr : r = dirRemove v i s dp (blk.map (32 * ·))) :
    AtAllTimes s r.st fun q => Elsewhere v i d.loc (view s) q ∧
      ((∃ long, (long = o.long ∨ long = none) ∧ Directory false (entries v i q d.loc) (x ++ { o with long := long } :: y)) ∨ Directory true (entries v i q d.loc) (x ++ y)) := by
  have hv := base_vol h
  have hle : ∀ n, blk = some n → n ≤ o.pos := fun n hn => by rw [hn] at hblk; simp only [Option.getD_some] at hblk; omega
  have hrm := remove_dev hr hv (by rw [hdp]; exact h.starts d (by simp)) hat hle
  rw [← hrr] at hrm
  rcases hrm.cases with ⟨-, d2, -⟩ | ⟨d1, -⟩ | ⟨ws, d1, d2, -, d4⟩
  · exact absurd hs d2
  · cases d1
  cases d1
  have hd := h.dirs d (by simp)
  rw [hos] at hd
  obtain ⟨r1, r2, r3, r4⟩ := remove_spec hd.rep (zip_of hd.rep rfl hblk) hd.table hd.ended
  refine all_times hr hv.linked hs (.refl h.inv) d4 (P := fun t => ∃ long, (long = o.long ∨ long = none) ∧ Directory false t (x ++ { o with long := long } :: y)) (Q := fun t => Directory true t (x ++ y)) (fun k hk => ?_) ⟨r2, r1, r3⟩
  refine ⟨_, ?_, ⟨(r4 k hk).2.1, (r4 k hk).1, (r4 k hk).2.2⟩⟩
  by_cases hk0 : k = 0
  · exact .inl (if_pos hk0)
  · exact .inr (if_neg hk0)

/-- Storing the cluster of `..` writes what was seen. -/
theorem sub_trace {v : Vol} {i : Info} (hr : Ready v i) (hs : Sound v) {s : St} (hi : Inv v s) {cl pcl : Nat} (h2 : 2 ≤ cl) (hn : cl < v.nFatent) :
    ∀ q ∈ (renameSub v s cl pcl).1.disk :: (renameSub v s cl pcl).1.past, q ∈ s.disk :: s.past ∨ ∀ n, ¬ Fat2 v n → q n = view s n := by
  have hcs : clst2sect v cl = v.database + v.csize * (cl - 2) := by unfold clst2sect; rw [if_neg (by omega)]
  have hb := hr.data.base
  have hn2 : ¬ Fat2 v (clst2sect v cl) := by
    rintro ⟨h5, h3, h4⟩
    rw [h5] at hb
    rw [hcs] at h4
    generalize v.csize * (cl - 2) = k at h4
    omega
  have ht := (move_quiet hr.geo hi hn2).1.trace hs
  unfold renameSub
  split
  · exact fun q hq => .inl hq
  generalize moveWindow v s (clst2sect v cl) = m at ht
  unfold renameDots
  split
  · split
    · exact ht.1
    · exact ht.1
  · exact ht.1

/-- It changes one sector of data. -/
theorem sub_view {v : Vol} {i : Info} (hr : Ready v i) (hs : Sound v) {s : St} (hi : Inv v s) {cl pcl : Nat} (h2 : 2 ≤ cl) (hn : cl < v.nFatent) : ∀ n, Fat1 v n → view (renameSub v s cl pcl).1 n = view s n := by
  intro n hf
  have hcs : clst2sect v cl = v.database + v.csize * (cl - 2) := by unfold clst2sect; rw [if_neg (by omega)]
  have hb := hr.data.base
  have hne : n ≠ clst2sect v cl := by
    have h3 := hf.2
    have := hr.geo.nFats
    rw [hcs]
    generalize v.csize * (cl - 2) = k
    have : v.fsize ≤ v.nFats * v.fsize := Nat.le_mul_of_pos_left _ (by omega)
    omega
  have hn2 : ¬ Fat2 v (clst2sect v cl) := by
    rintro ⟨h5, h3, h4⟩
    rw [h5] at hb
    rw [hcs] at h4
    generalize v.csize * (cl - 2) = k at h4
    omega
  obtain ⟨hq, hw⟩ := move_quiet hr.geo hi hn2
  have hw := (hw.resolve_right fun hx => hx.2 hs).2
  have he := hq.same n (fat1_not2 hf)
  unfold renameSub
  split
  · rfl
  generalize moveWindow v s (clst2sect v cl) = m at hw he
  unfold renameDots
  split
  · split
    · exact he
    · rw [← he]
      unfold view setWin
      simp only [hw]
      rw [if_neg (fun hx => hne (Option.some.inj hx).symm), if_neg (fun hx => hne (Option.some.inj hx).symm)]
  · exact he

/-- What the device shows while the new entry is made and the old one is removed. -/
theorem rename_times {v : Vol} {i : Info} (hr : Ready v i) (hbig : i.fsi ≠ none → 512 ≤ v.ss) (h64 : 64 ≤ v.ss) (hs : Sound v) {T : List Dir} {F : List (List Nat)} {s : St} {d : Dir} {o : Obj} {f : Fol} {blk : Option Nat} (hfb : f.blk = blk.map (32 * ·)) {n : Dir} {cs : List Nat} {dpn : Dp}
    {buf fn : List Nat} {fl : Nat} (h : Ready2 v i T F s d o f.dp blk n cs dpn buf fn fl) (hroom : ¬ NoRoom (entries v i (view s) n.loc) (fl &&& 2 ≠ 0) (units (trimmed cs)).length) {p : St × Nat}
    (hp : p = renameEnd v i f (renameNew v f.dp.sclust o.entry (dirRegister v i s dpn fn fl buf))) (hpok : p.2 = FR_OK) : AtAllTimes s p.1 (Survives v i T F s d n cs o) := by
  have ht := h.tree
  have hent := obj_ent (ht.dirs d h.mem).dir h.obj
  have hsf := rep_sfn (ht.dirs d h.mem).dir.rep o h.obj
  obtain ⟨A, B, hAB⟩ := List.append_of_mem h.memN
  have hperm : T.Perm (n :: (A ++ B)) := by rw [hAB]; exact List.perm_middle
  have hb0 := base_perm hperm (tree_base ht)
  have hmemR : ∀ e ∈ T, e ≠ n → e ∈ A ++ B := fun e he hne => (List.mem_cons.mp (hperm.mem_iff.mp he)).resolve_left hne
  generalize hR : A ++ B = R at hperm hb0 hmemR
  clear hR hAB A B
  have hv := base_vol hb0
  obtain ⟨a1, a2, a3⟩ := C80_register v i hr [] (dirChains R ++ F) n.loc s dpn true n.os ⟨hv, hb0.dirs n (by simp)⟩ (by rw [h.startN]; exact hb0.starts n (by simp)) cs true buf fn fl h.name h.clean h.len (.inl rfl)
  generalize dirRegister v i s dpn fn fl buf = g at a1 a2 a3 hp
  unfold renameNew at hp
  rcases a3 with ⟨-, a3⟩ | ⟨a3, -⟩ | ⟨g2, loc, x, o1, y, -, g4, g5, g6, g7, g8, g9, g10, g11⟩
  · exact absurd hs a3
  · rw [if_neg (by rw [a3]; decide)] at hp
    unfold renameEnd at hp
    rw [if_neg (show ¬ g.res = FR_OK by rw [a3]; decide), a3] at hp
    rw [hp] at hpok
    cases hpok
  obtain rfl := g4.resolve_right hroom
  have g11 := g11 rfl hs
  obtain ⟨b0, -⟩ := base_next hr hb0 a1 (.refl _) g7.vol g7.dir
  have hseen0 : ∀ e, SeenMoved v d n cs o false e e.os := fun e => ⟨fun a ha _ _ => ha, fun a ha => .inl ha, fun _ he => by subst he; exact .inl h.obj, fun hx => by cases hx⟩
  have hcalls : ∀ w : Obj, Means (units (trimmed cs)) w → Calls cs w := fun w hw => by unfold Calls; rw [if_neg (show ¬ DotName cs from h.name.nodot)]; exact hw
  have hadd : ∀ b : Obj, Calls cs b → SeenMoved v d n cs o false n (x ++ b :: y) := by
    refine fun b hb => ⟨fun a ha _ _ => mem_new.mpr (.inr (by rw [← g5]; exact ha)), fun a ha => ?_, fun _ he => .inl (mem_new.mpr (.inr (by rw [← g5, he]; exact h.obj))), fun hx => by cases hx⟩
    rcases mem_new.mp ha with rfl | ha
    · exact .inr (.inl ⟨rfl, hb⟩)
    · exact .inl (by rw [g5]; exact ha)
  -- making the new entry
  have first : ∀ q, Elsewhere v i n.loc (view s) q ∧ (Directory false (entries v i q n.loc) n.os ∨ Directory true (entries v i q n.loc) (x ++ o1 :: y)) → Survives v i T F s d n cs o q := by
    rintro q ⟨e1, e2⟩
    have hrest : ∀ e ∈ T, e ≠ n → ∃ os, Directory false (entries v i (view s) e.loc) os ∧ SeenMoved v d n cs o false e os := fun e he _ => ⟨e.os, dir_loose (ht.dirs e he).dir, hseen0 e⟩
    rcases e2 with e2 | e2
    · exact surv_one hr ht h.memN e1 rfl (fun _ _ _ _ => rfl) hrest e2 (hseen0 n)
    · exact surv_one hr ht h.memN e1 rfl (fun _ _ _ _ => rfl) hrest (dir_loose e2) (hadd o1 (hcalls _ (new_means h.name g6)))
  have t1 : ∀ q ∈ g.st.disk :: g.st.past, q ∈ s.disk :: s.past ∨ Survives v i T F s d n cs o q := fun q hq => (g11.1 q hq).imp id (first q)
  -- the new entry is complete
  have hent1 := obj_ent (b0.dirs _ List.mem_cons_self) (o := o1) (by simp)
  obtain ⟨r1, r2, r3, r4, r5, r6, r7⟩ := rename_entry (v := v) hent1 hent (r := renameEntry o1.entry o.entry) rfl
  obtain ⟨n1, n2, n3, n4, n5, n6⟩ := new_entry (v := v) g6
  have hsf1 := rep_sfn (b0.dirs _ List.mem_cons_self).rep o1 (by simp)
  have hatt8 : byte (renameEntry o1.entry o.entry) 11 &&& 8 = 0 := by
    rw [r3]
    split
    · exact hsf.attr
    · rw [Nat.and_or_distrib_right, hsf.attr]
      rfl
  rw [if_pos g2, g9] at hp
  dsimp only at hp
  unfold renamePut at hp
  have hv0 := base_vol b0
  obtain ⟨u1, u2, -⟩ := set_spec hr hv0 g8 g10 r1
  obtain ⟨b1, a1'⟩ := base_set hr b0 (o := o1) (x := x) (y := y) rfl g8 g10 r2 ⟨by rw [byte_take r2 (by decide)]; exact hsf1.used, hatt8⟩ r1
  have hdisk : (setEnt v g.st g.dp (renameEntry o1.entry o.entry)).disk :: (setEnt v g.st g.dp (renameEntry o1.entry o.entry)).past = g.st.disk :: g.st.past := rfl
  generalize setEnt v g.st g.dp (renameEntry o1.entry o.entry) = s1 at hp b1 a1' hdisk u2
  generalize ho' : ({ o1 with entry := renameEntry o1.entry o.entry } : Obj) = o' at b1
  have hent' : o'.entry = renameEntry o1.entry o.entry := by rw [← ho']
  have hcar : Carried v o o' := by
    refine ⟨?_, ?_, ?_, ?_⟩
    · unfold Spec.first; rw [hent']; exact r5
    · unfold size; rw [hent']; exact r6
    · rw [hent', r3]; rfl
    · rw [hent']; exact r4
  have hdo' : ¬ Dotted o' := by
    unfold Dotted at n1 ⊢
    rw [hent', byte_take r2 (by decide)]
    exact n1
  have hcall : Calls cs o' := by
    rw [← ho']
    exact calls_update r2 (hcalls _ (new_means h.name g6))
  have hx1 : Elsewhere v i n.loc (view s) (view s1) := fun k k1 k2 => (u2.rest k k1 k2).trans (g11.2.1 k k1 k2)
  have hfat1 : tab v s1 = tab v s := fat_area fun k hk => hx1 k (fat1_not2 hk) fun hx => (secs_place hr (tree_linked ht h.memN) hx).1 hk
  have hF1 : ∀ l ∈ F, ∀ k ∈ secs v l, view s1 k = view s k := fun l hl k hk => hx1 k (chain_secs hr (ht.chains.chain l (by simp [hl])) hk).2.1 (file_secs hr ht h.memN hl hk)
  -- what directories hold from now on
  let Full (e : Dir) (os : List Obj) : Prop := (∀ a ∈ e.os, (Dotted a → e.sclust ≠ Spec.first v o) → a ∈ os) ∧ (∀ a ∈ os, a ∈ e.os ∨ e = n ∧ Calls cs a ∨ Dotted a ∧ e.sclust = Spec.first v o) ∧ (e = n → o' ∈ os)
  have hfull : ∀ {e : Dir} {os : List Obj} (moved : Bool), Full e os → SeenMoved v d n cs o moved e os := by
    rintro e os moved ⟨f1, f2, f3⟩
    refine ⟨fun a ha _ h2 => f1 a ha h2, fun a ha => ?_, fun _ he => .inl (f1 o (by rw [he]; exact h.obj) fun hx => absurd hx h.nodots), fun _ he => ⟨o', f3 he, hcall, hdo', hcar⟩⟩
    rcases f2 a ha with f2 | f2 | f2
    · exact .inl f2
    · exact .inr (.inl f2)
    · exact .inr (.inr (.inr f2))
  have pic0 : ∀ e ∈ T, ∃ os, { e with os := os } ∈ ({ n with os := x ++ o' :: y } : Dir) :: R ∧ (∀ a ∈ e.os, a ∈ os) ∧ Full e os := by
    intro e he
    by_cases hx : e = n
    · subst hx
      refine ⟨x ++ o' :: y, List.mem_cons_self, fun a ha => mem_new.mpr (.inr (by rw [← g5]; exact ha)), fun a ha _ => mem_new.mpr (.inr (by rw [← g5]; exact ha)), fun a ha => ?_, fun _ => by simp⟩
      rcases mem_new.mp ha with rfl | ha
      · exact .inr (.inl ⟨rfl, hcall⟩)
      · exact .inl (by rw [g5]; exact ha)
    · exact ⟨e.os, by simp [hmemR e he hx], fun a ha => ha, fun a ha _ => ha, fun a ha => .inl ha, fun hy => absurd hy hx⟩
  have pic1 : ∀ e ∈ T, ∃ os, { e with os := os } ∈ ({ n with os := x ++ o' :: y } : Dir) :: R ∧ Full e os := fun e he => by
    obtain ⟨os, m1, -, m2⟩ := pic0 e he
    exact ⟨os, m1, m2⟩
  have surv : ∀ {T2 : List Dir} {t : St} (moved : Bool), Base v i T2 F t → tab v t = tab v s → (∀ l ∈ F, ∀ k ∈ secs v l, view t k = view s k) → (∀ e ∈ T, ∃ os, { e with os := os } ∈ T2 ∧ Full e os) →
      Survives v i T F s d n cs o (view t) := by
    intro T2 t moved k1 k2 k3 k4
    refine ⟨k2, k3, moved, fun e he => ?_⟩
    obtain ⟨os, m1, m2⟩ := k4 e he
    exact ⟨os, dir_loose (k1.dirs _ m1), hfull moved m2⟩
  have s1surv := surv false b1 hfat1 hF1 pic1
  -- the entry `..`
  have hturn : ∃ q : St × Nat, p = renameEnd v i f q ∧ q.2 = FR_OK ∧ (∃ T2, Base v i T2 F q.1 ∧ ∀ e ∈ T, ∃ os, { e with os := os } ∈ T2 ∧ Full e os) ∧ tab v q.1 = tab v s ∧ (∀ l ∈ F, ∀ k ∈ secs v l, view q.1 k = view s k) ∧
      ∀ w ∈ q.1.disk :: q.1.past, w ∈ s.disk :: s.past ∨ Survives v i T F s d n cs o w := by
    by_cases hx : IsDir o ∧ d.sclust ≠ n.sclust
    · rw [if_pos ⟨hx.1, by rw [h.start, a2, h.startN]; exact hx.2⟩, ld_clust r1.2 (by omega)] at hp
      dsimp only at hp
      rw [show FatSync.Spec.first v (renameEntry o1.entry o.entry) 0 = Spec.first v o from r5, a2, h.startN] at hp
      obtain ⟨hz, q0, hq0, hq0s⟩ := ht.subs d h.mem o h.obj h.nodots hx.1
      obtain ⟨b, hb, hbp, hbf⟩ := h.dots hx.1 q0 hq0 hq0s
      obtain ⟨qos, hq, hqa, hqf⟩ := pic0 q0 hq0
      have hbd : Dotted b := dotted_fn hbf
      generalize hT1 : ({ n with os := x ++ o' :: y } : Dir) :: R = T1 at b1 pic1 hq
      obtain ⟨A, B, hAB⟩ := List.append_of_mem hq
      have hqp : T1.Perm ({ q0 with os := qos } :: (A ++ B)) := by rw [hAB]; exact List.perm_middle
      obtain ⟨x2, y2, hxy⟩ := List.append_of_mem (hqa b hb)
      have hin : 2 ≤ Spec.first v o ∧ Spec.first v o < v.nFatent := by
        obtain ⟨l, hloc, hl⟩ := sub_chain (ht.dirs q0 hq0).starts (by rw [hq0s]; exact hz)
        have hlink := tree_linked ht hq0
        rw [hloc] at hlink
        have hlinks : Links v.nFatent (tab v s) l := hlink
        cases l with
        | nil => exact absurd hlinks (by simp [Links])
        | cons a l =>
          have hl : a = q0.sclust := hl
          rw [← hq0s, ← hl]
          exact links_mem hlinks a (by simp)
      have st := sub_trace hr hs b1.inv (pcl := n.sclust) hin.1 hin.2
      have sv := sub_view hr hs b1.inv (pcl := n.sclust) hin.1 hin.2
      rcases base_dots hr h64 (base_perm hqp b1) (by show q0.sclust ≠ 0; rw [hq0s]; exact hz) hxy hbp hbf (sclust_lt hr ht h.memN) (p := renameSub v s1 (Spec.first v o) n.sclust) (by show _ = renameSub v s1 q0.sclust n.sclust; rw [hq0s]) with ⟨-, k⟩ | ⟨k1, e, k2, k3, k4, k5⟩
      · exact absurd hs k
      refine ⟨_, hp, k1, ⟨_, k4, fun c hc => ?_⟩, (fat_area sv).trans hfat1, fun l hl k hk => (k5 l hl k hk).trans (hF1 l hl k hk), fun w hw => ?_⟩
      · obtain ⟨os, m1, m2⟩ := pic1 c hc
        rcases List.mem_cons.mp (hqp.mem_iff.mp m1) with m3 | m3
        · have hcq : c = q0 := dir_unique ht.once hc hq0 (by injection m3)
          subst hcq
          have hos : os = qos := by injection m3
          subst hos
          have hbm : b ∈ os := hqa b hb
          have hnew : Dotted ({ b with entry := e } : Obj) := by
            unfold Dotted at hbd ⊢
            rw [show byte e 0 = byte b.entry 0 from byte_take (by have := congrArg (List.take 11) k2; simpa [List.take_take] using this) (by decide)]
            exact hbd
          refine ⟨x2 ++ { b with entry := e } :: y2, List.mem_cons_self, fun a ha hda => ?_, fun a ha => ?_, fun hcn => ?_⟩
          · exact mem_new.mpr (.inr ((mem_new.mp (by rw [← hxy]; exact m2.1 a ha hda)).resolve_left fun hab => hda (by rw [hab]; exact hbd) hq0s))
          · rcases mem_new.mp ha with rfl | ha
            · exact .inr (.inr ⟨hnew, hq0s⟩)
            · exact m2.2.1 a (by rw [hxy]; exact mem_new.mpr (.inr ha))
          · exact mem_new.mpr (.inr ((mem_new.mp (by rw [← hxy]; exact m2.2.2 hcn)).resolve_left fun hab => hdo' (by rw [hab]; exact hbd)))
        · exact ⟨os, by simp [m3], m2⟩
      · rcases st w hw with m | m
        · rw [hdisk] at m
          exact t1 w m
        · exact .inr (surv_congr hr ht s1surv fun k _ hk => m k hk)
    · rw [if_neg (by rw [h.start, a2, h.startN]; exact hx)] at hp
      exact ⟨_, hp, rfl, ⟨_, b1, pic1⟩, hfat1, hF1, by rw [hdisk]; exact t1⟩
  obtain ⟨q, hp, hq, ⟨T2, b2, pic2⟩, fat2, F2, t2⟩ := hturn
  -- the old entry
  obtain ⟨os2, hd2, full2⟩ := pic2 d h.mem
  obtain ⟨A, B, hAB⟩ := List.append_of_mem hd2
  have hdp : T2.Perm ({ d with os := os2 } :: (A ++ B)) := by rw [hAB]; exact List.perm_middle
  obtain ⟨x3, y3, hxy⟩ := List.append_of_mem (full2.1 o h.obj fun hx => absurd hx h.nodots)
  have hat : At v i ({ d with os := os2 } : Dir).loc o.pos f.dp := h.place
  have hrem := base_remove hr (base_perm hdp b2) (dp := f.dp) h.start hxy hat h.block (r := dirRemove v i q.1 f.dp (blk.map (32 * ·))) rfl
  have htim := remove_times hr hs (base_perm hdp b2) (dp := f.dp) h.start hxy hat h.block (r := dirRemove v i q.1 f.dp (blk.map (32 * ·))) rfl
  unfold renameEnd at hp
  rw [if_pos hq, hfb] at hp
  generalize dirRemove v i q.1 f.dp (blk.map (32 * ·)) = r at hp hrem htim
  obtain ⟨k1, k2, -⟩ := hrem.resolve_left fun hx => hx.2 hs
  have hrep := rep_inj (b2.dirs _ hd2).rep hxy
  have hno : ∀ e ∈ T, ∀ os, { e with os := os } ∈ T2 → e ≠ d → ({ e with os := os } : Dir) ≠ { d with os := os2 } := fun e he os _ hne hx => hne (dir_unique ht.once he h.mem (by injection hx))
  have second : ∀ w, Elsewhere v i d.loc (view q.1) w ∧ ((∃ long, (long = o.long ∨ long = none) ∧ Directory false (entries v i w d.loc) (x3 ++ { o with long := long } :: y3)) ∨ Directory true (entries v i w d.loc) (x3 ++ y3)) →
      Survives v i T F s d n cs o w := by
    rintro w ⟨e1, e2⟩
    have hrest : ∀ moved, ∀ e ∈ T, e ≠ d → ∃ os, Directory false (entries v i (view q.1) e.loc) os ∧ SeenMoved v d n cs o moved e os := fun moved e he _ => by
      obtain ⟨os, m1, m2⟩ := pic2 e he
      exact ⟨os, dir_loose (b2.dirs _ m1), hfull moved m2⟩
    have hin : ∀ a, a ≠ o → a ∈ os2 → a ∈ x3 ++ y3 := fun a hne ha => (mem_new.mp (by rw [← hxy]; exact ha)).resolve_left hne
    have hout : ∀ a ∈ x3 ++ y3, a ∈ d.os ∨ d = n ∧ Calls cs a ∨ d = d ∧ a = { o with long := none } ∨ Dotted a ∧ d.sclust = Spec.first v o := by
      intro a ha
      rcases full2.2.1 a (by rw [hxy]; exact mem_new.mpr (.inr ha)) with m | m | m
      · exact .inl m
      · exact .inr (.inl m)
      · exact .inr (.inr (.inr m))
    rcases e2 with ⟨long, e2, e3⟩ | e2
    · refine surv_one hr ht h.mem e1 fat2 F2 (hrest false) e3 ⟨fun a ha h1 h2 => mem_new.mpr (.inr (hin a (h1 rfl) (full2.1 a ha h2))), fun a ha => ?_, fun _ _ => ?_, fun hx => by cases hx⟩
      · rcases mem_new.mp ha with rfl | ha
        · rcases e2 with rfl | rfl
          · exact .inl h.obj
          · exact .inr (.inr (.inl ⟨rfl, rfl⟩))
        · exact hout a ha
      · rcases e2 with rfl | rfl
        · exact .inl (by simp)
        · exact .inr (by simp)
    · refine surv_one hr ht h.mem e1 fat2 F2 (hrest true) (dir_loose e2) ⟨fun a ha h1 h2 => hin a (h1 rfl) (full2.1 a ha h2), hout, (fun hx => by cases hx), fun _ hn => ⟨o', hin o' (fun hx => ?_) (full2.2.2 hn), hcall, hdo', hcar⟩⟩
      exact rep_inj (b1.dirs _ List.mem_cons_self).rep rfl o (by rw [← g5, ← hn]; exact h.obj) (by rw [hx])
  have htim2 : AtAllTimes s r.st (Survives v i T F s d n cs o) := ⟨fun w hw => (htim.1 w hw).elim (t2 w) fun hx => .inr (second w hx), second _ htim.2⟩
  unfold synced at hp
  rw [if_pos k1] at hp
  subst hp
  refine times_trans htim2 ⟨fun w hw => (sync_keep hr hs k2.inv w hw).imp id fun hx => surv_congr hr ht htim2.2 hx, surv_congr hr ht htim2.2 fun k k1 k2' => (syncfs_spec hr hbig k2.inv).1 k k2' (fsi_free hr k1)⟩

end Fpm.Tree
