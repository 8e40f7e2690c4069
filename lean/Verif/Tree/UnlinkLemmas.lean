import Verif.Tree.DeviceLemmas
import Verif.Tree.PathProps
/-!
# Removing objects: lemmas
-/
namespace Fpm.Tree
open Fpm.Fat Fpm.Fat.Spec Fpm.FatFile Fpm.FatFile.Spec Fpm.Lfn Fpm.Names Fpm.Names.Spec Fpm.TextIo.Spec Fpm.FatDir Fpm.FatDir.Spec Fpm.Mount Fpm.Mount.Spec Fpm.DirDev Fpm.DirDev.Spec Fpm.Tree.Spec Fpm.FatSync

theorem allchains_cons (R : List Dir) (F : List (List Nat)) (d : Dir) (loc : Loc) (os : List Obj) : allChains [] (dirChains R ++ F) loc = dirChains (⟨d.sclust, loc, os⟩ :: R) ++ F := by
  rw [show (⟨d.sclust, loc, os⟩ : Dir) :: R = [] ++ ⟨d.sclust, loc, os⟩ :: R from rfl, ← all_chains [] R F ⟨d.sclust, loc, os⟩]
  rfl

/-- `dir_remove` for an object that has been found. -/
theorem remove_tree {v : Vol} {i : Info} (hr : Ready v i) {d : Dir} {R : List Dir} {F : List (List Nat)} {s : St} (h : Tree v i (d :: R) F s) {dp : Dp} (hdp : dp.sclust = d.sclust) {o : Obj} (ho : o ∈ d.os)
    (hat : At v i d.loc o.pos dp) {cs : List Nat} {last : Bool} {buf fn : List Nat} {fl : Nat} (hf : FileName cs last buf fn fl) (hm : Means (units (trimmed cs)) o) {blk : Option Nat} {buf' : List Nat}
    (hfind : FatDir.dirFind (entries v i (view s) d.loc) fn fl buf = .found o.pos blk buf') :
    DirVol v [] (dirChains R ++ F) d.loc (dirRemove v i s dp (blk.map (32 * ·))).st ∧ Apart v i [] (dirChains R ++ F) d.loc s (dirRemove v i s dp (blk.map (32 * ·))).st ∧
    ((dirRemove v i s dp (blk.map (32 * ·))).res = FR_DISK_ERR ∧ ¬ Sound v ∨
     (dirRemove v i s dp (blk.map (32 * ·))).res = FR_OK ∧ ∃ x y, d.os = x ++ o :: y ∧ (∀ d' ∈ { d with os := x ++ y } :: R, DirOk v i (dirRemove v i s dp (blk.map (32 * ·))).st d') ∧
       ∀ s0, Quiet v s0 s → Sound v → AtAllTimes s0 (dirRemove v i s dp (blk.map (32 * ·))).st fun q => Elsewhere v i d.loc (view s0) q ∧
         ((∃ long, (long = o.long ∨ long = none) ∧ Directory false (entries v i q d.loc) (x ++ { o with long := long } :: y)) ∨ Directory true (entries v i q d.loc) (x ++ y))) := by
  have hd := h.dirs d (by simp)
  have hv : DirVol v [] (dirChains R ++ F) d.loc s := tree_vol h (A := []) rfl
  have hblk : ∀ x, blk = some x → x ≤ o.pos := (find_blk fn fl buf _ 0 _ (fun x hx => by cases hx) o.pos blk buf' hfind).2
  have hrm := remove_dev hr hv (by rw [hdp]; exact hd.starts) hat hblk
  generalize dirRemove v i s dp (blk.map (32 * ·)) = r at hrm
  have hap : Apart v i [] (dirChains R ++ F) d.loc s r.st := by
    rcases hrm.cases with ⟨_, _, ws, e⟩ | ⟨_, _, ws, e⟩ | ⟨ws, _, _, _, e⟩ <;> exact e.apart hv hrm.vol
  refine ⟨hrm.vol, hap, ?_⟩
  rcases hrm.cases with ⟨d1, d2, -⟩ | ⟨d1, -⟩ | ⟨ws, d1, d2, -, d4⟩
  · exact .inl ⟨d1, d2⟩
  · cases d1
  cases d1
  refine .inr ⟨d2, ?_⟩
  obtain ⟨x, o', y, e1, -, e3, e4, e5, e6⟩ := C75_remove cs last buf fn fl true _ d.os o.pos blk buf' hf hd.dir hfind
  have hoo : o' = o := by
    have hc : ∀ p : Obj, Means (units (trimmed cs)) p → Calls cs p := fun p hp => by unfold Calls; rw [if_neg (show ¬ DotName cs from hf.nodot)]; exact hp
    exact calls_unique hd.names (by rw [e1]; simp) ho (hc o' e3) (hc o hm)
  subst hoo
  refine ⟨x, y, e1, fun d' hd' => ?_, fun s0 q hs => ?_⟩
  rotate_left
  · have hl0 := hv.linked
    rw [tab_same q.same] at hl0
    have he := entries_same hr hl0 q.same
    refine all_times hr hl0 hs q d4 (P := fun t => ∃ long, (long = o'.long ∨ long = none) ∧ Directory false t (x ++ { o' with long := long } :: y)) (Q := fun t => Directory true t (x ++ y)) (fun k hk => ?_) (by rw [← he]; exact e4)
    rw [← he]
    refine ⟨_, ?_, e6 k hk⟩
    by_cases hk0 : k = 0
    · exact .inl (if_pos hk0)
    · exact .inr (if_neg hk0)
  rcases List.mem_cons.mp hd' with rfl | hd'
  · refine ⟨hd.starts, ?_, e5 hd.names, fun o2 ho2 => hd.nodot o2 ?_⟩
    · show Directory true (entries v i (view r.st) d.loc) (x ++ y)
      rw [d4.ents]
      exact e4
    · rw [e1]
      have ho2 : o2 ∈ x ++ y := ho2
      simp only [List.mem_append, List.mem_cons] at ho2 ⊢
      exact ho2.imp id .inr
  · exact (apart_dirs hr h hap).1 d' hd'

/-- After removing the entry: the clusters go, and all is written. -/
theorem chain_tree {v : Vol} {i : Info} (hr : Ready v i) (hbig : i.fsi ≠ none → 512 ≤ v.ss) (hs : Sound v) {T : List Dir} {F : List (List Nat)} {r : Ret} (hres : r.res = FR_OK) {m : List Nat}
    (h : Tree v i T (if m = [] then F else m :: F) r.st) (hno : ∀ d ∈ T, ∀ o ∈ d.os, ¬ Dotted o → first v o ≠ 0 → first v o ≠ m.headD 0) :
    (unlinkChain v i (m.headD 0) r).2 = FR_OK ∧ Tree v i T F (unlinkChain v i (m.headD 0) r).1 ∧ (unlinkChain v i (m.headD 0) r).1.wflag = false ∧
      ∀ l ∈ F, ∀ n ∈ secs v l, view (unlinkChain v i (m.headD 0) r).1 n = view r.st n := by
  unfold unlinkChain
  rw [if_pos hres]
  cases m with
  | nil =>
    rw [if_pos rfl] at h
    rw [if_neg (by simp)]
    exact tree_synced hr hbig hs h
  | cons c m =>
    rw [if_neg (fun h => by cases h)] at h
    have hc := links_mem (h.chains.chain (c :: m) (by simp)) c (by simp)
    rw [List.headD_cons, if_pos (by omega)]
    obtain ⟨-, h2, -, h4⟩ := tree_freed hr h (fun d hd o ho hdo e => hno d hd o ho hdo (by omega) e)
    generalize removeChain v r.st c 0 = p at h2 h4
    rcases h4 with ⟨-, h4⟩ | ⟨h4, h5⟩
    · exact absurd hs h4
    · unfold synced
      rw [if_pos h4]
      obtain ⟨k1, k2, k3, k4⟩ := tree_synced hr hbig hs h5
      refine ⟨k1, k2, k3, fun l hl n hn => (k4 l hl n hn).trans ?_⟩
      obtain ⟨c1, c2, -⟩ := chain_secs hr (h.chains.chain l (by simp [hl])) hn
      exact h2 n c1 c2

/-- Is the directory empty? -/
theorem empty_spec {v : Vol} {i : Info} (hr : Ready v i) {s : St} (hi : Inv v s) {d : Dir} (hl : Linked v (tab v s) d.loc) (hd : DirOk v i s d) {dp : Dp} (hdp : dp.sclust = d.sclust) {buf : List Nat} (hb : buf.length = 256) :
    Quiet v s (testEmpty v i buf (dirSdi v i s dp 0)).1 ∧ ((testEmpty v i buf (dirSdi v i s dp 0)).2 = FR_DISK_ERR ∧ ¬ Sound v ∨
      (testEmpty v i buf (dirSdi v i s dp 0)).2 = DirDev.FR_DENIED ∧ (∃ o ∈ d.os, ¬ Dotted o) ∨ (testEmpty v i buf (dirSdi v i s dp 0)).2 = FR_OK ∧ ∀ o ∈ d.os, Dotted o) := by
  have hso := sdi_spec hr hi hl (dp := dp) (by rw [hdp]; exact hd.starts) (j := 0) (total_pos hr hl)
  rw [Nat.mul_zero] at hso
  generalize dirSdi v i s dp 0 = r at hso
  unfold testEmpty
  rcases hso.cases with ⟨c1, c2⟩ | ⟨c1, c2⟩
  · rw [if_pos c1]
    have hq := hso.quiet
    obtain ⟨q, -, h2⟩ := read_spec hr hq.inv (linked_same hl hq.same) c2 buf
    rw [entries_same hr hl hq.same] at h2
    generalize DirDev.dirRead v i r.st r.dp buf = g at q h2
    refine ⟨hq.trans q, ?_⟩
    rcases h2 with ⟨h2, h3⟩ | h2
    · refine .inl ⟨?_, h3⟩
      simp only [h2]
      decide
    · unfold FatDir.dirRead at h2
      rcases read_next hd.dir.rep ⟨0xFF, 0xFF, none⟩ buf hd.dir.table rfl hb with ⟨e1, e2⟩ | ⟨a, o, b, blk, buf', e1, -, e3, e4, -⟩
      · rw [List.drop_zero, e2] at h2
        have h2 : g.res = FR_NO_FILE := h2
        refine .inr (.inr ⟨?_, e1⟩)
        simp only [h2]
        decide
      · rw [List.drop_zero, e4] at h2
        refine .inr (.inl ⟨?_, o, by rw [e1]; simp, e3⟩)
        simp only [h2.1]
        decide
  · rw [if_neg (by rw [c1]; decide)]
    exact ⟨hso.quiet, .inl ⟨c1, c2⟩⟩

/-- The chain of a file. -/
theorem file_chain {v : Vol} {i : Info} {T : List Dir} {F : List (List Nat)} {s : St} (h : Tree v i T F s) {d : Dir} (hd : d ∈ T) {o : Obj} (ho : o ∈ d.os) (hdo : ¬ Dotted o) (hs : ¬ IsDir o) :
    ∃ m F', F.Perm (if m = [] then F' else m :: F') ∧ first v o = m.headD 0 := by
  obtain ⟨m, hm, e, -⟩ := h.files d hd o ho hdo hs
  by_cases hn : m = []
  · exact ⟨m, F, by rw [if_pos hn], e⟩
  · obtain ⟨a, b, rfl⟩ := List.append_of_mem (hm.resolve_left hn)
    exact ⟨m, a ++ b, by rw [if_neg hn]; exact List.perm_middle, e⟩

/-- The chain of a directory. -/
theorem dir_chain {v : Vol} {i : Info} {s : St} {d : Dir} (hd : DirOk v i s d) (h0 : d.sclust ≠ 0) : ∃ l, d.loc = .chain l ∧ l.headD 0 = d.sclust := by
  have hst := hd.starts
  cases hloc : d.loc with
  | root =>
    rw [hloc] at hst
    exact absurd hst.1 h0
  | chain l =>
    rw [hloc] at hst
    refine ⟨l, rfl, ?_⟩
    rw [hst.1, if_neg h0]

theorem secs_base {v : Vol} {i : Info} (hr : Ready v i) {f : Nat → Nat} {loc : Loc} (hl : Linked v f loc) {n : Nat} (h : n ∈ dirSecs v i loc) : v.fatbase ≤ n := by
  cases loc with
  | root =>
    simp only [dirSecs, List.mem_map] at h
    obtain ⟨k, _, rfl⟩ := h
    have := (hr.root hl).1
    omega
  | chain l =>
    have := (chain_secs hr hl h).2.2
    have := hr.data.base
    omega

theorem dirok_base {v : Vol} {i : Info} (hr : Ready v i) {f : Nat → Nat} {d : Dir} (hl : Linked v f d.loc) {s s' : St} (hv : ∀ n, v.fatbase ≤ n → ¬ Fat1 v n → ¬ Fat2 v n → view s' n = view s n) (h : DirOk v i s d) : DirOk v i s' d := by
  refine ⟨h.starts, ?_, h.names, h.nodot⟩
  rw [entries_congr fun n hn => hv n (secs_base hr hl hn) (secs_place hr hl hn).1 (secs_place hr hl hn).2.1]
  exact h.dir

/-- After removing the entry, whatever the device does. -/
theorem chain_any {v : Vol} {i : Info} (hr : Ready v i) (hbig : i.fsi ≠ none → 512 ≤ v.ss) {T : List Dir} {F : List (List Nat)} {r : Ret} (hres : r.res = FR_OK) {m : List Nat}
    (h : Tree v i T (if m = [] then F else m :: F) r.st) (hno : ∀ d ∈ T, ∀ o ∈ d.os, ¬ Dotted o → first v o ≠ 0 → first v o ≠ m.headD 0) {p : St × Nat} (hp : p = unlinkChain v i (m.headD 0) r) :
    (p.2 = FR_OK ∨ p.2 = FR_DISK_ERR ∧ ¬ Sound v) ∧ (∀ n, v.fatbase ≤ n → ¬ Fat1 v n → ¬ Fat2 v n → view p.1 n = view r.st n) ∧ ∀ l ∈ dirChains T ++ F, Links v.nFatent (tab v p.1) l := by
  have sync : ∀ t : St, Inv v t → (∀ l ∈ dirChains T ++ F, Links v.nFatent (tab v t) l) → ((syncFs v i.fsi t).2 = FR_OK ∨ (syncFs v i.fsi t).2 = FR_DISK_ERR ∧ ¬ Sound v) ∧
      (∀ n, v.fatbase ≤ n → ¬ Fat2 v n → view (syncFs v i.fsi t).1 n = view t n) ∧ ∀ l ∈ dirChains T ++ F, Links v.nFatent (tab v (syncFs v i.fsi t).1) l := by
    intro t hi hl
    obtain ⟨h1, h2, -⟩ := syncfs_spec hr hbig hi
    refine ⟨h2, fun n hb hn => h1 n hn (fsi_free hr hb), ?_⟩
    rw [tab_congr fun n hn => h1 n (fun hx => by have := hn.2; have := hx.2.1; omega) (fsi_free hr hn.1)]
    exact hl
  unfold unlinkChain at hp
  rw [if_pos hres] at hp
  cases m with
  | nil =>
    rw [if_pos rfl] at h
    rw [if_neg (by simp)] at hp
    obtain ⟨h1, h2, h3⟩ := sync r.st h.inv h.chains.chain
    rw [← hp] at h1 h2 h3
    exact ⟨h1, fun n hb _ hn => h2 n hb hn, h3⟩
  | cons c m =>
    rw [if_neg (fun h => by cases h)] at h
    have hc := links_mem (h.chains.chain (c :: m) (by simp)) c (by simp)
    rw [List.headD_cons, if_pos (by omega)] at hp
    obtain ⟨k0, k1, k2, k3⟩ := tree_freed hr h (fun d hd o ho hdo e => hno d hd o ho hdo (by omega) e)
    generalize removeChain v r.st c 0 = g at k0 k1 k2 k3 hp
    unfold synced at hp
    rcases k3 with ⟨k3, k4⟩ | ⟨k3, -⟩
    · rw [if_neg (by rw [k3]; decide)] at hp
      subst hp
      exact ⟨.inr ⟨k3, k4⟩, fun n _ => k1 n, k2⟩
    · rw [if_pos k3] at hp
      obtain ⟨h1, h2, h3⟩ := sync g.1 k0 k2
      rw [← hp] at h1 h2 h3
      exact ⟨h1, fun n hb h1 hn => (h2 n hb hn).trans (k1 n h1 hn), h3⟩

/-- The tree between removing the entry and removing the clusters. -/
theorem mid_tree {v : Vol} {i : Info} {d : Dir} {R : List Dir} {F : List (List Nat)} {s s' : St} (h : Tree v i (d :: R) F s) {o : Obj} (hdo : ¬ Dotted o) {x y : List Obj} (hos : d.os = x ++ o :: y)
    (h1 : DirVol v [] (dirChains R ++ F) d.loc s') (h4 : ∀ d' ∈ { d with os := x ++ y } :: R, DirOk v i s' d')
    (hd : IsDir o → first v o ≠ 0 ∧ ∃ d' R', R = d' :: R' ∧ d'.sclust = first v o ∧ ∀ o ∈ d'.os, Dotted o) :
    ∃ m R' F', first v o = m.headD 0 ∧ Tree v i ({ d with os := x ++ y } :: R') (if m = [] then F' else m :: F') s' ∧ (∀ p ∈ { d with os := x ++ y } :: R', ∀ o' ∈ p.os, ¬ Dotted o' → first v o' ≠ 0 → first v o' ≠ m.headD 0) ∧
      (∀ l ∈ dirChains (d :: R) ++ F, l.headD 0 ≠ first v o → l ∈ dirChains ({ d with os := x ++ y } :: R') ++ F') ∧
      ∃ F1, F.Perm F1 ∧ Unlinked v d o (d :: R) F1 ({ d with os := x ++ y } :: R') F' ∧ (∀ l ∈ F', l ∈ F) ∧ (dirChains (d :: R) ++ F).Perm (withRest [] m (dirChains ({ d with os := x ++ y } :: R') ++ F')) := by
  by_cases hsub : IsDir o
  · obtain ⟨h0, d', R', rfl, hd', hemp⟩ := hd hsub
    obtain ⟨m, hloc, hm0⟩ := dir_chain (h.dirs d' (by simp)) (by rw [hd']; exact h0)
    have hmn : m ≠ [] := by
      rintro rfl
      exact h0 (hd' ▸ hm0.symm)
    have hsh := shape_dir (tree_shape h) hos hdo h0 hd' hemp (m :: F) (fun l hl => by simp [hl])
    have e1 : dirChains (d' :: R') = m :: dirChains R' := by
      unfold dirChains
      rw [List.flatMap_cons, hloc]
      rfl
    have hperm : (allChains [] (dirChains (d' :: R') ++ F) d.loc).Perm (dirChains ({ d with os := x ++ y } :: R') ++ m :: F) := by
      rw [← allchains_cons R' (m :: F) d d.loc (x ++ y), e1]
      have e2 : (m :: (dirChains R' ++ F)).Perm (dirChains R' ++ m :: F) := List.perm_middle.symm
      cases d.loc with
      | root => exact e2
      | chain l => exact e2.cons l
    refine ⟨m, R', F, hd'.symm.trans hm0.symm, ?_, ?_, ?_, F, .refl _, .dir hos hsub hd', fun l hl => hl, ?_⟩
    rotate_right
    · have e3 : dirChains (d :: d' :: R') ++ F = allChains [] (dirChains (d' :: R') ++ F) d.loc := (allchains_cons _ _ d d.loc d.os).symm
      unfold withRest
      rw [if_neg hmn, e3]
      exact hperm.trans List.perm_middle
    · rw [if_neg hmn]
      exact tree_of h1.inv h1.count (chains_perm hperm h1.chains) (fun p hp => h4 p (by rcases List.mem_cons.mp hp with hp | hp <;> simp [hp])) hsh
    · intro p hp o' ho' hdo' _ e
      rw [hm0, hd'] at e
      obtain ⟨k1, k2⟩ := refs_only h.refs hos hdo h0
      rcases List.mem_cons.mp hp with rfl | hp
      · exact k1 o' ho' hdo' e
      · exact k2 p (by simp [hp]) o' ho' hdo' e
    · intro l hl hne
      have e3 : dirChains (d :: d' :: R') ++ F = allChains [] (dirChains (d' :: R') ++ F) d.loc := (allchains_cons _ _ d d.loc d.os).symm
      rw [e3] at hl
      have hl := hperm.mem_iff.mp hl
      simp only [List.mem_append, List.mem_cons] at hl ⊢
      rcases hl with hl | rfl | hl
      · exact .inl hl
      · exact absurd (hm0.trans hd') hne
      · exact .inr hl
  · obtain ⟨m, F', hF, hfm⟩ := file_chain h (d := d) (by simp) (by rw [hos]; simp) hdo hsub
    have ht : Tree v i ({ d with os := x ++ y } :: R) F s' := tree_of h1.inv h1.count (by rw [← allchains_cons]; exact h1.chains) h4 (shape_file (tree_shape h) hos hsub)
    refine ⟨m, R, F', hfm, tree_perm (.refl _) hF ht, ?_, ?_, _, hF, ?_, ?_, ?_⟩
    rotate_right
    · have e3 : dirChains ({ d with os := x ++ y } :: R) = dirChains (d :: R) := rfl
      rw [e3]
      refine (hF.append_left _).trans ?_
      unfold withRest
      by_cases hmn : m = []
      · rw [if_pos hmn, if_pos hmn, List.nil_append]
      · rw [if_neg hmn, if_neg hmn]
        exact List.perm_middle
    · intro d' hd' o' ho' hdo' h0 e
      rw [← hfm] at e
      obtain ⟨k1, k2⟩ := refs_only h.refs hos hdo (by rw [← e]; exact h0)
      rcases List.mem_cons.mp hd' with rfl | hd'
      · exact k1 o' ho' hdo' e
      · exact k2 d' hd' o' ho' hdo' e
    · intro l hl hne
      have e3 : dirChains ({ d with os := x ++ y } :: R) = dirChains (d :: R) := rfl
      rw [e3]
      rw [List.mem_append] at hl ⊢
      refine hl.imp id fun hl => ?_
      have hl := hF.mem_iff.mp hl
      split at hl
      · exact hl
      · rcases List.mem_cons.mp hl with rfl | hl
        · exact absurd hfm.symm hne
        · exact hl
    · by_cases hmn : m = []
      · rw [if_pos hmn]
        exact .empty hos hsub (by rw [hfm, hmn]; rfl)
      · rw [if_neg hmn]
        exact .file hos hsub hmn hfm
    · intro l hl
      refine hF.mem_iff.mpr ?_
      split
      · exact hl
      · simp [hl]

/-- An object that can be removed, found at a position. -/
structure Ripe (v : Vol) (i : Info) (T : List Dir) (F : List (List Nat)) (cdir : Nat) (share : Dp → Nat) (d : Dir) (cs : List Nat) (o : Obj) (s : St) (dp : Dp) (buf fn : List Nat) (fl : Nat) (blk : Option Nat) : Prop where
  tree : Tree v i T F s
  mem : d ∈ T
  obj : o ∈ d.os
  nodot : ¬ DotName cs
  free : ¬ Protected v T cdir o
  share : share dp = FR_OK
  start : dp.sclust = d.sclust
  place : At v i d.loc o.pos dp
  name : FileName cs true buf fn fl
  means : Means (units (trimmed cs)) o
  nodots : ¬ Dotted o
  find : FatDir.dirFind (entries v i (view s) d.loc) fn fl buf = .found o.pos blk buf

/-- All that can happen before anything is removed. -/
theorem unlink_cases {v : Vol} {i : Info} (hr : Ready v i) {T : List Dir} {F : List (List Nat)} {s : St} (h : Tree v i T F s) {cdir : Nat} (hc : ∃ d ∈ T, d.sclust = cdir)
    (share : Dp → Nat) {path : List Nat} {abs : Bool} {l : List (List Nat)} (hp : PathOf path abs l) (dp : Dp) {buf : List Nat} (hb : buf.length = 256) {G : Goal} (hG : Resolves v T cdir abs l G) {p : St × Nat}
    (hu : p = fUnlink v i cdir share path s dp buf) :
    Quiet v s p.1 ∧ (p.2 = FR_DISK_ERR ∧ ¬ Sound v ∨ Refused v i T cdir share p.2 G) ∨
    ∃ d cs o s1 dp1 buf1 fn1 fl1 blk, G = .object d cs o ∧ Quiet v s s1 ∧ Ripe v i T F cdir share d cs o s1 dp1 buf1 fn1 fl1 blk ∧ p = unlinkChain v i (first v o) (dirRemove v i s1 dp1 (blk.map (32 * ·))) := by
  obtain ⟨q, h1⟩ := follow_spec hr h hc hp dp hb
  unfold fUnlink at hu
  generalize followPath v i cdir path s dp buf = f at q h1 hu
  unfold unlinkAt at hu
  rcases h1 with ⟨h1, h1'⟩ | ⟨G', h1, h2⟩
  · rw [if_neg (by rw [h1]; decide)] at hu
    subst hu
    exact .inl ⟨q, .inl ⟨h1, h1'⟩⟩
  obtain ⟨G0, -, hun⟩ := C81_place v i T F s h cdir hc abs l
  cases (hun G' h1).trans (hun G hG).symm
  have hqt := tree_quiet hr q h
  cases G with
  | badName =>
    rw [if_neg (by rw [show f.res = _ from h2]; decide)] at hu
    subst hu
    exact .inl ⟨q, .inr h2⟩
  | noPath =>
    rw [if_neg (by rw [show f.res = _ from h2]; decide)] at hu
    subst hu
    exact .inl ⟨q, .inr h2⟩
  | free d cs =>
    rw [if_neg (by rw [h2.1]; decide)] at hu
    subst hu
    exact .inl ⟨q, .inr h2.1⟩
  | self d =>
    obtain ⟨c1, -, c2, c3⟩ := h2
    rw [if_pos c1, c3, if_neg (by decide)] at hu
    by_cases hsh : share f.dp = FR_OK
    · rw [if_neg (by simpa using hsh), if_pos (by decide)] at hu
      subst hu
      exact .inl ⟨q, .inr (.inl rfl)⟩
    · rw [if_pos hsh] at hu
      subst hu
      exact .inl ⟨q, .inr (.inr ⟨f.dp, c2, hsh, rfl⟩)⟩
  | object d cs o =>
    obtain ⟨c1, c2, c3, c4, c5, c6, c7, c8, c9, -, c10, blk, c11, c12⟩ := h2
    obtain ⟨-, b1, b2⟩ := named_bits c5
    rw [if_pos c1] at hu
    by_cases hdn : DotName cs
    · rw [if_pos (b1.mpr hdn)] at hu
      subst hu
      exact .inl ⟨q, .inr (.inl ⟨hdn, rfl⟩)⟩
    rw [if_neg (fun h => hdn (b1.mp h))] at hu
    by_cases hsh : share f.dp = FR_OK
    case neg =>
      rw [if_pos hsh] at hu
      subst hu
      exact .inl ⟨q, .inr (.inr (.inl ⟨hdn, f.dp, c3, c9, hsh, rfl⟩))⟩
    have hent := obj_ent (h.dirs d c2).dir c7
    have hat := attr_dir hent.2
    rw [if_neg (by simpa using hsh), if_neg (by simpa using b2), c10] at hu
    dsimp only at hu
    rw [hat.2] at hu
    by_cases hro : ReadOnly o
    · rw [if_pos (show byte o.entry 11 &&& 1 ≠ 0 from hro)] at hu
      subst hu
      exact .inl ⟨q, .inr (.inr (.inr ⟨hdn, .inl hro, rfl⟩))⟩
    rw [if_neg (show ¬ byte o.entry 11 &&& 1 ≠ 0 from hro), ld_clust hent.2 (by omega)] at hu
    dsimp only at hu
    rw [show FatSync.Spec.first v o.entry 0 = first v o from rfl] at hu
    have hm : Means (units (trimmed cs)) o := by
      unfold Calls at c8
      rw [if_neg hdn] at c8
      exact c8
    have hdo : ¬ Dotted o := fun hx => means_dotted hm (h.dots d c2 o c7 hx)
    have hf : FileName cs true f.buf f.fn f.fl := ⟨c4, hdn, c5⟩
    unfold unlinkObj at hu
    rw [hat.1] at hu
    by_cases hsub : IsDir o
    · rw [if_pos (show byte o.entry 11 &&& 0x10 ≠ 0 from hsub)] at hu
      by_cases hcd : first v o = cdir
      · rw [if_pos hcd] at hu
        subst hu
        exact .inl ⟨q, .inr (.inr (.inr ⟨hdn, .inr ⟨hsub, .inl hcd⟩, rfl⟩))⟩
      rw [if_neg hcd] at hu
      obtain ⟨h0, d', hd', hd's⟩ := h.subs d c2 o c7 hdo hsub
      obtain ⟨q2, h3⟩ := empty_spec hr hqt.inv (tree_linked hqt hd') (hqt.dirs d' hd') (dp := { f.dp with sclust := first v o }) hd's.symm c6
      generalize testEmpty v i f.buf (dirSdi v i f.st { f.dp with sclust := first v o } 0) = g at q2 h3 hu
      have hq3 := q.trans q2
      unfold unlinkDir at hu
      rcases h3 with ⟨h3, h3'⟩ | ⟨h3, o', ho', hdo'⟩ | ⟨h3, hemp⟩
      · rw [if_neg (by rw [h3]; decide)] at hu
        subst hu
        exact .inl ⟨hq3, .inl ⟨h3, h3'⟩⟩
      · rw [if_neg (by rw [h3]; decide)] at hu
        subst hu
        exact .inl ⟨hq3, .inr (.inr (.inr ⟨hdn, .inr ⟨hsub, .inr fun hv => hdo' (hv d' hd' hd's o' ho')⟩, h3⟩))⟩
      · rw [if_pos h3, c11] at hu
        refine .inr ⟨d, cs, o, g.1, f.dp, f.buf, f.fn, f.fl, blk, rfl, hq3, ⟨tree_quiet hr q2 hqt, c2, c7, hdn, ?_, hsh, c3, c9, hf, hm, hdo, ?_⟩, hu⟩
        · rintro (hx | ⟨-, hx | hx⟩)
          · exact hro hx
          · exact hcd hx
          · refine hx fun d2 hd2 e => ?_
            cases dir_unique h.once hd2 hd' (e.trans hd's.symm)
            exact hemp
        · rw [entries_congr fun n hn => hq3.same n (secs_place hr (tree_linked h c2) hn).2.1]
          exact c12
    · rw [if_neg (show ¬ byte o.entry 11 &&& 0x10 ≠ 0 from hsub), c11] at hu
      refine .inr ⟨d, cs, o, f.st, f.dp, f.buf, f.fn, f.fl, blk, rfl, q, ⟨hqt, c2, c7, hdn, ?_, hsh, c3, c9, hf, hm, hdo, ?_⟩, hu⟩
      · rintro (hx | ⟨hx, -⟩)
        · exact hro hx
        · exact hsub hx
      · rw [entries_congr fun n hn => q.same n (secs_place hr (tree_linked h c2) hn).2.1]
        exact c12

/-- The directory of an object, in front of the others, and that of an object that is an empty directory next. -/
theorem ripe_perm {v : Vol} {i : Info} {T : List Dir} {F : List (List Nat)} {cdir : Nat} {share : Dp → Nat} {d : Dir} {cs : List Nat} {o : Obj} {s : St} {dp : Dp} {buf fn : List Nat} {fl : Nat} {blk : Option Nat}
    (h : Ripe v i T F cdir share d cs o s dp buf fn fl blk) : ∃ R, T.Perm (d :: R) ∧ (IsDir o → first v o ≠ 0 ∧ first v o ≠ cdir ∧ ∃ d' R', R = d' :: R' ∧ d'.sclust = first v o ∧ ∀ o ∈ d'.os, Dotted o) := by
  obtain ⟨A, B, hAB⟩ := List.append_of_mem h.mem
  have hT : T.Perm (d :: (A ++ B)) := by rw [hAB]; exact List.perm_middle
  by_cases hsub : IsDir o
  · obtain ⟨h0, d', hd', hd's⟩ := h.tree.subs d h.mem o h.obj h.nodots hsub
    have hfree := h.free
    unfold Protected at hfree
    simp only [not_or, not_and] at hfree
    obtain ⟨-, hx⟩ := hfree
    obtain ⟨hcd, hv⟩ := hx hsub
    have hemp : ∀ o ∈ d'.os, Dotted o := (Classical.not_not.mp hv) d' hd' hd's
    have hne : d' ≠ d := by
      rintro rfl
      exact h.nodots (hemp o h.obj)
    obtain ⟨C, D, hCD⟩ := List.append_of_mem ((List.mem_cons.mp (hT.mem_iff.mp hd')).resolve_left hne)
    exact ⟨d' :: (C ++ D), hT.trans (by rw [hCD]; exact List.perm_middle.cons d), fun _ => ⟨h0, hcd, d', C ++ D, rfl, hd's, hemp⟩⟩
  · exact ⟨A ++ B, hT, fun hx => absurd hx hsub⟩

theorem unlinked_cdir {v : Vol} {d : Dir} {o : Obj} {T1 T2 : List Dir} {F1 F2 : List (List Nat)} (h : Unlinked v d o T1 F1 T2 F2) {cdir : Nat} (hx : IsDir o → first v o ≠ cdir) (hc : ∃ d ∈ T1, d.sclust = cdir) :
    ∃ d ∈ T2, d.sclust = cdir := by
  obtain ⟨d2, hd2, e2⟩ := hc
  have key : ∀ {R : List Dir} {x y : List Obj}, d2 = d ∨ d2 ∈ R → ∃ d' ∈ { d with os := x ++ y } :: R, d'.sclust = cdir := by
    rintro R x y (rfl | h)
    · exact ⟨_, List.mem_cons_self, e2⟩
    · exact ⟨d2, List.mem_cons_of_mem _ h, e2⟩
  cases h with
  | empty => exact key (List.mem_cons.mp hd2)
  | file => exact key (List.mem_cons.mp hd2)
  | dir _ h1 h2 =>
    rcases List.mem_cons.mp hd2 with hd2 | hd2
    · exact key (.inl hd2)
    · rcases List.mem_cons.mp hd2 with rfl | hd2
      · exact absurd (h2.symm.trans e2) (hx h1)
      · exact key (.inr hd2)

end Fpm.Tree
