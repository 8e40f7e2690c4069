import Verif.Tree.ShapeLemmas
import Verif.FatSync.SyncLemmas
/-!
# Changes on the device
-/
namespace Fpm.Tree
open Fpm.Fat Fpm.Fat.Spec Fpm.FatFile Fpm.FatFile.Spec Fpm.Lfn Fpm.Names Fpm.Names.Spec Fpm.TextIo.Spec Fpm.FatDir Fpm.FatDir.Spec Fpm.Mount Fpm.Mount.Spec Fpm.DirDev Fpm.DirDev.Spec Fpm.Tree.Spec Fpm.FatSync

theorem chain_secs {v : Vol} {i : Info} (hr : Ready v i) {f : Nat → Nat} {l : List Nat} (hl : Links v.nFatent f l) {n : Nat} (h : n ∈ secs v l) : ¬ Fat1 v n ∧ ¬ Fat2 v n ∧ v.database ≤ n := by
  obtain ⟨h1, h2, -⟩ := secs_place hr (loc := .chain l) (show Linked v f (.chain l) from hl) (show n ∈ dirSecs v i (.chain l) from h)
  obtain ⟨c, -, hc⟩ := secs_mem h
  have := (mem_sectors.mp hc).1
  exact ⟨h1, h2, by omega⟩

theorem root_secs {v : Vol} {i : Info} (hr : Ready v i) (h3 : v.fsType ≠ 3) {n : Nat} (h : n ∈ dirSecs v i .root) : n < v.database := by
  simp only [dirSecs, List.mem_map, List.mem_range] at h
  obtain ⟨k, hk, rfl⟩ := h
  obtain ⟨-, -, h2⟩ := hr.root h3
  have hss := hr.geo.ss.2
  have h4 : (k + 1) * v.ss ≤ i.nRoot * 32 := Nat.le_trans (Nat.mul_le_mul_right _ hk) (Nat.div_mul_le_self _ _)
  refine Nat.lt_of_mul_lt_mul_right (a := v.ss) ?_
  rw [Nat.add_mul, h2]
  rw [Nat.add_mul] at h4
  omega

/-- Sectors of a chain are not sectors of a directory elsewhere. -/
theorem own_chain {v : Vol} {i : Info} (hr : Ready v i) {f : Nat → Nat} {b : List (List Nat)} {loc : Loc} (hloc : Linked v f loc) {l : List Nat} (hl : Links v.nFatent f l) (hm : l ∈ b) {n : Nat} (hn : n ∈ secs v l) :
    ¬ DirOwn v i [] b loc n := by
  intro h
  cases loc with
  | root =>
    have := root_secs hr hloc h
    have := (chain_secs hr hl hn).2.2
    omega
  | chain m =>
    obtain ⟨c, ⟨h2, -, h3⟩, hc⟩ := h
    obtain ⟨c', hc', hs⟩ := secs_mem hn
    have := sectors_inj hc hs h2 (links_mem hl c' hc').1
    subst this
    exact h3 (List.mem_flatten.mpr ⟨l, by simpa using hm, hc'⟩)

/-- What happens to one directory leaves the others, and the files, as they are. -/
theorem apart_dirs {v : Vol} {i : Info} (hr : Ready v i) {d : Dir} {R : List Dir} {F : List (List Nat)} {s s' : St} (h : Tree v i (d :: R) F s) (ha : Apart v i [] (dirChains R ++ F) d.loc s s') :
    (∀ d' ∈ R, DirOk v i s' d') ∧ ∀ l ∈ F, ∀ n ∈ secs v l, view s' n = view s n := by
  have hlink := tree_linked h (d := d) (by simp)
  have key : ∀ l ∈ dirChains R ++ F, ∀ n ∈ secs v l, view s' n = view s n := by
    intro l hl n hn
    have hll : Links v.nFatent (tab v s) l := h.chains.chain l (by
      rw [show d :: R = [] ++ d :: R from rfl, dirChains_mid]
      rcases List.mem_append.mp hl with hl | hl <;> simp [hl])
    obtain ⟨h1, h2, -⟩ := chain_secs hr hll hn
    exact ha.2 n h1 h2 (own_chain hr hlink hll hl hn)
  refine ⟨fun d' hd' => ?_, fun l hl => key l (by simp [hl])⟩
  have hok := h.dirs d' (by simp [hd'])
  refine ⟨hok.starts, ?_, hok.names, hok.nodot⟩
  have he : entries v i (view s') d'.loc = entries v i (view s) d'.loc := by
    refine entries_congr fun n hn => ?_
    cases hloc : d'.loc with
    | chain l =>
      rw [hloc] at hn
      exact key l (List.mem_append_left _ (List.mem_flatMap.mpr ⟨d', hd', by rw [hloc]; simp [chainOf]⟩)) n hn
    | root =>
      rw [hloc] at hn
      have hl' := tree_linked h (d := d') (by simp [hd'])
      rw [hloc] at hl'
      obtain ⟨h1, h2, -⟩ := secs_place hr hl' hn
      refine ha.2 n h1 h2 fun hown => ?_
      cases hd : d.loc with
      | chain m =>
        rw [hd] at hown
        obtain ⟨c, -, hc⟩ := hown
        have := (mem_sectors.mp hc).1
        have := root_secs hr hl' hn
        omega
      | root =>
        have e1 := hok.starts
        have e2 := (h.dirs d (by simp)).starts
        rw [hloc] at e1
        rw [hd] at e2
        have := h.once
        rw [List.map_cons, List.nodup_cons] at this
        exact this.1 (by rw [e2.1, ← e1.1]; exact List.mem_map_of_mem hd')
  rw [he]
  exact hok.dir

/-- Only the FATs change: the directories are what they were. -/
theorem dirok_fat {v : Vol} {i : Info} (hr : Ready v i) {f : Nat → Nat} {d : Dir} (hl : Linked v f d.loc) {s s' : St} (hv : ∀ n, ¬ Fat1 v n → ¬ Fat2 v n → view s' n = view s n) (h : DirOk v i s d) : DirOk v i s' d := by
  refine ⟨h.starts, ?_, h.names, h.nodot⟩
  rw [entries_congr fun n hn => hv n (secs_place hr hl hn).1 (secs_place hr hl hn).2.1]
  exact h.dir

/-- Removing a chain that no file has. -/
theorem tree_freed {v : Vol} {i : Info} (hr : Ready v i) {T : List Dir} {F : List (List Nat)} {c : Nat} {m : List Nat} {s : St} (h : Tree v i T ((c :: m) :: F) s)
    (hno : ∀ d ∈ T, ∀ o ∈ d.os, ¬ Dotted o → first v o ≠ c) :
    Inv v (removeChain v s c 0).1 ∧ (∀ n, ¬ Fat1 v n → ¬ Fat2 v n → view (removeChain v s c 0).1 n = view s n) ∧ (∀ l ∈ dirChains T ++ F, Links v.nFatent (tab v (removeChain v s c 0).1) l) ∧
    ((removeChain v s c 0).2 = FR_DISK_ERR ∧ ¬ Sound v ∨ (removeChain v s c 0).2 = FR_OK ∧ Tree v i T F (removeChain v s c 0).1) := by
  obtain ⟨h1, h2, h3, h4⟩ := C52_remove v hr.geo s h.inv (dirChains T) F c m h.chains h.count _ _ rfl
  have hlinks : ∀ l ∈ dirChains T ++ F, Links v.nFatent (tab v (removeChain v s c 0).1) l := by
    intro l hl
    have hll := h.chains.chain l (by rcases List.mem_append.mp hl with hl | hl <;> simp [hl])
    refine links_congr hll fun x hx => h3 x (fun hxm => ?_) (links_mem hll x hx).2
    have hn := h.chains.nodup
    rw [List.flatten_append, List.flatten_cons] at hn
    obtain ⟨-, hb, hc⟩ := List.nodup_append.mp hn
    obtain ⟨-, -, hd⟩ := List.nodup_append.mp hb
    rcases List.mem_append.mp hl with hl | hl
    · exact hc x (List.mem_flatten.mpr ⟨l, hl, hx⟩) x (List.mem_append_left _ hxm) rfl
    · exact hd x hxm x (List.mem_flatten.mpr ⟨l, hl, hx⟩) rfl
  refine ⟨h1, h2, hlinks, ?_⟩
  rcases h4 with ⟨h4, -, h5, h6⟩ | ⟨h4, h5⟩
  · exact .inr ⟨h4, tree_of h1 h6 h5 (fun d hd => dirok_fat hr (tree_linked h hd) h2 (h.dirs d hd)) (shape_drop (tree_shape h) (fun h => by cases h) hno)⟩
  · exact .inl ⟨h4, h5⟩

/-- `sync_fs`: only the sector for free counts changes. -/
theorem syncfs_spec {v : Vol} {i : Info} (hr : Ready v i) (hbig : i.fsi ≠ none → 512 ≤ v.ss) {s : St} (hi : Inv v s) :
    (∀ n, ¬ Fat2 v n → i.fsi ≠ some n → view (syncFs v i.fsi s).1 n = view s n) ∧ ((syncFs v i.fsi s).2 = FR_OK ∨ (syncFs v i.fsi s).2 = FR_DISK_ERR ∧ ¬ Sound v) ∧
    (Sound v → (syncFs v i.fsi s).2 = FR_OK ∧ Inv v (syncFs v i.fsi s).1 ∧ (syncFs v i.fsi s).1.freeClst = s.freeClst ∧ (syncFs v i.fsi s).1.wflag = false) := by
  obtain ⟨h1, h2, h3, h4, h5, -⟩ := sync_spec hr.geo hi
  have hset : ∀ t : St, ((settle v t).2 = FR_OK ∨ (settle v t).2 = FR_DISK_ERR ∧ ¬ Sound v) := by
    intro t
    unfold settle
    cases hio : v.io t.cnt with
    | ok => exact .inl rfl
    | fail j =>
      refine .inr ⟨rfl, fun hs => ?_⟩
      rw [hs] at hio
      cases hio
  unfold syncFs
  generalize syncWindow v s = p at h1 h2 h3 h4 h5
  rcases h5 with ⟨h5, h6⟩ | ⟨h5, h6⟩
  · rw [if_pos h5]
    have plain : (∀ n, ¬ Fat2 v n → i.fsi ≠ some n → view (settle v p.1).1 n = view s n) ∧ ((settle v p.1).2 = FR_OK ∨ (settle v p.1).2 = FR_DISK_ERR ∧ ¬ Sound v) ∧
        (Sound v → (settle v p.1).2 = FR_OK ∧ Inv v (settle v p.1).1 ∧ (settle v p.1).1.freeClst = s.freeClst ∧ (settle v p.1).1.wflag = false) := by
      refine ⟨fun n hn _ => ?_, hset _, fun hs => ⟨(hset p.1).resolve_right fun hx => hx.2 hs, ?_⟩⟩
      · rw [(settle_spec v p.1).1]
        exact h2 n hn
      · rw [(settle_spec v p.1).1]
        exact ⟨⟨h1.disk, h1.win, h1.clean, h1.dirty, h1.fat2⟩, h3.2.1, h6⟩
    unfold syncInfo
    split
    · exact plain
    · rename_i n w hn hw
      obtain ⟨w', hw', hws⟩ := info_ok (hbig (by rw [hn]; exact fun hx => by cases hx)) p.1
      obtain rfl : w' = w := Option.some.inj (hw'.symm.trans hw)
      split
      · obtain ⟨b', q, ok, e', hb', e2, e3, -⟩ := write_disk v hr.geo { p.1 with win := w', winsect := some n } n w' hws
        have hpi : putInfo v n w' p.1 = { p.1 with disk := upd p.1.disk n b', past := q, cnt := p.1.cnt + 1, win := w', winsect := some n, fsiFlag := false } := by
          unfold putInfo
          rw [e']
        obtain ⟨hn3, hn1, hn2⟩ := hr.fsi n hn
        refine ⟨fun y hy hne => ?_, hset _, fun hs => ⟨(hset _).resolve_right fun hx => hx.2 hs, ?_⟩⟩
        · rw [(settle_spec v _).1, hpi, ← h2 y hy]
          have hyn : n ≠ y := fun e => hne (by rw [hn, e])
          unfold view
          simp only [Option.some.injEq]
          rw [if_neg hyn]
          show upd p.1.disk n b' y = _
          rw [upd_ne _ _ (fun e => hyn e.symm)]
          have := view_clean h1 h6 y
          unfold view at this
          exact this.symm
        · have hok : ok = true := by
            cases ok with
            | true => rfl
            | false => exact absurd hs (e3 rfl)
          obtain rfl := e2 hok
          rw [(settle_spec v _).1, hpi]
          refine ⟨⟨sec_upd h1.disk hws n, hws, fun _ y hy => ?_, fun _ => (fun h => by cases h), fun y hy => ?_⟩, h3.2.1, h6⟩
          · obtain rfl := Option.some.inj hy
            exact (upd_same _ _ _).symm
          · obtain rfl := Option.some.inj hy
            rintro ⟨-, hx, -⟩
            omega
      · exact plain
    · rename_i n hn hw
      obtain ⟨w', hw', hws⟩ := info_ok (hbig (by rw [hn]; exact fun hx => by cases hx)) p.1
      rw [hw] at hw'
      cases hw'
  · rw [if_neg (by rw [h5]; decide)]
    exact ⟨fun n hn _ => h2 n hn, .inr ⟨h5, h6⟩, fun hs => absurd hs h6⟩

/-- The sector for free counts belongs to no directory or file. -/
theorem fsi_free {v : Vol} {i : Info} (hr : Ready v i) {n : Nat} (h : v.fatbase ≤ n) : i.fsi ≠ some n := by
  intro e
  have := (hr.fsi n e).2.2
  omega

theorem tree_synced {v : Vol} {i : Info} (hr : Ready v i) (hbig : i.fsi ≠ none → 512 ≤ v.ss) (hs : Sound v) {T : List Dir} {F : List (List Nat)} {s : St} (h : Tree v i T F s) :
    (syncFs v i.fsi s).2 = FR_OK ∧ Tree v i T F (syncFs v i.fsi s).1 ∧ (syncFs v i.fsi s).1.wflag = false ∧ ∀ l ∈ F, ∀ n ∈ secs v l, view (syncFs v i.fsi s).1 n = view s n := by
  obtain ⟨h1, -, h2⟩ := syncfs_spec hr hbig h.inv
  obtain ⟨h2, h3, h4, h5⟩ := h2 hs
  have hsec : ∀ l ∈ F, ∀ n ∈ secs v l, view (syncFs v i.fsi s).1 n = view s n := by
    intro l hl n hn
    obtain ⟨-, c2, c3⟩ := chain_secs hr (h.chains.chain l (by simp [hl])) hn
    have := hr.data.base
    exact h1 n c2 (fsi_free hr (by omega))
  generalize syncFs v i.fsi s = p at h1 h2 h3 h4 h5 hsec
  have ht : tab v p.1 = tab v s := tab_congr fun n hn => h1 n (fun hx => by have := hn.2; have := hx.2.1; omega) (fsi_free hr hn.1)
  refine ⟨h2, tree_of h3 ?_ (by rw [ht]; exact h.chains) (fun d hd => ?_) (tree_shape h), h5, hsec⟩
  · intro hx
    rw [ht, h4]
    rw [h4] at hx
    exact h.count hx
  · have hok := h.dirs d hd
    refine ⟨hok.starts, ?_, hok.names, hok.nodot⟩
    rw [entries_congr fun n hn => ?_]
    · exact hok.dir
    · have hl := tree_linked h hd
      obtain ⟨c1, c2, -⟩ := secs_place hr hl hn
      refine h1 n c2 (fsi_free hr ?_)
      cases hloc : d.loc with
      | root =>
        rw [hloc] at hn hl
        simp only [dirSecs, List.mem_map] at hn
        obtain ⟨k, _, rfl⟩ := hn
        have := (hr.root hl).1
        omega
      | chain l =>
        rw [hloc] at hn hl
        have := (chain_secs hr hl hn).2.2
        have := hr.data.base
        omega

end Fpm.Tree
