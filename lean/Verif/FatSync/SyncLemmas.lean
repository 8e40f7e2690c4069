import Verif.FatSync.EntryLemmas
import Verif.FatFile.WriteLemmas
import Verif.Fat.ChainProps
/-! # Flushing -/
namespace Fpm.FatSync
open Fpm.Fat Fpm.Fat.Spec Fpm.FatFile Fpm.FatFile.Spec Fpm.FatBytes Fpm.FatBytes.Spec Fpm.FatSync.Spec

theorem fat_eq {v : Vol} {d d' : Disk} (h : ∀ n, Fat1 v n → d n = d' n) : fat v d = fat v d' := by
  have : area v d = area v d' := by
    unfold area
    rw [List.flatMap_def, List.flatMap_def]
    congr 1
    refine List.map_congr_left fun i hi => h _ ?_
    have := List.mem_range.mp hi
    exact ⟨by omega, by omega⟩
  funext c
  unfold fat
  rw [this]

/-- The window on another sector. -/
theorem vol_same {v : Vol} {a b : List (List Nat)} {m : List Nat} {s s' : St} (h : VolOk v a b m s) (hi : Inv v s') (sm : Same v s s') (rr : Rest s s')
    (hw : ∀ n, s'.winsect = some n → ¬ OwnSect v (a ++ b).flatten n) : VolOk v a b m s' :=
  ⟨hi, by rw [tab_same sm]; exact h.chains, count_same sm rr h.count, hw⟩

/-- On the sector of the entry. -/
theorem move_entry {v : Vol} (hg : Geo v) {a b : List (List Nat)} {m : List Nat} {s : St} {pl : Place} (h : VolOk v a b m s) (hp : PlaceOk v (a ++ b).flatten pl) :
    ((moveWindow v s pl.sect).2 = FR_DISK_ERR ∧ ¬ Sound v) ∨
    ((moveWindow v s pl.sect).2 = FR_OK ∧ VolOk v a b m (moveWindow v s pl.sect).1 ∧ Same v s (moveWindow v s pl.sect).1 ∧
      (moveWindow v s pl.sect).1.winsect = some pl.sect ∧ (moveWindow v s pl.sect).1.win = view s pl.sect) := by
  obtain ⟨h1, h2, h3, h4, -⟩ := move_spec hg h.inv hp.not2
  rcases h4 with ⟨h4, h5⟩ | h4
  · refine .inr ⟨h4, vol_same h h1 h2 h3 fun n hn => ?_, h2, h5, ?_⟩
    · rw [h5] at hn
      obtain rfl := Option.some.inj hn
      exact hp.own
    · rw [← h2 _ hp.not2]
      unfold view
      rw [if_pos h5]
  · exact .inl h4

/-- Changing the sector in the window. -/
theorem vol_set {v : Vol} {a b : List (List Nat)} {m : List Nat} {s : St} {n : Nat} {w : List Nat} (h : VolOk v a b m s) (hn : s.winsect = some n) (h1 : ¬ Fat1 v n)
    (hw : Sec v w) : VolOk v a b m (setWin s w) ∧ ∀ y, view (setWin s w) y = if y = n then w else view s y := by
  have hv : ∀ y, view (setWin s w) y = if y = n then w else view s y := by
    intro y
    unfold view setWin
    simp only [hn, Option.some.injEq]
    by_cases hy : n = y
    · subst hy; simp
    · rw [if_neg hy, if_neg (fun e => hy e.symm), if_neg hy]
  have ht : tab v (setWin s w) = tab v s := tab_congr fun y hy => by rw [hv, if_neg (by rintro rfl; exact h1 hy)]
  refine ⟨⟨⟨h.inv.disk, hw, (fun h => by cases h), fun _ => ?_, h.inv.fat2⟩, by rw [ht]; exact h.chains, ?_, h.window⟩, hv⟩
  · show s.winsect ≠ none
    rw [hn]
    exact (fun h => by cases h)
  · show s.freeClst ≤ _ → s.freeClst = _
    rw [ht]
    exact h.count

/-- Writing the window. -/
theorem sync_entry {v : Vol} (hg : Geo v) {a b : List (List Nat)} {m : List Nat} {s : St} (h : VolOk v a b m s) :
    ((syncWindow v s).2 = FR_DISK_ERR ∧ ¬ Sound v) ∨
    ((syncWindow v s).2 = FR_OK ∧ VolOk v a b m (syncWindow v s).1 ∧ (syncWindow v s).1.wflag = false ∧
      ∀ n, ¬ Fat2 v n → (syncWindow v s).1.disk n = view s n) := by
  obtain ⟨h1, h2, h3, h4, h5, -⟩ := sync_spec hg h.inv
  rcases h5 with ⟨h5, h6⟩ | h5
  · refine .inr ⟨h5, vol_same h h1 h2 h3 fun n hn => h.window n (h4 ▸ hn), h6, fun n hn => ?_⟩
    rw [← h2 n hn]
    unfold view
    split
    · rename_i he
      exact (h1.clean h6 n he).symm
    · rfl
  · exact .inl h5

theorem view_clean {v : Vol} {s : St} (h : Inv v s) (hf : s.wflag = false) (n : Nat) : view s n = s.disk n := by
  unfold view
  split
  · rename_i he
    exact h.clean hf n he
  · rfl

theorem settle_spec (v : Vol) (s : St) : (settle v s).1 = { s with cnt := s.cnt + 1 } ∧ ((settle v s).2 = FR_OK ∨ ¬ Sound v) := by
  unfold settle
  cases hio : v.io s.cnt with
  | ok => exact ⟨rfl, .inl rfl⟩
  | fail j =>
    refine ⟨rfl, .inr fun hs => ?_⟩
    rw [hs] at hio
    cases hio

/-- The sector for free counts. -/
theorem info_spec {v : Vol} (hg : Geo v) {a b : List (List Nat)} {m : List Nat} {s : St} {pl : Place} (h : VolOk v a b m s) (hp : PlaceOk v (a ++ b).flatten pl)
    (hf : s.wflag = false) :
    (∀ n, pl.info ≠ some n → (syncInfo v pl.info s).1.disk n = s.disk n) ∧
    (Sound v → (syncInfo v pl.info s).2 = FR_OK ∧ VolOk v a b m (syncInfo v pl.info s).1 ∧ (syncInfo v pl.info s).1.wflag = false) := by
  have hplain : (∀ n, pl.info ≠ some n → (settle v s).1.disk n = s.disk n) ∧
      (Sound v → (settle v s).2 = FR_OK ∧ VolOk v a b m (settle v s).1 ∧ (settle v s).1.wflag = false) := by
    obtain ⟨e, h1⟩ := settle_spec v s
    rw [e]
    exact ⟨fun _ _ => rfl, fun hs => ⟨h1.resolve_right fun h => h hs, (vol_cnt h _).1, hf⟩⟩
  unfold syncInfo
  split
  · exact hplain
  · rename_i n w' hn hw'
    obtain ⟨w, hw, hws⟩ := info_ok (hp.big (by rw [hn]; exact fun z => by cases z)) s
    obtain rfl : w = w' := Option.some.inj (hw.symm.trans hw')
    obtain ⟨-, hn1, hn2, hn3⟩ := hp.info n hn
    split
    · obtain ⟨e, h1⟩ := settle_spec v (putInfo v n w s)
      obtain ⟨b', p, ok, e', hb', h2, h3, -⟩ := write_disk v hg { s with win := w, winsect := some n } n w hws
      rw [e]
      have hpi : putInfo v n w s = { s with disk := upd s.disk n b', past := p, cnt := s.cnt + 1, win := w, winsect := some n, fsiFlag := false } := by
        unfold putInfo
        rw [e']
      refine ⟨fun y hy => ?_, fun hs => ⟨h1.resolve_right fun h => h hs, ?_, ?_⟩⟩
      · rw [hpi]
        show upd s.disk n b' y = s.disk y
        exact upd_ne _ _ (by rintro rfl; exact hy hn)
      · have hok : ok = true := by
          cases ok with
          | true => rfl
          | false => exact absurd hs (h3 rfl)
        obtain rfl := h2 hok
        refine (vol_cnt ?_ _).1
        rw [hpi]
        generalize ht : ({ s with disk := upd s.disk n b', past := p, cnt := s.cnt + 1, win := b', winsect := some n, fsiFlag := false } : St) = t
        have hv : ∀ y, y ≠ n → view t y = view s y := by
          intro y hy
          rw [view_clean h.inv hf, ← ht]
          unfold view
          simp only [Option.some.injEq]
          rw [if_neg (fun e => hy e.symm)]
          exact upd_ne _ _ hy
        have htab : tab v t = tab v s := tab_congr fun y hy => hv y (by rintro rfl; exact hn1 hy)
        refine ⟨?_, by rw [htab]; exact h.chains, ?_, ?_⟩
        · subst ht
          refine ⟨sec_upd h.inv.disk hws n, hws, fun _ y hy => ?_, fun _ => (fun h => by cases h), fun y hy => ?_⟩
          · obtain rfl := Option.some.inj hy
            exact (upd_same _ _ _).symm
          · obtain rfl := Option.some.inj hy
            exact hn2
        · show t.freeClst ≤ _ → t.freeClst = _
          have : t.freeClst = s.freeClst := by rw [← ht]
          rw [htab, this]
          exact h.count
        · intro y hy
          have : t.winsect = some n := by rw [← ht]
          rw [this] at hy
          obtain rfl := Option.some.inj hy
          exact hn3
      · rw [hpi]
        exact hf
    · exact hplain
  · rename_i n hn hw'
    obtain ⟨w, hw, -⟩ := info_ok (hp.big (by rw [hn]; exact fun z => by cases z)) s
    rw [hw] at hw'
    cases hw'

theorem head_lt {v : Vol} (hg : Geo v) {a b : List (List Nat)} {m : List Nat} {s : St} (h : VolOk v a b m s) :
    (if v.fsType = 3 then m.headD 0 % 2 ^ 32 else m.headD 0 % 2 ^ 16) = m.headD 0 := by
  cases hm : m with
  | nil => simp
  | cons c l =>
    have := h.mem (c := c) (by rw [hm]; simp)
    have h2 := this.2.1
    show (if v.fsType = 3 then c % 2 ^ 32 else c % 2 ^ 16) = c
    rcases hg.kind with ⟨hk, h3⟩ | ⟨hk, h3⟩ | ⟨hk, h3⟩ <;> rw [hk] <;> simp <;> omega

theorem Spec.VolOk.chain {v : Vol} {a b : List (List Nat)} {m : List Nat} {s : St} (h : VolOk v a b m s) : m = [] ∨ Links v.nFatent (tab v s) m := by
  by_cases hm : m = []
  · exact .inl hm
  · have hc := h.chains
    unfold withRest at hc
    rw [if_neg hm] at hc
    exact .inr (hc.chain m (by simp))

/-- What flushing a file leaves on the device; `d` are the contents seen before. -/
structure Stored (v : Vol) (pl : Place) (tm : Nat) (m data : List Nat) (d d' : Disk) : Prop where
  holds : HoldsIn v d' pl.sect pl.off m data
  other : ∀ n, n ≠ pl.sect → pl.info ≠ some n → ¬ Fat2 v n → d' n = d n
  entry : ∀ i, i < pl.off ∨ pl.off + 32 ≤ i ∨ pl.off ≤ i ∧ Untouched (i - pl.off) → (d' pl.sect)[i]? = (d pl.sect)[i]?
  stamp : Stamped (d pl.sect) (d' pl.sect) pl.off tm

theorem entry_spec {v : Vol} (hg : Geo v) (hd : DataGeo v) {a b : List (List Nat)} {m : List Nat} {s : St} {fp : File} {pl : Place} (h : Base v a b m s fp)
    (hc : fp.dirty = false) (hp : PlaceOk v (a ++ b).flatten pl) (tm : Nat) :
    ((syncEntry v pl tm s fp).res = FR_OK → Stored v pl tm m (contents v m s fp) (view s) (syncEntry v pl tm s fp).st.disk) ∧
    (Sound v → (syncEntry v pl tm s fp).res = FR_OK ∧ VolOk v a b m (syncEntry v pl tm s fp).st ∧ (syncEntry v pl tm s fp).st.wflag = false ∧
      (syncEntry v pl tm s fp).fp = { fp with modified := false }) := by
  unfold syncEntry
  rcases move_entry hg h.toVolOk hp with ⟨h1, h2⟩ | ⟨h1, h2, h3, h4, h5⟩
  · rw [if_neg (by rw [h1]; decide)]
    exact ⟨fun hr => absurd (h1.symm.trans hr) (by decide), fun hs => absurd hs h2⟩
  rw [if_pos h1]
  generalize (moveWindow v s pl.sect).1 = t at h2 h3 h4 h5 ⊢
  have hwin := h2.inv.win
  obtain ⟨w, hw, hf⟩ := fill_ok (v := v) (w := t.win) (off := pl.off) (by rw [hwin.1]; exact hp.off) fp tm
  have hws : Sec v w := ⟨hf.len.trans hwin.1, hf.byte hwin.2⟩
  obtain ⟨h6, h7⟩ := vol_set h2 h4 hp.not1 hws
  unfold storeEntry
  rw [hw]
  show ((syncFs v pl.info (setWin t w)).2 = FR_OK → Stored v pl tm m (contents v m s fp) (view s) (syncFs v pl.info (setWin t w)).1.disk) ∧
    (Sound v → (syncFs v pl.info (setWin t w)).2 = FR_OK ∧ VolOk v a b m (syncFs v pl.info (setWin t w)).1 ∧ (syncFs v pl.info (setWin t w)).1.wflag = false ∧
      ({ fp with modified := false } : File) = { fp with modified := false })
  unfold syncFs
  rcases sync_entry hg h6 with ⟨h8, h9⟩ | ⟨h8, h9, h10, h11⟩
  · rw [if_neg (by rw [h8]; decide)]
    exact ⟨fun hr => absurd (h8.symm.trans hr) (by decide), fun hs => absurd hs h9⟩
  rw [if_pos h8]
  generalize (syncWindow v (setWin t w)).1 = u at h9 h10 h11 ⊢
  obtain ⟨h12, h13⟩ := info_spec hg h9 hp h10
  generalize syncInfo v pl.info u = x at h12 h13 ⊢
  refine ⟨fun _ => ?_, fun hs => ⟨(h13 hs).1, (h13 hs).2.1, (h13 hs).2.2, rfl⟩⟩
  have hother : ∀ n, n ≠ pl.sect → pl.info ≠ some n → ¬ Fat2 v n → x.1.disk n = view s n := by
    intro n hn1 hn2 hn3
    rw [h12 n hn2, h11 n hn3, h7, if_neg hn1, h3 n hn3]
  have hsect : x.1.disk pl.sect = w := by
    rw [h12 _ fun e => (hp.info _ e).1 rfl, h11 _ hp.not2, h7, if_pos rfl]
  have hsz : (contents v m s fp).length = fp.objsize := contents_len h
  refine ⟨⟨?_, ?_, ?_, ?_⟩, hother, fun i hi => ?_, ?_⟩
  · rw [hsect, hf.size, hsz]
    exact Nat.mod_eq_of_lt h.small
  · rw [hsect, hf.first, h.sclust]
    exact head_lt hg h.toVolOk
  · have hfat : fat v x.1.disk = tab v s := by
      refine fat_eq fun n hn => hother n ?_ ?_ (fat1_not2 hn)
      · rintro rfl; exact hp.not1 hn
      · exact fun e => (hp.info _ e).2.1 hn
    rw [hfat]
    exact Spec.VolOk.chain h.toVolOk
  · rw [hsz]
    unfold contents
    congr 1
    refine flat_congr fun n hn => ?_
    have hown := h.secs_own hn
    rw [overlay_clean hc, hother n (by rintro rfl; exact hp.own hown) (fun e => (hp.info _ e).2.2.2 hown) (own_not2 hd hown)]
    unfold view
    rw [if_neg fun he => h.window n he hown]
  · rw [hsect, hf.kept i hi, h5]
  · rw [hsect, ← h5]
    exact hf.stamp hwin.2


/-- What `f_sync` of a changed file does. -/
structure Flushed (v : Vol) (a b : List (List Nat)) (pl : Place) (tm : Nat) (m data : List Nat) (s : St) (d' : Disk) : Prop where
  holds : HoldsIn v d' pl.sect pl.off m data
  other : ∀ n, n ≠ pl.sect → pl.info ≠ some n → ¬ Fat2 v n → ¬ OwnSect v (a ++ b).flatten n → d' n = view s n
  entry : ∀ i, i < pl.off ∨ pl.off + 32 ≤ i ∨ pl.off ≤ i ∧ Untouched (i - pl.off) → (d' pl.sect)[i]? = (view s pl.sect)[i]?
  stamp : Stamped (view s pl.sect) (d' pl.sect) pl.off tm

theorem repr_synced {v : Vol} {a b : List (List Nat)} {m : List Nat} {s t : St} {fp : File} {A : Arr} (h : Repr v a b m s fp A)
    (hv : VolOk v a b m t) (hs : SameData v (a ++ b).flatten s t) : Repr v a b m t { fp with modified := false } A := by
  refine ⟨⟨hv, h.sclust, h.buf, h.own, fun h1 h2 => ?_, h.size, h.small⟩, h.pos, h.clust, h.sect, h.noErr, ?_, h.at_⟩
  · show fp.buf = t.disk fp.sect
    rw [hs _ h2]
    exact h.clean h1 h2
  · rw [h.data, contents_fields (fp := fp) (s := t) (fp' := { fp with modified := false }) rfl rfl rfl rfl, contents_same h.toVolOk hs]

theorem clean_spec {v : Vol} (hg : Geo v) (hd : DataGeo v) {a b : List (List Nat)} {m : List Nat} {s : St} {fp : File} {A : Arr} {pl : Place} (h : Repr v a b m s fp A)
    (hc : fp.dirty = false) (hp : PlaceOk v (a ++ b).flatten pl) (tm : Nat) :
    ((syncEntry v pl tm s fp).res = FR_OK → Stored v pl tm m A.data (view s) (syncEntry v pl tm s fp).st.disk) ∧
    (Sound v → (syncEntry v pl tm s fp).res = FR_OK ∧ Repr v a b m (syncEntry v pl tm s fp).st (syncEntry v pl tm s fp).fp A ∧
      (syncEntry v pl tm s fp).st.wflag = false ∧ (syncEntry v pl tm s fp).fp = { fp with modified := false }) := by
  obtain ⟨h1, h2⟩ := entry_spec hg hd h.toBase hc hp tm
  rw [← h.data] at h1
  refine ⟨h1, fun hs => ?_⟩
  obtain ⟨h3, h4, h5, h6⟩ := h2 hs
  refine ⟨h3, ?_, h5, h6⟩
  rw [h6]
  refine repr_synced h h4 fun n hn => ?_
  rw [(h1 h3).other n (by rintro rfl; exact hp.own hn) (fun e => (hp.info _ e).2.2.2 hn) (own_not2 hd hn)]
  unfold view
  rw [if_neg fun he => h.window n he hn]

theorem fsync_spec {v : Vol} (hg : Geo v) (hd : DataGeo v) {a b : List (List Nat)} {m : List Nat} {s : St} {fp : File} {A : Arr} {pl : Place} (h : Repr v a b m s fp A)
    (hp : PlaceOk v (a ++ b).flatten pl) (tm : Nat) (hm : fp.modified = true) :
    ((fSync v pl tm s fp).res = FR_OK → Flushed v a b pl tm m A.data s (fSync v pl tm s fp).st.disk) ∧
    (Sound v → (fSync v pl tm s fp).res = FR_OK ∧ Repr v a b m (fSync v pl tm s fp).st (fSync v pl tm s fp).fp A ∧ (fSync v pl tm s fp).st.wflag = false ∧
      (fSync v pl tm s fp).fp = { fp with dirty := false, modified := false }) := by
  unfold fSync
  rw [if_pos hm]
  by_cases hdirty : fp.dirty = true
  · rw [if_pos hdirty]
    obtain ⟨b', p, ok, e, hb', h1, h2, hpp⟩ := write_disk v hg s fp.sect fp.buf h.buf
    have hown := h.own hdirty
    obtain ⟨hv, ho⟩ := vol_upd hg hd h.toVolOk hown hb' hpp (s.cnt + 1)
    rw [e]
    cases ok with
    | false => exact ⟨fun hr => absurd hr (by show FR_DISK_ERR ≠ FR_OK; decide), fun hs => absurd hs (h2 rfl)⟩
    | true =>
      obtain rfl := h1 rfl
      generalize ht : ({ s with disk := upd s.disk fp.sect fp.buf, past := p, cnt := s.cnt + 1 } : St) = t at hv ho ⊢
      have hov : ∀ n, t.disk n = overlay s fp n := fun n => by
        rw [← ht]
        unfold overlay upd
        simp [hdirty]
      have hr : Repr v a b m t { fp with dirty := false } A := by
        refine ⟨⟨hv, h.sclust, h.buf, (fun x => by cases x), fun _ _ => ?_, h.size, h.small⟩, h.pos, h.clust, h.sect, h.noErr, ?_, h.at_⟩
        · show fp.buf = t.disk fp.sect
          rw [← ht]
          exact (upd_same _ _ _).symm
        · rw [h.data]
          unfold contents
          congr 1
          refine flat_congr fun n _ => ?_
          rw [overlay_clean (fp := { fp with dirty := false }) rfl, hov]
      obtain ⟨h3, h4⟩ := clean_spec hg hd hr rfl hp tm
      refine ⟨fun hres => ?_, h4⟩
      have h5 := h3 hres
      have hview : ∀ n, ¬ OwnSect v (a ++ b).flatten n → view t n = view s n := by
        intro n hn
        rw [← ht]
        unfold view
        simp only
        split
        · rfl
        · exact upd_ne _ _ (by rintro rfl; exact hn hown)
      refine ⟨h5.holds, fun n n1 n2 n3 n4 => ?_, fun i hi => ?_, ?_⟩
      · rw [← hview n n4]
        exact h5.other n n1 n2 n3
      · rw [← hview _ hp.own]
        exact h5.entry i hi
      · rw [← hview _ hp.own]
        exact h5.stamp
  · rw [if_neg hdirty]
    have hc : fp.dirty = false := by
      cases hh : fp.dirty with
      | false => rfl
      | true => exact absurd hh hdirty
    obtain ⟨h3, h4⟩ := clean_spec hg hd h hc hp tm
    refine ⟨fun hres => ?_, fun hs => ⟨(h4 hs).1, (h4 hs).2.1, (h4 hs).2.2.1, ?_⟩⟩
    · have h5 := h3 hres
      exact ⟨h5.holds, fun n n1 n2 n3 _ => h5.other n n1 n2 n3, h5.entry, h5.stamp⟩
    · rw [(h4 hs).2.2.2]
      cases fp
      simp at hc ⊢
      exact hc

/-- Opening what the device holds. -/
theorem open_spec {v : Vol} (hg : Geo v) (hd : DataGeo v) {a b : List (List Nat)} {m data : List Nat} {s : St} {pl : Place} (h : VolOk v a b m s)
    (hp : PlaceOk v (a ++ b).flatten pl) (hh : HoldsIn v (view s) pl.sect pl.off m data) (rd wr : Bool) :
    (∃ t, fOpen v pl rd wr s = some (t, FR_DISK_ERR, none) ∧ ¬ Sound v) ∨
    (∃ t fp, fOpen v pl rd wr s = some (t, FR_OK, some fp) ∧ Repr v a b m t fp ⟨data, 0⟩ ∧ Others v a b s t ∧ fp.canRead = rd ∧ fp.canWrite = wr ∧
      fp.modified = false ∧ fp.dirty = false ∧ (s.wflag = false → t.wflag = false ∧ t.disk = s.disk)) := by
  unfold fOpen
  have hq : s.wflag = false → (moveWindow v s pl.sect).1.wflag = false ∧ (moveWindow v s pl.sect).1.disk = s.disk := by
    intro hf
    unfold moveWindow
    split
    · exact ⟨hf, rfl⟩
    · have e : syncWindow v s = (s, FR_OK) := by
        unfold syncWindow
        rw [hf]
        rfl
      rw [e, if_pos (rfl : FR_OK = FR_OK)]
      unfold fillWindow diskReadWin
      cases v.io s.cnt <;> exact ⟨hf, rfl⟩
  have htr := (move_spec hg h.inv hp.not2).2.2.2.2
  rcases move_entry hg h hp with ⟨h1, h2⟩ | ⟨h1, h2, h3, h4, h5⟩
  · rw [if_neg (by rw [h1]; decide), h1]
    exact .inl ⟨_, rfl, h2⟩
  · rw [if_pos h1]
    generalize (moveWindow v s pl.sect).1 = t at h2 h3 h4 h5 hq htr ⊢
    have hw := h2.inv.win
    have hl : pl.off + 32 ≤ t.win.length := by rw [hw.1]; exact hp.off
    obtain ⟨e2, l2⟩ := ld_dword (p := pl.off + 28) hw.2 (by omega)
    rw [ld_clust (v := v) hw.2 hl, Option.bind_some, e2, Option.bind_some]
    refine .inr ⟨t, _, rfl, ?_, others_fat h2.links (fun n _ hn => h3 n hn) (fun hs => (htr hs).near h3), rfl, rfl, rfl, rfl, hq⟩
    rw [h5, hh.first, hh.size]
    have hsmall : data.length < 2 ^ 32 := by
      have := hh.size
      rw [h5] at l2
      omega
    have hdata : ∀ n, n ∈ secs v m → view s n = t.disk n := by
      intro n hn
      have hown := h.secs_own hn
      rw [← h3 n (own_not2 hd hown)]
      unfold view
      rw [if_neg fun he => h2.window n he hown]
    have hbytes : ((secs v m).flatMap t.disk).take data.length = data := by
      rw [flat_congr (d := view s) (d' := t.disk) fun n hn => (hdata n hn).symm]
      exact hh.bytes
    have hroom : data.length ≤ m.length * (v.csize * v.ss) := by
      have := congrArg List.length hbytes
      rw [List.length_take, flat_length (S := v.ss) _ fun n _ => (h2.inv.disk n).1, secs_length, Nat.mul_assoc] at this
      omega
    refine ⟨⟨h2, rfl, ⟨List.length_replicate, fun x hx => ?_⟩, (fun x => by cases x), fun _ ho => ?_, hroom, hsmall⟩, Nat.zero_le _, fun h => absurd h (Nat.lt_irrefl 0),
      fun h => absurd (Nat.zero_mod _) h, rfl, ?_, rfl⟩
    · have := (List.mem_replicate.mp hx).2
      omega
    · exact absurd (own_data ho) (by have := hd.pos; show ¬ v.database ≤ 0; omega)
    · show data = ((secs v m).flatMap (overlay t _)).take data.length
      rw [flat_congr (d := t.disk) fun n _ => overlay_clean rfl n]
      exact hbytes.symm

end Fpm.FatSync
