import Verif.FatFile.PowerProps
import Verif.FatSync.Props
/-!
# The device while `f_sync` works
-/
namespace Fpm.FatSync
open Fpm.Fat Fpm.Fat.Spec Fpm.FatFile Fpm.FatFile.Spec Fpm.FatSync.Spec

theorem info_times (v : Vol) (info : Option Nat) (s : St) : ∀ d ∈ (syncInfo v info s).1.disk :: (syncInfo v info s).1.past, d ∈ s.disk :: s.past ∨ ∀ n, info ≠ some n → d n = s.disk n := by
  have plain : ∀ t : St, ∀ d ∈ (settle v t).1.disk :: (settle v t).1.past, d ∈ t.disk :: t.past := by
    intro t d hd
    rw [(settle_spec v t).1] at hd
    exact hd
  unfold syncInfo
  split
  · exact fun d hd => .inl (plain s d hd)
  · rename_i n w _ _
    split
    · intro d hd
      have hd := plain _ d hd
      unfold putInfo diskWrite at hd
      cases hio : v.io s.cnt <;> rw [hio] at hd <;> simp only [List.mem_cons] at hd <;> rcases hd with rfl | rfl | hd
      · exact .inr fun y hy => upd_ne _ _ (fun e => hy (by rw [e]))
      · exact .inl (by simp)
      · exact .inl (by simp [hd])
      · exact .inr fun y hy => upd_ne _ _ (fun e => hy (by rw [e]))
      · exact .inl (by simp)
      · exact .inl (by simp [hd])
    · exact fun d hd => .inl (plain s d hd)
  · split
    · exact fun d hd => .inl hd
    · exact fun d hd => .inl (plain s d hd)

/-- What is on the device while `sync_fs` works. -/
theorem fs_times {v : Vol} (hg : Geo v) (hs : Sound v) (info : Option Nat) {s : St} (hi : Inv v s) :
    ∀ d ∈ (syncFs v info s).1.disk :: (syncFs v info s).1.past, d ∈ s.disk :: s.past ∨ ∀ n, ¬ Fat2 v n → info ≠ some n → d n = view s n := by
  obtain ⟨h1, h2, h3, h4, h5, h6⟩ := sync_spec hg hi
  have h6 := (h6 hs).1
  obtain ⟨h5, h7⟩ := h5.resolve_right fun h => h.2 hs
  unfold syncFs
  rw [if_pos h5]
  generalize (syncWindow v s).1 = t at *
  intro d hd
  rcases info_times v info t d hd with h | h
  · exact (h6 d h).imp id fun h n hn _ => h n hn
  · refine .inr fun n hn hin => ?_
    rw [h n hin, ← view_clean h1 h7 n, h2 n hn]

/-- Storing the entry, at all times. -/
theorem entry_times {v : Vol} (hg : Geo v) (hd : DataGeo v) (hs : Sound v) {a b : List (List Nat)} {m : List Nat} {s : St} {fp : File} {pl : Place} (h : Base v a b m s fp)
    (hc : fp.dirty = false) (hp : PlaceOk v (a ++ b).flatten pl) (tm : Nat) :
    ∀ d ∈ (syncEntry v pl tm s fp).st.disk :: (syncEntry v pl tm s fp).st.past, d ∈ s.disk :: s.past ∨ After v a b s d ∨ Stored v pl tm m (contents v m s fp) (view s) d := by
  unfold syncEntry
  have htr := (move_spec hg h.inv hp.not2).2.2.2.2 hs
  rcases move_entry hg h.toVolOk hp with ⟨h1, h2⟩ | ⟨h1, h2, h3, h4, h5⟩
  · exact absurd hs h2
  rw [if_pos h1]
  generalize (moveWindow v s pl.sect).1 = t at h2 h3 h4 h5 htr ⊢
  have hoth : Others v a b s t := others_fat h2.links (fun n _ hn => h3 n hn) fun _ => htr.near h3
  have hwin := h2.inv.win
  obtain ⟨w, hw, hf⟩ := fill_ok (v := v) (w := t.win) (off := pl.off) (by rw [hwin.1]; exact hp.off) fp tm
  have hws : Sec v w := ⟨hf.len.trans hwin.1, hf.byte hwin.2⟩
  obtain ⟨h6, h7⟩ := vol_set h2 h4 hp.not1 hws
  unfold storeEntry
  rw [hw]
  intro d hdd
  rcases fs_times hg hs pl.info h6.inv d hdd with h8 | h8
  · change d ∈ t.disk :: t.past at h8
    exact ((hoth.2.2 hs).1 d h8).imp id .inl
  refine .inr (.inr ?_)
  have hother : ∀ n, n ≠ pl.sect → pl.info ≠ some n → ¬ Fat2 v n → d n = view s n := by
    intro n hn1 hn2 hn3
    rw [h8 n hn3 hn2, h7, if_neg hn1, h3 n hn3]
  have hsect : d pl.sect = w := by
    rw [h8 _ hp.not2 fun e => (hp.info _ e).1 rfl, h7, if_pos rfl]
  have hsz : (contents v m s fp).length = fp.objsize := contents_len h
  refine ⟨⟨?_, ?_, ?_, ?_⟩, hother, fun i hi => ?_, ?_⟩
  · rw [hsect, hf.size, hsz]
    exact Nat.mod_eq_of_lt h.small
  · rw [hsect, hf.first, h.sclust]
    exact head_lt hg h.toVolOk
  · have hfat : fat v d = tab v s := by
      refine fat_eq fun n hn => hother n ?_ ?_ (fat1_not2 hn)
      · rintro rfl; exact hp.not1 hn
      · exact fun e => (hp.info _ e).2.1 hn
    rw [hfat]
    exact Spec.VolOk.chain h.toVolOk
  · rw [hsz]
    unfold contents
    congr 1
    refine flat_congr fun n hn => ?_
    have hown := h.secs_own hn
    rw [overlay_clean hc, hother n (by rintro rfl; exact hp.own hown) (fun e => (hp.info _ e).2.2.2 hown) (own_not2 hd hown)]
    unfold view
    rw [if_neg fun he => h.window n he hown]
  · rw [hsect, hf.kept i hi, h5]
  · rw [hsect, ← h5]
    exact hf.stamp hwin.2

/-- `f_sync` of a changed file, at all times. -/
theorem fsync_times {v : Vol} (hg : Geo v) (hd : DataGeo v) (hs : Sound v) {a b : List (List Nat)} {m : List Nat} {s : St} {fp : File} {A : Arr} {pl : Place} (h : Repr v a b m s fp A)
    (hp : PlaceOk v (a ++ b).flatten pl) (tm : Nat) :
    ∀ d ∈ (fSync v pl tm s fp).st.disk :: (fSync v pl tm s fp).st.past, d ∈ s.disk :: s.past ∨ After v a b s d ∨ Flushed v a b pl tm m A.data s d := by
  unfold fSync
  by_cases hm : fp.modified = true
  rotate_left
  · rw [if_neg hm]
    exact fun d hd => .inl hd
  rw [if_pos hm]
  by_cases hdirty : fp.dirty = true
  · rw [if_pos hdirty]
    obtain ⟨b', p, ok, e, hb', h1, h2, hpp⟩ := write_disk v hg s fp.sect fp.buf h.buf
    have hown := h.own hdirty
    obtain ⟨hv, ho⟩ := vol_upd hg hd h.toVolOk hown hb' hpp (s.cnt + 1)
    rw [e]
    cases ok with
    | false => exact absurd hs (h2 rfl)
    | true =>
      obtain rfl := h1 rfl
      generalize ht : ({ s with disk := upd s.disk fp.sect fp.buf, past := p, cnt := s.cnt + 1 } : St) = t at hv ho ⊢
      have hov : ∀ n, t.disk n = overlay s fp n := fun n => by
        rw [← ht]
        unfold overlay upd
        simp [hdirty]
      have hr : Base v a b m t { fp with dirty := false } := by
        refine ⟨hv, h.sclust, h.buf, (fun x => by cases x), fun _ _ => ?_, h.size, h.small⟩
        show fp.buf = t.disk fp.sect
        rw [← ht]
        exact (upd_same _ _ _).symm
      have hcon : contents v m t { fp with dirty := false } = A.data := by
        rw [h.data]
        unfold contents
        congr 1
        refine flat_congr fun n _ => ?_
        rw [overlay_clean (fp := { fp with dirty := false }) rfl, hov]
      have hview : ∀ n, ¬ OwnSect v (a ++ b).flatten n → view t n = view s n := by
        intro n hn
        rw [← ht]
        unfold view
        simp only
        split
        · rfl
        · exact upd_ne _ _ (by rintro rfl; exact hn hown)
      intro d hdd
      rcases entry_times hg hd hs hr rfl hp tm d hdd with h3 | h3 | h5
      · exact ((ho.2.2 hs).1 d h3).imp id .inl
      · refine .inr (.inl ?_)
        rcases h3 with h3 | h3
        · exact (ho.2.2 hs).2.imp (·.trans h3) (·.trans h3)
        · exact .inr (Spare.trans ⟨fun l hl _ => ho.1 l hl, ho.2.1⟩ h3)
      · rw [hcon] at h5
        refine .inr (.inr ⟨h5.holds, fun n n1 n2 n3 n4 => ?_, fun i hi => ?_, ?_⟩)
        · rw [← hview n n4]
          exact h5.other n n1 n2 n3
        · rw [← hview _ hp.own]
          exact h5.entry i hi
        · rw [← hview _ hp.own]
          exact h5.stamp
  · rw [if_neg hdirty]
    have hc : fp.dirty = false := by
      cases hh : fp.dirty with
      | false => rfl
      | true => exact absurd hh hdirty
    intro d hdd
    rcases entry_times hg hd hs h.toBase hc hp tm d hdd with h3 | h3 | h5
    · exact .inl h3
    · exact .inr (.inl h3)
    · rw [← h.data] at h5
      exact .inr (.inr ⟨h5.holds, fun n n1 n2 n3 _ => h5.other n n1 n2 n3, h5.entry, h5.stamp⟩)

end Fpm.FatSync
