import Verif.Fat.NearLemmas
import Verif.FatFile.ListLemmas
import Verif.FatFile.WindowLemmas
/-!
# Transfers of sectors and steps in the FAT keep the volume in order
-/
namespace Fpm.FatFile
open Fpm.Fat Fpm.Fat.Spec Fpm.FatFile.Spec

theorem csize_pos {v : Vol} (hd : DataGeo v) : 0 < v.csize := by
  obtain ⟨k, hk⟩ := hd.pow
  rw [hk]
  exact Nat.pow_pos (by decide)

theorem own_data {v : Vol} {o : List Nat} {n : Nat} (h : OwnSect v o n) : v.database ≤ n := by
  obtain ⟨c, -, hn⟩ := h
  rw [mem_sectors] at hn
  omega

theorem own_not1 {v : Vol} (hg : Geo v) (hd : DataGeo v) {o : List Nat} {n : Nat} (h : OwnSect v o n) : ¬ Fat1 v n := by
  have h1 := own_data h
  have h2 := hd.base
  rintro ⟨-, h3⟩
  rcases hg.nFats with h | h <;> rw [h] at h2 <;> omega

theorem own_not2 {v : Vol} (hd : DataGeo v) {o : List Nat} {n : Nat} (h : OwnSect v o n) : ¬ Fat2 v n := by
  have h1 := own_data h
  have h2 := hd.base
  rintro ⟨h, h3, h4⟩
  rw [h] at h2
  omega

theorem tab_congr {v : Vol} {s s' : St} (h : ∀ n, Fat1 v n → view s' n = view s n) : tab v s' = tab v s := by
  have e : area v (view s') = area v (view s) := by
    unfold area
    rw [List.flatMap_def, List.flatMap_def]
    congr 1
    refine List.map_congr_left fun i hi => h _ ?_
    have := List.mem_range.mp hi
    exact ⟨by omega, by omega⟩
  funext c
  unfold tab fat
  rw [e]

/-- The data of the file and of free clusters is the same. -/
def SameData (v : Vol) (o : List Nat) (s s' : St) : Prop := ∀ n, OwnSect v o n → s'.disk n = s.disk n

theorem SameData.refl (v : Vol) (o : List Nat) (s : St) : SameData v o s s := fun _ _ => rfl
theorem SameData.trans {v : Vol} {o : List Nat} {s t u : St} (h : SameData v o s t) (h' : SameData v o t u) : SameData v o s u := fun n hn => (h' n hn).trans (h n hn)

theorem Spec.Spare.refl (v : Vol) (a b : List (List Nat)) (d : Disk) : Spare v a b d d := ⟨fun _ _ h => h, fun _ _ _ _ => rfl⟩
theorem Spec.Spare.trans {v : Vol} {a b : List (List Nat)} {d e f : Disk} (h : Spare v a b d e) (h' : Spare v a b e f) : Spare v a b d f :=
  ⟨fun l hl z => h'.1 l hl (h.1 l hl z), fun n h1 h2 h3 => (h'.2 n h1 h2 h3).trans (h.2 n h1 h2 h3)⟩

theorem Spec.Spare.mono {v : Vol} {a b a' b' : List (List Nat)} {d e : Disk} (hsub : ∀ l ∈ a' ++ b', l ∈ a ++ b) (h : Spare v a b d e) : Spare v a' b' d e := by
  refine ⟨fun l hl => h.1 l (hsub l hl), fun n h1 h2 h3 => h.2 n h1 h2 ?_⟩
  rintro ⟨c, ⟨c1, c2, c3⟩, c4⟩
  refine h3 ⟨c, ⟨c1, c2, fun z => c3 ?_⟩, c4⟩
  obtain ⟨l, hl, hc⟩ := List.mem_flatten.mp z
  exact List.mem_flatten.mpr ⟨l, hsub l hl, hc⟩

theorem Spec.Others.beside {v : Vol} {a b : List (List Nat)} {s s' : St} (h : Others v a b s s') : Beside v a b s s' := ⟨h.1, h.2.1⟩

/-- For fewer others. -/
theorem Spec.Others.mono {v : Vol} {a b a' b' : List (List Nat)} {s s' : St} (hsub : ∀ l ∈ a' ++ b', l ∈ a ++ b) (h : Others v a b s s') : Others v a' b' s s' := by
  refine ⟨fun l hl => h.1 l (hsub l hl), fun n h1 h2 h3 => h.2.1 n h1 h2 ?_, fun hs => ⟨fun d hd => ((h.2.2 hs).1 d hd).imp id (Or.imp (.mono hsub) (.mono hsub)), (h.2.2 hs).2.imp (.mono hsub) (.mono hsub)⟩⟩
  rintro ⟨c, ⟨c1, c2, c3⟩, c4⟩
  refine h3 ⟨c, ⟨c1, c2, fun z => c3 ?_⟩, c4⟩
  obtain ⟨l, hl, hc⟩ := List.mem_flatten.mp z
  exact List.mem_flatten.mpr ⟨l, hsub l hl, hc⟩

theorem Spec.Others.refl {v : Vol} {a b : List (List Nat)} {m : List Nat} {s : St} (h : VolOk v a b m s) : Others v a b s s := by
  refine ⟨fun l hl => h.chains.chain l ?_, fun _ _ _ _ => rfl, fun _ => ⟨fun _ h => .inl h, .inl (.refl _ _ _ _)⟩⟩
  unfold withRest
  split
  · exact hl
  · simp only [List.mem_append, List.mem_cons] at hl ⊢
    rcases hl with h | h
    · exact .inl h
    · exact .inr (.inr h)

theorem Spec.Others.trans {v : Vol} {a b : List (List Nat)} {s t u : St} (h : Others v a b s t) (h' : Others v a b t u) : Others v a b s u := by
  refine ⟨h'.1, fun n h1 h2 h3 => (h'.2.1 n h1 h2 h3).trans (h.2.1 n h1 h2 h3), fun hs => ?_⟩
  have hv : Spare v a b (view s) (view t) := ⟨fun l hl _ => h.1 l hl, h.2.1⟩
  have ha : ∀ d, After v a b t d → After v a b s d := by
    rintro d (h1 | h1)
    · exact (h.2.2 hs).2.imp (·.trans h1) (·.trans h1)
    · exact .inr (hv.trans h1)
  refine ⟨fun d hd => ?_, ha _ (h'.2.2 hs).2⟩
  rcases (h'.2.2 hs).1 d hd with h1 | h1
  · exact (h.2.2 hs).1 d h1
  · exact .inr (ha d h1)

/-- The call failed because of the device; the file is marked, other files are intact. -/
def Failed (v : Vol) (a b : List (List Nat)) (s : St) (o : Out) : Prop := ¬ Sound v ∧ o.res ≠ 0 ∧ o.fp.err = o.res ∧ Others v a b s o.st

theorem failed_abort {v : Vol} {a b : List (List Nat)} {s s' : St} {fp : File} (hs : ¬ Sound v) (ho : Others v a b s s') : Failed v a b s (abort s' fp FR_DISK_ERR) :=
  ⟨hs, (by decide : FR_DISK_ERR ≠ 0), rfl, ho⟩

theorem Failed.mono {v : Vol} {a b : List (List Nat)} {s t : St} {o : Out} (h : Others v a b s t) (hf : Failed v a b t o) : Failed v a b s o :=
  ⟨hf.1, hf.2.1, hf.2.2.1, h.trans hf.2.2.2⟩

/-- A step of the FAT. -/
theorem vol_fat {v : Vol} (hg : Geo v) (hd : DataGeo v) {a b : List (List Nat)} {m m' : List Nat} {s s' : St} (h : VolOk v a b m s) (hi : Inv v s')
    (ho : ∀ n, ¬ Fat1 v n → ¬ Fat2 v n → view s' n = view s n) (hst : Stays v s s') (hc : Chains v.nFatent (tab v s') (withRest a m' b)) (hk : CountOk v s') :
    VolOk v a b m' s' ∧ SameData v (a ++ b).flatten s s' := by
  have hw : ∀ n, s'.winsect = some n → ¬ OwnSect v (a ++ b).flatten n := by
    intro n hn
    rcases hst n hn with h1 | h1
    · exact h.window n h1
    · exact fun h2 => own_not1 hg hd h2 h1
  refine ⟨⟨hi, hc, hk, hw⟩, fun n hn => ?_⟩
  have := ho n (own_not1 hg hd hn) (own_not2 hd hn)
  unfold view at this
  rwa [if_neg fun h1 => hw n h1 hn, if_neg fun h1 => h.window n h1 hn] at this

theorem others_fat {v : Vol} {a b : List (List Nat)} {s s' : St} (hl : ∀ l ∈ a ++ b, Links v.nFatent (tab v s') l)
    (ho : ∀ n, ¬ Fat1 v n → ¬ Fat2 v n → view s' n = view s n) (hn : Sound v → Fat.Near v (a ++ b).flatten s s') : Others v a b s s' := by
  have hk : ∀ d, Like v (a ++ b).flatten (view s) d → Spare v a b (view s) d := fun d h =>
    ⟨fun l hl z => links_congr z fun c hc => h.2 c (List.mem_flatten.mpr ⟨l, hl, hc⟩), fun n h1 h2 _ => h.1 n h1 h2⟩
  refine ⟨hl, fun n h1 h2 _ => ho n h1 h2, fun hs => ⟨fun d hd => ((hn hs).1 d hd).imp id fun h => .inr (hk d h), ?_⟩⟩
  rcases (hn hs).2.1 with h | h
  · rw [h]; exact .inl (.refl _ _ _ _)
  · exact .inr (hk _ h)

theorem Spec.VolOk.links {v : Vol} {a b : List (List Nat)} {m : List Nat} {s : St} (h : VolOk v a b m s) : ∀ l ∈ a ++ b, Links v.nFatent (tab v s) l := (Others.refl h).1

theorem Spec.VolOk.mem {v : Vol} {a b : List (List Nat)} {m : List Nat} {s : St} (h : VolOk v a b m s) {c : Nat} (hc : c ∈ m) : Own v (a ++ b).flatten c := by
  have hm : m ≠ [] := by rintro rfl; cases hc
  have hch := h.chains
  unfold withRest at hch
  rw [if_neg hm] at hch
  have hr := links_mem (hch.chain m (by simp)) c hc
  refine ⟨hr.1, hr.2, fun hab => ?_⟩
  have hnd := hch.nodup
  rw [flatten_mid, List.nodup_append] at hnd
  obtain ⟨-, hnd2, hd⟩ := hnd
  rw [List.nodup_append] at hnd2
  rw [List.flatten_append] at hab
  rcases List.mem_append.mp hab with h1 | h1
  · exact hd c h1 c (by simp [hc]) rfl
  · exact hnd2.2.2 c hc c h1 rfl

theorem Spec.VolOk.nodup {v : Vol} {a b : List (List Nat)} {m : List Nat} {s : St} (h : VolOk v a b m s) : m.Nodup := by
  by_cases hm : m = []
  · subst hm; exact List.nodup_nil
  · have hch := h.chains
    unfold withRest at hch
    rw [if_neg hm] at hch
    exact chain_nodup hch

theorem Spec.VolOk.uniq {v : Vol} (hd : DataGeo v) {a b : List (List Nat)} {m : List Nat} {s : St} (h : VolOk v a b m s) : Uniq (secs v m) :=
  secs_uniq (csize_pos hd) h.nodup fun _ hc => (h.mem hc).1

theorem Spec.VolOk.secs_own {v : Vol} {a b : List (List Nat)} {m : List Nat} {s : St} (h : VolOk v a b m s) {n : Nat} (hn : n ∈ secs v m) : OwnSect v (a ++ b).flatten n := by
  obtain ⟨c, hc, hn⟩ := secs_mem hn
  exact ⟨c, h.mem hc, hn⟩

/-- What a write does. -/
theorem write_disk (v : Vol) (hg : Geo v) (s : St) (n : Nat) (b : List Nat) (hb : Sec v b) :
    ∃ b' p ok, diskWrite v s n b = ({ s with disk := upd s.disk n b', past := p, cnt := s.cnt + 1 }, ok) ∧ Sec v b' ∧ (ok = true → b' = b) ∧ (ok = false → ¬ Sound v) ∧ p = s.disk :: s.past := by
  unfold diskWrite
  cases hio : v.io s.cnt with
  | ok => exact ⟨b, _, true, rfl, hb, (fun _ => rfl), (fun h => by cases h), rfl⟩
  | fail j =>
    refine ⟨j, _, false, rfl, hg.junk _ _ hio, (fun h => by cases h), fun _ hs => ?_, rfl⟩
    rw [hs] at hio
    cases hio

/-- Changing a sector of the file. -/
theorem vol_upd {v : Vol} (hg : Geo v) (hd : DataGeo v) {a b : List (List Nat)} {m : List Nat} {s : St} (h : VolOk v a b m s) {n : Nat} (hn : OwnSect v (a ++ b).flatten n)
    {x : List Nat} (hx : Sec v x) {p : List Disk} (hp : p = s.disk :: s.past) (k : Nat) :
    VolOk v a b m { s with disk := upd s.disk n x, past := p, cnt := k } ∧ Others v a b s { s with disk := upd s.disk n x, past := p, cnt := k } := by
  have hv : ∀ y, y ≠ n → view { s with disk := upd s.disk n x, past := p, cnt := k } y = view s y := by
    intro y hy
    unfold view
    simp only
    split
    · rfl
    · exact upd_ne _ _ hy
  have ht : tab v { s with disk := upd s.disk n x, past := p, cnt := k } = tab v s := tab_congr fun y hy => hv y (by rintro rfl; exact own_not1 hg hd hn hy)
  have hok : VolOk v a b m { s with disk := upd s.disk n x, past := p, cnt := k } := by
    refine ⟨⟨sec_upd h.inv.disk hx n, h.inv.win, fun hf y hy => ?_, h.inv.dirty, h.inv.fat2⟩, ?_, ?_, h.window⟩
    · show s.win = upd s.disk n x y
      rw [upd_ne]
      · exact h.inv.clean hf y hy
      · rintro rfl
        exact h.window y hy hn
    · rw [ht]; exact h.chains
    · unfold CountOk; rw [ht]; exact h.count
  have hsp : Spare v a b s.disk (upd s.disk n x) := by
    have hu : ∀ y, ¬ OwnSect v (a ++ b).flatten y → upd s.disk n x y = s.disk y := fun y hy => upd_ne _ _ (by rintro rfl; exact hy hn)
    have hf : fat v (upd s.disk n x) = fat v s.disk := by
      have e : area v (upd s.disk n x) = area v s.disk := by
        unfold area
        refine flatMap_congr' fun i hi => hu _ fun z => own_not1 hg hd z ⟨Nat.le_add_right _ _, ?_⟩
        have := List.mem_range.mp hi
        omega
      funext c
      unfold fat
      rw [e]
    exact ⟨fun l _ z => by rw [hf]; exact z, fun y _ _ hy => hu y hy⟩
  refine ⟨hok, hok.links, fun y _ _ hy => hv y ?_, fun _ => ⟨fun d hdd => ?_, .inl hsp⟩⟩
  · rintro rfl
    exact hy hn
  · rcases List.mem_cons.mp hdd with rfl | z
    · exact .inr (.inl hsp)
    · rw [hp] at z
      exact .inl z

/-- A read changes nothing. -/
theorem vol_cnt {v : Vol} {a b : List (List Nat)} {m : List Nat} {s : St} (h : VolOk v a b m s) (k : Nat) : VolOk v a b m { s with cnt := k } ∧ Others v a b s { s with cnt := k } := by
  have : VolOk v a b m { s with cnt := k } := ⟨⟨h.inv.disk, h.inv.win, h.inv.clean, h.inv.dirty, h.inv.fat2⟩, h.chains, h.count, h.window⟩
  exact ⟨this, this.links, fun _ _ _ _ => rfl, fun _ => ⟨fun _ h => .inl h, .inl (.refl _ _ _ _)⟩⟩

theorem read_disk (v : Vol) (hg : Geo v) (s : St) (n : Nat) (hd : ∀ n, Sec v (s.disk n)) :
    ∃ b ok, diskRead v s n = ({ s with cnt := s.cnt + 1 }, b, ok) ∧ Sec v b ∧ (ok = true → b = s.disk n) ∧ (ok = false → ¬ Sound v) := by
  unfold diskRead
  cases hio : v.io s.cnt with
  | ok => exact ⟨_, true, rfl, hd n, (fun _ => rfl), (fun h => by cases h)⟩
  | fail j =>
    refine ⟨j, false, rfl, hg.junk _ _ hio, (fun h => by cases h), fun _ hs => ?_⟩
    rw [hs] at hio
    cases hio

/-- Writing back. -/
theorem flush_spec {v : Vol} (hg : Geo v) (hd : DataGeo v) {a b : List (List Nat)} {m : List Nat} {s : St} {fp : File} (h : Base v a b m s fp) {P : Out → Prop}
    {k : St → File → Out} (hf : ∀ o, Failed v a b s o → P o)
    (hk : ∀ s', Base v a b m s' { fp with dirty := false } → (∀ n, s'.disk n = overlay s fp n) → Others v a b s s' → P (k s' { fp with dirty := false })) :
    P (flush v s fp k) := by
  unfold flush
  by_cases hdirty : fp.dirty = true
  · rw [if_pos hdirty]
    obtain ⟨b', p, ok, e, hb', h1, h2, hp⟩ := write_disk v hg s fp.sect fp.buf h.buf
    obtain ⟨hv, ho⟩ := vol_upd hg hd h.toVolOk (h.own hdirty) hb' hp (s.cnt + 1)
    rw [e]
    cases ok with
    | false => exact hf _ (failed_abort (h2 rfl) ho)
    | true =>
      obtain rfl := h1 rfl
      refine hk _ ⟨hv, h.sclust, h.buf, (fun x => by cases x), fun _ _ => ?_, h.size, h.small⟩ (fun n => ?_) ho
      · exact (upd_same _ _ _).symm
      · unfold overlay upd
        simp [hdirty]
  · rw [if_neg hdirty]
    have e : fp = { fp with dirty := false } := by
      cases fp
      simp at hdirty ⊢
      exact hdirty
    rw [← e] at hk
    refine hk s h (fun n => ?_) (.refl h.toVolOk)
    unfold overlay
    simp [hdirty]

/-- Filling the buffer. -/
theorem fill_spec {v : Vol} (hg : Geo v) {a b : List (List Nat)} {m : List Nat} {s : St} {fp : File} (h : Base v a b m s fp) (hc : fp.dirty = false) {P : Out → Prop}
    {k : St → File → Out} {sect : Nat} (hf : ∀ o, Failed v a b s o → P o)
    (hk : ∀ s', Base v a b m s' { fp with buf := s.disk sect, sect := sect } → s'.disk = s.disk → Others v a b s s' → P (k s' { fp with buf := s.disk sect, sect := sect })) :
    P (fill v s fp sect k) := by
  unfold fill
  obtain ⟨x, ok, e, hx, h1, h2⟩ := read_disk v hg s sect h.inv.disk
  obtain ⟨hv, ho⟩ := vol_cnt h.toVolOk (s.cnt + 1)
  rw [e]
  cases ok with
  | false => exact hf _ (failed_abort (h2 rfl) ho)
  | true =>
    obtain rfl := h1 rfl
    refine hk _ ⟨hv, h.sclust, h.inv.disk sect, (fun x => ?_), (fun _ _ => rfl), h.size, h.small⟩ rfl ho
    rw [hc] at x
    cases x

/-- Reading several sectors. -/
theorem readN_spec {v : Vol} (hg : Geo v) {a b : List (List Nat)} {m : List Nat} : ∀ (k : Nat) {s : St} (_ : VolOk v a b m s) (sect : Nat),
    ∃ s' d ok, diskReadN v s sect k = (s', d, ok) ∧ VolOk v a b m s' ∧ s'.disk = s.disk ∧ Others v a b s s' ∧
      (ok = true → d = (List.range k).flatMap fun j => s.disk (sect + j)) ∧ (ok = false → ¬ Sound v)
  | 0, s, h, sect => ⟨s, [], true, rfl, h, rfl, .refl h, (fun _ => rfl), (fun h => by cases h)⟩
  | k + 1, s, h, sect => by
    obtain ⟨x, ok, e, hx, h1, h2⟩ := read_disk v hg s sect h.inv.disk
    obtain ⟨hv, ho⟩ := vol_cnt h (s.cnt + 1)
    obtain ⟨s', d, ok', e', hv', hd', ho', h1', h2'⟩ := readN_spec hg k hv (sect + 1)
    refine ⟨s', x ++ d, ok && ok', ?_, hv', hd', ho.trans ho', fun hh => ?_, fun hh => ?_⟩
    · unfold diskReadN
      rw [e]
      simp only
      rw [e']
    · rw [Bool.and_eq_true] at hh
      rw [h1 hh.1, h1' hh.2, List.range_succ_eq_map, List.flatMap_cons, List.flatMap_map]
      congr 1
      rw [List.flatMap_def, List.flatMap_def]
      congr 1
      refine List.map_congr_left fun j _ => ?_
      simp only [Nat.succ_eq_add_one, Nat.add_assoc, Nat.add_comm 1 j]
    · cases ok with
      | false => exact h2 rfl
      | true => exact h2' (by simpa using hh)

/-- Writing several sectors of the file. -/
theorem writeN_spec {v : Vol} (hg : Geo v) (hd : DataGeo v) {a b : List (List Nat)} {m : List Nat} : ∀ (k : Nat) {s : St} (_ : VolOk v a b m s) (sect : Nat) (x : List Nat)
    (_ : k * v.ss ≤ x.length) (_ : ∀ y ∈ x, y < 256) (_ : ∀ j, j < k → OwnSect v (a ++ b).flatten (sect + j)),
    ∃ s' ok, diskWriteN v s sect x k = (s', ok) ∧ VolOk v a b m s' ∧ Others v a b s s' ∧
      (ok = true → ∀ n, s'.disk n = if sect ≤ n ∧ n - sect < k then (x.drop ((n - sect) * v.ss)).take v.ss else s.disk n) ∧ (ok = false → ¬ Sound v)
  | 0, s, h, sect, x, _, _, _ => ⟨s, true, rfl, h, .refl h, (fun _ n => by rw [if_neg (by omega)]), (fun h => by cases h)⟩
  | k + 1, s, h, sect, x, hl, hx, hown => by
    rw [Nat.succ_mul] at hl
    have hsec : Sec v (x.take v.ss) := ⟨by rw [List.length_take]; omega, fun y hy => hx y (List.mem_of_mem_take hy)⟩
    obtain ⟨b', p, ok, e, hb', h1, h2, hp⟩ := write_disk v hg s sect (x.take v.ss) hsec
    obtain ⟨hv, ho⟩ := vol_upd (n := sect) hg hd h (hown 0 (by omega)) hb' hp (s.cnt + 1)
    obtain ⟨s', ok', e', hv', ho', h1', h2'⟩ := writeN_spec hg hd k hv (sect + 1) (x.drop v.ss) (by rw [List.length_drop]; omega) (fun y hy => hx y (List.mem_of_mem_drop hy))
      (fun j hj => by have := hown (j + 1) (by omega); rwa [Nat.add_comm j 1, ← Nat.add_assoc] at this)
    refine ⟨s', ok && ok', ?_, hv', ho.trans ho', fun hh n => ?_, fun hh => ?_⟩
    · unfold diskWriteN
      rw [e]
      simp only
      rw [e']
    · rw [Bool.and_eq_true] at hh
      rw [h1' hh.2]
      obtain rfl := h1 hh.1
      by_cases h3 : sect + 1 ≤ n ∧ n - (sect + 1) < k
      · rw [if_pos h3, if_pos (by omega), List.drop_drop]
        congr 2
        rw [show n - sect = (n - (sect + 1)) + 1 from by omega, Nat.add_mul]
        omega
      · rw [if_neg h3]
        simp only
        by_cases h4 : n = sect
        · subst h4
          rw [upd_same, if_pos (by omega)]
          simp
        · rw [upd_ne _ _ h4, if_neg (by omega)]
    · cases ok with
      | false => exact h2 rfl
      | true => exact h2' (by simpa using hh)

end Fpm.FatFile
