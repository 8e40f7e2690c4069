import Verif.Fat.FatLemmas
/-!
# C50: FAT entries are independent, C71: the second FAT is a copy of the first
-/
namespace Fpm.Fat
open Fpm.Fat.Spec Fpm.FatBytes

/-! ## C50 -/

/-- **C50**, reading.  On every volume, in every consistent state, for every cluster: `get_fat` gives its entry, or the error value if the
device failed; what the program sees of the device (except the copy of the FAT) stays as it was. -/
theorem C50_get (v : Vol) (hg : Geo v) (s : St) (hi : Inv v s) (c : Nat) (h2 : 2 ≤ c) (hc : c < v.nFatent) :
    ((getFat v s c).2 = fat v (view s) c ∨ (getFat v s c).2 = 0xFFFFFFFF ∧ ¬ Sound v) ∧
    Inv v (getFat v s c).1 ∧ ∀ n, ¬ Fat2 v n → view (getFat v s c).1 n = view s n := by
  obtain ⟨s', r, h, i, sm, -, -, hr⟩ := getFat_spec hg hi h2 hc
  rw [h]
  exact ⟨hr, i, sm⟩

/-- **C50**, writing.  `put_fat` sets the entry to the value, cut to the width of the entry, keeps the reserved bits, all other entries with
their reserved bits, and all sectors outside of the FATs.  If the device fails, it says so, and all this is still true
except for the entry itself. -/
theorem C50_put (v : Vol) (hg : Geo v) (s : St) (hi : Inv v s) (c val : Nat) (h2 : 2 ≤ c) (hc : c < v.nFatent) :
    ((putFat v s c val).2 = 0 ∧ fat v (view (putFat v s c val).1) c = val % 2 ^ bits v ∧
        reserved v (view (putFat v s c val).1) c = reserved v (view s) c ∨
      (putFat v s c val).2 = 1 ∧ ¬ Sound v) ∧
    Inv v (putFat v s c val).1 ∧
    (∀ c', c' ≠ c → c' < v.nFatent → entry (width v) (area v (view (putFat v s c val).1)) c' = entry (width v) (area v (view s)) c') ∧
    (∀ n, ¬ Fat1 v n → ¬ Fat2 v n → view (putFat v s c val).1 n = view s n) := by
  obtain ⟨s', r, h, i, -, -, hr⟩ := putFat_spec (val := val) hg hi h2 hc
  rw [h]
  have hb := bytes_of hg hi
  have hb' := bytes_of hg i
  rcases hr with ⟨rfl, hp⟩ | ⟨rfl, hs, ho, hn, -⟩
  · refine ⟨.inl ⟨rfl, ?_, ?_⟩, i, fun c' hne hc' => ?_, hp.out⟩
    · show fat v (view s') c = _
      rw [fat, entry_eq hg hb' hc, hp.same, Nat.add_mul_mod_self_left, Nat.mod_mod]
    · show reserved v (view s') c = _
      rw [reserved, reserved, entry_eq hg hb' hc, entry_eq hg hb hc, hp.same, Nat.add_mul_div_left _ _ (Nat.pow_pos (by decide)),
        Nat.div_eq_of_lt (Nat.mod_lt _ (Nat.pow_pos (by decide))), Nat.zero_add]
    · show entry (width v) (area v (view s')) c' = _
      rw [entry_eq hg hb' hc', entry_eq hg hb hc', hp.other c' hne hc']
  · refine ⟨.inr ⟨rfl, hs⟩, i, fun c' hne hc' => ?_, ho⟩
    show entry (width v) (area v (view s')) c' = _
    rw [entry_eq hg hb' hc', entry_eq hg hb hc', hn c' hne hc']

/-- **C50**, range.  Other numbers are refused, and nothing happens. -/
theorem C50_range (v : Vol) (s : St) (c val : Nat) (h : c < 2 ∨ c ≥ v.nFatent) : getFat v s c = (s, 1) ∧ putFat v s c val = (s, FR_INT_ERR) := by
  unfold getFat putFat
  rw [if_pos h, if_pos h]
  exact ⟨rfl, rfl⟩

/-! ## C71 -/

/-- All sectors of the first FAT, except one that is waiting in the window, have been copied. -/
def Spec.Mirrored (v : Vol) (s : St) : Prop :=
  ∀ n, Fat1 v n → ¬ (s.wflag = true ∧ s.winsect = some n) → s.disk (n + v.fsize) = s.disk n

/-- The claim: if `sync_window` reports success, both FATs are equal again. -/
def C71_full : Prop := ∀ v s, Geo v → v.nFats = 2 → Inv v s → Mirrored v s → (syncWindow v s).2 = 0 →
  ∀ n, Fat1 v n → (syncWindow v s).1.disk (n + v.fsize) = (syncWindow v s).1.disk n

theorem sync_mirror {v : Vol} (h2 : v.nFats = 2) (hs : Sound v) {s : St} (hi : Inv v s) (hm : Mirrored v s) :
    (syncWindow v s).1.wflag = false ∧ Mirrored v (syncWindow v s).1 := by
  unfold syncWindow
  by_cases hf : s.wflag = true
  rotate_left
  · rw [if_neg hf]; exact ⟨by simpa using hf, hm⟩
  rw [if_pos hf]
  cases hw : s.winsect with
  | none => exact absurd hw (hi.dirty hf)
  | some w =>
    have hn2 := hi.fat2 w hw
    simp only [diskWrite, hs s.cnt, if_true]
    unfold mirror
    by_cases h1 : v.fatbase ≤ w ∧ w - v.fatbase < v.fsize
    · rw [if_pos h1, if_pos h2]
      simp only [diskWrite, hs (s.cnt + 1)]
      refine ⟨trivial, fun n hn _ => ?_⟩
      simp only
      by_cases hnw : n = w
      · subst hnw
        rw [upd_same, upd_ne _ _ (by omega), upd_same]
      · have a1 : n + v.fsize ≠ w := by have := hn.1; omega
        have a2 : n ≠ w + v.fsize := by have := hn.2; omega
        rw [upd_ne _ _ (by omega), upd_ne _ _ a1, upd_ne _ _ a2, upd_ne _ _ hnw]
        exact hm n hn (by rw [hw]; rintro ⟨-, h⟩; cases h; exact hnw rfl)
    · rw [if_neg h1]
      refine ⟨rfl, fun n hn _ => ?_⟩
      simp only
      have hnw : n ≠ w := by rintro rfl; exact h1 ⟨hn.1, by have := hn.2; have := hn.1; omega⟩
      have a1 : n + v.fsize ≠ w := by
        rintro rfl
        have := hn.1
        have := hn.2
        exact hn2 ⟨h2, by omega, by omega⟩
      rw [upd_ne _ _ a1, upd_ne _ _ hnw]
      exact hm n hn (by rw [hw]; rintro ⟨-, h⟩; cases h; exact hnw rfl)

theorem move_mirror {v : Vol} (h2 : v.nFats = 2) (hs : Sound v) {s : St} (hi : Inv v s) (hm : Mirrored v s) (sect : Nat) :
    Mirrored v (moveWindow v s sect).1 := by
  unfold moveWindow
  split
  · exact hm
  · split
    · obtain ⟨hf, hm'⟩ := sync_mirror h2 hs hi hm
      unfold fillWindow diskReadWin
      rw [hs]
      intro n hn _
      exact hm' n hn (by rw [hf]; simp)
    · exact (sync_mirror h2 hs hi hm).2

theorem set_mirror {v : Vol} {s : St} (hm : Mirrored v s) (w : List Nat) : Mirrored v (setWin s w) := by
  intro n hn h
  refine hm n hn fun h' => h ⟨rfl, h'.2⟩

theorem window_mirror {v : Vol} (h2 : v.nFats = 2) (hs : Sound v) (hg : Geo v) {s : St} (hi : Inv v s) (hm : Mirrored v s) {sect : Nat} (hn2 : ¬ Fat2 v sect) (err : Nat) {k : St → St × Nat}
    (hk : ∀ t, Inv v t → t.winsect = some sect → Mirrored v t → Mirrored v (k t).1) : Mirrored v (window v s sect err k).1 := by
  obtain ⟨i, -, -, hor, -⟩ := move_spec hg hi hn2
  unfold window
  split
  · rename_i h
    rcases hor with h' | h'
    · exact hk _ i h'.2 (move_mirror h2 hs hi hm sect)
    · exact absurd hs h'.2
  · exact move_mirror h2 hs hi hm sect

theorem fromWin_mirror {v : Vol} {s : St} (hm : Mirrored v s) {x : Option Nat} {k : Nat → St × Nat} (hk : ∀ b, Mirrored v (k b).1) : Mirrored v (fromWin s x k).1 := by
  unfold fromWin
  split
  · exact hm
  · exact hk _

theorem stored_mirror {v : Vol} {s : St} (hm : Mirrored v s) (x : Option (List Nat)) : Mirrored v (stored s x).1 := by
  unfold stored
  split
  · exact hm
  · exact set_mirror hm _

/-- **C71** (partly).  If the device does not fail, reading and writing entries, in any sequence, keeps the copy up to date, except for the
sector in the window; after a flush both FATs are equal. -/
theorem C71_mirror_partial (v : Vol) (hg : Geo v) (h2 : v.nFats = 2) (hs : Sound v) (s : St) (hi : Inv v s) (hm : Mirrored v s) :
    (∀ c, Mirrored v (getFat v s c).1) ∧ (∀ c val, Mirrored v (putFat v s c val).1) ∧ (∀ sect, Mirrored v (moveWindow v s sect).1) ∧
    (syncWindow v s).2 = 0 ∧ ∀ n, Fat1 v n → (syncWindow v s).1.disk (n + v.fsize) = (syncWindow v s).1.disk n := by
  refine ⟨fun c => ?_, fun c val => ?_, move_mirror h2 hs hi hm, ?_, fun n hn => ?_⟩
  · unfold getFat
    split
    · exact hm
    · rename_i hr
      split
      · rename_i ht
        have hk := size12 hg ht (c := c) (by omega)
        refine window_mirror h2 hs hg hi hm (fat1_not2 (sector_fat1 hg (by omega))) _ fun t it _ mt => fromWin_mirror mt fun b => ?_
        exact window_mirror h2 hs hg it mt (fat1_not2 (sector_fat1 hg hk)) _ fun u _ _ mu => fromWin_mirror mu fun b => mu
      · split
        · rename_i ht
          have hk := size16 hg ht (c := c) (by omega)
          unfold getFat16
          rw [sect16 hg]
          exact window_mirror h2 hs hg hi hm (fat1_not2 (sector_fat1 hg (by omega))) _ fun t it _ mt => fromWin_mirror mt fun b => mt
        · split
          · rename_i ht
            have hk := size32 hg ht (c := c) (by omega)
            unfold getFat32
            rw [sect32 hg]
            exact window_mirror h2 hs hg hi hm (fat1_not2 (sector_fat1 hg (by omega))) _ fun t it _ mt => fromWin_mirror mt fun b => mt
          · exact hm
  · unfold putFat
    split
    · exact hm
    · rename_i hr
      split
      · rename_i ht
        have hk := size12 hg ht (c := c) (by omega)
        refine window_mirror h2 hs hg hi hm (fat1_not2 (sector_fat1 hg (by omega))) _ fun t it wt mt => ?_
        simp only [fromWin]
        split
        · exact mt
        · rename_i b0 hb0
          have hlt : first12 c val b0 < 256 := by rw [first12_eq]; split <;> omega
          exact window_mirror h2 hs hg (set_byte hg it wt hlt).1 (set_mirror mt _) (fat1_not2 (sector_fat1 hg hk)) _ fun u _ _ mu => fromWin_mirror mu fun b => set_mirror mu _
      · split
        · rename_i ht
          have hk := size16 hg ht (c := c) (by omega)
          unfold putFat16
          rw [sect16 hg]
          exact window_mirror h2 hs hg hi hm (fat1_not2 (sector_fat1 hg (by omega))) _ fun t it _ mt => stored_mirror mt _
        · split
          · rename_i ht
            have hk := size32 hg ht (c := c) (by omega)
            unfold putFat32
            rw [sect32 hg]
            exact window_mirror h2 hs hg hi hm (fat1_not2 (sector_fat1 hg (by omega))) _ fun t it _ mt => fromWin_mirror mt fun b => stored_mirror mt _
          · exact hm
  · obtain ⟨-, -, -, -, h, -⟩ := sync_spec hg hi
    rcases h with h | h
    · exact h.1
    · exact absurd hs h.2
  · obtain ⟨hf, hm'⟩ := sync_mirror h2 hs hi hm
    exact hm' n hn (by rw [hf]; simp)

/-! ## Examples and counterexample -/

/-- A small FAT12 volume with two FATs of two sectors; the device fails as told. -/
def exVol (io : Nat → Io) : Vol := { ss := 512, csize := 1, fatbase := 1, fsize := 2, nFats := 2, nFatent := 600, fsType := 1, database := 10, io := io }

/-- State after mounting an empty device, with the first sector of the FAT changed in the window. -/
def exSt : St :=
  { disk := fun _ => List.replicate 512 0, past := [], cnt := 0, win := List.replicate 512 7, winsect := some 1, wflag := true, lastClst := 0, freeClst := 0, fsiFlag := false }

theorem sec_replicate (io : Nat → Io) (b : Nat) (h : b < 256) : Sec (exVol io) (List.replicate 512 b) :=
  ⟨List.length_replicate, fun x hx => by rw [List.eq_of_mem_replicate hx]; exact h⟩

theorem exGeo (io : Nat → Io) (h : ∀ n j, io n = .fail j → Sec (exVol io) j) : Geo (exVol io) where
  ss := by show 512 % 4 = 0 ∧ 0 < 512; decide
  nFats := .inr rfl
  kind := .inl ⟨rfl, by show 600 ≤ 4087; decide⟩
  size := by show 12 * 600 ≤ 8 * (2 * 512); decide
  pos := by show 3 ≤ 600; decide
  junk := h

theorem exInv (io : Nat → Io) : Inv (exVol io) exSt where
  disk _ := sec_replicate io 0 (by decide)
  win := sec_replicate io 7 (by decide)
  clean h := by cases h
  dirty _ := fun h => by cases h
  fat2 n h := by cases h; rintro ⟨-, h, -⟩; exact absurd (show 1 + 2 ≤ 1 from h) (by decide)

theorem exMirrored (io : Nat → Io) : Mirrored (exVol io) exSt := fun _ _ _ => rfl

/-- Hypotheses of C50 and C71 can be met. -/
example : Geo (exVol fun _ => .ok) ∧ Inv (exVol fun _ => .ok) exSt ∧ Sound (exVol fun _ => .ok) ∧ Mirrored (exVol fun _ => .ok) exSt ∧ 341 < (exVol fun _ => .ok).nFatent :=
  ⟨exGeo _ (fun _ _ h => by cases h), exInv _, fun _ => rfl, exMirrored _, by decide⟩

/-- **C71**, as stated.  A failure while writing the copy is not reported. -/
theorem C71_violated : ¬ C71_full := by
  intro h
  have hio : ∀ n j, (fun n => if n = 1 then Io.fail (List.replicate 512 0) else Io.ok) n = .fail j → Sec (exVol fun n => if n = 1 then Io.fail (List.replicate 512 0) else Io.ok) j := by
    intro n j hj
    simp only at hj
    split at hj
    · cases hj
      exact sec_replicate _ 0 (by decide)
    · cases hj
  have h1 := h (exVol fun n => if n = 1 then Io.fail (List.replicate 512 0) else Io.ok) exSt (exGeo _ hio) rfl (exInv _) (exMirrored _) rfl 1 ⟨by decide, by decide⟩
  have h2 : (List.replicate 512 0 : List Nat) = List.replicate 512 7 := h1
  have h3 : some 0 = some 7 := congrArg List.head? h2
  cases h3

end Fpm.Fat
