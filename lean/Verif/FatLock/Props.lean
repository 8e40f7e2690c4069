import Verif.FatLock.Lemmas
import Mathlib.Data.List.Dedup
/-!
# C55: one writer or many readers
-/
namespace Fpm.FatLock
open Fpm.FatLock.Spec

/-- Number of different objects that are open. -/
def Spec.distinct (hs : List Handle) : Nat := (hs.map (·.key)).dedup.length

theorem entry_handle {w : World} (hw : Inv w) {s : Sem} (hs : s ∈ w.files) (h0 : s.key.fs ≠ 0) : ∃ h ∈ w.handles, h.key = s.key := by
  obtain ⟨i, hi⟩ := mem_idx hs
  have hf := hw.fits i s hi
  unfold Fits at hf
  rw [if_neg h0] at hf
  have : ∃ h, h ∈ at_ w.handles i := by
    rcases hf.2 with ⟨-, h, hh, -⟩ | ⟨h1, -, h3, -⟩
    · exact ⟨h, by rw [hh]; simp⟩
    · exact List.exists_mem_of_length_pos (by omega)
  obtain ⟨h, hh⟩ := this
  exact ⟨h, (List.mem_filter.mp hh).1, hf.1 h hh⟩

theorem handle_entry {w : World} (hw : Inv w) {h : Handle} (hh : h ∈ w.handles) : ∃ (i : Nat) (s : Sem), w.files[i]? = some s ∧ s.key.fs ≠ 0 ∧ s.key = h.key := by
  apply Classical.byContradiction
  intro hc
  refine no_handle hw (k := h.key) (fun x hx h0 he => ?_) h hh rfl
  obtain ⟨i, hi⟩ := mem_idx hx
  exact hc ⟨i, x, hi, h0, he⟩

theorem used_nodup (files : List Sem) (hu : ∀ (i j : Nat) (s s' : Sem), files[i]? = some s → files[j]? = some s' → s.key.fs ≠ 0 → s.key = s'.key → i = j) :
    ((files.filter (·.key.fs ≠ 0)).map (·.key)).Nodup := by
  induction files with
  | nil => simp
  | cons x r ih =>
    have ih := ih (fun i j s s' hi hj h0 he => by
      have := hu (i + 1) (j + 1) s s' (by simpa using hi) (by simpa using hj) h0 he
      omega)
    by_cases h0 : x.key.fs = 0
    · rw [List.filter_cons_of_neg (by simpa using h0)]; exact ih
    · rw [List.filter_cons_of_pos (by simpa using h0), List.map_cons, List.nodup_cons]
      refine ⟨fun hm => ?_, ih⟩
      obtain ⟨y, hy, he⟩ := List.mem_map.mp hm
      obtain ⟨i, hi⟩ := mem_idx (List.mem_filter.mp hy).1
      have := hu 0 (i + 1) x y (by simp) (by simpa using hi) h0 he.symm
      omega

theorem distinct_eq {w : World} (hw : Inv w) : distinct w.handles = (w.files.filter (·.key.fs ≠ 0)).length := by
  have hp : (w.handles.map (·.key)).dedup.Perm ((w.files.filter (·.key.fs ≠ 0)).map (·.key)) := by
    refine (List.perm_ext_iff_of_nodup (List.nodup_dedup _) (used_nodup _ hw.uniq)).mpr fun k => ?_
    rw [List.mem_dedup, List.mem_map, List.mem_map]
    constructor
    · rintro ⟨h, hh, rfl⟩
      obtain ⟨i, s, hi, h0, he⟩ := handle_entry hw hh
      exact ⟨s, List.mem_filter.mpr ⟨List.mem_of_getElem? hi, by simpa using h0⟩, he⟩
    · rintro ⟨s, hs, rfl⟩
      obtain ⟨h1, h2⟩ := List.mem_filter.mp hs
      exact entry_handle hw h1 (by simpa using h2)
  unfold distinct
  rw [hp.length_eq, List.length_map]

theorem room_iff {w : World} (hw : Inv w) : distinct w.handles < 16 ↔ ∃ x ∈ w.files, x.key.fs = 0 := by
  rw [distinct_eq hw, ← hw.len]
  constructor
  · intro h
    by_contra hc
    rw [List.filter_eq_self.mpr (fun x hx => by simpa using fun h => hc ⟨x, hx, h⟩)] at h
    omega
  · rintro ⟨x, hx, h0⟩
    apply List.length_filter_lt_length_iff_exists.mpr
    exact ⟨x, hx, by simp [h0]⟩

theorem inc_nonzero {files : List Sem} {k : Key} {acc : Nat} (h : (∃ s ∈ files, s.key = k) ∧ acc = 0 ∨ (∀ s ∈ files, s.key ≠ k) ∧ ∃ x ∈ files, x.key.fs = 0) :
    (incShare files k acc).2 ≠ 0 := by
  rw [incShare]
  split
  · rename_i i hi
    obtain ⟨hl, hk, -⟩ := List.findIdx?_eq_some_iff_getElem.mp hi
    rw [incAt, List.getElem?_eq_getElem hl]
    simp only
    have ha : acc = 0 := by
      rcases h with h | h
      · exact h.2
      · exact absurd (by simpa using hk) (h.1 _ (List.getElem_mem hl))
    rw [if_neg (by omega)]
    simp
  · rename_i hno
    rw [List.findIdx?_eq_none_iff] at hno
    rcases h with ⟨⟨s, hs, hk⟩, -⟩ | ⟨-, x, hx, h0⟩
    · exact absurd hk (by simpa using hno s hs)
    · split
      · rename_i hn
        exact absurd h0 (by simpa using List.findIdx?_eq_none_iff.mp hn x hx)
      · rename_i i hi
        obtain ⟨hl, hk, -⟩ := List.findIdx?_eq_some_iff_getElem.mp hi
        rw [incAt, List.getElem?_set_self hl]
        simp

/-- **C55** (partly).  As long as no object is open more than 255 times at once, for every history of opens, closes,
removals and mounts, an object that is open for writing is not open a second time. -/
theorem C55_exclusive_partial (w : World) (h : Reach 255 w) : Exclusive w.handles := by
  have hw := reach_inv h
  intro a b c x y he hk
  have hx : x ∈ w.handles := by rw [he]; simp
  have hy : y ∈ w.handles := by rw [he]; simp
  obtain ⟨i, s, hi, h0, hs⟩ := handle_entry hw hx
  have hidx := (handles_eq hw hi h0 x hx).mp hs.symm
  have hidy := (handles_eq hw hi h0 y hy).mp (hk.symm.trans hs.symm)
  have hf := hw.fits i s hi
  unfold Fits at hf
  rw [if_neg h0] at hf
  have hat : at_ w.handles i = at_ a i ++ x :: at_ b i ++ y :: at_ c i := by
    rw [he, at_append, at_append, at_cons_eq _ _ _ hidx, at_cons_eq _ _ _ hidy]
  rcases hf.2 with ⟨-, z, hz, -⟩ | ⟨-, -, -, hr⟩
  · rw [hat] at hz
    have := congrArg List.length hz
    simp at this
    omega
  · exact ⟨hr x (by rw [hat]; simp), hr y (by rw [hat]; simp)⟩

/-- **C55**, table.  The table never describes an object twice. -/
theorem C55_unique (w : World) (h : Reach 255 w) (i j : Nat) (s s' : Sem) (hi : w.files[i]? = some s) (hj : w.files[j]? = some s')
    (h0 : s.key.fs ≠ 0) (hk : s.key = s'.key) : i = j := (reach_inv h).uniq i j s s' hi hj h0 hk

/-- **C55**, removal.  A file that is open exists: it cannot be removed. -/
theorem C55_removed (w : World) (h : Reach 255 w) (x : Handle) (hx : x ∈ w.handles) (hf : FileKey x.key) : x.key ∈ w.exist := by
  rcases (reach_inv h).keys x hx with h1 | h1
  · exact h1
  · exact absurd hf h1

/-- **C55**, failure.  Whatever the table is, an open that fails leaves it as it was. -/
theorem C55_failed (files : List Sem) (k : Key) (acc fs clu : Nat) :
    ((openOld files k acc).2.2 ≠ 0 → (openOld files k acc).1 = files) ∧
    ((openNew files k).2.2 ≠ 0 → (openNew files k).1 = files) ∧
    ((openDir files fs clu).2.2 ≠ 0 → (openDir files fs clu).1 = files) := by
  refine ⟨fun h => ?_, fun h => ?_, fun h => ?_⟩
  · rw [openOld] at h ⊢
    by_cases hc : chkShare files k acc = FR_OK
    · rw [if_neg (fun h => h hc)] at h ⊢
      simp only at h ⊢
      by_cases hz : (incShare files k acc).2 = 0
      · exact inc_fail hz
      · rw [if_neg hz] at h; exact absurd rfl h
    · rw [if_pos hc]
  · rw [openNew] at h ⊢
    by_cases hc : enqShare files = false
    · rw [if_pos hc]
    · rw [if_neg hc] at h ⊢
      simp only at h ⊢
      by_cases hz : (incShare files k 1).2 = 0
      · exact inc_fail hz
      · rw [if_neg hz] at h; exact absurd rfl h
  · rw [openDir] at h ⊢
    by_cases hc : clu = 0
    · rw [if_pos hc]
    · rw [if_neg hc] at h ⊢
      simp only at h ⊢
      by_cases hz : (incShare files ⟨fs, clu, 0⟩ 0).2 = 0
      · exact inc_fail hz
      · rw [if_neg hz] at h; exact absurd rfl h

/-- **C55**, end.  When everything is closed, all entries of the table are free. -/
theorem C55_empty (w : World) (h : Reach 255 w) (hn : w.handles = []) : w.files.length = 16 ∧ ∀ s ∈ w.files, s.key.fs = 0 := by
  have hw := reach_inv h
  refine ⟨hw.len, fun s hs => ?_⟩
  by_contra h0
  obtain ⟨x, hx, -⟩ := entry_handle hw hs h0
  rw [hn] at hx
  cases hx

theorem no_entry {w : World} (hw : Inv w) {k : Key} (h : ∀ x ∈ w.handles, x.key ≠ k) (h0 : k.fs ≠ 0) : ∀ s ∈ w.files, s.key ≠ k := by
  rintro s hs rfl
  obtain ⟨x, hx, he⟩ := entry_handle hw hs h0
  exact h x hx he

theorem writer_ctr {w : World} (hw : Inv w) {s : Sem} (hs : s ∈ w.files) (h0 : s.key.fs ≠ 0) :
    s.ctr = 0x100 ↔ ∃ h ∈ w.handles, h.key = s.key ∧ h.write = true := by
  obtain ⟨i, hi⟩ := mem_idx hs
  have hf := hw.fits i s hi
  unfold Fits at hf
  rw [if_neg h0] at hf
  constructor
  · intro hc
    rcases hf.2 with ⟨-, x, hx, hxw⟩ | ⟨-, hlt, -⟩
    · have hm : x ∈ at_ w.handles i := by rw [hx]; simp
      exact ⟨x, (List.mem_filter.mp hm).1, hf.1 x hm, hxw⟩
    · omega
  · rintro ⟨x, hx, hk, hxw⟩
    rcases hf.2 with ⟨hc, -⟩ | ⟨-, -, -, hr⟩
    · exact hc
    · have := hr x (List.mem_filter.mpr ⟨hx, by simpa using (handles_eq hw hi h0 x hx).mp hk⟩)
      rw [hxw] at this; cases this

/-- **C55**, opening.  When an open succeeds: reading, if nobody writes the file and it is open already or less than 16
objects are; writing, if it is not open and less than 16 objects are; removal and renaming, if it is not open. -/
theorem C55_opens (w : World) (h : Reach 255 w) (k : Key) (hk : k.fs ≠ 0) :
    ((openOld w.files k 0).2.2 = 0 ↔ (∀ x ∈ w.handles, x.key = k → x.write = false) ∧ ((∃ x ∈ w.handles, x.key = k) ∨ distinct w.handles < 16)) ∧
    ((openOld w.files k 1).2.2 = 0 ↔ (∀ x ∈ w.handles, x.key ≠ k) ∧ distinct w.handles < 16) ∧
    ((∀ x ∈ w.handles, x.key ≠ k) → ((openNew w.files k).2.2 = 0 ↔ distinct w.handles < 16)) ∧
    (mayRemove w.files k = true ↔ ∀ x ∈ w.handles, x.key ≠ k) := by
  have hw := reach_inv h
  -- the entry of `k`, if any
  have hchk : ∀ acc, (chkShare w.files k acc = FR_OK ↔
      (acc = 0 ∧ (∃ x ∈ w.handles, x.key = k) ∧ ∀ x ∈ w.handles, x.key = k → x.write = false) ∨
      ((∀ x ∈ w.handles, x.key ≠ k) ∧ (acc = 2 ∨ distinct w.handles < 16))) := by
    intro acc
    rw [room_iff hw, chkShare.eq_def]
    rcases hc : chkLoop k false w.files with ⟨_ | s, b⟩
    · obtain ⟨h1, h2⟩ := (chkLoop_spec k w.files false).2 b hc
      have hno := no_handle hw h1
      simp only [Bool.false_eq_true, false_or] at h2
      have hl : ¬ ∃ x ∈ w.handles, x.key = k := fun ⟨x, hx, he⟩ => hno x hx he
      simp only [hl, false_and, and_false, false_or]
      rw [← h2]
      cases b <;> by_cases ha : acc = 2 <;> simp [ha, FR_OK, FR_TOO_MANY_OPEN_FILES] <;> exact hno
    · obtain ⟨h1, h2, h3⟩ := (chkLoop_spec k w.files false).1 s b hc
      obtain ⟨x, hx, he⟩ := entry_handle hw h1 h3
      rw [h2] at he
      have hn : ¬ ∀ x ∈ w.handles, x.key ≠ k := fun hh => hh x hx he
      have hwr := writer_ctr hw h1 h3
      rw [h2] at hwr
      have hex : ∃ x ∈ w.handles, x.key = k := ⟨x, hx, he⟩
      simp only [hn, false_and, or_false, hex, true_and]
      have h5 : (∀ x ∈ w.handles, x.key = k → x.write = false) ↔ ¬ s.ctr = 0x100 := by
        rw [hwr]
        constructor
        · rintro hh ⟨y, hy, h1, h2⟩
          rw [hh y hy h1] at h2; cases h2
        · intro hh y hy h1
          cases hb : y.write
          · rfl
          · exact absurd ⟨y, hy, h1, hb⟩ hh
      rw [h5]
      by_cases ha : acc = 0 <;> by_cases hct : s.ctr = 0x100 <;> simp [ha, hct, FR_OK, FR_LOCKED]
  have entry : (∃ x ∈ w.handles, x.key = k) → ∃ s ∈ w.files, s.key = k := by
    rintro ⟨x, hx, he⟩
    obtain ⟨i, s, hi, -, hs⟩ := handle_entry hw hx
    exact ⟨s, List.mem_of_getElem? hi, hs.trans he⟩
  have hopen : ∀ acc, acc = 0 ∨ acc = 1 → ((openOld w.files k acc).2.2 = 0 ↔ chkShare w.files k acc = FR_OK) := by
    intro acc ha
    rw [openOld]
    by_cases hc : chkShare w.files k acc = FR_OK
    · rw [if_neg (fun h => h hc)]
      simp only [hc, iff_true]
      have : (incShare w.files k acc).2 ≠ 0 := by
        apply inc_nonzero
        rcases (hchk acc).mp hc with ⟨h1, h2, -⟩ | ⟨h1, h2⟩
        · exact .inl ⟨entry h2, h1⟩
        · exact .inr ⟨no_entry hw h1 hk, (room_iff hw).mp (by rcases h2 with h2 | h2; omega; exact h2)⟩
      rw [if_neg this]; rfl
    · rw [if_pos hc]
      simp only [hc, iff_false]
      exact hc
  refine ⟨?_, ?_, fun hno => ?_, ?_⟩
  · rw [hopen 0 (.inl rfl), hchk 0]
    constructor
    · rintro (⟨-, h1, h2⟩ | ⟨h1, h2 | h2⟩)
      · exact ⟨h2, .inl h1⟩
      · omega
      · exact ⟨fun x hx he => absurd he (h1 x hx), .inr h2⟩
    · rintro ⟨h1, h2⟩
      by_cases hex : ∃ x ∈ w.handles, x.key = k
      · exact .inl ⟨rfl, hex, h1⟩
      · rcases h2 with h2 | h2
        · exact absurd h2 hex
        · exact .inr ⟨fun x hx he => hex ⟨x, hx, he⟩, .inr h2⟩
  · rw [hopen 1 (.inr rfl), hchk 1]
    simp
  · rw [room_iff hw, openNew]
    have he : enqShare w.files = true ↔ ∃ x ∈ w.files, x.key.fs = 0 := by simp [enqShare]
    by_cases hr : ∃ x ∈ w.files, x.key.fs = 0
    · rw [if_neg (by rw [he.mpr hr]; simp)]
      simp only [hr, iff_true]
      rw [if_neg (inc_nonzero (.inr ⟨no_entry hw hno hk, hr⟩))]
      rfl
    · rw [if_pos (by rw [Bool.eq_false_iff]; exact fun h => hr (he.mp h))]
      simp [hr, FR_TOO_MANY_OPEN_FILES]
  · unfold mayRemove
    rw [decide_eq_true_iff, hchk 2]
    simp

/-- The statement without a bound on the number of opens. -/
def C55_full : Prop := ∀ max w, Reach max w → Exclusive w.handles

/-- The table after `n` opens for reading of the file at `⟨1, 0, 0⟩`. -/
def many (n : Nat) : List Sem := ⟨⟨1, 0, 0⟩, n⟩ :: List.replicate 15 ⟨⟨0, 0, 0⟩, 0⟩

theorem many_open (n : Nat) (hn : n ≠ 0x100) : openOld (many n) ⟨1, 0, 0⟩ 0 = (many (n + 1), 1, 0) := by
  simp [many, openOld, chkShare, chkLoop, hn, FR_OK, incShare, incAt, List.findIdx?_cons]

theorem reach_many (n : Nat) (hn : n ≤ 255) : Reach 256 ⟨many (n + 1), List.replicate (n + 1) ⟨1, ⟨1, 0, 0⟩, false⟩, [⟨1, 0, 0⟩]⟩ := by
  induction n with
  | zero =>
    have h0 : Reach 256 ⟨initial, [], [⟨1, 0, 0⟩]⟩ := .step _ _ .start (.make _ _ ⟨by decide, by decide⟩ (by decide))
    exact .step _ _ h0 (.openOld _ ⟨1, 0, 0⟩ false (many 1) 1 (by decide) (by decide) (by decide))
  | succ n ih =>
    refine .step _ _ (ih (by omega)) (.openOld _ ⟨1, 0, 0⟩ false _ 1 (by simp) ?_ ?_)
    · simp [uses]; omega
    · exact many_open (n + 1) (by omega)

/-- **C55**, as stated.  After 256 opens for reading the counter is the number that means "open for writing"; one close
then frees the entry although 255 readers remain, and the file can be opened for writing. -/
theorem C55_violated : ¬ C55_full := by
  intro h
  have h1 := reach_many 255 (by omega)
  have h2 := Reach.step _ _ h1 (.close _ [] (List.replicate 255 ⟨1, ⟨1, 0, 0⟩, false⟩) ⟨1, ⟨1, 0, 0⟩, false⟩ List.replicate_succ)
  have h3 := Reach.step _ _ h2 (.openOld _ ⟨1, 0, 0⟩ true (many 0x100) 1 (List.mem_singleton.mpr rfl) (by
    have := List.length_filter_le (fun x : Handle => decide (x.key = ⟨1, 0, 0⟩)) (List.replicate 255 ⟨1, ⟨1, 0, 0⟩, false⟩)
    rw [List.length_replicate] at this
    unfold uses
    exact Nat.lt_of_le_of_lt this (by decide)) (by decide +kernel))
  have := h 256 _ h3 [] [] (List.replicate 254 ⟨1, ⟨1, 0, 0⟩, false⟩) ⟨1, ⟨1, 0, 0⟩, true⟩ ⟨1, ⟨1, 0, 0⟩, false⟩
    (congrArg (List.cons _) List.replicate_succ) rfl
  exact absurd this.1 (by decide)

/-- **C55**, directories.  Opening a directory locks the key (its own first cluster, 0), which is not the key of any directory entry:
whether an entry may be removed or renamed is the same before and after, so an open directory can be removed. -/
theorem C55_dir (files : List Sem) (fs clu : Nat) (hc : clu ≠ 0) (k : Key) (hk : FileKey k) :
    mayRemove (openDir files fs clu).1 k = mayRemove files k := by
  rw [openDir, if_neg hc]
  simp only
  by_cases hz : (incShare files ⟨fs, clu, 0⟩ 0).2 = 0
  · rw [inc_fail hz]
  have hne : k ≠ ⟨fs, clu, 0⟩ := by
    rintro rfl
    rcases hk.2 with h | h
    · exact hc h
    · exact h rfl
  have hiff : ∀ fl : List Sem, mayRemove fl k = true ↔ ∀ x ∈ fl, x.key ≠ k := by
    intro fl
    rw [mayRemove, decide_eq_true_iff, chkShare.eq_def]
    rcases hl : chkLoop k false fl with ⟨_ | s, b⟩
    · have h1 := ((chkLoop_spec k fl false).2 b hl).1
      simp only [ne_eq, not_true_eq_false, and_false, if_false, true_iff]
      intro x hx he
      exact h1 x hx (by rw [he]; exact hk.1) he
    · obtain ⟨h1, h2, -⟩ := (chkLoop_spec k fl false).1 s b hl
      have hnn : ¬ ∀ x ∈ fl, x.key ≠ k := fun h => h s h1 h2
      simp only [hnn, iff_false]
      rw [if_pos (.inl (by decide))]
      decide
  have hset : ∀ (i : Nat) (s t : Sem), files[i]? = some s → s.key ≠ k → t.key ≠ k → ((∀ x ∈ files.set i t, x.key ≠ k) ↔ ∀ x ∈ files, x.key ≠ k) := by
    intro i s t hi hs ht
    constructor
    · intro h x hx
      obtain ⟨j, hj⟩ := mem_idx hx
      by_cases hij : i = j
      · subst hij; rw [hi] at hj; cases hj; exact hs
      · exact h x (List.mem_of_getElem? (i := j) (by rw [List.getElem?_set_ne hij]; exact hj))
    · intro h x hx
      rcases List.mem_or_eq_of_mem_set hx with hx | rfl
      · exact h x hx
      · exact ht
  rw [Bool.eq_iff_iff, hiff, hiff]
  obtain ⟨f', id', hinc⟩ : ∃ f' id', incShare files ⟨fs, clu, 0⟩ 0 = (f', id') := ⟨_, _, rfl⟩
  rw [hinc] at hz ⊢
  obtain ⟨i, -, ⟨s, hi, hs, -, he⟩ | ⟨s, hi, hs, -, he⟩⟩ := inc_ok hinc hz
  · rw [he]; exact hset i s _ hi (by rw [hs]; exact hne.symm) hne.symm
  · rw [he]; exact hset i s _ hi (by rintro rfl; exact hk.1 hs) hne.symm

/-! Examples: hypotheses can be met. -/

example : Reach 255 ⟨many 1, [⟨1, ⟨1, 0, 0⟩, false⟩], [⟨1, 0, 0⟩]⟩ :=
  .step _ _ (.step _ _ .start (.make _ _ ⟨by decide, by decide⟩ (by decide))) (.openOld _ ⟨1, 0, 0⟩ false (many 1) 1 (by decide) (by decide) (by decide))
example : FileKey ⟨1, 0, 32⟩ ∧ mayRemove (openDir initial 1 5).1 ⟨1, 0, 32⟩ = true ∧ (openDir initial 1 5).1 ≠ initial := by
  unfold FileKey; decide
example : (openOld (many 1) ⟨1, 0, 0⟩ 1).2.2 = FR_LOCKED ∧ (openOld (many 1) ⟨1, 0, 0⟩ 0).2.2 = 0 := by decide

end Fpm.FatLock
