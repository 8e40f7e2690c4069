import Verif.FatLock.Spec
/-!
# Invariant of the lock table
-/
namespace Fpm.FatLock
open Fpm.FatLock.Spec

/-- Handles with a lock index. -/
def at_ (hs : List Handle) (i : Nat) : List Handle := hs.filter (·.id = i + 1)

/-- An entry describes its handles. -/
def Fits (s : Sem) (hs : List Handle) : Prop :=
  if s.key.fs = 0 then hs = []
  else (∀ h ∈ hs, h.key = s.key) ∧ ((s.ctr = 0x100 ∧ ∃ h, hs = [h] ∧ h.write = true) ∨ (1 ≤ s.ctr ∧ s.ctr < 0x100 ∧ hs.length = s.ctr ∧ ∀ h ∈ hs, h.write = false))

/-- Invariant. -/
structure Inv (w : World) : Prop where
  len : w.files.length = 16
  fits : ∀ (i : Nat) (s : Sem), w.files[i]? = some s → Fits s (at_ w.handles i)
  uniq : ∀ (i j : Nat) (s s' : Sem), w.files[i]? = some s → w.files[j]? = some s' → s.key.fs ≠ 0 → s.key = s'.key → i = j
  ids : ∀ h ∈ w.handles, 1 ≤ h.id ∧ h.id ≤ 16
  keys : ∀ h ∈ w.handles, h.key ∈ w.exist ∨ ¬ FileKey h.key
  ex : ∀ k ∈ w.exist, FileKey k
  wr : ∀ h ∈ w.handles, h.write = true → FileKey h.key

theorem at_cons_same (hs : List Handle) (i : Nat) (k : Key) (b : Bool) : at_ (⟨i + 1, k, b⟩ :: hs) i = ⟨i + 1, k, b⟩ :: at_ hs i := by simp [at_]

theorem at_cons_ne (hs : List Handle) (h : Handle) (i : Nat) (hi : h.id ≠ i + 1) : at_ (h :: hs) i = at_ hs i := by simp [at_, hi]

/-- Success of `inc_share`. -/
theorem inc_ok {files : List Sem} {k : Key} {acc id : Nat} {files' : List Sem} (h : incShare files k acc = (files', id)) (hid : id ≠ 0) :
    ∃ i, id = i + 1 ∧
      ((∃ s, files[i]? = some s ∧ s.key = k ∧ (acc = 0 ∨ s.ctr = 0) ∧ files' = files.set i ⟨k, if acc ≠ 0 then 0x100 else s.ctr + 1⟩) ∨
       (∃ s, files[i]? = some s ∧ s.key.fs = 0 ∧ (∀ x ∈ files, x.key ≠ k) ∧ files' = files.set i ⟨k, if acc ≠ 0 then 0x100 else 1⟩)) := by
  rw [incShare.eq_def] at h
  split at h
  · rename_i i hi
    obtain ⟨hl, hk, -⟩ := List.findIdx?_eq_some_iff_getElem.mp hi
    rw [incAt, List.getElem?_eq_getElem hl] at h
    simp only at h
    split at h
    · cases h; exact absurd rfl hid
    · rename_i hn
      cases h
      have hk : files[i].key = k := by simpa using hk
      refine ⟨i, rfl, .inl ⟨files[i], List.getElem?_eq_getElem hl, hk, by omega, by rw [← hk]⟩⟩
  · rename_i hno
    split at h
    · cases h; exact absurd rfl hid
    · rename_i i hi
      obtain ⟨hl, hk, -⟩ := List.findIdx?_eq_some_iff_getElem.mp hi
      rw [incAt, List.getElem?_set_self hl] at h
      simp only at h
      rw [if_neg (by simp)] at h
      cases h
      refine ⟨i, rfl, .inr ⟨files[i], List.getElem?_eq_getElem hl, by simpa using hk, fun x hx => ?_, by rw [List.set_set]⟩⟩
      simpa using List.findIdx?_eq_none_iff.mp hno x hx

/-- Failure of `inc_share` changes nothing. -/
theorem inc_fail {files : List Sem} {k : Key} {acc : Nat} (h : (incShare files k acc).2 = 0) : (incShare files k acc).1 = files := by
  rw [incShare.eq_def] at h ⊢
  split at h
  · rename_i i hi
    rw [incAt.eq_def] at h ⊢
    split at h
    · rfl
    · split at h
      · rename_i hc; simp only [if_pos hc]
      · simp at h
  · split at h
    · rfl
    · rename_i i hi
      obtain ⟨hl, -, -⟩ := List.findIdx?_eq_some_iff_getElem.mp hi
      rw [incAt, List.getElem?_set_self hl] at h
      simp at h

/-- A new handle. -/
theorem inv_open {w : World} (hw : Inv w) {i : Nat} {s : Sem} (hi : w.files[i]? = some s) {k : Key} {ctr : Nat} {b : Bool} {ex : List Key}
    (hk : k ∈ ex ∨ ¬ FileKey k) (hex : ∀ x ∈ ex, FileKey x) (hsub : ∀ x ∈ w.exist, x ∈ ex) (hb : b = true → FileKey k) (hu : s.key = k ∨ ∀ x ∈ w.files, x.key ≠ k)
    (hf : Fits ⟨k, ctr⟩ (⟨i + 1, k, b⟩ :: at_ w.handles i)) : Inv ⟨w.files.set i ⟨k, ctr⟩, ⟨i + 1, k, b⟩ :: w.handles, ex⟩ := by
  obtain ⟨hl, hg⟩ := List.getElem?_eq_some_iff.mp hi
  constructor
  · simp [hw.len]
  · intro j s' hj
    by_cases h : i = j
    · subst h
      rw [List.getElem?_set_self hl] at hj
      cases hj
      rw [at_cons_same]; exact hf
    · simp only [List.getElem?_set_ne h] at hj
      rw [at_cons_ne _ _ _ (by simp; omega)]
      exact hw.fits j s' hj
  · have old : ∀ j s', w.files[j]? = some s' → i ≠ j → s'.key ≠ k ∨ s'.key.fs = 0 := by
      intro j s' hj hne
      rcases hu with h | h
      · by_cases h0 : s'.key.fs = 0
        · exact .inr h0
        · left
          intro he
          exact hne (hw.uniq j i s' s hj hi h0 (he.trans h.symm)).symm
      · exact .inl (h s' (List.mem_of_getElem? hj))
    intro j l s1 s2 hj hl' h0 he
    simp only at hj hl'
    by_cases h1 : i = j <;> by_cases h2 : i = l
    · omega
    · subst h1
      rw [List.getElem?_set_self hl] at hj
      rw [List.getElem?_set_ne h2] at hl'
      cases hj
      rcases old l s2 hl' h2 with h | h
      · exact absurd he.symm h
      · rw [he] at h0; exact absurd h h0
    · subst h2
      rw [List.getElem?_set_self hl] at hl'
      rw [List.getElem?_set_ne h1] at hj
      cases hl'
      rcases old j s1 hj h1 with h | h
      · exact absurd he h
      · exact absurd h h0
    · rw [List.getElem?_set_ne h1] at hj
      rw [List.getElem?_set_ne h2] at hl'
      exact hw.uniq j l s1 s2 hj hl' h0 he
  · intro h hh
    rcases List.mem_cons.mp hh with rfl | hh
    · have := hw.len; simp; omega
    · exact hw.ids h hh
  · intro h hh
    rcases List.mem_cons.mp hh with rfl | hh
    · exact hk
    · rcases hw.keys h hh with h1 | h1
      · exact .inl (hsub _ h1)
      · exact .inr h1
  · exact hex
  · intro h hh
    rcases List.mem_cons.mp hh with rfl | hh
    · exact hb
    · exact hw.wr h hh

/-- The handles of an object are those with the index of its entry. -/
theorem handles_eq {w : World} (hw : Inv w) {i : Nat} {s : Sem} (hi : w.files[i]? = some s) (h0 : s.key.fs ≠ 0) (h : Handle) (hh : h ∈ w.handles) :
    h.key = s.key ↔ h.id = i + 1 := by
  constructor
  · intro hk
    have hid := hw.ids h hh
    have hlt : h.id - 1 < w.files.length := by rw [hw.len]; omega
    have hf := hw.fits (h.id - 1) _ (List.getElem?_eq_getElem hlt)
    have hm : h ∈ at_ w.handles (h.id - 1) := by
      simp only [at_, List.mem_filter, decide_eq_true_eq]
      exact ⟨hh, by omega⟩
    unfold Fits at hf
    split at hf
    · rw [hf] at hm; cases hm
    · rename_i hne
      have := hw.uniq (h.id - 1) i _ s (List.getElem?_eq_getElem hlt) hi hne ((hf.1 h hm).symm.trans hk)
      omega
  · intro hid
    have hf := hw.fits i s hi
    unfold Fits at hf
    rw [if_neg h0] at hf
    exact hf.1 h (by simp only [at_, List.mem_filter, decide_eq_true_eq]; exact ⟨hh, hid⟩)

theorem uses_eq {w : World} (hw : Inv w) {i : Nat} {s : Sem} (hi : w.files[i]? = some s) (h0 : s.key.fs ≠ 0) : uses w s.key = (at_ w.handles i).length := by
  unfold uses at_
  congr 1
  apply List.filter_congr
  intro h hh
  simp only [decide_eq_decide]
  exact handles_eq hw hi h0 h hh

/-- An object without entry has no handle. -/
theorem no_handle {w : World} (hw : Inv w) {k : Key} (h : ∀ x ∈ w.files, x.key.fs ≠ 0 → x.key ≠ k) : ∀ x ∈ w.handles, x.key ≠ k := by
  intro x hx he
  have hid := hw.ids x hx
  have hlt : x.id - 1 < w.files.length := by rw [hw.len]; omega
  have hf := hw.fits (x.id - 1) _ (List.getElem?_eq_getElem hlt)
  have hm : x ∈ at_ w.handles (x.id - 1) := by
    simp only [at_, List.mem_filter, decide_eq_true_eq]
    exact ⟨hx, by omega⟩
  unfold Fits at hf
  split at hf
  · rw [hf] at hm; cases hm
  · rename_i hne
    exact h _ (List.getElem_mem hlt) hne ((hf.1 x hm).symm.trans he)

/-- What `chk_share` finds. -/
theorem chkLoop_spec (k : Key) (files : List Sem) : ∀ be,
    (∀ s b, chkLoop k be files = (some s, b) → s ∈ files ∧ s.key = k ∧ s.key.fs ≠ 0) ∧
    (∀ b, chkLoop k be files = (none, b) → (∀ x ∈ files, x.key.fs ≠ 0 → x.key ≠ k) ∧ (b = true ↔ be = true ∨ ∃ x ∈ files, x.key.fs = 0)) := by
  induction files with
  | nil => intro be; simp [chkLoop]
  | cons x r ih =>
    intro be
    rw [chkLoop]
    by_cases h0 : x.key.fs ≠ 0
    · rw [if_pos h0]
      by_cases hk : x.key = k
      · rw [if_pos hk]
        exact ⟨fun s b h => by simp only [Prod.mk.injEq, Option.some.injEq] at h; rw [← h.1]; exact ⟨by simp, hk, h0⟩, fun b h => by simp at h⟩
      · rw [if_neg hk]
        refine ⟨fun s b h => ?_, fun b h => ?_⟩
        · obtain ⟨h1, h2⟩ := (ih be).1 s b h
          exact ⟨by simp [h1], h2⟩
        · obtain ⟨h1, h2⟩ := (ih be).2 b h
          refine ⟨?_, ?_⟩
          · intro y hy
            rcases List.mem_cons.mp hy with rfl | hy
            · exact fun _ => hk
            · exact h1 y hy
          · rw [h2]; simp [h0]
    · rw [if_neg h0]
      refine ⟨fun s b h => ?_, fun b h => ?_⟩
      · obtain ⟨h1, h2⟩ := (ih true).1 s b h
        exact ⟨by simp [h1], h2⟩
      · obtain ⟨h1, h2⟩ := (ih true).2 b h
        refine ⟨?_, ?_⟩
        · intro y hy
          rcases List.mem_cons.mp hy with rfl | hy
          · exact fun h => absurd h h0
          · exact h1 y hy
        · rw [h2]
          simp only [true_or, true_iff]
          exact .inr ⟨x, by simp, by simpa using h0⟩

theorem inv_start : Inv ⟨initial, [], []⟩ where
  len := by simp [initial, FF_FS_LOCK]
  fits := by
    intro i s h
    have : s = ⟨⟨0, 0, 0⟩, 0⟩ := by
      have := List.mem_of_getElem? h
      simp only [initial] at this
      exact (List.mem_replicate.mp this).2
    subst this
    simp [Fits, at_]
  uniq := by
    intro i j s s' h _ h0
    have : s = ⟨⟨0, 0, 0⟩, 0⟩ := by
      have := List.mem_of_getElem? h
      simp only [initial] at this
      exact (List.mem_replicate.mp this).2
    subst this
    exact absurd rfl h0
  ids := by simp
  keys := by simp
  ex := by simp
  wr := by simp

theorem mem_idx {files : List Sem} {s : Sem} (h : s ∈ files) : ∃ i : Nat, files[i]? = some s := by
  obtain ⟨i, hi, he⟩ := List.getElem_of_mem h
  exact ⟨i, by rw [List.getElem?_eq_getElem hi, he]⟩

theorem fits_new {k : Key} (hk : k.fs ≠ 0) (i : Nat) (b : Bool) : Fits ⟨k, if b then 0x100 else 1⟩ [⟨i + 1, k, b⟩] := by
  unfold Fits
  rw [if_neg hk]
  refine ⟨by simp, ?_⟩
  cases b
  · exact .inr ⟨by simp, by simp, by simp, by simp⟩
  · exact .inl ⟨rfl, _, rfl, rfl⟩

theorem fits_read {s : Sem} {hs : List Handle} (h : Fits s hs) (h0 : s.key.fs ≠ 0) (hc : s.ctr ≠ 0x100) (hl : hs.length < 255) (i : Nat) :
    Fits ⟨s.key, s.ctr + 1⟩ (⟨i + 1, s.key, false⟩ :: hs) := by
  unfold Fits at h ⊢
  rw [if_neg h0] at h
  rw [if_neg h0]
  obtain ⟨h1, h2 | ⟨h2, h3, h4, h5⟩⟩ := h
  · exact absurd h2.1 hc
  · refine ⟨?_, .inr ⟨by simp, by simp; omega, by simp [h4], ?_⟩⟩
    · intro x hx
      rcases List.mem_cons.mp hx with rfl | hx
      · rfl
      · exact h1 x hx
    · intro x hx
      rcases List.mem_cons.mp hx with rfl | hx
      · rfl
      · exact h5 x hx

theorem at_append (a b : List Handle) (i : Nat) : at_ (a ++ b) i = at_ a i ++ at_ b i := by simp [at_]

theorem at_cons_eq (hs : List Handle) (h : Handle) (i : Nat) (hi : h.id = i + 1) : at_ (h :: hs) i = h :: at_ hs i := by simp [at_, hi]

/-- Closing. -/
theorem inv_close {w : World} (hw : Inv w) {pre post : List Handle} {h : Handle} (he : w.handles = pre ++ h :: post) :
    Inv ⟨(decShare w.files h.id).1, pre ++ post, w.exist⟩ := by
  have hm : h ∈ w.handles := by rw [he]; simp
  have hid := hw.ids h hm
  have hlt : h.id - 1 < w.files.length := by rw [hw.len]; omega
  have hfit := hw.fits (h.id - 1) _ (List.getElem?_eq_getElem hlt)
  have hat : at_ w.handles (h.id - 1) = at_ pre (h.id - 1) ++ h :: at_ post (h.id - 1) := by
    rw [he, at_append, at_cons_eq _ _ _ (by omega)]
  rw [decShare, if_neg (by omega), List.getElem?_eq_getElem hlt]
  simp only
  generalize hs : w.files[h.id - 1] = s at *
  have hg : w.files[h.id - 1]? = some s := by rw [List.getElem?_eq_getElem hlt, hs]
  rw [hat] at hfit
  unfold Fits at hfit
  split at hfit
  · simp at hfit
  · rename_i h0
    have hsub : ∀ x ∈ pre ++ post, x ∈ w.handles := by
      intro x hx
      rw [he]
      rcases List.mem_append.mp hx with hx | hx <;> simp [hx]
    constructor
    · simp [hw.len]
    · intro j s' hj
      simp only at hj
      by_cases hji : h.id - 1 = j
      · subst hji
        rw [List.getElem?_set_self hlt] at hj
        cases hj
        simp only [at_append]
        obtain ⟨h1, ⟨h2, x, h3, -⟩ | ⟨h2, h3, h4, h5⟩⟩ := hfit
        · have hpp : at_ pre (h.id - 1) ++ at_ post (h.id - 1) = [] := by
            have := congrArg List.length h3
            simp at this
            apply List.length_eq_zero_iff.mp
            rw [List.length_append]; omega
          rw [hpp, h2]
          simp [Fits, decCtr]
        · have hl : (at_ pre (h.id - 1) ++ at_ post (h.id - 1)).length = s.ctr - 1 := by
            simp at h4 ⊢; omega
          have hd : decCtr s.ctr = s.ctr - 1 := by rw [decCtr, if_neg (by omega)]
          rw [hd]
          by_cases hz : s.ctr - 1 = 0
          · rw [hz] at hl
            rw [if_pos hz, List.length_eq_zero_iff.mp hl]
            simp [Fits]
          · rw [if_neg hz]
            unfold Fits
            rw [if_neg h0]
            have hmem : ∀ x ∈ at_ pre (h.id - 1) ++ at_ post (h.id - 1), x ∈ at_ pre (h.id - 1) ++ h :: at_ post (h.id - 1) := by
              intro x hx
              rcases List.mem_append.mp hx with hx | hx <;> simp [hx]
            exact ⟨fun x hx => h1 x (hmem x hx), .inr ⟨by simp; omega, by simp; omega, hl, fun x hx => h5 x (hmem x hx)⟩⟩
      · rw [List.getElem?_set_ne hji] at hj
        have := hw.fits j s' hj
        rw [he, at_append, at_cons_ne _ _ _ (by omega)] at this
        simp only [at_append]
        exact this
    · intro j l s1 s2 hj hl h1 h2
      simp only at hj hl
      have key : ∀ (j : Nat) (s1 : Sem), (w.files.set (h.id - 1) ⟨if decCtr s.ctr = 0 then { s.key with fs := 0 } else s.key, decCtr s.ctr⟩)[j]? = some s1 → s1.key.fs ≠ 0 →
          ∃ s0 : Sem, w.files[j]? = some s0 ∧ s0.key = s1.key := by
        intro j s1 hj h1
        by_cases hji : h.id - 1 = j
        · subst hji
          rw [List.getElem?_set_self hlt] at hj
          cases hj
          simp only at h1 ⊢
          split at h1
          · exact absurd rfl h1
          · rename_i hz; exact ⟨s, hg, by rw [if_neg hz]⟩
        · rw [List.getElem?_set_ne hji] at hj
          exact ⟨s1, hj, rfl⟩
      obtain ⟨a, ha, hak⟩ := key j s1 hj h1
      obtain ⟨b, hb, hbk⟩ := key l s2 hl (by rw [← h2]; exact h1)
      exact hw.uniq j l a b ha hb (by rw [hak]; exact h1) (by rw [hak, hbk, h2])
    · exact fun x hx => hw.ids x (hsub x hx)
    · exact fun x hx => hw.keys x (hsub x hx)
    · exact hw.ex
    · exact fun x hx => hw.wr x (hsub x hx)

theorem inv_mount {w : World} (hw : Inv w) {fs : Nat} {files : List Key} (h0 : fs ≠ 0) (hf : ∀ k ∈ files, k.fs = fs ∧ FileKey k) :
    Inv ⟨clearShare w.files fs, w.handles.filter (·.key.fs ≠ fs), files ++ w.exist.filter (·.fs ≠ fs)⟩ := by
  have old : ∀ (j : Nat) (s : Sem), (clearShare w.files fs)[j]? = some s → ∃ s0 : Sem, w.files[j]? = some s0 ∧ ((s0.key.fs = fs ∧ s.key.fs = 0) ∨ (s0.key.fs ≠ fs ∧ s = s0)) := by
    intro j s hj
    rw [clearShare, List.getElem?_map] at hj
    cases hg : w.files[j]? with
    | none => rw [hg] at hj; cases hj
    | some s0 =>
      rw [hg] at hj
      simp only [Option.map_some, Option.some.injEq] at hj
      refine ⟨s0, rfl, ?_⟩
      by_cases h : s0.key.fs = fs
      · rw [if_pos h] at hj; rw [← hj]; exact .inl ⟨h, rfl⟩
      · rw [if_neg h] at hj; exact .inr ⟨h, hj.symm⟩
  have hat : ∀ i, at_ (w.handles.filter (·.key.fs ≠ fs)) i = (at_ w.handles i).filter (·.key.fs ≠ fs) := by
    intro i
    simp only [at_, List.filter_filter]
    apply List.filter_congr
    intro x _
    rw [Bool.and_comm]
  constructor
  · simp [clearShare, hw.len]
  · intro j s hj
    obtain ⟨s0, hs0, h⟩ := old j s hj
    have hfit := hw.fits j s0 hs0
    simp only [hat]
    rcases h with ⟨h1, h2⟩ | ⟨h1, rfl⟩
    · unfold Fits at hfit ⊢
      rw [if_neg (by omega)] at hfit
      rw [if_pos h2, List.filter_eq_nil_iff]
      intro x hx
      simp [hfit.1 x hx, h1]
    · have : (at_ w.handles j).filter (·.key.fs ≠ fs) = at_ w.handles j := by
        rw [List.filter_eq_self]
        intro x hx
        unfold Fits at hfit
        split at hfit
        · rw [hfit] at hx; cases hx
        · simp [hfit.1 x hx, h1]
      rw [this]; exact hfit
  · intro i j s s' hi hj hne he
    obtain ⟨a, ha, h⟩ := old i s hi
    obtain ⟨b, hb, h'⟩ := old j s' hj
    rcases h with ⟨h1, h2⟩ | ⟨h1, rfl⟩
    · exact absurd h2 hne
    · rcases h' with ⟨h1', h2'⟩ | ⟨h1', rfl⟩
      · rw [he] at hne; exact absurd h2' hne
      · exact hw.uniq i j _ _ ha hb hne he
  · exact fun h hh => hw.ids h (List.mem_filter.mp hh).1
  · intro h hh
    obtain ⟨h1, h2⟩ := List.mem_filter.mp hh
    rcases hw.keys h h1 with h3 | h3
    · left; simp only [List.mem_append, List.mem_filter]; exact .inr ⟨h3, by simpa using h2⟩
    · exact .inr h3
  · intro k hk
    rcases List.mem_append.mp hk with hk | hk
    · exact (hf k hk).2
    · exact hw.ex k (List.mem_filter.mp hk).1
  · exact fun h hh => hw.wr h (List.mem_filter.mp hh).1

/-- `chk_share` for reading and writing succeeds. -/
theorem chk_ok {files : List Sem} {k : Key} {acc : Nat} (h : chkShare files k acc = FR_OK) :
    (∃ s ∈ files, s.key = k ∧ s.key.fs ≠ 0 ∧ acc = 0 ∧ s.ctr ≠ 0x100) ∨ (∀ x ∈ files, x.key.fs ≠ 0 → x.key ≠ k) := by
  rw [chkShare.eq_def] at h
  split at h
  · rename_i be hc
    exact .inr ((chkLoop_spec k files false).2 _ hc).1
  · rename_i s b hc
    obtain ⟨h1, h2, h3⟩ := (chkLoop_spec k files false).1 _ _ hc
    split at h
    · exact absurd h (by decide)
    · exact .inl ⟨s, h1, h2, h3, by omega, by omega⟩

/-- A handle is added after `inc_share`. -/
theorem inv_inc {w : World} (hw : Inv w) {k : Key} (hk0 : k.fs ≠ 0) {b : Bool} {files : List Sem} {id : Nat} (hinc : incShare w.files k (if b then 1 else 0) = (files, id))
    (hid : id ≠ 0) (hu : uses w k < 255) (hc : (∃ s ∈ w.files, s.key = k ∧ b = false ∧ s.ctr ≠ 0x100) ∨ (∀ x ∈ w.files, x.key.fs ≠ 0 → x.key ≠ k))
    {ex : List Key} (hk : k ∈ ex ∨ ¬ FileKey k) (hex : ∀ x ∈ ex, FileKey x) (hsub : ∀ x ∈ w.exist, x ∈ ex) (hb : b = true → FileKey k) :
    Inv ⟨files, ⟨id, k, b⟩ :: w.handles, ex⟩ := by
  obtain ⟨i, rfl, ⟨s, hi, hsk, -, rfl⟩ | ⟨s, hi, hs0, hno, rfl⟩⟩ := inc_ok hinc hid
  · subst hsk
    rcases hc with ⟨s', hs', h1, h2, h3⟩ | hc
    · obtain ⟨j, hj⟩ := mem_idx hs'
      have := hw.uniq i j s s' hi hj hk0 h1.symm
      subst this
      rw [hi] at hj
      cases hj
      subst h2
      refine inv_open hw hi hk hex hsub hb (.inl rfl) ?_
      simp only [Bool.false_eq_true, if_false, ne_eq, not_true_eq_false]
      exact fits_read (hw.fits i s hi) hk0 h3 (by rw [← uses_eq hw hi hk0]; exact hu) i
    · exact absurd rfl (hc s (List.mem_of_getElem? hi) hk0)
  · refine inv_open hw hi hk hex hsub hb (.inr hno) ?_
    have hnil : at_ w.handles i = [] := by
      have := hw.fits i s hi
      unfold Fits at this
      rwa [if_pos hs0] at this
    rw [hnil]
    have : (if (if b = true then 1 else 0) ≠ 0 then 256 else 1) = if b = true then 0x100 else 1 := by cases b <;> rfl
    rw [this]
    exact fits_new hk0 i b

theorem step_inv {w w' : World} (hw : Inv w) (h : Step 255 w w') : Inv w' := by
  cases h with
  | openOld k b files id hk hu ho =>
    rw [Fpm.FatLock.openOld] at ho
    by_cases hok : chkShare w.files k (if b = true then 1 else 0) = FR_OK
    rotate_left
    · rw [if_pos hok] at ho
      simp only [Prod.mk.injEq] at ho
      exact absurd ho.2.2 hok
    · rw [if_neg (fun h => h hok)] at ho
      simp only [Prod.mk.injEq] at ho
      obtain ⟨h1, h2, h3⟩ := ho
      have hid : id ≠ 0 := by
        rintro rfl
        rw [h2, if_pos rfl] at h3
        exact absurd h3 (by decide)
      refine inv_inc hw (hw.ex k hk).1 (Prod.ext h1 h2) hid hu ?_ (.inl hk) hw.ex (fun _ h => h) (fun _ => hw.ex k hk)
      rcases chk_ok hok with ⟨s, hs, h4, -, h5, h6⟩ | h
      · exact .inl ⟨s, hs, h4, by cases b <;> simp at h5 ⊢, h6⟩
      · exact .inr h
  | openNew k files id hk hne ho =>
    rw [Fpm.FatLock.openNew] at ho
    split at ho
    · simp only [Prod.mk.injEq] at ho
      exact absurd ho.2.2 (by decide)
    · simp only [Prod.mk.injEq] at ho
      obtain ⟨h1, h2, h3⟩ := ho
      have hid : id ≠ 0 := by
        rintro rfl
        rw [h2, if_pos rfl] at h3
        exact absurd h3 (by decide)
      have hnone : ∀ x ∈ w.handles, x.key ≠ k := by
        rintro x hx rfl
        rcases hw.keys x hx with h | h
        · exact hne h
        · exact h hk
      have hno : ∀ x ∈ w.files, x.key.fs ≠ 0 → x.key ≠ k := by
        rintro x hx h0 rfl
        obtain ⟨i, hi⟩ := mem_idx hx
        have hf := hw.fits i x hi
        have hnil : at_ w.handles i = [] := by
          apply List.eq_nil_iff_forall_not_mem.mpr
          intro y hy
          simp only [at_, List.mem_filter, decide_eq_true_eq] at hy
          exact hnone y hy.1 ((handles_eq hw hi h0 y hy.1).mpr hy.2)
        rw [hnil] at hf
        unfold Fits at hf
        rw [if_neg h0] at hf
        simp at hf
        omega
      refine inv_inc hw hk.1 (b := true) (Prod.ext h1 h2) hid ?_ (.inr hno) (.inl (by simp)) (by
        intro x hx
        rcases List.mem_cons.mp hx with rfl | hx
        · exact hk
        · exact hw.ex x hx) (fun _ h => by simp [h]) (fun _ => hk)
      have : w.handles.filter (·.key = k) = [] := by
        rw [List.filter_eq_nil_iff]
        intro x hx
        simpa using hnone x hx
      rw [uses, this]; decide
  | openDir fs clu files id h0 hc hu ho =>
    rw [Fpm.FatLock.openDir, if_neg hc] at ho
    simp only [Prod.mk.injEq] at ho
    obtain ⟨h1, h2, h3⟩ := ho
    have hid : id ≠ 0 := by
      rintro rfl
      rw [h2, if_pos rfl] at h3
      exact absurd h3 (by decide)
    have hnf : ¬ FileKey ⟨fs, clu, 0⟩ := by
      rintro ⟨-, h | h⟩
      · exact hc h
      · exact h rfl
    refine inv_inc hw h0 (b := false) (Prod.ext h1 h2) hid hu ?_ (.inr hnf) hw.ex (fun _ h => h) (fun h => by cases h)
    by_cases hex : ∃ s ∈ w.files, s.key.fs ≠ 0 ∧ s.key = ⟨fs, clu, 0⟩
    · obtain ⟨s, hs, h0', hk⟩ := hex
      left
      refine ⟨s, hs, hk, rfl, fun hctr => ?_⟩
      -- a write lock on a directory is impossible: inc_share would have kept 0x100 + 1, and handles of directories only read
      obtain ⟨i, hi⟩ := mem_idx hs
      have hf := hw.fits i s hi
      unfold Fits at hf
      rw [if_neg h0'] at hf
      obtain ⟨hkeys, ⟨-, x, hx, hxw⟩ | ⟨-, hlt, -⟩⟩ := hf
      · have hm : x ∈ at_ w.handles i := by rw [hx]; simp
        have hm' : x ∈ w.handles := (List.mem_filter.mp hm).1
        exact hnf (by rw [← hk, ← hkeys x hm]; exact hw.wr x hm' hxw)
      · omega
    · right
      intro x hx h0' hk
      exact hex ⟨x, hx, h0', hk⟩
  | close pre post h he => exact inv_close hw he
  | unlink k hk hr =>
    refine ⟨hw.len, hw.fits, hw.uniq, hw.ids, ?_, fun x hx => hw.ex x (List.mem_filter.mp hx).1, hw.wr⟩
    intro h hh
    rcases hw.keys h hh with h1 | h1
    · by_cases he : h.key = k
      · have hok : chkShare w.files k 2 = FR_OK := by simpa [mayRemove] using hr
        rcases chk_ok hok with ⟨s, _, _, _, h5, _⟩ | hno
        · exact absurd h5 (by decide)
        · exact absurd he (no_handle hw hno h hh)
      · left; simp only [List.mem_filter]; exact ⟨h1, by simpa using he⟩
    · exact .inr h1
  | make k hk hne =>
    refine ⟨hw.len, hw.fits, hw.uniq, hw.ids, ?_, ?_, hw.wr⟩
    · intro h hh
      rcases hw.keys h hh with h1 | h1
      · exact .inl (by simp [h1])
      · exact .inr h1
    · intro x hx
      rcases List.mem_cons.mp hx with rfl | hx
      · exact hk
      · exact hw.ex x hx
  | mount fs files h0 hf => exact inv_mount hw h0 hf

theorem reach_inv {w : World} (h : Reach 255 w) : Inv w := by
  induction h with
  | start => exact inv_start
  | step w w' _ hs ih => exact step_inv ih hs

end Fpm.FatLock
