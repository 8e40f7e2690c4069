import Verif.FatSync.TidyLemmas
import Verif.FatFile.Props
/-!
# C77: what `f_sync` and `f_close` promise
-/
namespace Fpm.FatSync
open Fpm.Fat Fpm.Fat.Spec Fpm.FatFile Fpm.FatFile.Spec Fpm.FatBytes.Spec Fpm.FatSync.Spec

theorem links_unique {n : Nat} {f : Nat → Nat} : ∀ {l k : List Nat}, Links n f l → Links n f k → l.head? = k.head? → l = k
  | [], _, h, _, _ => h.elim
  | _ :: _, [], _, h, _ => h.elim
  | [c], [d], _, _, h => by simpa using h
  | [c], d :: e :: k, h1, h2, h => by
    obtain rfl : c = d := by simpa using h
    have h3 := h1.2.2
    have h4 : 2 ≤ e ∧ e < n := links_mem h2.2.2.2 e (by simp)
    rw [h2.2.2.1] at h3
    omega
  | c :: e :: l, [d], h1, h2, h => by
    obtain rfl : c = d := by simpa using h
    have h3 := h2.2.2
    have h4 : 2 ≤ e ∧ e < n := links_mem h1.2.2.2 e (by simp)
    rw [h1.2.2.1] at h3
    omega
  | c :: e :: l, d :: e' :: k, h1, h2, h => by
    obtain rfl : c = d := by simpa using h
    obtain rfl : e = e' := h1.2.2.1.symm.trans h2.2.2.1
    rw [links_unique h1.2.2.2 h2.2.2.2 rfl]

/-- C77: the contents of a device determine the file. -/
theorem C77_unique (v : Vol) (d : Disk) (n off : Nat) (x y : List Nat) (hx : Holds v d n off x) (hy : Holds v d n off y) : x = y := by
  obtain ⟨m, hm⟩ := hx
  obtain ⟨k, hk⟩ := hy
  have hmk : m = k := by
    have hh := hm.first.symm.trans hk.first
    rcases hm.chain with rfl | h1 <;> rcases hk.chain with rfl | h2
    · rfl
    · cases k with
      | nil => rfl
      | cons c k =>
        have h3 : 0 = c := hh
        have := (links_mem h2 c (by simp)).1
        omega
    · cases m with
      | nil => rfl
      | cons c m =>
        have h3 : c = 0 := hh
        have := (links_mem h1 c (by simp)).1
        omega
    · refine links_unique h1 h2 ?_
      cases m with
      | nil => exact h1.elim
      | cons c m =>
        cases k with
        | nil => exact h2.elim
        | cons e k => exact congrArg some hh
  rw [← hm.bytes, ← hk.bytes, hmk, ← hm.size, ← hk.size]

/-- C77 in full: if `f_sync` returns success, the device holds the file.  Here after a first call with any outcome. -/
def C77_full : Prop :=
  ∀ (v : Vol) (a b : List (List Nat)) (m : List Nat) (s : St) (fp : File) (A : Arr) (pl : Place) (tm tm' : Nat), Geo v → DataGeo v → Spec.Repr v a b m s fp A → fp.modified = true →
    PlaceOk v (a ++ b).flatten pl → (fSync v pl tm' (fSync v pl tm s fp).st (fSync v pl tm s fp).fp).res = 0 →
    Holds v (fSync v pl tm' (fSync v pl tm s fp).st (fSync v pl tm s fp).fp).st.disk pl.sect pl.off A.data

/-- C77: if `f_sync` (or `f_close`) of a changed file returns success, then - whatever the device did - the device holds the bytes of the
file: size and first cluster in the directory entry, chain in the FAT, bytes in the clusters.  Other sectors are what the program saw before,
and of the sector of the directory entry only the fields for attribute, times, first cluster and size have changed: the archive attribute is
set, the other attributes are as before, and the time of the last change is the one given.  Missing from `C77_full`:
a file that is not marked as changed although it is, because of an earlier failure. -/
theorem C77_sync_partial (v : Vol) (hg : Geo v) (hd : DataGeo v) (a b : List (List Nat)) (m : List Nat) (s : St) (fp : File) (A : Arr) (h : Spec.Repr v a b m s fp A)
    (pl : Place) (hp : PlaceOk v (a ++ b).flatten pl) (tm : Nat) (hm : fp.modified = true) (hr : (fSync v pl tm s fp).res = 0) :
    HoldsIn v (fSync v pl tm s fp).st.disk pl.sect pl.off m A.data ∧
    (∀ n, n ≠ pl.sect → pl.info ≠ some n → ¬ Fat2 v n → ¬ OwnSect v (a ++ b).flatten n → (fSync v pl tm s fp).st.disk n = view s n) ∧
    (∀ i, i < pl.off ∨ pl.off + 32 ≤ i ∨ pl.off ≤ i ∧ Untouched (i - pl.off) → ((fSync v pl tm s fp).st.disk pl.sect)[i]? = (view s pl.sect)[i]?) ∧
    Stamped (view s pl.sect) ((fSync v pl tm s fp).st.disk pl.sect) pl.off tm := by
  have := (fsync_spec hg hd h hp tm hm).1 hr
  exact ⟨this.holds, this.other, this.entry, this.stamp⟩

/-- Marked as changed, or the device holds the file already and nothing is waiting. -/
def Marked (v : Vol) (pl : Place) (s : St) (fp : File) (A : Arr) : Prop :=
  fp.modified = true ∨ s.wflag = false ∧ fp.dirty = false ∧ Holds v s.disk pl.sect pl.off A.data

/-- An operation that leaves the size leaves the bytes, unless it is a write. -/
theorem ran_size {K : Nat} {rd wr : Bool} {A B : Arr} {op : Op} {r : Nat} {g : List Nat} (h : Spec.Ran K rd wr A op r g B) (hw : ∀ x, op ≠ .write x)
    (hl : B.data.length = A.data.length) : B.data = A.data := by
  cases h with
  | read => rfl
  | write b => exact absurd rfl (hw b)
  | back => rfl
  | toEnd => rfl
  | beyond _ junk =>
    simp only [List.length_append] at hl
    obtain rfl : junk = [] := List.length_eq_zero_iff.mp (by omega)
    simp
  | truncate =>
    simp only [List.length_take] at hl
    exact List.take_of_length_le (by omega)
  | denyRead => rfl
  | denyWrite => rfl
  | denyTruncate => rfl

theorem ran_write {K : Nat} {rd wr : Bool} {A B : Arr} {op : Op} {r : Nat} {g : List Nat} (h : Spec.Ran K rd wr A op r g B) : ∀ x, op = .write x → (wr = true ∧ r = 0) ∨ (wr = false ∧ B = A) := by
  intro x hx
  cases h with
  | write _ _ hw => exact .inl ⟨hw, rfl⟩
  | denyWrite _ hw => exact .inr ⟨hw, rfl⟩
  | _ => cases hx

/-- Marked as changed, or the bytes are `D`, and the state of the volume is as `C` tells. -/
def Kept (C : St → Prop) (D : List Nat) (s : St) (fp : File) (A : Arr) : Prop := fp.modified = true ∨ C s ∧ fp.dirty = false ∧ A.data = D

theorem kept_step {v : Vol} (hg : Geo v) (hd : DataGeo v) (hs : Sound v) {C : St → Prop} (hK : Keeps v C) {D : List Nat} {a b : List (List Nat)} {m : List Nat} {s : St} {fp : File} {A B : Arr} {m' : List Nat}
    (h : Spec.Repr v a b m s fp A) (hk : Kept C D s fp A) (op : Op) (hr : Spec.Ran (capacity v (a ++ b).flatten) fp.canRead fp.canWrite A op (call v s fp op).res (call v s fp op).got B)
    (hB : Spec.Repr v a b m' (call v s fp op).st (call v s fp op).fp B) : Kept C D (call v s fp op).st (call v s fp op).fp B ∧ (fp.modified = true → (call v s fp op).fp.modified = true) := by
  have hlA : A.data.length = fp.objsize := by rw [h.data, contents_len h.toBase]
  have hlB : B.data.length = (call v s fp op).fp.objsize := by rw [hB.data, contents_len hB.toBase]
  have ht0 : Tidy C fp.objsize s fp := hk.imp id fun ⟨h1, h2, _⟩ => ⟨h1, h2, rfl⟩
  -- an operation other than a write
  have fin : (∀ x, op ≠ .write x) → Tidy C fp.objsize (call v s fp op).st (call v s fp op).fp →
      (fp.modified = true → (call v s fp op).fp.modified = true) → Kept C D (call v s fp op).st (call v s fp op).fp B ∧ (fp.modified = true → (call v s fp op).fp.modified = true) := by
    intro hw ht hm0
    refine ⟨?_, hm0⟩
    rcases ht with ht | ⟨h1, h3, h4⟩
    · exact .inl ht
    · rcases hk with hk | ⟨-, -, hk⟩
      · exact .inl (hm0 hk)
      · refine .inr ⟨h1, h3, ?_⟩
        rw [ran_size hr hw (by omega)]
        exact hk
  cases op with
  | read n => exact fin (fun _ z => by cases z) (tidy_read hK n ht0) fun hm => tidyNone.mp (tidy_read (keepsNone v) n (.inl hm))
  | seek o => exact fin (fun _ z => by cases z) (tidy_seek hK hg hd hs h o ht0) fun hm => tidyNone.mp (tidy_seek (keepsNone v) hg hd hs h o (.inl hm))
  | truncate => exact fin (fun _ z => by cases z) (tidy_truncate ht0) fun hm => tidyNone.mp (tidy_truncate (.inl hm))
  | write x =>
    show Kept C D (fWrite v s fp x).st (fWrite v s fp x).fp B ∧ (fp.modified = true → (fWrite v s fp x).fp.modified = true)
    rcases ran_write hr x rfl with ⟨hw, h0⟩ | ⟨hw, rfl⟩
    · have : (fWrite v s fp x).fp.modified = true := by
        change (fWrite v s fp x).res = 0 at h0
        unfold fWrite at h0 ⊢
        rw [if_neg (fun z => z h.noErr), if_neg (by rw [hw]; decide)] at h0 ⊢
        exact write_modified _ h0
      exact ⟨.inl this, fun _ => this⟩
    · have e : fWrite v s fp x = ⟨s, fp, FR_DENIED, [], false⟩ := by
        unfold fWrite
        rw [if_neg (fun z => z h.noErr), if_pos hw]
      rw [e]
      exact ⟨hk, id⟩

theorem kept_history {v : Vol} (hg : Geo v) (hd : DataGeo v) (hs : Sound v) {C : St → Prop} (hK : Keeps v C) {D : List Nat} {a b : List (List Nat)} : ∀ (ops : List Op) {m : List Nat} {s : St} {fp : File} {A : Arr}
    (_ : Spec.Repr v a b m s fp A) (_ : Kept C D s fp A) (_ : ∀ op ∈ ops, Arg op),
    ∃ m' B, Runs (capacity v (a ++ b).flatten) fp.canRead fp.canWrite A ops (calls v s fp ops).2.2 B ∧ Spec.Repr v a b m' (calls v s fp ops).1 (calls v s fp ops).2.1 B ∧
      Kept C D (calls v s fp ops).1 (calls v s fp ops).2.1 B ∧ Others v a b s (calls v s fp ops).1 ∧ (fp.modified = true → (calls v s fp ops).2.1.modified = true)
  | [], m, s, fp, A, h, hk, _ => ⟨m, A, .nil A, h, hk, .refl h.toVolOk, id⟩
  | op :: ops, m, s, fp, A, h, hk, ha => by
    obtain ⟨h1, ⟨m1, B, h2, h3, h4, h5⟩ | ⟨h2, -⟩⟩ := C54_step v hg hd a b m s fp A h op (ha op (by simp))
    · obtain ⟨hk1, hm1⟩ := kept_step hg hd hs hK h hk op h2 h3
      obtain ⟨m2, C, k2, k3, k4, k5, k6⟩ := kept_history hg hd hs hK ops h3 hk1 fun x hx => ha x (by simp [hx])
      rw [h4, h5] at k2
      refine ⟨m2, C, ?_, k3, k4, h1.trans k5, fun z => k6 (hm1 z)⟩
      have := Runs.cons h2 k2
      rw [h3.at_, h3.data, contents_len h3.toBase] at this
      exact this
    · exact absurd hs h2

theorem marked_step {v : Vol} (hg : Geo v) (hd : DataGeo v) (hs : Sound v) {a b : List (List Nat)} {m : List Nat} {s : St} {fp : File} {A B : Arr} {m' : List Nat} {pl : Place}
    (h : Spec.Repr v a b m s fp A) (hk : Marked v pl s fp A) (op : Op) (hr : Spec.Ran (capacity v (a ++ b).flatten) fp.canRead fp.canWrite A op (call v s fp op).res (call v s fp op).got B)
    (hB : Spec.Repr v a b m' (call v s fp op).st (call v s fp op).fp B) : Marked v pl (call v s fp op).st (call v s fp op).fp B := by
  obtain ⟨k1, k2⟩ := kept_step hg hd hs (keepsClean v s.disk) (D := A.data) h (hk.imp id fun ⟨h1, h2, _⟩ => ⟨⟨rfl, h1⟩, h2, rfl⟩) op hr hB
  rcases hk with hk | ⟨-, -, hk⟩
  · exact .inl (k2 hk)
  · rcases k1 with k1 | ⟨⟨h1, h2⟩, h3, h4⟩
    · exact .inl k1
    · exact .inr ⟨h2, h3, by rw [h1, h4]; exact hk⟩

theorem marked_history {v : Vol} (hg : Geo v) (hd : DataGeo v) (hs : Sound v) {a b : List (List Nat)} {pl : Place} : ∀ (ops : List Op) {m : List Nat} {s : St} {fp : File} {A : Arr}
    (_ : Spec.Repr v a b m s fp A) (_ : Marked v pl s fp A) (_ : ∀ op ∈ ops, Arg op),
    ∃ m' B, Runs (capacity v (a ++ b).flatten) fp.canRead fp.canWrite A ops (calls v s fp ops).2.2 B ∧ Spec.Repr v a b m' (calls v s fp ops).1 (calls v s fp ops).2.1 B ∧
      Marked v pl (calls v s fp ops).1 (calls v s fp ops).2.1 B
  | [], m, s, fp, A, h, hk, _ => ⟨m, A, .nil A, h, hk⟩
  | op :: ops, m, s, fp, A, h, hk, ha => by
    obtain ⟨h1, ⟨m1, B, h2, h3, h4, h5⟩ | ⟨h2, -⟩⟩ := C54_step v hg hd a b m s fp A h op (ha op (by simp))
    · have hk1 := marked_step hg hd hs h hk op h2 h3
      obtain ⟨m2, C, k2, k3, k4⟩ := marked_history hg hd hs ops h3 hk1 fun x hx => ha x (by simp [hx])
      rw [h4, h5] at k2
      refine ⟨m2, C, ?_, k3, k4⟩
      have := Runs.cons h2 k2
      rw [h3.at_, h3.data, contents_len h3.toBase] at this
      exact this
    · exact absurd hs h2

theorem sync_marked {v : Vol} (hg : Geo v) (hd : DataGeo v) (hs : Sound v) {a b : List (List Nat)} {m : List Nat} {s : St} {fp : File} {A : Arr} {pl : Place}
    (h : Spec.Repr v a b m s fp A) (hk : Marked v pl s fp A) (hp : PlaceOk v (a ++ b).flatten pl) (tm : Nat) :
    (fSync v pl tm s fp).res = 0 ∧ Holds v (fSync v pl tm s fp).st.disk pl.sect pl.off A.data ∧ Spec.Repr v a b m (fSync v pl tm s fp).st (fSync v pl tm s fp).fp A ∧
    (fSync v pl tm s fp).st.wflag = false ∧ (fSync v pl tm s fp).fp.dirty = false := by
  by_cases hm : fp.modified = true
  · obtain ⟨h1, h2⟩ := fsync_spec hg hd h hp tm hm
    obtain ⟨h3, h4, h5, h6⟩ := h2 hs
    exact ⟨h3, ⟨m, (h1 h3).holds⟩, h4, h5, by rw [h6]⟩
  · obtain ⟨h1, h2, h3⟩ := hk.resolve_left hm
    have e : fSync v pl tm s fp = done s fp := by
      unfold fSync
      rw [if_neg hm]
    rw [e]
    exact ⟨rfl, h3, h, h1, h2⟩

/-- C77, any history on a device that does not fail: opening a file the device holds, any sequence of reads, writes, seeks and truncations,
then `f_sync` or `f_close`: the device holds the bytes that an array would have after the same operations.  No matter whether and how the
file object has noted a change. -/
theorem C77_cycle (v : Vol) (hg : Geo v) (hd : DataGeo v) (hs : Sound v) (a b : List (List Nat)) (m data : List Nat) (s : St) (pl : Place) (hv : VolOk v a b m s)
    (hp : PlaceOk v (a ++ b).flatten pl) (hf : s.wflag = false) (hh : HoldsIn v s.disk pl.sect pl.off m data) (rd wr : Bool) (ops : List Op) (ha : ∀ op ∈ ops, Arg op) (tm : Nat) :
    ∃ t fp, fOpen v pl rd wr s = some (t, 0, some fp) ∧
    ∃ B, Runs (capacity v (a ++ b).flatten) rd wr ⟨data, 0⟩ ops (calls v t fp ops).2.2 B ∧
      (fSync v pl tm (calls v t fp ops).1 (calls v t fp ops).2.1).res = 0 ∧
      Holds v (fSync v pl tm (calls v t fp ops).1 (calls v t fp ops).2.1).st.disk pl.sect pl.off B.data := by
  have hview : view s = s.disk := funext fun n => view_clean hv.inv hf n
  rcases open_spec hg hd hv hp (hview.symm ▸ hh) rd wr with ⟨t, -, h2⟩ | ⟨t, fp, e, h1, h2, h3, h4, h5, h6, h7⟩
  · exact absurd hs h2
  · obtain ⟨h8, h9⟩ := h7 hf
    obtain ⟨m', B, k1, k2, k3⟩ := marked_history (pl := pl) hg hd hs ops h1 (.inr ⟨h8, h6, m, h9.symm ▸ hh⟩) ha
    rw [h3, h4] at k1
    obtain ⟨l1, l2, -⟩ := sync_marked hg hd hs k2 k3 hp tm
    exact ⟨t, fp, e, B, k1, l1, l2⟩

/-- C77: a file the device holds, for instance after `f_sync` and a loss of power, can be opened again and is the same array of bytes. -/
theorem C77_reopen (v : Vol) (hg : Geo v) (hd : DataGeo v) (a b : List (List Nat)) (m data : List Nat) (s : St) (pl : Place) (hv : VolOk v a b m s)
    (hp : PlaceOk v (a ++ b).flatten pl) (hf : s.wflag = false) (hh : HoldsIn v s.disk pl.sect pl.off m data) (rd wr : Bool) :
    (∃ t, fOpen v pl rd wr s = some (t, 1, none) ∧ ¬ Sound v) ∨
    ∃ t fp, fOpen v pl rd wr s = some (t, 0, some fp) ∧ Spec.Repr v a b m t fp ⟨data, 0⟩ ∧ Others v a b s t ∧ fp.canRead = rd ∧ fp.canWrite = wr := by
  have hview : view s = s.disk := funext fun n => view_clean hv.inv hf n
  rcases open_spec hg hd hv hp (hview.symm ▸ hh) rd wr with h | ⟨t, fp, e, h1, h2, h3, h4, -⟩
  · exact .inl h
  · exact .inr ⟨t, fp, e, h1, h2, h3, h4⟩

/-! ## Hypotheses can be met -/

/-- A directory entry in the second sector of the root directory; no sector for free counts. -/
def exPlace : Place := ⟨6, 64, none⟩

theorem exPlaceOk (io : Nat → Io) (o : List Nat) : PlaceOk (exVol io) o exPlace where
  off := (by decide : 64 + 32 ≤ 512)
  not1 h := by
    have : 6 < 1 + 2 := h.2
    omega
  not2 h := by
    have : 6 < 1 + 2 * 2 := h.2.2
    omega
  own h := by
    have : 10 ≤ 6 := own_data h
    omega
  info n h := by cases h
  big _ := (by decide : 512 ≤ 512)

/-- The same file, marked as changed. -/
def exMod : File := { exFile with modified := true }

/-- A device that fails to write the sector of the directory entry, the second transfer, and leaves zeros there. -/
def badIo (n : Nat) : Io := if n = 1 then .fail (List.replicate 512 0) else .ok

/-- The volume on it. -/
def badVol : Vol := exVol badIo

theorem badGeo : Geo badVol := exGeo badIo fun n junk h => by
  unfold badIo at h
  split at h
  · cases h
    exact ⟨List.length_replicate, fun x hx => by rw [List.eq_of_mem_replicate hx]; decide⟩
  · cases h

theorem exModRepr (io : Nat → Io) : Spec.Repr (exVol io) [] [[303]] [341, 291] cxSt exMod ⟨contents (exVol io) [341, 291] cxSt exMod, 600⟩ where
  inv := ⟨cxInv.disk, cxInv.win, cxInv.clean, cxInv.dirty, cxInv.fat2⟩
  chains := cxChains
  count h := by
    have h' : 0xFFFFFFFF ≤ 598 := h
    omega
  window n h := by cases h
  sclust := rfl
  buf := sec_replicate _ 0 (by decide)
  own h := by cases h
  clean _ _ := rfl
  size := (by decide : 700 ≤ 2 * (1 * 512))
  small := by decide
  pos := by decide
  clust h := exRepr.clust h
  sect h := exRepr.sect h
  noErr := rfl
  data := rfl
  at_ := rfl

theorem badRun : (fSync badVol exPlace 0 cxSt exMod).res = FR_DISK_ERR ∧ (fSync badVol exPlace 0 cxSt exMod).fp.modified = false ∧
    field ((fSync badVol exPlace 0 cxSt exMod).st.disk exPlace.sect) (exPlace.off + 28) 4 = 0 := by decide +kernel

/-- **C77**, as stated.  `f_sync` clears `FA_MODIFIED` before it looks at the result of `sync_fs`.  If the sector with the directory entry could not be written, the next
`f_sync` or `f_close` does nothing and returns success, while the device has the old entry, or garbage. -/
theorem C77_violated : ¬ C77_full := by
  intro h
  obtain ⟨-, h1, h2⟩ := badRun
  have h3 := h badVol [] [[303]] [341, 291] cxSt exMod _ exPlace 0 0 badGeo ⟨⟨0, rfl⟩, by decide, by decide⟩ (exModRepr badIo) rfl (exPlaceOk badIo _)
  generalize fSync badVol exPlace 0 cxSt exMod = o at h1 h2 h3
  have e : fSync badVol exPlace 0 o.st o.fp = done o.st o.fp := by
    rw [fSync, h1]
    rfl
  rw [e] at h3
  obtain ⟨m, hm⟩ := h3 rfl
  have h4 : field (o.st.disk exPlace.sect) (exPlace.off + 28) 4 = (contents (exVol badIo) [341, 291] cxSt exMod).length := hm.size
  rw [h2, contents_len (exModRepr badIo).toBase] at h4
  cases h4

/-- Hypotheses of `C77_sync_partial` can be met, with a call that returns success. -/
example : Geo cxVol ∧ DataGeo cxVol ∧ Spec.Repr cxVol [] [[303]] [341, 291] cxSt exMod ⟨contents cxVol [341, 291] cxSt exMod, 600⟩ ∧ PlaceOk cxVol ([] ++ [[303]]).flatten exPlace ∧
    exMod.modified = true ∧ (fSync cxVol exPlace 0 cxSt exMod).res = 0 :=
  ⟨cxGeo, exData, exModRepr fun _ => .ok, exPlaceOk (fun _ => .ok) _, rfl, by decide +kernel⟩

/-- The device after that. -/
def exSt2 : St := (fSync cxVol exPlace 0 cxSt exMod).st

theorem exFlushed : HoldsIn cxVol exSt2.disk exPlace.sect exPlace.off [341, 291] (contents cxVol [341, 291] cxSt exMod) ∧
    VolOk cxVol [] [[303]] [341, 291] exSt2 ∧ exSt2.wflag = false := by
  unfold exSt2
  obtain ⟨h1, h2⟩ := fsync_spec (v := cxVol) cxGeo exData (exModRepr fun _ => .ok) (exPlaceOk (fun _ => .ok) _) 0 rfl
  obtain ⟨h3, h4, h5, -⟩ := h2 fun _ => rfl
  exact ⟨(h1 h3).holds, h4.toVolOk, h5⟩

/-- Hypotheses of `C77_cycle`, `C77_reopen` and `C77_unique` can be met. -/
example : Geo cxVol ∧ DataGeo cxVol ∧ Sound cxVol ∧ VolOk cxVol [] [[303]] [341, 291] exSt2 ∧ PlaceOk cxVol ([] ++ [[303]]).flatten exPlace ∧ exSt2.wflag = false ∧
    HoldsIn cxVol exSt2.disk exPlace.sect exPlace.off [341, 291] (contents cxVol [341, 291] cxSt exMod) ∧ (contents cxVol [341, 291] cxSt exMod).length = 700 ∧
    Holds cxVol exSt2.disk exPlace.sect exPlace.off (contents cxVol [341, 291] cxSt exMod) ∧ ∀ op ∈ [Op.write [1, 2, 3], .seek 650, .truncate], Arg op := by
  obtain ⟨h1, h2, h3⟩ := exFlushed
  refine ⟨cxGeo, exData, fun _ => rfl, h2, exPlaceOk (fun _ => .ok) _, h3, h1, contents_len (exModRepr fun _ => .ok).toBase, ⟨_, h1⟩, fun op hop => ?_⟩
  simp only [List.mem_cons, List.not_mem_nil, or_false] at hop
  rcases hop with rfl | rfl | rfl
  · exact ⟨by decide, by decide⟩
  · trivial
  · trivial

end Fpm.FatSync
