import Verif.FatSync.PowerLemmas
/-!
# C128: power lost while a file is changed and flushed
-/
namespace Fpm.FatSync
open Fpm.Fat Fpm.Fat.Spec Fpm.FatFile Fpm.FatFile.Spec Fpm.FatSync.Spec

/-- C128: the device always has a file where the directory entry is: of the size in the entry, in a complete chain that begins with the cluster in the entry; while the file is read, written, sought and cut, and
while `f_sync` stores it. -/
def C128_full : Prop :=
  ∀ (v : Vol) (a b : List (List Nat)) (m : List Nat) (s : St) (fp : File) (A : Arr) (pl : Place) (tm : Nat) (ops : List Op), Geo v → DataGeo v → Sound v → Spec.Repr v a b m s fp A →
    PlaceOk v (a ++ b).flatten pl → s.wflag = false → Holds v s.disk pl.sect pl.off A.data → (∀ op ∈ ops, Arg op) →
    ∀ d ∈ (fSync v pl tm (calls v s fp ops).1 (calls v s fp ops).2.1).st.disk :: (fSync v pl tm (calls v s fp ops).1 (calls v s fp ops).2.1).st.past,
      d ∈ s.past ∨ ∃ data, Holds v d pl.sect pl.off data

/-- What the device has at a moment during `f_sync`, of a file with bytes `data`: still the entry as it was, and nothing of others is lost; or the whole file, and of others still everything. -/
structure Moment (v : Vol) (C : List (List Nat)) (pl : Place) (data : List Nat) (d0 d : Disk) : Prop where
  file : Holds v d pl.sect pl.off data
  chains : ∀ l ∈ C, Links v.nFatent (fat v d) l
  other : ∀ n, n ≠ pl.sect → pl.info ≠ some n → ¬ Fat1 v n → ¬ Fat2 v n → ¬ OwnSect v C.flatten n → d n = d0 n
  entry : ∀ i, i < pl.off ∨ pl.off + 32 ≤ i → (d pl.sect)[i]? = (d0 pl.sect)[i]?

theorem after_place {v : Vol} (hg : Geo v) (hd : DataGeo v) {a b : List (List Nat)} {pl : Place} (hp : PlaceOk v (a ++ b).flatten pl) {d0 d : Disk} (h : Spare v a b d0 d) :
    Unharmed v (a ++ b) d0 d ∧ d pl.sect = d0 pl.sect := ⟨spare_unharmed hg hd h, h.2 _ hp.not1 hp.not2 hp.own⟩

/-- **C128**, as far as it holds: if power is lost at any time during `f_sync`, the device has the directory entry as it was before, or the file with all its bytes: data and FAT are written before the entry.  Chains of
other files and directories and their bytes are kept in both cases.  Missing: that the entry as it was before still describes a file; cutting frees clusters on the device before, see `C128_violated`. -/
theorem C128_sync_partial (v : Vol) (hg : Geo v) (hd : DataGeo v) (hs : Sound v) (a b : List (List Nat)) (m : List Nat) (s : St) (fp : File) (A : Arr) (h : Spec.Repr v a b m s fp A)
    (pl : Place) (hp : PlaceOk v (a ++ b).flatten pl) (tm : Nat) :
    ∀ d ∈ (fSync v pl tm s fp).st.disk :: (fSync v pl tm s fp).st.past, d ∈ s.disk :: s.past ∨
      Unharmed v (a ++ b) s.disk d ∧ d pl.sect = s.disk pl.sect ∨ Unharmed v (a ++ b) (view s) d ∧ d pl.sect = view s pl.sect ∨ Moment v (a ++ b) pl A.data (view s) d := by
  intro d hdd
  rcases fsync_times hg hd hs h hp tm d hdd with h1 | (h1 | h1) | h1
  · exact .inl h1
  · exact .inr (.inl (after_place hg hd hp h1))
  · exact .inr (.inr (.inl (after_place hg hd hp h1)))
  · refine .inr (.inr (.inr ⟨⟨m, h1.holds⟩, fun l hl => ?_, fun n n1 n2 _ n3 n4 => h1.other n n1 n2 n3 n4, fun i hi => h1.entry i (hi.imp id .inl)⟩))
    have hfat : fat v d = tab v s := by
      refine fat_eq fun n hn => h1.other n ?_ ?_ (fat1_not2 hn) ?_
      · rintro rfl; exact hp.not1 hn
      · exact fun e => (hp.info _ e).2.1 hn
      · exact fun z => own_not1 hg hd z hn
    rw [hfat]
    exact h.links l hl

/-- **C128**, over the life of the file: from a state in which nothing is waiting to be written, at any time during any reads, writes, seeks and truncations and the `f_sync` after them, the directory entry on the device is
the one at the beginning, or the device has the file with the bytes it has at the end; and of other files and directories nothing is lost. -/
theorem C128_life_partial (v : Vol) (hg : Geo v) (hd : DataGeo v) (hs : Sound v) (a b : List (List Nat)) (m : List Nat) (s : St) (fp : File) (A : Arr) (h : Spec.Repr v a b m s fp A) (hw : s.wflag = false)
    (pl : Place) (hp : PlaceOk v (a ++ b).flatten pl) (tm : Nat) (ops : List Op) (ha : ∀ op ∈ ops, Arg op) :
    ∃ B, Runs (capacity v (a ++ b).flatten) fp.canRead fp.canWrite A ops (calls v s fp ops).2.2 B ∧
      ∀ d ∈ (fSync v pl tm (calls v s fp ops).1 (calls v s fp ops).2.1).st.disk :: (fSync v pl tm (calls v s fp ops).1 (calls v s fp ops).2.1).st.past, d ∈ s.past ∨
        (∀ l ∈ a ++ b, Intact v s.disk d l) ∧ d pl.sect = s.disk pl.sect ∨ Moment v (a ++ b) pl B.data s.disk d := by
  obtain ⟨ho, m', B, hr, hB⟩ := C54_history v hg hd hs a b ops m s fp A h ha
  refine ⟨B, hr, ?_⟩
  generalize (calls v s fp ops).2.1 = fp' at *
  generalize (calls v s fp ops).1 = t at *
  have e : view s = s.disk := view_settled h.inv hw
  have hl : ∀ l ∈ a ++ b, Links v.nFatent (fat v s.disk) l := by rw [← e]; exact h.links
  have fin : ∀ d, Spare v a b s.disk d → (∀ l ∈ a ++ b, Intact v s.disk d l) ∧ d pl.sect = s.disk pl.sect := fun d z =>
    ⟨fun l hl' => (spare_unharmed hg hd z).1 l hl' (hl l hl'), (after_place hg hd hp z).2⟩
  have aft : ∀ d, After v a b s d → Spare v a b s.disk d := by
    rintro d (z | z)
    · exact z
    · rwa [e] at z
  have hvt : Spare v a b s.disk (view t) := by
    rw [← e]
    exact ⟨fun l hl _ => ho.1 l hl, ho.2.1⟩
  intro d hdd
  rcases fsync_times hg hd hs hB hp tm d hdd with h1 | (h1 | h1) | h1
  · rcases (ho.2.2 hs).1 d h1 with h2 | h2
    · rcases List.mem_cons.mp h2 with rfl | h2
      · exact .inr (.inl (fin _ (.refl _ _ _ _)))
      · exact .inl h2
    · exact .inr (.inl (fin _ (aft _ h2)))
  · exact .inr (.inl (fin _ ((aft _ (ho.2.2 hs).2).trans h1)))
  · exact .inr (.inl (fin _ (hvt.trans h1)))
  · refine .inr (.inr ⟨⟨m', h1.holds⟩, fun l hl => ?_, fun n n1 n2 n0 n3 n4 => ?_, fun i hi => ?_⟩)
    · have hfat : fat v d = tab v t := by
        refine fat_eq fun n hn => h1.other n ?_ ?_ (fat1_not2 hn) ?_
        · rintro rfl; exact hp.not1 hn
        · exact fun e => (hp.info _ e).2.1 hn
        · exact fun z => own_not1 hg hd z hn
      rw [hfat]
      exact hB.links l hl
    · rw [h1.other n n1 n2 n3 n4, hvt.2 n n0 n3 n4]
    · rw [h1.entry i (hi.imp id .inl), hvt.2 _ hp.not1 hp.not2 hp.own]

/-! ## Why not always -/

/-- The file of the example, stored, opened again. -/
def cutOpen : Option (St × Nat × Option File) := fOpen cxVol exPlace true true exSt2

/-- The volume then. -/
def cutSt : St := match cutOpen with
  | some (t, _, _) => t
  | none => exSt2

/-- The open file. -/
def cutFile : File := match cutOpen with
  | some (_, _, some fp) => fp
  | _ => exMod

theorem cutRepr : Spec.Repr cxVol [] [[303]] [341, 291] cutSt cutFile ⟨contents cxVol [341, 291] cxSt exMod, 0⟩ ∧ cutSt.wflag = false ∧ cutSt.disk = exSt2.disk := by
  obtain ⟨h1, h2, h3⟩ := exFlushed
  have hw : ∀ n, view exSt2 n = exSt2.disk n := view_clean h2.inv h3
  have hh : HoldsIn cxVol (view exSt2) exPlace.sect exPlace.off [341, 291] (contents cxVol [341, 291] cxSt exMod) := by
    rw [show view exSt2 = exSt2.disk from funext hw]
    exact h1
  rcases open_spec (v := cxVol) cxGeo exData h2 (exPlaceOk (fun _ => .ok) _) hh true true with ⟨t, -, hs⟩ | ⟨t, fp, e, hr, -, -, -, -, -, hq⟩
  · exact absurd (fun _ => rfl) hs
  · have e1 : cutSt = t := by
      unfold cutSt cutOpen
      rw [e]
    have e2 : cutFile = fp := by
      unfold cutFile cutOpen
      rw [e]
    rw [e1, e2]
    exact ⟨hr, hq h3⟩

/-- A moment during `f_sync` after cutting the file to length 0. -/
def cutDisk : Disk := ((fSync cxVol exPlace 0 (calls cxVol cutSt cutFile [.truncate]).1 (calls cxVol cutSt cutFile [.truncate]).2.1).st.past).headD (fun _ => [])

theorem cutFacts : (((fSync cxVol exPlace 0 (calls cxVol cutSt cutFile [.truncate]).1 (calls cxVol cutSt cutFile [.truncate]).2.1).st.past).isEmpty = false ∧ ∀ d ∈ cutSt.past, field (d 6) 92 4 = 0) ∧
    field (cutDisk 6) 92 4 = 700 ∧ first cxVol (cutDisk 6) 64 = 341 ∧ fat cxVol cutDisk 341 = 0 := by decide +kernel

/-- **C128** as stated is violated: a file of 700 bytes is opened, cut to length 0 and flushed; after the FAT has been written and before the entry is, the entry on the device has 700 bytes and a first cluster that is free. -/
theorem C128_violated : ¬ C128_full := by
  intro hfull
  obtain ⟨h1, h2, h3⟩ := cutRepr
  obtain ⟨⟨f1, f2⟩, f3, f4, f5⟩ := cutFacts
  have hh : Holds cxVol cutSt.disk exPlace.sect exPlace.off (contents cxVol [341, 291] cxSt exMod) := by
    rw [h3]
    exact ⟨_, exFlushed.1⟩
  have := hfull cxVol [] [[303]] [341, 291] cutSt cutFile _ exPlace 0 [.truncate] cxGeo exData (fun _ => rfl) h1 (exPlaceOk (fun _ => .ok) _) h2 hh (fun op hop => by rw [List.mem_singleton.mp hop]; trivial)
    cutDisk (List.mem_cons_of_mem _ ?_)
  · rcases this with h | ⟨data, m, h⟩
    · rw [f2 _ h] at f3
      cases f3
    · have e : m.headD 0 = 341 := h.first.symm.trans f4
      cases m with
      | nil => cases e
      | cons c l =>
        obtain rfl : c = 341 := e
        rcases h.chain with z | z
        · cases z
        · have := links_used z 341 (by simp)
          rw [f5] at this
          omega
  · unfold cutDisk
    revert f1
    generalize ((fSync cxVol exPlace 0 (calls cxVol cutSt cutFile [.truncate]).1 (calls cxVol cutSt cutFile [.truncate]).2.1).st.past) = l
    intro f1
    cases l with
    | nil => cases f1
    | cons d l => exact List.mem_cons_self

/-- A case of the hypotheses of C127 and C128: a file of 700 bytes in two clusters, beside another one, with nothing waiting to be written; and operations that change it. -/
example : Geo cxVol ∧ DataGeo cxVol ∧ Sound cxVol ∧ Spec.Repr cxVol [] [[303]] [341, 291] cutSt cutFile ⟨contents cxVol [341, 291] cxSt exMod, 0⟩ ∧ cutSt.wflag = false ∧
    PlaceOk cxVol ([] ++ [[303]]).flatten exPlace ∧ (∀ op ∈ [Op.write [1, 2, 3], .seek 650, .truncate], Arg op) ∧
    (calls cxVol cutSt cutFile [Op.write [1, 2, 3], .seek 650, .truncate]).2.1.modified = true := by
  refine ⟨cxGeo, exData, fun _ => rfl, cutRepr.1, cutRepr.2.1, exPlaceOk (fun _ => .ok) _, fun op hop => ?_, by decide +kernel⟩
  simp only [List.mem_cons, List.not_mem_nil, or_false] at hop
  rcases hop with rfl | rfl | rfl
  · exact ⟨by decide, by decide⟩
  · trivial
  · trivial

end Fpm.FatSync
