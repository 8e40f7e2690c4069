import Verif.FatFile.ManyProps
import Verif.FatFile.PowerSpec
/-!
# C127: power lost while files are open harms no other file
-/
namespace Fpm.FatFile
open Fpm.Fat Fpm.Fat.Spec Fpm.FatFile.Spec

theorem spare_unharmed {v : Vol} (hg : Geo v) (hd : DataGeo v) {a b : List (List Nat)} {d0 d : Disk} (h : Spare v a b d0 d) : Unharmed v (a ++ b) d0 d := by
  refine ⟨fun l hl hk => ⟨h.1 l hl hk, flat_congr fun n hn => ?_⟩, fun n hn h1 h2 => h.2 n h1 h2 fun z => ?_⟩
  · obtain ⟨c, hc, hcn⟩ := secs_mem hn
    have hm := links_mem hk c hc
    have hown : OwnSect v [] n := ⟨c, ⟨hm.1, hm.2, List.not_mem_nil⟩, hcn⟩
    refine h.2 n (own_not1 hg hd hown) (own_not2 hd hown) ?_
    rintro ⟨c', ⟨h2', -, hno⟩, hcn'⟩
    apply hno
    rw [sectors_inj hcn' hcn h2' hm.1]
    exact List.mem_flatten.mpr ⟨l, hl, hc⟩
  · have := own_data z
    omega

theorem others_unharmed {v : Vol} (hg : Geo v) (hd : DataGeo v) (hs : Sound v) {a b : List (List Nat)} {s s' : St} (h : Others v a b s s') :
    ∀ d ∈ s'.disk :: s'.past, d ∈ s.disk :: s.past ∨ Unharmed v (a ++ b) s.disk d ∨ Unharmed v (a ++ b) (view s) d := fun d hd' =>
  ((h.2.2 hs).1 d hd').imp id (Or.imp (spare_unharmed hg hd) (spare_unharmed hg hd))

theorem view_settled {v : Vol} {s : St} (hi : Inv v s) (hw : s.wflag = false) : view s = s.disk := by
  funext n
  unfold view
  split
  · rename_i h
    exact hi.clean hw n h
  · rfl

theorem others_kept {v : Vol} (hg : Geo v) (hd : DataGeo v) (hs : Sound v) {a b : List (List Nat)} {s s' : St} (hi : Inv v s) (hw : s.wflag = false) (hl : ∀ l ∈ a ++ b, Links v.nFatent (tab v s) l)
    (h : Others v a b s s') : ∀ d ∈ s'.disk :: s'.past, d ∈ s.past ∨ (∀ l ∈ a ++ b, Intact v s.disk d l) ∧ ∀ n, n < v.database → ¬ Fat1 v n → ¬ Fat2 v n → d n = s.disk n := by
  intro d hdd
  have e := view_settled hi hw
  have hl' : ∀ l ∈ a ++ b, Links v.nFatent (fat v s.disk) l := by rw [← e]; exact hl
  have fin : Unharmed v (a ++ b) s.disk d → (∀ l ∈ a ++ b, Intact v s.disk d l) ∧ ∀ n, n < v.database → ¬ Fat1 v n → ¬ Fat2 v n → d n = s.disk n :=
    fun h => ⟨fun l hl => h.1 l hl (hl' l hl), h.2⟩
  rcases others_unharmed hg hd hs h d hdd with h | h | h
  · rcases List.mem_cons.mp h with rfl | h
    · exact .inr ⟨fun l hl => ⟨hl' l hl, rfl⟩, fun _ _ _ _ => rfl⟩
    · exact .inl h
  · exact .inr (fin h)
  · rw [e] at h
    exact .inr (fin h)

/-- C127: if power is lost at any time during any history of reads, writes, seeks and truncations of an open file, then on the device each chain of another file or
directory that was complete there (or, once the window has been written, that was complete for the program) is still complete, and holds the same bytes; so does everything in front of the clusters. -/
theorem C127_at_any_time (v : Vol) (hg : Geo v) (hd : DataGeo v) (hs : Sound v) (a b : List (List Nat)) (m : List Nat) (s : St) (fp : File) (A : Arr) (h : Spec.Repr v a b m s fp A)
    (ops : List Op) (ha : ∀ op ∈ ops, Arg op) :
    ∀ d ∈ (calls v s fp ops).1.disk :: (calls v s fp ops).1.past, d ∈ s.disk :: s.past ∨ Unharmed v (a ++ b) s.disk d ∨ Unharmed v (a ++ b) (view s) d :=
  others_unharmed hg hd hs (C54_history v hg hd hs a b ops m s fp A h ha).1

/-- C127: from a state in which nothing is waiting to be written, for instance after `f_open` or `f_sync`, all other chains are complete on the device at any time, with the same bytes. -/
theorem C127_from_clean (v : Vol) (hg : Geo v) (hd : DataGeo v) (hs : Sound v) (a b : List (List Nat)) (m : List Nat) (s : St) (fp : File) (A : Arr) (h : Spec.Repr v a b m s fp A) (hw : s.wflag = false)
    (ops : List Op) (ha : ∀ op ∈ ops, Arg op) :
    ∀ d ∈ (calls v s fp ops).1.disk :: (calls v s fp ops).1.past, d ∈ s.past ∨
      (∀ l ∈ a ++ b, Intact v s.disk d l) ∧ ∀ n, n < v.database → ¬ Fat1 v n → ¬ Fat2 v n → d n = s.disk n :=
  others_kept hg hd hs h.inv hw h.links (C54_history v hg hd hs a b ops m s fp A h ha).1

/-- C127: the same with several open files, used in any order (no file cut at a multiple of the sector size before its end, see `C93_violated`), for all chains that belong to none of them. -/
theorem C127_several (v : Vol) (hg : Geo v) (hd : DataGeo v) (hs : Sound v) (C : List (List Nat)) (s : St) (L : List Opened) (h : Desk v C s L) (hw : s.wflag = false) (hist : List (Nat × Op))
    (ha : ∀ e ∈ hist, e.1 < L.length ∧ Arg e.2) (hc : calm v s (L.map Opened.fp) hist = true) :
    ∀ d ∈ (turns v s (L.map Opened.fp) hist).1.disk :: (turns v s (L.map Opened.fp) hist).1.past, d ∈ s.past ∨
      (∀ l ∈ C, Intact v s.disk d l) ∧ ∀ n, n < v.database → ¬ Fat1 v n → ¬ Fat2 v n → d n = s.disk n := by
  obtain ⟨L', -, -, -, ho⟩ := C93_any_order_partial v hg hd hs C s L h hist ha hc
  have := others_kept hg hd hs h.inv hw (fun l hl => h.chains.chain l (by rw [List.append_nil] at hl; exact List.mem_append_left _ hl)) ho
  rw [List.append_nil] at this
  exact this

/-- A case of the hypotheses, of the first theorem (see also the one after `FatSync.C128_violated`) and of the one about several files. -/
example : Spec.Repr cxVol [] [[303]] [341, 291] cxSt exFile ⟨contents cxVol [341, 291] cxSt exFile, 600⟩ ∧ (∀ op ∈ [Op.write [1, 2, 3]], Arg op) ∧
    Desk dkV [] dkS dkL ∧ dkS.wflag = false ∧ (∀ e ∈ dkTurns, e.1 < dkL.length) ∧ calm dkV dkS (dkL.map Opened.fp) dkTurns = true :=
  ⟨exRepr, fun op hop => by rw [List.mem_singleton.mp hop]; exact ⟨by decide, by decide⟩, dkDesk, rfl, by decide, by decide +kernel⟩

end Fpm.FatFile
