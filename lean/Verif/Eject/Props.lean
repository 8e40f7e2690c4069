import Verif.Eject.Spec
/-!
# C133: objects of a volume that has been ejected
-/
namespace Fpm.Eject
open Fpm.Eject.Spec

/-- What holds of an open object. -/
structure Good (w : World) (h : Handle) : Prop where
  id : h.obj.id = h.born % 2 ^ 16
  born : h.born ≤ w.last h.obj.vol
  sess : h.sess ≤ w.sess h.obj.vol
  now : h.sess = w.sess h.obj.vol → Usable w.sys h.obj.vol ∧ h.born = w.last h.obj.vol
  past : h.sess ≠ w.sess h.obj.vol → Usable w.sys h.obj.vol → h.born < w.last h.obj.vol

/-- What holds in all histories. -/
structure Inv (w : World) : Prop where
  fsid : w.sys.fsid = w.mounts % 2 ^ 16
  ids : ∀ v, (w.sys.vols v).ty ≠ 0 → (w.sys.vols v).id = w.last v % 2 ^ 16
  last : ∀ v, w.last v ≤ w.mounts
  all : ∀ h ∈ w.handles, Good w h

/-- What a call can do to the volumes. -/
inductive Moves (v : Nat) (s : Sys) : Sys → Prop
  | same : Moves v s s
  | down (s' : Sys) : ¬ Usable s v → (∀ u, u ≠ v → s'.vols u = s.vols u ∧ s'.noinit u = s.noinit u) → (s'.vols v).ty = 0 → s'.fsid = s.fsid → Moves v s s'
  | up (s' : Sys) : ¬ Usable s v → (∀ u, u ≠ v → s'.vols u = s.vols u ∧ s'.noinit u = s.noinit u) → Usable s' v → (s'.vols v).id = (s.fsid + 1) % 2 ^ 16 → s'.fsid = (s.fsid + 1) % 2 ^ 16 → Moves v s s'

theorem volume_moves (v : Nat) (wr : Bool) (r : Found) (s : Sys) : Moves v s (mountVolume v wr r s).1 := by
  unfold mountVolume
  split
  · exact .same
  · rename_i hu
    unfold mountNew
    split
    · exact .down _ hu (fun u h => by simp [put, h]) (by simp [put]) rfl
    · rename_i hn
      split
      · exact .down _ hu (fun u h => by simp [put, h]) (by simp [put]) rfl
      · split
        · exact .down _ hu (fun u h => by simp [put, h]) (by simp [put]) rfl
        · rename_i hf
          refine .up _ hu (fun u h => by simp [put, h, mounted]) ?_ (by simp [put, mounted]) rfl
          exact ⟨by simpa [put, mounted] using hf, by simpa [put, mounted] using hn⟩

theorem mount_moves (v : Nat) (r : Found) (s : Sys) : Moves v s (fMount v r s).1 := by
  unfold fMount
  split
  · exact .same
  · exact volume_moves v false r s

theorem usable_other {s s' : Sys} {u : Nat} (h : s'.vols u = s.vols u ∧ s'.noinit u = s.noinit u) : Usable s' u ↔ Usable s u := by
  unfold Usable
  rw [h.1, h.2]

theorem goes_inv {w : World} {v : Nat} {s : Sys} (hw : Inv w) (hm : Moves v w.sys s) : Inv (w.goes v s) := by
  cases hm with
  | same =>
    have e : w.goes v w.sys = w := by
      unfold World.goes
      rw [if_neg (fun h => h.1 h.2)]
    rw [e]
    exact hw
  | down _ hu ho ht hf =>
    have e : w.goes v s = { w with sys := s } := by
      unfold World.goes
      rw [if_neg (fun h => h.2.1 ht)]
    rw [e]
    refine ⟨hf.trans hw.fsid, fun u h => ?_, hw.last, fun h hh => ?_⟩
    · by_cases huv : u = v
      · subst huv
        exact absurd ht h
      · simp only at h ⊢
        rw [(ho u huv).1] at h ⊢
        exact hw.ids u h
    · obtain ⟨g1, g2, g3, g4, g5⟩ := hw.all h hh
      by_cases huv : h.obj.vol = v
      · exact ⟨g1, g2, g3, fun h1 => absurd (huv ▸ (g4 h1).1) hu, fun _ h2 => absurd (huv ▸ ht) h2.1⟩
      · have e := usable_other (ho _ huv)
        exact ⟨g1, g2, g3, fun h1 => ⟨e.2 (g4 h1).1, (g4 h1).2⟩, fun h1 h2 => g5 h1 (e.1 h2)⟩
  | up _ hu ho ht hi hf =>
    have e : w.goes v s = { w with sys := s, mounts := w.mounts + 1, last := fun u => if u = v then w.mounts + 1 else w.last u } := by
      unfold World.goes
      rw [if_pos ⟨hu, ht⟩]
    rw [e]
    have hff := hw.fsid
    refine ⟨by simp only; omega, fun u h => ?_, fun u => ?_, fun h hh => ?_⟩
    · simp only at h ⊢
      by_cases huv : u = v
      · subst huv
        rw [if_pos rfl, hi]
        omega
      · rw [if_neg huv]
        rw [(ho u huv).1] at h ⊢
        exact hw.ids u h
    · have := hw.last u
      simp only
      split <;> omega
    · obtain ⟨g1, g2, g3, g4, g5⟩ := hw.all h hh
      have hl := hw.last h.obj.vol
      by_cases huv : h.obj.vol = v
      · refine ⟨g1, ?_, g3, fun h1 => absurd (huv ▸ (g4 h1).1) hu, fun _ _ => ?_⟩
        · simp only [if_pos huv]
          omega
        · simp only [if_pos huv]
          omega
      · have e := usable_other (ho _ huv)
        refine ⟨g1, ?_, g3, fun h1 => ⟨e.2 (g4 h1).1, ?_⟩, fun h1 h2 => ?_⟩
        · simp only [if_neg huv]
          exact g2
        · simp only [if_neg huv]
          exact (g4 h1).2
        · simp only [if_neg huv]
          exact g5 h1 (e.1 h2)

/-- A session of volume `v` ends: the others stay as they were, and `v` cannot be used. -/
theorem end_inv {w : World} {v : Nat} {s : Sys} (hw : Inv w) (ho : ∀ u, u ≠ v → s.vols u = w.sys.vols u ∧ s.noinit u = w.sys.noinit u) (hu : ¬ Usable s v) (hi : (s.vols v).ty ≠ 0 → s.vols v = w.sys.vols v) (hf : s.fsid = w.sys.fsid) :
    Inv { w with sys := s, sess := ended w.sess v } := by
  refine ⟨hf.trans hw.fsid, fun u h => ?_, hw.last, fun h hh => ?_⟩
  · simp only at h ⊢
    by_cases huv : u = v
    · subst huv
      have e := hi h
      rw [e] at h ⊢
      exact hw.ids u h
    · rw [(ho u huv).1] at h ⊢
      exact hw.ids u h
  · obtain ⟨g1, g2, g3, g4, g5⟩ := hw.all h hh
    by_cases huv : h.obj.vol = v
    · refine ⟨g1, g2, ?_, fun h1 => ?_, fun _ h2 => absurd (huv ▸ h2) hu⟩
      · simp only [ended, if_pos huv]
        omega
      · simp only [ended, if_pos huv] at h1
        omega
    · have e := usable_other (ho _ huv)
      have es : ended w.sess v h.obj.vol = w.sess h.obj.vol := by simp only [ended, if_neg huv]
      refine ⟨g1, g2, ?_, fun h1 => ?_, fun h1 h2 => ?_⟩
      · simp only [es]
        exact g3
      · simp only [es] at h1
        exact ⟨e.2 (g4 h1).1, (g4 h1).2⟩
      · simp only [es] at h1
        exact g5 h1 (e.1 h2)

theorem reach_inv {w : World} (h : Reach w) : Inv w := by
  induction h with
  | start => exact ⟨rfl, fun _ h => absurd rfl h, fun _ => Nat.le_refl _, fun _ h => by cases h⟩
  | step w w' _ hs hw =>
    cases hs with
    | mount v r => exact goes_inv hw (mount_moves v r w.sys)
    | access v wr r => exact goes_inv hw (volume_moves v wr r w.sys)
    | opens v hu =>
      refine ⟨hw.fsid, hw.ids, hw.last, fun h hh => ?_⟩
      rcases List.mem_cons.1 hh with rfl | hh
      · exact ⟨hw.ids v hu.1, Nat.le_refl _, Nat.le_refl _, fun _ => ⟨hu, rfl⟩, fun h => absurd rfl h⟩
      · obtain ⟨g1, g2, g3, g4, g5⟩ := hw.all h hh
        exact ⟨g1, g2, g3, g4, g5⟩
    | eject v =>
      unfold fUnmount
      split
      · exact end_inv hw (fun u h => by simp [put, h]) (fun h => h.1 (by simp [put])) (fun h => absurd (by simp [put]) h) rfl
      · rename_i ht
        exact end_inv hw (fun u h => ⟨rfl, rfl⟩) (fun h => ht h.1) (fun _ => rfl) rfl
    | remove v => exact end_inv hw (fun u h => by simp [h]) (fun h => by simp [Usable] at h) (fun _ => rfl) rfl
    | close pre post h he =>
      refine ⟨hw.fsid, hw.ids, hw.last, fun x hx => ?_⟩
      obtain ⟨g1, g2, g3, g4, g5⟩ := hw.all x (by
        rw [he]
        rcases List.mem_append.1 hx with h | h
        · exact List.mem_append_left _ h
        · exact List.mem_append_right _ (List.mem_cons_of_mem _ h))
      exact ⟨g1, g2, g3, g4, g5⟩

theorem validate_iff (o : Obj) (s : Sys) : validate o s = true ↔ Usable s o.vol ∧ o.id = (s.vols o.vol).id := by
  unfold validate Usable
  simp only [decide_eq_true_eq]
  constructor
  · rintro ⟨a, b, c⟩
    exact ⟨⟨a, c⟩, b⟩
  · rintro ⟨⟨a, c⟩, b⟩
    exact ⟨a, b, c⟩

/-- In all histories, an object is accepted just if the volume has neither been ejected nor taken out since it was opened. -/
def C133_full : Prop := ∀ w, Reach w → ∀ h ∈ w.handles, validate h.obj w.sys = true ↔ h.sess = w.sess h.obj.vol

/-- It is so if there have been fewer than 65536 mounts since the volume was mounted.  An object of a running session is accepted in any case. -/
theorem C133_stale_partial (w : World) (hr : Reach w) (h : Handle) (hh : h ∈ w.handles) :
    (h.sess = w.sess h.obj.vol → validate h.obj w.sys = true) ∧ (w.mounts < h.born + 65536 → validate h.obj w.sys = true → h.sess = w.sess h.obj.vol) := by
  have hw := reach_inv hr
  obtain ⟨g1, g2, g3, g4, g5⟩ := hw.all h hh
  rw [validate_iff]
  refine ⟨fun h1 => ⟨(g4 h1).1, ?_⟩, fun hb ⟨hu, hi⟩ => ?_⟩
  · rw [hw.ids _ (g4 h1).1.1, g1, (g4 h1).2]
  · refine Decidable.byContradiction fun hn => ?_
    have h5 := g5 hn hu
    have hl := hw.last h.obj.vol
    rw [hw.ids _ hu.1, g1] at hi
    omega

/-- A world with one object of volume 0, from the first session, after `n` more mounts. -/
theorem reach_cycles (n : Nat) : ∃ w, Reach w ∧ w.handles = [⟨⟨0, 1⟩, 0, 1⟩] ∧ w.sess 0 = n ∧ Usable w.sys 0 ∧ w.mounts = n + 1 ∧ w.last 0 = n + 1 := by
  have hfound : ∀ w : World, w.sys.noinit 0 = true ∨ (w.sys.vols 0).ty = 0 → Usable (mountVolume 0 false ⟨false, false, false, 3⟩ w.sys).1 0 := by
    intro w h
    unfold mountVolume
    rw [if_neg (by rintro ⟨a, b⟩; rcases h with h | h; · simp [h] at b
                   · exact a h)]
    simp [mountNew, mounted, Usable, put]
  induction n with
  | zero =>
    have h1 := Reach.step _ _ Reach.start (.access _ 0 false ⟨false, false, false, 3⟩)
    have hu := hfound ⟨start, fun _ => 0, 0, fun _ => 0, []⟩ (.inl rfl)
    unfold World.goes at h1
    rw [if_pos ⟨fun h => by simp [Usable, start] at h, hu⟩] at h1
    have h2 := Reach.step _ _ h1 (.opens _ 0 hu)
    exact ⟨_, h2, rfl, rfl, hu, rfl, rfl⟩
  | succ n ih =>
    obtain ⟨w, hr, hh, hs, hu, hm, -⟩ := ih
    have h1 := Reach.step _ _ hr (.eject _ 0)
    have hz : ((fUnmount 0 w.sys).vols 0).ty = 0 := by
      unfold fUnmount
      rw [if_pos hu.1]
      simp [put]
    have h2 := Reach.step _ _ h1 (.access _ 0 false ⟨false, false, false, 3⟩)
    have hu2 := hfound { w with sys := fUnmount 0 w.sys, sess := ended w.sess 0 } (.inr hz)
    unfold World.goes at h2
    rw [if_pos ⟨fun h => h.1 hz, hu2⟩] at h2
    exact ⟨_, h2, hh, by simp [ended, hs], hu2, by simp [hm], by simp [hm]⟩

/-- After 65536 mounts the numbers repeat: a file that was opened before the volume was ejected is taken for one of the medium that is there now. -/
theorem C133_violated : ¬ C133_full := by
  intro hf
  obtain ⟨w, hr, hh, hs, hu, -, hl⟩ := reach_cycles 65536
  have h := hf w hr ⟨⟨0, 1⟩, 0, 1⟩ (by rw [hh]; exact List.mem_singleton.2 rfl)
  have hv : validate ⟨0, 1⟩ w.sys = true := by
    rw [validate_iff]
    refine ⟨hu, ?_⟩
    rw [(reach_inv hr).ids 0 hu.1, hl]
  have := h.1 hv
  simp only [hs] at this
  exact absurd this (by decide)

/-- Ejecting: the volume cannot be used then, and none of its objects is in the table; the other volumes, and what is in the table of them, stay. -/
theorem C133_eject (v : Nat) (s : Sys) : ¬ Usable (fUnmount v s) v ∧ (∀ o, o.vol = v → validate o (fUnmount v s) = false) ∧ (∀ u, u ≠ v → (fUnmount v s).vols u = s.vols u ∧ (fUnmount v s).noinit u = s.noinit u) ∧
    (Usable s v → ∀ x ∈ (fUnmount v s).files, x.key.fs ≠ v + 1) ∧ (fUnmount v s).files.length = s.files.length ∧ ∀ (j : Nat) (x : Fpm.FatLock.Sem), s.files[j]? = some x → x.key.fs ≠ v + 1 → (fUnmount v s).files[j]? = some x := by
  have hn : ¬ Usable (fUnmount v s) v := by
    unfold fUnmount
    split
    · exact fun h => h.1 (by simp [put])
    · rename_i ht
      exact fun h => ht h.1
  refine ⟨hn, fun o ho => ?_, fun u hu => ?_, fun hu x hx => ?_, ?_, fun j x hj hx => ?_⟩
  · rw [Bool.eq_false_iff]
    intro h
    exact hn (ho ▸ ((validate_iff _ _).1 h).1)
  · unfold fUnmount
    split
    · simp [put, hu]
    · exact ⟨rfl, rfl⟩
  · unfold fUnmount at hx
    rw [if_pos hu.1] at hx
    simp only [Fpm.FatLock.clearShare, List.mem_map] at hx
    obtain ⟨y, -, rfl⟩ := hx
    split
    · simp
    · assumption
  · unfold fUnmount
    split
    · simp [Fpm.FatLock.clearShare]
    · rfl
  · unfold fUnmount
    split
    · simp [Fpm.FatLock.clearShare, hj, hx]
    · exact hj

/-- Mounting: with success the volume can be used, unless `f_mount` found that it was mounted before, and its medium has been taken out since; a volume that could not be used has none of its objects in the table. -/
theorem C133_mount (v : Nat) (r : Found) (s : Sys) : ((fMount v r s).2 = true → s.noinit v = false ∨ (s.vols v).ty = 0 → Usable (fMount v r s).1 v) ∧
    (∀ wr, (mountVolume v wr r s).2 = true → Usable (mountVolume v wr r s).1 v ∧ (¬ Usable s v → ∀ x ∈ (mountVolume v wr r s).1.files, x.key.fs ≠ v + 1)) := by
  have key : ∀ wr, (mountVolume v wr r s).2 = true → Usable (mountVolume v wr r s).1 v ∧ (¬ Usable s v → ∀ x ∈ (mountVolume v wr r s).1.files, x.key.fs ≠ v + 1) := by
    intro wr
    unfold mountVolume
    split
    · rename_i hu
      exact fun _ => ⟨hu, fun h => absurd hu h⟩
    · unfold mountNew
      split
      · exact fun h => by cases h
      · rename_i hn
        split
        · exact fun h => by cases h
        · split
          · exact fun h => by cases h
          · rename_i hf
            refine fun _ => ⟨⟨by simpa [put, mounted] using hf, by simpa [put, mounted] using hn⟩, fun _ x hx => ?_⟩
            simp only [mounted, Fpm.FatLock.clearShare, List.mem_map] at hx
            obtain ⟨y, -, rfl⟩ := hx
            split
            · simp
            · assumption
  refine ⟨?_, key⟩
  unfold fMount
  split
  · rename_i ht
    exact fun _ h => h.elim (fun h => ⟨ht, h⟩) (fun h => absurd h ht)
  · exact fun h _ => (key false h).1

/-- Whether mounting succeeds or not, the other volumes, and what is in the table of them, stay. -/
theorem C133_others (v : Nat) (wr : Bool) (r : Found) (s s' : Sys) (h : s' = (mountVolume v wr r s).1 ∨ s' = (fMount v r s).1) :
    (∀ u, u ≠ v → s'.vols u = s.vols u ∧ s'.noinit u = s.noinit u) ∧ s'.files.length = s.files.length ∧ ∀ (j : Nat) (x : Fpm.FatLock.Sem), s.files[j]? = some x → x.key.fs ≠ v + 1 → s'.files[j]? = some x := by
  have key : ∀ wr, s' = (mountVolume v wr r s).1 → s'.files.length = s.files.length ∧ ∀ (j : Nat) (x : Fpm.FatLock.Sem), s.files[j]? = some x → x.key.fs ≠ v + 1 → s'.files[j]? = some x := by
    rintro wr rfl
    unfold mountVolume mountNew
    split
    · exact ⟨rfl, fun _ _ h _ => h⟩
    · split
      · exact ⟨rfl, fun _ _ h _ => h⟩
      · split
        · exact ⟨rfl, fun _ _ h _ => h⟩
        · split
          · exact ⟨rfl, fun _ _ h _ => h⟩
          · exact ⟨by simp [mounted, Fpm.FatLock.clearShare], fun j x h hx => by simp [mounted, Fpm.FatLock.clearShare, h, hx]⟩
  have hm : Moves v s s' := by
    rcases h with rfl | rfl
    · exact volume_moves v wr r s
    · exact mount_moves v r s
  refine ⟨fun u hu => ?_, ?_⟩
  · cases hm with
    | same => exact ⟨rfl, rfl⟩
    | down _ _ ho _ _ => exact ho u hu
    | up _ _ ho _ _ _ => exact ho u hu
  · rcases h with h | h
    · exact key wr h
    · unfold fMount at h
      split at h
      · subst h
        exact ⟨rfl, fun _ _ h _ => h⟩
      · exact key false h

/-- `f_mount` reports success for a volume the medium of which has been taken out, without looking. -/
theorem C133_blind : ∃ w, Reach w ∧ ∀ r, (fMount 0 r w.sys).2 = true ∧ ¬ Usable (fMount 0 r w.sys).1 0 := by
  obtain ⟨w, hr, -, -, hu, -, -⟩ := reach_cycles 0
  refine ⟨_, .step _ _ hr (.remove w 0), fun r => ?_⟩
  unfold fMount
  rw [if_pos hu.1]
  exact ⟨rfl, fun h => by simp [Usable] at h⟩

/-- A history with an object of a session that has ended, and fewer than 65536 mounts. -/
example : ∃ w, Reach w ∧ ∃ h ∈ w.handles, w.mounts < h.born + 65536 ∧ h.sess ≠ w.sess h.obj.vol ∧ Usable w.sys h.obj.vol := by
  obtain ⟨w, hr, hh, hs, hu, hm, -⟩ := reach_cycles 7
  refine ⟨w, hr, ⟨⟨0, 1⟩, 0, 1⟩, by rw [hh]; exact List.mem_singleton.2 rfl, ?_, ?_, hu⟩
  · simp only [hm]
    omega
  · simp only [hs]
    decide

end Fpm.Eject
