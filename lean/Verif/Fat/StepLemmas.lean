import Verif.Fat.ChainSpec
import Verif.Fat.FatLemmas
/-!
# Steps of the chain functions on the table
-/
namespace Fpm.Fat
open Fpm.Fat.Spec Fpm.FatBytes

theorem flatMap_congr' {l : List Nat} {f g : Nat → List Nat} (h : ∀ x ∈ l, f x = g x) : l.flatMap f = l.flatMap g := by
  induction l with
  | nil => rfl
  | cons a l ih => rw [List.flatMap_cons, List.flatMap_cons, h a (by simp), ih fun x hx => h x (by simp [hx])]

theorem fat_congr {v : Vol} {d d' : Disk} (h : ∀ n, ¬ Fat2 v n → d n = d' n) : fat v d = fat v d' := by
  have : area v d = area v d' := by
    unfold area
    apply flatMap_congr'
    intro i hi
    rw [List.mem_range] at hi
    exact h _ (fat1_not2 ⟨Nat.le_add_right _ _, by omega⟩)
  funext c
  unfold fat
  rw [this]

theorem tab_same {v : Vol} {s s' : St} (h : Same v s s') : tab v s' = tab v s := fat_congr h

/-- Sectors outside of the FATs look the same. -/
def Out (v : Vol) (s s' : St) : Prop := ∀ n, ¬ Fat1 v n → ¬ Fat2 v n → view s' n = view s n

theorem Out.refl (v : Vol) (s : St) : Out v s s := fun _ _ _ => rfl
theorem Out.trans {v : Vol} {a b c : St} (h : Out v a b) (h' : Out v b c) : Out v a c := fun n h1 h2 => (h' n h1 h2).trans (h n h1 h2)
theorem Same.out {v : Vol} {s s' : St} (h : Same v s s') : Out v s s' := fun n _ h2 => h n h2

/-- The device contents are old ones or have a property. -/
def Safe (v : Vol) (Q : (Nat → Nat) → Prop) (s s' : St) : Prop :=
  ∀ d ∈ s'.disk :: s'.past, d ∈ s.disk :: s.past ∨ Q (fat v d)

theorem Safe.refl (v : Vol) (Q : (Nat → Nat) → Prop) (s : St) : Safe v Q s s := fun _ h => .inl h

theorem Safe.mono {v : Vol} {Q R : (Nat → Nat) → Prop} {s s' : St} (h : Safe v Q s s') (hq : ∀ f, Q f → R f) : Safe v R s s' := by
  intro d hd
  rcases h d hd with h | h
  · exact .inl h
  · exact .inr (hq _ h)

theorem Safe.trans {v : Vol} {Q : (Nat → Nat) → Prop} {a b c : St} (h : Safe v Q a b) (h' : Safe v Q b c) : Safe v Q a c := by
  intro d hd
  rcases h' d hd with h1 | h1
  · exact h d h1
  · exact .inr h1

theorem Trace.safe {v : Vol} {Q : (Nat → Nat) → Prop} {s s' : St} (h : Trace v s s') (hq : Q (tab v s)) : Safe v Q s s' := by
  intro d hd
  rcases h.1 d hd with h | h
  · exact .inl h
  · exact .inr (by rw [fat_congr h]; exact hq)

/-- Reading an entry. -/
theorem get_step {v : Vol} (hg : Geo v) {s : St} (hi : Inv v s) {c : Nat} (h2 : 2 ≤ c) (hc : c < v.nFatent) :
    ∃ s' r, getFat v s c = (s', r) ∧ Inv v s' ∧ Same v s s' ∧ Rest s s' ∧ (∀ Q, Q (tab v s) → Sound v → Safe v Q s s') ∧
      (r = tab v s c ∨ r = DERR ∧ ¬ Sound v) := by
  obtain ⟨s', r, h, i, sm, rr, tr, hr⟩ := getFat_spec hg hi h2 hc
  exact ⟨s', r, h, i, sm, rr, fun Q hq hs => (tr hs).safe hq, hr⟩

/-- Writing an entry. -/
theorem put_step {v : Vol} (hg : Geo v) {s : St} (hi : Inv v s) {c : Nat} (val : Nat) (h2 : 2 ≤ c) (hc : c < v.nFatent) :
    ∃ s' r, putFat v s c val = (s', r) ∧ Inv v s' ∧ Rest s s' ∧ Out v s s' ∧ (∀ c', c' ≠ c → c' < v.nFatent → tab v s' c' = tab v s c') ∧
      (∀ Q, Q (tab v s) → Sound v → ¬ Straddle v c → Safe v Q s s') ∧
      (r = FR_OK ∧ tab v s' c = val % 2 ^ bits v ∨ r = FR_DISK_ERR ∧ ¬ Sound v) := by
  obtain ⟨s', r, h, i, rr, tr, hr⟩ := putFat_spec (val := val) hg hi h2 hc
  have hb := bytes_of hg hi
  have hb' := bytes_of hg i
  refine ⟨s', r, h, i, rr, ?_, ?_, fun Q hq hs hn => (tr hs hn).safe hq, ?_⟩
  · rcases hr with ⟨-, hp⟩ | ⟨-, -, ho, -, -⟩
    · exact hp.out
    · exact ho
  · intro c' hne hc'
    unfold tab fat
    rw [entry_eq hg hb' hc', entry_eq hg hb hc']
    rcases hr with ⟨-, hp⟩ | ⟨-, -, -, hn, -⟩
    · rw [hp.other c' hne hc']
    · rw [hn c' hne hc']
  · rcases hr with ⟨rfl, hp⟩ | ⟨rfl, hs, -⟩
    · refine .inl ⟨rfl, ?_⟩
      unfold tab fat
      rw [entry_eq hg hb' hc, hp.same, Nat.add_mul_mod_self_left, Nat.mod_mod]
    · exact .inr ⟨rfl, hs⟩

theorem straddle_two {v : Vol} (c : Nat) : Straddle v c → TwoSectors v c := by
  rintro ⟨ht, h⟩
  unfold TwoSectors width
  rw [if_pos ht]
  have e1 : 12 * c / (8 * v.ss) = bc12 c / v.ss := by
    rw [← Nat.div_div_eq_div_mul]
    congr 1
    unfold bc12
    omega
  have e2 : (12 * c + 12 - 1) / (8 * v.ss) = (bc12 c + 1) / v.ss := by
    rw [← Nat.div_div_eq_div_mul]
    congr 1
    unfold bc12
    omega
  rw [e1, e2]
  exact h

theorem tab_lt (v : Vol) (s : St) (c : Nat) : tab v s c < 2 ^ 28 := by
  have h : tab v s c < 2 ^ bits v := Nat.mod_lt _ (Nat.pow_pos (by decide))
  have : 2 ^ bits v ≤ 2 ^ 28 := Nat.pow_le_pow_right (by decide) (by unfold bits; split <;> (try split) <;> omega)
  omega

theorem nFatent_lt {v : Vol} (hg : Geo v) : v.nFatent ≤ 0x0FFFFFF7 := by
  rcases hg.kind with h | h | h <;> omega

/-- End mark. -/
theorem eoc_ge {v : Vol} (hg : Geo v) : v.nFatent ≤ 0xFFFFFFFF % 2 ^ bits v ∧ 0 < 0xFFFFFFFF % 2 ^ bits v := by
  unfold bits
  rcases hg.kind with h | h | h
  · rw [if_pos h.1]; omega
  · rw [if_neg (by omega), if_pos h.1]; omega
  · rw [if_neg (by omega), if_neg (by omega)]; omega

/-- Cluster numbers fit. -/
theorem num_fits {v : Vol} (hg : Geo v) {c : Nat} (hc : c < v.nFatent) : c % 2 ^ bits v = c := by
  apply Nat.mod_eq_of_lt
  unfold bits
  rcases hg.kind with h | h | h
  · rw [if_pos h.1]; omega
  · rw [if_neg (by omega), if_pos h.1]; omega
  · rw [if_neg (by omega), if_neg (by omega)]; omega

end Fpm.Fat
