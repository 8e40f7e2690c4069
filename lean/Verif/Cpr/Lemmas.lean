import Verif.Cpr.Spec

/-!
# Lemmas about trees and paths
-/

namespace Fpm.Cpr
open Spec

/-! ## Path strings -/

theorem split_good (s : List Nat) : ∀ acc : Name, 47 ∉ acc → ∀ n ∈ split acc s, Good n := by
  induction s with
  | nil =>
    intro acc h n hn
    unfold split at hn
    split at hn
    · simp at hn
    · rename_i h1
      simp at hn; subst hn; exact ⟨h1, h⟩
  | cons c s ih =>
    intro acc h n hn
    unfold split at hn
    split at hn
    · split at hn
      · exact ih [] (by simp) n hn
      · rename_i h1
        rcases List.mem_cons.mp hn with h2 | h2
        · subst h2; exact ⟨h1, h⟩
        · exact ih [] (by simp) n h2
    · rename_i h1
      refine ih (acc ++ [c]) ?_ n hn
      simp only [List.mem_append, List.mem_singleton, not_or]
      exact ⟨h, fun h2 => h1 h2.symm⟩

theorem place_good (s : List Nat) : ∀ n ∈ place s, Good n := by
  intro n hn
  exact split_good s [] (by simp) n (List.mem_reverse.mp hn)

theorem split_name (n : Name) : ∀ acc : Name, 47 ∉ n → acc ++ n ≠ [] → split acc n = [acc ++ n] := by
  induction n with
  | nil =>
    intro acc _ h
    have : acc ≠ [] := by simpa using h
    simp [split, this]
  | cons c n ih =>
    intro acc h1 h2
    simp only [List.mem_cons, not_or] at h1
    unfold split
    rw [if_neg (fun h => h1.1 h.symm), ih (acc ++ [c]) h1.2 (by simp)]
    simp

theorem split_slash (n : Name) (hn : Good n) (s : List Nat) : ∀ acc : Name,
    split acc (s ++ 47 :: n) = split acc s ++ [n] := by
  induction s with
  | nil =>
    intro acc
    have h := split_name n [] hn.2 (by simpa using hn.1)
    simp only [List.nil_append] at h
    simp only [List.nil_append]
    unfold split
    rw [if_pos rfl, h]
    split <;> simp
  | cons c s ih =>
    intro acc
    rw [List.cons_append]
    unfold split
    split
    · split
      · exact ih []
      · rw [ih []]; rfl
    · exact ih _

theorem split_end (s : List Nat) : ∀ acc : Name, split acc (s ++ [47]) = split acc s := by
  induction s with
  | nil =>
    intro acc
    simp only [List.nil_append, split, if_true]
  | cons c s ih =>
    intro acc
    rw [List.cons_append]
    unfold split
    split
    · split
      · exact ih []
      · rw [ih []]
    · exact ih _

theorem place_join (s : List Nat) (n : Name) (hn : Good n) : place (join s n) = n :: place s := by
  unfold place join
  split
  · rename_i h
    obtain ⟨t, ht⟩ : ∃ t, s = t ++ [47] := by
      rw [List.getLast?_eq_some_iff] at h
      exact h
    subst ht
    rw [List.append_assoc, List.singleton_append, split_slash n hn, split_end]
    simp
  · rw [List.append_assoc, List.singleton_append, split_slash n hn]
    simp

/-! ## Places -/

theorem within_self (p : Path) : Within p p := ⟨[], rfl⟩

theorem within_sub (r p : Path) : Within p (r ++ p) := ⟨r, rfl⟩

theorem within_cons {n : Name} {p q : Path} (h : Within (n :: p) q) : Within p q := by
  obtain ⟨r, hr⟩ := h
  exact ⟨r ++ [n], by rw [hr]; simp⟩

theorem cons_ne (n : Name) (p : Path) : n :: p ≠ p := by
  intro h
  have := congrArg List.length h
  simp at this

theorem sub_ne (r : Path) (n : Name) (p : Path) : r ++ n :: p ≠ p := by
  intro h
  have := congrArg List.length h
  simp only [List.length_append, List.length_cons] at this
  omega

theorem not_within_up (n : Name) (p : Path) : ¬ Within (n :: p) p := by
  rintro ⟨r, hr⟩
  exact sub_ne r n p hr.symm

theorem within_inj {n m : Name} {p r : Path} (h : Within (n :: p) (r ++ m :: p)) : m = n := by
  obtain ⟨t, ht⟩ := h
  have h1 : (r ++ [m]) ++ p = (t ++ [n]) ++ p := by simpa using ht
  have h2 := List.append_cancel_right h1
  have h3 := (List.append_inj' h2 rfl).2
  simpa using h3

/-- Places in one of two places that are apart are not in the other one. -/
theorem apart_out {p q a : Path} (h : Apart p q) (ha : Within p a) : ¬ Within q a := by
  rintro ⟨s, hs⟩
  obtain ⟨r, hr⟩ := ha
  have h1 : r ++ p = s ++ q := by rw [← hr, hs]
  rcases Nat.le_total p.length q.length with hl | hl
  · -- `p` ends `q`
    apply h.1
    have h2 : q = (r ++ p).drop s.length := by rw [h1]; simp
    have h3 : s.length ≤ r.length := by
      have := congrArg List.length h1
      simp only [List.length_append] at this; omega
    exact ⟨r.drop s.length, by rw [h2, List.drop_append_of_le_length h3]⟩
  · apply h.2
    have h2 : p = (s ++ q).drop r.length := by rw [← h1]; simp
    have h3 : r.length ≤ s.length := by
      have := congrArg List.length h1
      simp only [List.length_append] at this; omega
    exact ⟨s.drop r.length, by rw [h2, List.drop_append_of_le_length h3]⟩

theorem apart_cons {p q : Path} (n m : Name) (h : Apart p q) : Apart (n :: p) (m :: q) := by
  constructor
  · intro h1
    exact apart_out ⟨h.2, h.1⟩ (a := m :: q) ⟨[m], rfl⟩ (within_cons h1)
  · intro h1
    exact apart_out h (a := n :: p) ⟨[n], rfl⟩ (within_cons h1)

/-! ## What changes -/

/-- Only places in `q` have changed. -/
def Strict (q : Path) (fs fs' : FS) : Prop := ∀ a, ¬ Within q a → fs' a = fs a

/-- Only places in `q`, and entries of the directory of `q`. -/
def Soft (q : Path) (fs fs' : FS) : Prop :=
  (∀ a, ¬ Within q a → a ≠ q.tail → fs' a = fs a) ∧ Outside fs fs' q

theorem soft_refl (q : Path) (fs : FS) : Soft q fs fs := ⟨fun _ _ _ => rfl, fun _ _ => rfl⟩

theorem strict_refl (q : Path) (fs : FS) : Strict q fs fs := fun _ _ => rfl

theorem strict_soft {q : Path} {a b : FS} (h : Strict q a b) : Soft q a b :=
  ⟨fun x hx _ => h x hx, fun x hx => by unfold seen; rw [h x hx]⟩

theorem strict_trans {q : Path} {a b c : FS} (h1 : Strict q a b) (h2 : Strict q b c) :
    Strict q a c := fun x hx => (h2 x hx).trans (h1 x hx)

theorem soft_trans {q : Path} {a b c : FS} (h1 : Soft q a b) (h2 : Soft q b c) : Soft q a c :=
  ⟨fun x hx ht => (h2.1 x hx ht).trans (h1.1 x hx ht), fun x hx => (h2.2 x hx).trans (h1.2 x hx)⟩

theorem soft_up {n : Name} {q : Path} {a b : FS} (h : Soft (n :: q) a b) : Strict q a b := by
  intro x hx
  refine h.1 x (fun h1 => hx (within_cons h1)) ?_
  rintro rfl
  exact hx (within_self _)

/-! ## Entries -/

theorem mem_enter (l : List (Option Name)) (k : Nat) (n m : Name) :
    some m ∈ enter l k n ↔ some m ∈ l ∨ m = n := by
  unfold enter
  split
  · rename_i h
    constructor
    · intro hm
      rcases List.mem_or_eq_of_mem_set hm with h1 | h1
      · exact .inl h1
      · exact .inr (Option.some.inj h1)
    · have hk : k < l.length := by
        rcases Nat.lt_or_ge k l.length with h1 | h1
        · exact h1
        · rw [List.getElem?_eq_none h1] at h; cases h
      rintro (h1 | h1)
      · obtain ⟨i, hi⟩ := List.mem_iff_getElem?.mp h1
        have hik : k ≠ i := by
          rintro rfl
          rw [h] at hi; cases hi
        refine List.mem_iff_getElem?.mpr ⟨i, ?_⟩
        rw [List.getElem?_set_ne hik]; exact hi
      · subst h1
        exact List.mem_iff_getElem?.mpr ⟨k, by rw [List.getElem?_set_self hk]⟩
  · simp [List.mem_append]

theorem set_nodup (l : List (Option Name)) : ∀ (k : Nat) (n : Name), l[k]? = some none →
    some n ∉ l → (l.filterMap id).Nodup → ((l.set k (some n)).filterMap id).Nodup := by
  induction l with
  | nil => intro k n h; simp at h
  | cons x l ih =>
    intro k n h hn hd
    cases k with
    | zero =>
      simp only [List.getElem?_cons_zero, Option.some.injEq] at h
      subst h
      simp only [List.set_cons_zero, List.filterMap_cons, id]
      simp only [List.filterMap_cons, id] at hd
      refine List.nodup_cons.mpr ⟨?_, hd⟩
      intro hm
      obtain ⟨y, hy, hy2⟩ := List.mem_filterMap.mp hm
      simp only [id] at hy2
      subst hy2
      exact hn (List.mem_cons_of_mem _ hy)
    | succ k =>
      simp only [List.getElem?_cons_succ] at h
      simp only [List.set_cons_succ]
      have hn2 : some n ∉ l := fun h2 => hn (List.mem_cons_of_mem _ h2)
      cases x with
      | none =>
        simp only [List.filterMap_cons, id] at hd ⊢
        exact ih k n h hn2 hd
      | some m =>
        simp only [List.filterMap_cons, id] at hd ⊢
        obtain ⟨h1, h2⟩ := List.nodup_cons.mp hd
        refine List.nodup_cons.mpr ⟨?_, ih k n h hn2 h2⟩
        intro hm
        obtain ⟨y, hy, hy2⟩ := List.mem_filterMap.mp hm
        simp only [id] at hy2
        subst hy2
        rcases List.mem_or_eq_of_mem_set hy with h3 | h3
        · exact h1 (List.mem_filterMap.mpr ⟨some m, h3, rfl⟩)
        · apply hn
          rw [← Option.some.inj h3]
          exact List.mem_cons_self

theorem enter_nodup (l : List (Option Name)) (k : Nat) (n : Name) (hn : some n ∉ l)
    (hd : (l.filterMap id).Nodup) : ((enter l k n).filterMap id).Nodup := by
  unfold enter
  split
  · rename_i h
    exact set_nodup l k n h hn hd
  · rw [List.filterMap_append]
    simp only [List.filterMap_cons, List.filterMap_nil, id]
    rw [List.nodup_append]
    refine ⟨hd, by simp, ?_⟩
    intro a ha b hb hab
    simp only [List.mem_singleton] at hb
    subst hb; subst hab
    obtain ⟨y, hy, hy2⟩ := List.mem_filterMap.mp ha
    simp only [id] at hy2
    subst hy2
    exact hn hy

theorem next_none (l : List (Option Name)) : ∀ i, next l i = none → l.filterMap id = [] := by
  induction l with
  | nil => intro i _; rfl
  | cons x l ih =>
    intro i h
    cases x with
    | none => simp only [next] at h; simp [ih _ h]
    | some n => simp [next] at h

theorem next_some (l : List (Option Name)) : ∀ i n j, next l i = some (n, j) →
    i < j ∧ j ≤ i + l.length ∧ l.filterMap id = n :: (l.drop (j - i)).filterMap id := by
  induction l with
  | nil => intro i n j h; simp [next] at h
  | cons x l ih =>
    intro i n j h
    cases x with
    | none =>
      simp only [next] at h
      obtain ⟨h1, h2, h3⟩ := ih _ _ _ h
      refine ⟨by omega, by simp only [List.length_cons]; omega, ?_⟩
      have : j - i = (j - (i + 1)) + 1 := by omega
      rw [this, List.drop_succ_cons]
      simpa using h3
    | some m =>
      simp only [next, Option.some.injEq, Prod.mk.injEq] at h
      obtain ⟨rfl, rfl⟩ := h
      refine ⟨by omega, by simp, ?_⟩
      have : i + 1 - i = 1 := by omega
      rw [this]
      simp

/-! ## Trees in order -/

/-- Nothing is below a place where there is no directory. -/
theorem below {fs : FS} (hs : Sound fs) {p : Path} (hp : ∀ l, fs p ≠ some (.dir l)) :
    ∀ (r : Path) (n : Name), fs (r ++ n :: p) = none := by
  intro r
  induction r with
  | nil =>
    intro n
    cases h : fs ([] ++ n :: p) with
    | none => rfl
    | some o =>
      obtain ⟨l, hl, _⟩ := hs.listed _ _ _ h
      exact absurd hl (hp l)
  | cons m r ih =>
    intro n
    cases h : fs ((m :: r) ++ n :: p) with
    | none => rfl
    | some o =>
      obtain ⟨l, hl, _⟩ := hs.listed _ _ _ h
      have hl2 : fs (r ++ n :: p) = some (.dir l) := hl
      rw [ih n] at hl2; cases hl2

theorem make_eq {fs fs' : FS} {k : Nat} {n : Name} {p : Path} {o : Obj}
    (h : make fs k n p o = some fs') :
    ∃ l, fs p = some (.dir l) ∧ fs' (n :: p) = some o ∧ fs' p = some (.dir (enter l k n)) ∧
      ∀ q, q ≠ n :: p → q ≠ p → fs' q = fs q := by
  unfold make at h
  split at h
  · rename_i l hl
    refine ⟨l, hl, ?_⟩
    cases h
    refine ⟨by simp, ?_, ?_⟩
    · simp [(cons_ne n p).symm]
    · intro q h1 h2
      simp only []
      rw [if_neg h1, if_neg h2]
  · cases h

theorem make_soft {fs fs' : FS} {k : Nat} {n : Name} {p : Path} {o : Obj}
    (h : make fs k n p o = some fs') : Soft (n :: p) fs fs' := by
  obtain ⟨l, h1, h2, h3, h4⟩ := make_eq h
  constructor
  · intro a ha ht
    exact h4 a (fun h5 => ha (h5 ▸ within_self _)) ht
  · intro a ha
    unfold seen
    by_cases ht : a = p
    · subst ht; rw [h1, h3]
    · rw [h4 a (fun h5 => ha (h5 ▸ within_self _)) ht]

theorem make_sound {fs fs' : FS} {k : Nat} {n : Name} {p : Path} {o : Obj} (hs : Sound fs)
    (hn : Good n) (h0 : fs (n :: p) = none) (ho : ∀ l, o = .dir l → l = [])
    (h : make fs k n p o = some fs') : Sound fs' := by
  obtain ⟨l, h1, h2, h3, h4⟩ := make_eq h
  have hnl : some n ∉ l := by
    intro h5
    obtain ⟨o2, h6⟩ := hs.there _ _ _ h1 h5
    rw [h0] at h6; cases h6
  constructor
  · intro p' n' o' ho'
    by_cases ha : n' :: p' = n :: p
    · obtain ⟨rfl, rfl⟩ := List.cons.inj ha
      exact ⟨_, h3, (mem_enter _ _ _ _).mpr (.inr rfl)⟩
    · have hold : ∃ o2, fs (n' :: p') = some o2 := by
        by_cases hb : n' :: p' = p
        · exact ⟨_, hb ▸ h1⟩
        · exact ⟨_, (h4 _ ha hb) ▸ ho'⟩
      obtain ⟨o2, hold⟩ := hold
      obtain ⟨l2, h5, h6⟩ := hs.listed _ _ _ hold
      have h7 : p' ≠ n :: p := by rintro rfl; rw [h0] at h5; cases h5
      by_cases h8 : p' = p
      · subst h8
        rw [h1] at h5; cases h5
        exact ⟨_, h3, (mem_enter _ _ _ _).mpr (.inl h6)⟩
      · exact ⟨l2, by rw [h4 _ h7 h8]; exact h5, h6⟩
  · intro p' n' l' h5 h6
    have hkeep : ∀ q o2, fs q = some o2 → ∃ o3, fs' q = some o3 := by
      intro q o2 hq
      by_cases ha : q = n :: p
      · exact ⟨_, ha ▸ h2⟩
      · by_cases hb : q = p
        · exact ⟨_, hb ▸ h3⟩
        · exact ⟨_, (h4 _ ha hb).trans hq⟩
    by_cases ha : p' = n :: p
    · subst ha
      rw [h2] at h5; cases h5
      rw [ho _ rfl] at h6; cases h6
    · by_cases hb : p' = p
      · subst hb
        rw [h3] at h5; cases h5
        rcases (mem_enter _ _ _ _).mp h6 with h7 | h7
        · obtain ⟨o2, h8⟩ := hs.there _ _ _ h1 h7
          exact hkeep _ _ h8
        · subst h7; exact ⟨_, h2⟩
      · rw [h4 _ ha hb] at h5
        obtain ⟨o2, h8⟩ := hs.there _ _ _ h5 h6
        exact hkeep _ _ h8
  · intro p' l' h5
    by_cases ha : p' = n :: p
    · subst ha
      rw [h2] at h5; cases h5
      rw [ho _ rfl]; simp
    · by_cases hb : p' = p
      · subst hb
        rw [h3] at h5; cases h5
        exact enter_nodup _ _ _ hnl (hs.once _ _ h1)
      · rw [h4 _ ha hb] at h5
        exact hs.once _ _ h5
  · intro p' n' l' h5 h6
    by_cases ha : p' = n :: p
    · subst ha
      rw [h2] at h5; cases h5
      rw [ho _ rfl] at h6; cases h6
    · by_cases hb : p' = p
      · subst hb
        rw [h3] at h5; cases h5
        rcases (mem_enter _ _ _ _).mp h6 with h7 | h7
        · exact hs.good _ _ _ h1 h7
        · subst h7; exact hn
      · rw [h4 _ ha hb] at h5
        exact hs.good _ _ _ h5 h6

/-- Other bytes in a file. -/
theorem data_sound {fs fs' : FS} {q : Path} {d d' : List Nat} (hs : Sound fs)
    (h1 : fs q = some (.file d)) (h2 : fs' q = some (.file d')) (h3 : ∀ a, a ≠ q → fs' a = fs a) :
    Sound fs' := by
  have hd : ∀ a l, fs' a = some (.dir l) ↔ fs a = some (.dir l) := by
    intro a l
    by_cases h : a = q
    · subst h; rw [h1, h2]; simp
    · rw [h3 a h]
  have hsome : ∀ a, (∃ o, fs' a = some o) ↔ ∃ o, fs a = some o := by
    intro a
    by_cases h : a = q
    · subst h; rw [h1, h2]; simp
    · rw [h3 a h]
  constructor
  · intro p n o ho
    obtain ⟨o2, h⟩ := (hsome _).mp ⟨o, ho⟩
    obtain ⟨l, h5, h6⟩ := hs.listed _ _ _ h
    exact ⟨l, (hd _ _).mpr h5, h6⟩
  · intro p n l h5 h6
    exact (hsome _).mpr (hs.there _ _ _ ((hd _ _).mp h5) h6)
  · intro p l h5
    exact hs.once _ _ ((hd _ _).mp h5)
  · intro p n l h5 h6
    exact hs.good _ _ _ ((hd _ _).mp h5) h6

end Fpm.Cpr
