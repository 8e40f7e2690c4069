import Verif.Fat.ChainSpec
/-!
# Facts about tables of clusters
-/
namespace Fpm.Fat
open Fpm.Fat.Spec

theorem links_ne {n : Nat} {f : Nat → Nat} {l : List Nat} (h : Links n f l) : l ≠ [] := by
  rintro rfl
  exact h

theorem links_mem {n : Nat} {f : Nat → Nat} : ∀ {l : List Nat}, Links n f l → ∀ c ∈ l, 2 ≤ c ∧ c < n
  | [], h, _, _ => h.elim
  | [a], h, c, hc => by
    rw [List.mem_singleton] at hc
    subst hc
    exact ⟨h.1, h.2.1⟩
  | a :: b :: l, h, c, hc => by
    rcases List.mem_cons.mp hc with rfl | hc
    · exact ⟨h.1, h.2.1⟩
    · exact links_mem h.2.2.2 c hc

theorem links_used {n : Nat} {f : Nat → Nat} : ∀ {l : List Nat}, Links n f l → ∀ c ∈ l, 2 ≤ f c
  | [], h, _, _ => h.elim
  | [a], h, c, hc => by
    rw [List.mem_singleton] at hc
    subst hc
    have := h.1
    have := h.2.1
    have := h.2.2
    omega
  | a :: b :: l, h, c, hc => by
    rcases List.mem_cons.mp hc with rfl | hc
    · rw [h.2.2.1]
      exact (links_mem h.2.2.2 b (by simp)).1
    · exact links_used h.2.2.2 c hc

theorem links_congr {n : Nat} {f g : Nat → Nat} : ∀ {l : List Nat}, Links n f l → (∀ c ∈ l, g c = f c) → Links n g l
  | [], h, _ => h.elim
  | [a], h, hg => by
    refine ⟨h.1, h.2.1, ?_⟩
    rw [hg a (by simp)]
    exact h.2.2
  | a :: b :: l, h, hg => by
    refine ⟨h.1, h.2.1, ?_, links_congr h.2.2.2 fun c hc => hg c (List.mem_cons_of_mem _ hc)⟩
    rw [hg a (by simp)]
    exact h.2.2.1

/-- The last cluster. -/
theorem links_last {n : Nat} {f : Nat → Nat} : ∀ {l : List Nat} {c : Nat}, Links n f (l ++ [c]) → n ≤ f c
  | [], _, h => h.2.2
  | [_], _, h => h.2.2.2.2.2
  | _ :: _ :: l, _, h => links_last (l := _ :: l) h.2.2.2

/-- A link inside. -/
theorem links_next {n : Nat} {f : Nat → Nat} : ∀ {l : List Nat} {c d : Nat} {m : List Nat}, Links n f (l ++ c :: d :: m) → f c = d
  | [], _, _, _, h => h.2.2.1
  | [_], _, _, _, h => links_next (l := []) h.2.2.2
  | _ :: _ :: l, _, _, _, h => links_next (l := _ :: l) h.2.2.2

/-- The rest of a chain is a chain. -/
theorem links_suffix {n : Nat} {f : Nat → Nat} : ∀ {l : List Nat} {d : Nat} {m : List Nat}, Links n f (l ++ d :: m) → Links n f (d :: m)
  | [], _, _, h => h
  | [_], _, _, h => h.2.2.2
  | _ :: _ :: l, _, _, h => links_suffix (l := _ :: l) h.2.2.2

/-- Cutting a chain. -/
theorem links_cut {n : Nat} {f g : Nat → Nat} : ∀ {l : List Nat} {c : Nat} {m : List Nat}, Links n f (l ++ c :: m) → (∀ x ∈ l, g x = f x) → n ≤ g c → Links n g (l ++ [c])
  | [], c, m, h, _, hc => by
    have := links_mem h c (by simp)
    exact ⟨this.1, this.2, hc⟩
  | [a], c, m, h, hg, hc => by
    have := links_mem h c (by simp)
    refine ⟨h.1, h.2.1, ?_, this.1, this.2, hc⟩
    rw [hg a (by simp)]
    exact h.2.2.1
  | a :: b :: l, c, m, h, hg, hc => by
    refine ⟨h.1, h.2.1, ?_, links_cut (l := b :: l) h.2.2.2 (fun x hx => hg x (List.mem_cons_of_mem _ hx)) hc⟩
    rw [hg a (by simp)]
    exact h.2.2.1

/-- Adding a cluster. -/
theorem links_snoc {n : Nat} {f g : Nat → Nat} {r : Nat} (hr : 2 ≤ r ∧ r < n) (he : n ≤ g r) :
    ∀ {l : List Nat} {c : Nat}, Links n f (l ++ [c]) → (∀ x ∈ l, g x = f x) → g c = r → Links n g (l ++ [c, r])
  | [], c, h, _, hc => ⟨h.1, h.2.1, hc, hr.1, hr.2, he⟩
  | [a], c, h, hg, hc => by
    refine ⟨h.1, h.2.1, ?_, h.2.2.2.1, h.2.2.2.2.1, hc, hr.1, hr.2, he⟩
    rw [hg a (by simp)]
    exact h.2.2.1
  | a :: b :: l, c, h, hg, hc => by
    refine ⟨h.1, h.2.1, ?_, links_snoc hr he (l := b :: l) h.2.2.2 (fun x hx => hg x (List.mem_cons_of_mem _ hx)) hc⟩
    rw [hg a (by simp)]
    exact h.2.2.1

theorem flatten_mid (a b : List (List Nat)) (l : List Nat) : (a ++ l :: b).flatten = a.flatten ++ (l ++ b.flatten) := by
  rw [List.flatten_append, List.flatten_cons]

theorem chains_used {n : Nat} {f : Nat → Nat} {cs : List (List Nat)} (h : Chains n f cs) {c : Nat} (hc : c ∈ cs.flatten) : 2 ≤ c ∧ c < n ∧ 2 ≤ f c := by
  obtain ⟨l, hl, hcl⟩ := List.mem_flatten.mp hc
  have := links_mem (h.chain l hl) c hcl
  exact ⟨this.1, this.2, links_used (h.chain l hl) c hcl⟩

theorem chains_ne_one {n : Nat} {f : Nat → Nat} {cs : List (List Nat)} (h : Chains n f cs) {c : Nat} (h2 : 2 ≤ c) (hc : c < n) : f c ≠ 1 := by
  intro h1
  have := (chains_used h (h.used c h2 hc (by omega))).2.2
  omega

theorem chains_free {n : Nat} {f : Nat → Nat} {cs : List (List Nat)} (h : Chains n f cs) {c : Nat} (h0 : f c = 0) : c ∉ cs.flatten := by
  intro hc
  have := (chains_used h hc).2.2
  omega

/-- A new chain of one cluster. -/
theorem chains_new {n : Nat} {f g : Nat → Nat} {cs : List (List Nat)} (h : Chains n f cs) {r : Nat} (h2 : 2 ≤ r) (hr : r < n) (h0 : f r = 0)
    (he : n ≤ g r) (hg : ∀ c, c ≠ r → c < n → g c = f c) : Chains n g ([r] :: cs) := by
  have hn := chains_free h h0
  refine ⟨fun l hl => ?_, ?_, fun c c2 cn hc => ?_⟩
  · rcases List.mem_cons.mp hl with rfl | hl'
    · exact ⟨h2, hr, he⟩
    · refine links_congr (h.chain l hl') fun c hc => hg c ?_ (links_mem (h.chain l hl') c hc).2
      rintro rfl
      exact hn (List.mem_flatten.mpr ⟨l, hl', hc⟩)
  · rw [List.flatten_cons, List.singleton_append, List.nodup_cons]
    exact ⟨hn, h.nodup⟩
  · rw [List.flatten_cons, List.singleton_append, List.mem_cons]
    by_cases hcr : c = r
    · exact .inl hcr
    · exact .inr (h.used c c2 cn (by rw [← hg c hcr cn]; exact hc))

/-- A chain gets longer. -/
theorem chains_stretch {n : Nat} {f g : Nat → Nat} {a b : List (List Nat)} {l : List Nat} {c r : Nat} (h : Chains n f (a ++ (l ++ [c]) :: b)) (h2 : 2 ≤ r) (hr : r < n) (h0 : f r = 0)
    (he : n ≤ g r) (hc : g c = r) (hg : ∀ x, x ≠ r → x ≠ c → x < n → g x = f x) : Chains n g (a ++ (l ++ [c, r]) :: b) := by
  have hn := chains_free h h0
  have hnd := h.nodup
  rw [flatten_mid] at hn hnd
  have hperm : (a.flatten ++ ((l ++ [c, r]) ++ b.flatten)).Perm (r :: (a.flatten ++ ((l ++ [c]) ++ b.flatten))) := by
    rw [show l ++ [c, r] = (l ++ [c]) ++ [r] from by simp, List.append_assoc (l ++ [c])]
    rw [← List.append_assoc a.flatten, ← List.append_assoc a.flatten (l ++ [c])]
    exact List.perm_middle
  have hcn : ∀ m, m ∈ a ++ b → c ∉ m := by
    intro m hm hcm
    rw [List.nodup_append] at hnd
    obtain ⟨-, hnd2, hdis⟩ := hnd
    rw [List.nodup_append] at hnd2
    rcases List.mem_append.mp hm with hm | hm
    · exact hdis c (List.mem_flatten.mpr ⟨m, hm, hcm⟩) c (by simp) rfl
    · exact hnd2.2.2 c (by simp) c (List.mem_flatten.mpr ⟨m, hm, hcm⟩) rfl
  have hcl : c ∉ l := by
    intro hcl
    rw [List.nodup_append] at hnd
    obtain ⟨-, hnd2, -⟩ := hnd
    rw [List.nodup_append] at hnd2
    have := hnd2.1
    rw [List.nodup_append] at this
    exact this.2.2 c hcl c (by simp) rfl
  have hrn : ∀ m, m ∈ a ++ (l ++ [c]) :: b → r ∉ m := fun m hm hr => chains_free h h0 (List.mem_flatten.mpr ⟨m, hm, hr⟩)
  refine ⟨fun m hm => ?_, ?_, fun x x2 xn hx => ?_⟩
  · have hor : m = l ++ [c, r] ∨ m ∈ a ++ b := by
      simp only [List.mem_append, List.mem_cons] at hm ⊢
      rcases hm with hm | hm | hm
      · exact .inr (.inl hm)
      · exact .inl hm
      · exact .inr (.inr hm)
    rcases hor with rfl | hab
    · have hl := h.chain (l ++ [c]) (by simp)
      refine links_snoc ⟨h2, hr⟩ he hl (fun x hx => hg x ?_ ?_ (links_mem hl x (by simp [hx])).2) hc
      · rintro rfl
        exact hrn (l ++ [c]) (by simp) (by simp [hx])
      · rintro rfl
        exact hcl hx
    · have hm' : m ∈ a ++ (l ++ [c]) :: b := by
        simp only [List.mem_append, List.mem_cons] at hab ⊢
        rcases hab with h | h
        · exact .inl h
        · exact .inr (.inr h)
      refine links_congr (h.chain m hm') fun x hx => hg x ?_ ?_ (links_mem (h.chain m hm') x hx).2
      · rintro rfl
        exact hrn m hm' hx
      · rintro rfl
        exact hcn m hab hx
  · rw [flatten_mid, hperm.nodup_iff, List.nodup_cons]
    exact ⟨hn, hnd⟩
  · rw [flatten_mid, hperm.mem_iff, List.mem_cons]
    by_cases hxr : x = r
    · exact .inl hxr
    · refine .inr ?_
      by_cases hxc : x = c
      · subst hxc
        simp
      · rw [← flatten_mid]
        exact h.used x x2 xn (by rw [← hg x hxr hxc xn]; exact hx)

/-- A chain is gone. -/
theorem chains_remove {n : Nat} {f g : Nat → Nat} {a b : List (List Nat)} {l : List Nat} (h : Chains n f (a ++ l :: b))
    (h0 : ∀ c ∈ l, g c = 0) (hg : ∀ x, x ∉ l → x < n → g x = f x) : Chains n g (a ++ b) := by
  have hnd := h.nodup
  rw [flatten_mid] at hnd
  have hsub : (a.flatten ++ b.flatten).Sublist (a.flatten ++ (l ++ b.flatten)) := by
    exact List.Sublist.append (List.Sublist.refl _) (List.sublist_append_right _ _)
  have hdis : ∀ m, m ∈ a ++ b → ∀ x ∈ m, x ∉ l := by
    intro m hm x hx hl
    rw [List.nodup_append] at hnd
    obtain ⟨-, hnd2, hd⟩ := hnd
    rw [List.nodup_append] at hnd2
    rcases List.mem_append.mp hm with hm | hm
    · exact hd x (List.mem_flatten.mpr ⟨m, hm, hx⟩) x (by simp [hl]) rfl
    · exact hnd2.2.2 x hl x (List.mem_flatten.mpr ⟨m, hm, hx⟩) rfl
  refine ⟨fun m hm => ?_, ?_, fun x x2 xn hx => ?_⟩
  · have hm' : m ∈ a ++ l :: b := by
      simp only [List.mem_append, List.mem_cons] at hm ⊢
      rcases hm with h | h
      · exact .inl h
      · exact .inr (.inr h)
    exact links_congr (h.chain m hm') fun x hx => hg x (hdis m hm x hx) (links_mem (h.chain m hm') x hx).2
  · rw [List.flatten_append]
    exact hnd.sublist hsub
  · have hxl : x ∉ l := fun hl => hx (h0 x hl)
    have := h.used x x2 xn (by rw [← hg x hxl xn]; exact hx)
    rw [flatten_mid] at this
    rw [List.flatten_append]
    simp only [List.mem_append] at this ⊢
    rcases this with h | h | h
    · exact .inl h
    · exact absurd h hxl
    · exact .inr h

/-- The beginning of a chain is gone. -/
theorem chains_prefix {n : Nat} {f g : Nat → Nat} {a b : List (List Nat)} {l m : List Nat} (h : Chains n f (a ++ (l ++ m) :: b))
    (h0 : ∀ c ∈ l, g c = 0) (hg : ∀ x, x ∉ l → x < n → g x = f x) : Chains n g (withRest a m b) := by
  unfold withRest
  by_cases hm : m = []
  · subst hm
    rw [List.append_nil] at h
    rw [if_pos rfl]
    exact chains_remove h h0 hg
  · rw [if_neg hm]
    have hnd := h.nodup
    rw [flatten_mid] at hnd
    have hsub : (a.flatten ++ (m ++ b.flatten)).Sublist (a.flatten ++ ((l ++ m) ++ b.flatten)) := by
      refine List.Sublist.append (List.Sublist.refl _) (List.Sublist.append (List.sublist_append_right _ _) (List.Sublist.refl _))
    have hnd' := hnd
    rw [List.nodup_append] at hnd
    obtain ⟨-, hnd2, hd⟩ := hnd
    rw [List.nodup_append] at hnd2
    have hlm := hnd2.1
    rw [List.nodup_append] at hlm
    have hdis : ∀ k, k ∈ a ++ b → ∀ x ∈ k, x ∉ l := by
      intro k hk x hx hl
      rcases List.mem_append.mp hk with hk | hk
      · exact hd x (List.mem_flatten.mpr ⟨k, hk, hx⟩) x (by simp [hl]) rfl
      · exact hnd2.2.2 x (by simp [hl]) x (List.mem_flatten.mpr ⟨k, hk, hx⟩) rfl
    refine ⟨fun k hk => ?_, ?_, fun x x2 xn hx => ?_⟩
    · have hor : k = m ∨ k ∈ a ++ b := by
        simp only [List.mem_append, List.mem_cons] at hk ⊢
        rcases hk with hk | hk | hk
        · exact .inr (.inl hk)
        · exact .inl hk
        · exact .inr (.inr hk)
      rcases hor with rfl | hab
      · cases k with
        | nil => exact absurd rfl hm
        | cons y k =>
          have hs : Links n f (y :: k) := links_suffix (l := l) (h.chain _ (by simp))
          refine links_congr hs fun x hx => hg x ?_ (links_mem hs x hx).2
          intro hl
          exact hlm.2.2 x hl x hx rfl
      · have hk' : k ∈ a ++ (l ++ m) :: b := by
          simp only [List.mem_append, List.mem_cons] at hab ⊢
          rcases hab with h | h
          · exact .inl h
          · exact .inr (.inr h)
        exact links_congr (h.chain k hk') fun x hx => hg x (hdis k hab x hx) (links_mem (h.chain k hk') x hx).2
    · rw [flatten_mid]
      exact hnd'.sublist hsub
    · have hxl : x ∉ l := fun hl => hx (h0 x hl)
      have := h.used x x2 xn (by rw [← hg x hxl xn]; exact hx)
      rw [flatten_mid] at this ⊢
      simp only [List.mem_append] at this ⊢
      rcases this with h | (h | h) | h
      · exact .inl h
      · exact absurd h hxl
      · exact .inr (.inl h)
      · exact .inr (.inr h)

/-- A chain is cut into two. -/
theorem chains_cut {n : Nat} {f g : Nat → Nat} {a b : List (List Nat)} {l m : List Nat} {p : Nat} (h : Chains n f (a ++ (l ++ p :: m) :: b)) (hm : m ≠ [])
    (he : n ≤ g p) (hg : ∀ x, x ≠ p → x < n → g x = f x) : Chains n g (a ++ (l ++ [p]) :: m :: b) := by
  have hnd := h.nodup
  have hfl : (a ++ (l ++ [p]) :: m :: b).flatten = (a ++ (l ++ p :: m) :: b).flatten := by simp
  have hl := h.chain (l ++ p :: m) (by simp)
  rw [flatten_mid, List.nodup_append] at hnd
  obtain ⟨-, hnd2, hd⟩ := hnd
  rw [List.nodup_append] at hnd2
  obtain ⟨hlm, -, hd2⟩ := hnd2
  rw [List.nodup_append] at hlm
  refine ⟨fun k hk => ?_, by rw [hfl]; exact h.nodup, fun x x2 xn hx => ?_⟩
  · simp only [List.mem_append, List.mem_cons] at hk
    have oth : k ∈ a ++ b → Links n g k := by
      intro hab
      have hk' : k ∈ a ++ (l ++ p :: m) :: b := by
        simp only [List.mem_append, List.mem_cons] at hab ⊢
        rcases hab with h | h
        · exact .inl h
        · exact .inr (.inr h)
      refine links_congr (h.chain k hk') fun x hx => hg x ?_ (links_mem (h.chain k hk') x hx).2
      rintro rfl
      rcases List.mem_append.mp hab with hk | hk
      · exact hd x (List.mem_flatten.mpr ⟨k, hk, hx⟩) x (by simp) rfl
      · exact hd2 x (by simp) x (List.mem_flatten.mpr ⟨k, hk, hx⟩) rfl
    rcases hk with hk | hk | hk | hk
    · exact oth (List.mem_append_left _ hk)
    · subst hk
      refine links_cut hl (fun x hx => hg x ?_ (links_mem hl x (by simp [hx])).2) he
      rintro rfl
      exact hlm.2.2 x hx x (by simp) rfl
    · subst hk
      cases k with
      | nil => exact absurd rfl hm
      | cons y k =>
        have hs : Links n f (y :: k) := links_suffix (l := l ++ [p]) (by simpa using hl)
        refine links_congr hs fun x hx => hg x ?_ (links_mem hs x hx).2
        rintro rfl
        exact (List.nodup_cons.mp hlm.2.1).1 hx
    · exact oth (List.mem_append_right _ hk)
  · rw [hfl]
    by_cases hxp : x = p
    · subst hxp
      rw [flatten_mid]
      simp
    · exact h.used x x2 xn (by rw [← hg x hxp xn]; exact hx)

/-! ## Counting -/

theorem count_congr {f g : Nat → Nat} : ∀ {n : Nat}, (∀ c, 2 ≤ c → c < n → (g c = 0 ↔ f c = 0)) → freeCount g n = freeCount f n
  | 0, _ => rfl
  | n + 1, h => by
    rw [freeCount, freeCount, count_congr (n := n) fun c h2 hc => h c h2 (by omega)]
    by_cases h2 : 2 ≤ n
    · simp [h n h2 (by omega)]
    · rw [if_neg (by omega), if_neg (by omega)]

theorem count_less {f g : Nat → Nat} {r : Nat} (h2 : 2 ≤ r) (h0 : f r = 0) (h1 : g r ≠ 0) : ∀ {n : Nat}, r < n → (∀ c, c ≠ r → c < n → g c = f c) → freeCount f n = freeCount g n + 1
  | 0, h, _ => absurd h (by omega)
  | n + 1, h, hc => by
    rw [freeCount, freeCount]
    by_cases hn : n = r
    · subst hn
      rw [if_pos ⟨h2, h0⟩, if_neg (by simp [h1]), count_congr (n := n) (f := f) (g := g) fun c _ hcn => by rw [hc c (by omega) (by omega)]]
    · rw [count_less h2 h0 h1 (n := n) (by omega) fun c hne hcn => hc c hne (by omega), hc n hn (by omega)]
      omega

theorem count_le (f : Nat → Nat) : ∀ n : Nat, freeCount f n ≤ n - 2
  | 0 => by simp [freeCount]
  | n + 1 => by
    have := count_le f n
    rw [freeCount]
    split <;> omega

theorem count_pos {f : Nat → Nat} {r n : Nat} (h2 : 2 ≤ r) (hr : r < n) (h0 : f r = 0) : 0 < freeCount f n := by
  have := count_less (g := fun c => if c = r then 1 else f c) h2 h0 (by simp) hr (fun c hc _ => by simp [hc])
  omega

theorem count_lt {f : Nat → Nat} {r n : Nat} (h2 : 2 ≤ r) (hr : r < n) (h0 : f r ≠ 0) : freeCount f n < n - 2 := by
  have := count_less (f := fun c => if c = r then 0 else f c) (g := f) h2 (by simp) h0 hr (fun c hc _ => by simp [hc])
  have := count_le (fun c => if c = r then 0 else f c) n
  omega

end Fpm.Fat
