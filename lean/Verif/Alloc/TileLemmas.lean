import Verif.Alloc.FitLemmas
/-! # Lemmas: the heap as a sequence of adjacent blocks -/
namespace Fpm.Alloc

/-- A block of the heap, header included. -/
structure Seg where
  addr : Nat
  size : Nat
  isFree : Bool
deriving Repr, DecidableEq

/-- The blocks cover `[lo, hi)` without gap or overlap. -/
def Tile (w : Nat) : Nat → List Seg → Nat → Prop
  | lo, [], hi => lo = hi
  | lo, s :: t, hi => s.addr = lo ∧ 2 * w ≤ s.size ∧ Tile w (lo + s.size) t hi

/-- No two neighbouring blocks are free. -/
def Coal : List Seg → Prop
  | [] => True
  | [_] => True
  | x :: y :: t => ¬ (x.isFree = true ∧ y.isFree = true) ∧ Coal (y :: t)

def frees (l : List Seg) : List (Nat × Nat) := l.filterMap fun s => if s.isFree then some (s.addr, s.size) else none
def busy (l : List Seg) : List (Nat × Nat) := l.filterMap fun s => if s.isFree then none else some (s.addr, s.size)
def total (l : List (Nat × Nat)) : Nat := (l.map (·.2)).sum

@[simp] theorem frees_nil : frees [] = [] := rfl
@[simp] theorem busy_nil : busy [] = [] := rfl
theorem frees_cons (s : Seg) (t) : frees (s :: t) = if s.isFree then (s.addr, s.size) :: frees t else frees t := by
  simp only [frees, List.filterMap_cons]; split <;> simp_all
theorem busy_cons (s : Seg) (t) : busy (s :: t) = if s.isFree then busy t else (s.addr, s.size) :: busy t := by
  simp only [busy, List.filterMap_cons]; split <;> simp_all
@[simp] theorem frees_append (a b) : frees (a ++ b) = frees a ++ frees b := by simp [frees]
@[simp] theorem busy_append (a b) : busy (a ++ b) = busy a ++ busy b := by simp [busy]
@[simp] theorem total_nil : total [] = 0 := rfl
@[simp] theorem total_cons (e t) : total (e :: t) = e.2 + total t := by simp [total]
@[simp] theorem total_append (a b) : total (a ++ b) = total a + total b := by simp [total]

theorem mem_frees {l : List Seg} {a s : Nat} : (a, s) ∈ frees l ↔ ⟨a, s, true⟩ ∈ l := by
  simp only [frees, List.mem_filterMap]
  constructor
  · rintro ⟨x, hx, h⟩
    obtain ⟨a', s', f⟩ := x
    cases f <;> simp at h
    obtain ⟨rfl, rfl⟩ := h; exact hx
  · intro h; exact ⟨_, h, by simp⟩

theorem mem_busy {l : List Seg} {a s : Nat} : (a, s) ∈ busy l ↔ ⟨a, s, false⟩ ∈ l := by
  simp only [busy, List.mem_filterMap]
  constructor
  · rintro ⟨x, hx, h⟩
    obtain ⟨a', s', f⟩ := x
    cases f <;> simp at h
    obtain ⟨rfl, rfl⟩ := h; exact hx
  · intro h; exact ⟨_, h, by simp⟩

theorem frees_split {l : List Seg} {pre post : List (Nat × Nat)} {a s : Nat}
    (h : frees l = pre ++ (a, s) :: post) :
    ∃ A B, l = A ++ ⟨a, s, true⟩ :: B ∧ frees A = pre ∧ frees B = post := by
  induction l generalizing pre with
  | nil => simp at h
  | cons x t ih =>
    rw [frees_cons] at h
    by_cases hx : x.isFree
    · rw [if_pos hx] at h
      cases pre with
      | nil =>
        simp at h
        refine ⟨[], t, ?_, rfl, h.2⟩
        obtain ⟨⟨rfl, rfl⟩, _⟩ := h
        obtain ⟨a, b, c⟩ := x
        simp at hx; simp [hx]
      | cons e pre =>
        simp at h
        obtain ⟨A, B, h1, h2, h3⟩ := ih h.2
        exact ⟨x :: A, B, by rw [h1]; rfl, by rw [frees_cons, if_pos hx, h2, h.1], h3⟩
    · rw [if_neg hx] at h
      obtain ⟨A, B, h1, h2, h3⟩ := ih h
      exact ⟨x :: A, B, by rw [h1]; rfl, by rw [frees_cons, if_neg hx, h2], h3⟩

theorem Tile.le {w lo hi : Nat} {l} (h : Tile w lo l hi) : lo ≤ hi := by
  induction l generalizing lo with
  | nil => exact Nat.le_of_eq h
  | cons x t ih => have := ih h.2.2; omega

theorem Tile.append {w lo hi : Nat} {A B : List Seg} :
    Tile w lo (A ++ B) hi ↔ ∃ mid, Tile w lo A mid ∧ Tile w mid B hi := by
  induction A generalizing lo with
  | nil => simp [Tile]
  | cons x t ih =>
    simp only [List.cons_append, Tile, ih]
    constructor
    · rintro ⟨h1, h2, mid, h3, h4⟩; exact ⟨mid, ⟨h1, h2, h3⟩, h4⟩
    · rintro ⟨mid, ⟨h1, h2, h3⟩, h4⟩; exact ⟨h1, h2, mid, h3, h4⟩

theorem Tile.mem {w lo hi : Nat} {l} (h : Tile w lo l hi) {x} (hx : x ∈ l) :
    lo ≤ x.addr ∧ 2 * w ≤ x.size ∧ x.addr + x.size ≤ hi := by
  induction l generalizing lo with
  | nil => cases hx
  | cons y t ih =>
    obtain ⟨h1, h2, h3⟩ := h
    rcases List.mem_cons.mp hx with rfl | hx
    · have := h3.le; omega
    · have := ih h3 hx; omega

theorem Tile.ordered {w lo hi : Nat} {l} (h : Tile w lo l hi) : Ordered w lo (frees l) hi := by
  induction l generalizing lo with
  | nil => exact Nat.le_of_eq h
  | cons x t ih =>
    obtain ⟨h1, h2, h3⟩ := h
    rw [frees_cons]
    split
    · subst h1; exact ⟨Nat.le_refl _, h2, ih h3⟩
    · exact (ih h3).mono (by omega)

/-- Two blocks at different places do not overlap. -/
theorem Tile.disjoint {w lo hi : Nat} {l} (h : Tile w lo l hi) {x y} (hx : x ∈ l) (hy : y ∈ l) :
    x = y ∨ x.addr + x.size ≤ y.addr ∨ y.addr + y.size ≤ x.addr := by
  induction l generalizing lo with
  | nil => cases hx
  | cons z t ih =>
    obtain ⟨h1, h2, h3⟩ := h
    rcases List.mem_cons.mp hx with hx1 | hx1 <;> rcases List.mem_cons.mp hy with hy1 | hy1
    · exact Or.inl (hx1.trans hy1.symm)
    · subst hx1; have := h3.mem hy1; right; left; omega
    · subst hy1; have := h3.mem hx1; right; right; omega
    · exact ih h3 hx1 hy1

/-- Total size. -/
theorem Tile.sum {w lo hi : Nat} {l} (h : Tile w lo l hi) : lo + total (frees l) + total (busy l) = hi := by
  induction l generalizing lo with
  | nil => simpa [Tile] using h
  | cons x t ih =>
    obtain ⟨h1, h2, h3⟩ := h
    have := ih h3
    rw [frees_cons, busy_cons]
    split <;> simp <;> omega

theorem Coal.append_iff {A B : List Seg} :
    Coal (A ++ B) ↔ Coal A ∧ Coal B ∧
      (∀ x, A.getLast? = some x → ∀ y, B.head? = some y → ¬ (x.isFree = true ∧ y.isFree = true)) := by
  induction A with
  | nil => simp [Coal]
  | cons a A ih =>
    cases A with
    | nil =>
      cases B with
      | nil => simp [Coal]
      | cons b B => simp [Coal]; exact ⟨fun h => ⟨h.2, h.1⟩, fun h => ⟨h.2, h.1⟩⟩
    | cons a' A =>
      simp only [List.cons_append, Coal, List.getLast?_cons_cons] at ih ⊢
      rw [ih]
      constructor
      · rintro ⟨h1, h2, h3, h4⟩; exact ⟨⟨h1, h2⟩, h3, h4⟩
      · rintro ⟨⟨h1, h2⟩, h3, h4⟩; exact ⟨h1, h2, h3, h4⟩

/-! ## Freeing -/

def joinR (a s : Nat) : List Seg → List Seg
  | [] => [⟨a, s, true⟩]
  | y :: B => if y.isFree then ⟨a, s + y.size, true⟩ :: B else ⟨a, s, true⟩ :: y :: B

def freeMerge : List Seg → Nat → Nat → List Seg → List Seg
  | [], a, s, B => joinR a s B
  | [x], a, s, B => if x.isFree then joinR x.addr (x.size + s) B else x :: joinR a s B
  | x :: y :: A, a, s, B => x :: freeMerge (y :: A) a s B

theorem joinR_tile {w a s hi : Nat} {B} (h : 2 * w ≤ s) (hB : Tile w (a + s) B hi) : Tile w a (joinR a s B) hi := by
  cases B with
  | nil => exact ⟨rfl, h, hB⟩
  | cons y B =>
    obtain ⟨h1, h2, h3⟩ := hB
    rw [joinR]; split
    · exact ⟨rfl, by simp only; omega, by rw [← Nat.add_assoc]; exact h3⟩
    · exact ⟨rfl, h, h1, h2, h3⟩

theorem joinR_busy (a s B) : busy (joinR a s B) = busy B := by
  cases B with
  | nil => rfl
  | cons y B => rw [joinR]; split <;> simp_all [busy_cons]

theorem joinR_total (a s B) : total (frees (joinR a s B)) = s + total (frees B) := by
  cases B with
  | nil => simp [joinR, frees_cons]
  | cons y B =>
    rw [joinR]; split
    · simp_all [frees_cons]; omega
    · simp_all [frees_cons]

theorem joinR_coal {a s : Nat} {B : List Seg} (h : Coal B) : Coal (joinR a s B) := by
  cases B with
  | nil => trivial
  | cons y B =>
    rw [joinR]; split
    · cases B with
      | nil => trivial
      | cons z B =>
        rename_i hy
        refine ⟨?_, h.2⟩
        rintro ⟨_, hz⟩
        exact h.1 ⟨hy, hz⟩
    · rename_i hy
      exact ⟨fun h => hy h.2, h⟩

theorem joinR_head (a s B) : ∃ n t, joinR a s B = ⟨a, n, true⟩ :: t := by
  cases B with
  | nil => exact ⟨_, _, rfl⟩
  | cons y B => rw [joinR]; split <;> exact ⟨_, _, rfl⟩

theorem joinR_mem {a s : Nat} {B : List Seg} {x} (h : x ∈ joinR a s B) : x ∈ B ∨ x.addr = a := by
  cases B with
  | nil => simp [joinR] at h; exact Or.inr (by rw [h])
  | cons y B =>
    rw [joinR] at h
    split at h
    · rcases List.mem_cons.mp h with rfl | h
      · exact Or.inr rfl
      · exact Or.inl (List.mem_cons_of_mem _ h)
    · rcases List.mem_cons.mp h with rfl | h
      · exact Or.inr rfl
      · exact Or.inl h

theorem freeMerge_tile {w lo a s hi : Nat} {A B} (hA : Tile w lo A a) (hs : 2 * w ≤ s) (hB : Tile w (a + s) B hi) :
    Tile w lo (freeMerge A a s B) hi := by
  fun_induction freeMerge A a s B generalizing lo with
  | case1 a s B => have : lo = a := hA; subst this; exact joinR_tile hs hB
  | case2 x a s B hx =>
    obtain ⟨h1, h2, h3⟩ := hA
    have h3 : lo + x.size = a := h3
    subst h1 h3
    exact joinR_tile (by omega) (by rw [← Nat.add_assoc]; exact hB)
  | case3 x a s B hx =>
    obtain ⟨h1, h2, h3⟩ := hA
    have h3 : lo + x.size = a := h3
    exact ⟨h1, h2, by rw [h3]; exact joinR_tile hs hB⟩
  | case4 x y A a s B ih => exact ⟨hA.1, hA.2.1, ih hA.2.2 hs hB⟩

theorem freeMerge_busy (A a s B) : busy (freeMerge A a s B) = busy A ++ busy B := by
  fun_induction freeMerge A a s B with
  | case1 a s B => simp [joinR_busy]
  | case2 x a s B hx => simp [joinR_busy, busy_cons, hx]
  | case3 x a s B hx => simp [joinR_busy, busy_cons, hx]
  | case4 x y A a s B ih => rw [busy_cons, ih, busy_cons x]; split <;> simp

theorem freeMerge_total (A a s B) : total (frees (freeMerge A a s B)) = total (frees A) + s + total (frees B) := by
  fun_induction freeMerge A a s B with
  | case1 a s B => simp [joinR_total]
  | case2 x a s B hx => simp [joinR_total, frees_cons, hx]
  | case3 x a s B hx => simp [joinR_total, frees_cons, hx]
  | case4 x y A a s B ih => rw [frees_cons, frees_cons x]; split <;> simp [ih]; omega

theorem freeMerge_mem {A B : List Seg} {a s : Nat} {x} (h : x ∈ freeMerge A a s B) :
    (∃ y ∈ A, x.addr = y.addr) ∨ x.addr = a ∨ x ∈ B := by
  fun_induction freeMerge A a s B with
  | case1 a s B => rcases joinR_mem h with h | h <;> simp [h]
  | case2 y a s B hy => rcases joinR_mem h with h | h <;> simp [h]
  | case3 y a s B hy =>
    rcases List.mem_cons.mp h with rfl | h
    · exact Or.inl ⟨x, by simp⟩
    · rcases joinR_mem h with h | h <;> simp [h]
  | case4 y z A a s B ih =>
    rcases List.mem_cons.mp h with rfl | h
    · exact Or.inl ⟨x, by simp⟩
    · rcases ih h with ⟨y, h1, h2⟩ | h | h
      · exact Or.inl ⟨y, List.mem_cons_of_mem _ h1, h2⟩
      · exact Or.inr (Or.inl h)
      · exact Or.inr (Or.inr h)

theorem freeMerge_coal {A B : List Seg} {a s : Nat} (h : Coal (A ++ ⟨a, s, false⟩ :: B)) : Coal (freeMerge A a s B) := by
  have hB : Coal B := by
    have := (Coal.append_iff.mp h).2.1
    cases B with
    | nil => trivial
    | cons b B => exact this.2
  fun_induction freeMerge A a s B with
  | case1 a s B => exact joinR_coal hB
  | case2 x a s B hx => exact joinR_coal hB
  | case3 x a s B hx =>
    obtain ⟨n, t, e⟩ := joinR_head a s B
    have hj := joinR_coal (a := a) (s := s) hB
    rw [e] at hj ⊢
    exact ⟨fun h => hx h.1, hj⟩
  | case4 x y A a s B ih =>
    have h1 := ih h.2 hB
    cases A with
    | nil =>
      rw [freeMerge] at h1 ⊢
      split at h1
      · rename_i hy
        rw [if_pos hy]
        obtain ⟨n, t, e⟩ := joinR_head y.addr (y.size + s) B
        rw [e] at h1 ⊢
        exact ⟨fun hh => h.1 ⟨hh.1, hy⟩, h1⟩
      · rename_i hy
        rw [if_neg hy]
        exact ⟨fun hh => hy hh.2, h1⟩
    | cons z A => exact ⟨h.1, h1⟩

theorem freeMerge_frees {w lo a s hi : Nat} (hw : 0 < w) {A B} (hA : Tile w lo A a) (hs : 2 * w ≤ s)
    (hB : Tile w (a + s) B hi) : frees (freeMerge A a s B) = insertFL a s (frees A ++ frees B) := by
  have hJ : ∀ a s B, 2 * w ≤ s → Tile w (a + s) B hi → frees (joinR a s B) = insertFL a s (frees B) := by
    intro a s B hs hB
    cases B with
    | nil => simp [joinR, frees_cons, insertFL]
    | cons y B =>
      obtain ⟨h1, h2, h3⟩ := hB
      rw [joinR]
      by_cases hy : y.isFree
      · rw [if_pos hy, frees_cons y, if_pos hy, insertFL.eq_def]
        simp only
        rw [if_pos (by omega), if_pos (by omega)]; rfl
      · rw [if_neg hy, frees_cons, if_pos rfl, frees_cons y, if_neg hy]
        simp only
        have ho := h3.ordered
        cases hf : frees B with
        | nil => rfl
        | cons e r =>
          obtain ⟨b, t⟩ := e
          rw [hf] at ho
          have := ho.1
          rw [insertFL.eq_def]
          simp only
          rw [if_pos (by omega), if_neg (by omega)]
  fun_induction freeMerge A a s B generalizing lo with
  | case1 a s B => simpa using hJ a s B hs hB
  | case2 x a s B hx =>
    obtain ⟨h1, h2, h3⟩ := hA
    have h3 : lo + x.size = a := h3
    rw [frees_cons, if_pos hx]
    simp only [frees_nil, List.cons_append, List.nil_append]
    rw [hJ _ _ _ (by omega) (by rw [← Nat.add_assoc, h1, h3]; exact hB), insertFL.eq_def (a := a)]
    simp only
    rw [if_neg (by omega), if_pos (by omega)]
    have ho := hB.ordered
    cases hf : frees B with
    | nil => rfl
    | cons e r =>
      obtain ⟨b, t⟩ := e
      rw [hf] at ho
      have := ho.1
      rw [insertFL.eq_def]
      simp only
      rw [if_pos (by omega)]
      by_cases hh : a + s = b
      · rw [if_pos (by omega), if_pos (by omega)]
      · rw [if_neg (by omega), if_neg (by omega)]
  | case3 x a s B hx =>
    obtain ⟨h1, h2, h3⟩ := hA
    rw [frees_cons, frees_cons x, if_neg hx, if_neg hx, hJ _ _ _ hs hB]; rfl
  | case4 x y A a s B ih =>
    obtain ⟨h1, h2, h3⟩ := hA
    rw [frees_cons, frees_cons x, ih h3 hs hB]
    have := h3.mem (List.mem_cons_self (a := y))
    split
    · rw [List.cons_append]; conv => rhs; rw [insertFL.eq_def]
      simp only
      rw [if_neg (by omega), if_neg (by omega)]
    · rfl

end Fpm.Alloc
