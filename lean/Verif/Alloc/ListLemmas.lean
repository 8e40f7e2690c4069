import Verif.Alloc.MemLemmas
/-! # Lemmas: the free list in memory -/
namespace Fpm.Alloc

/-- The linked list starting at `p` has exactly these (address, size) entries. -/
def Chain (w : Nat) (m : Mem) : Nat → List (Nat × Nat) → Prop
  | p, [] => p = 0
  | p, (a, s) :: t => p = a ∧ load w m a = s ∧ Chain w m (load w m (a + w)) t

/-- Entries lie in `[lo, hi)`, in ascending order, without overlap, and can hold header and link. -/
def Ordered (w : Nat) : Nat → List (Nat × Nat) → Nat → Prop
  | lo, [], hi => lo ≤ hi
  | lo, (a, s) :: t, hi => lo ≤ a ∧ 2 * w ≤ s ∧ Ordered w (a + s) t hi

/-- The value of a link. -/
def slot (w : Nat) (m : Mem) (c : Ctx) : Slot → Nat
  | none => c.freeList
  | some a => load w m a

/-- `x` is not in the word at the slot. -/
def OffSlot (w : Nat) (hp : Slot) (x : Nat) : Prop := ∀ q, hp = some q → x < q ∨ q + w ≤ x

/-- `x` is in none of the header/link areas of the entries. -/
def OffList (w : Nat) (fl : List (Nat × Nat)) (x : Nat) : Prop := ∀ e ∈ fl, x < e.1 ∨ e.1 + 2 * w ≤ x

theorem Ordered.le {w lo hi : Nat} {fl} (h : Ordered w lo fl hi) : lo ≤ hi := by
  induction fl generalizing lo with
  | nil => exact h
  | cons e t ih => obtain ⟨a, s⟩ := e; have := ih h.2.2; have := h.1; omega

theorem Ordered.mem {w lo hi : Nat} {fl} (h : Ordered w lo fl hi) {e} (he : e ∈ fl) :
    lo ≤ e.1 ∧ 2 * w ≤ e.2 ∧ e.1 + e.2 ≤ hi := by
  induction fl generalizing lo with
  | nil => cases he
  | cons x t ih =>
    obtain ⟨a, s⟩ := x
    rcases List.mem_cons.mp he with rfl | he
    · exact ⟨h.1, h.2.1, h.2.2.le⟩
    · have := ih h.2.2 he; have := h.1; omega

theorem Ordered.mono {w lo lo' hi : Nat} {fl} (h : Ordered w lo fl hi) (hl : lo' ≤ lo) : Ordered w lo' fl hi := by
  cases fl with
  | nil => exact Nat.le_trans hl h
  | cons e t => exact ⟨Nat.le_trans hl h.1, h.2⟩

theorem Ordered.length {w lo hi : Nat} {fl} (hw : 0 < w) (h : Ordered w lo fl hi) : lo + fl.length ≤ hi := by
  induction fl generalizing lo with
  | nil => simpa [Ordered] using h
  | cons e t ih =>
    obtain ⟨a, s⟩ := e
    have := ih h.2.2; have h1 := h.1; have h2 := h.2.1
    simp; omega

theorem Ordered.append {w lo hi : Nat} {f g : List (Nat × Nat)} (h : Ordered w lo (f ++ g) hi) :
    ∃ mid, Ordered w lo f mid ∧ Ordered w mid g hi := by
  induction f generalizing lo with
  | nil => exact ⟨lo, Nat.le_refl lo, h⟩
  | cons e t ih =>
    obtain ⟨a, s⟩ := e
    obtain ⟨mid, h1, h2⟩ := ih h.2.2
    exact ⟨mid, ⟨h.1, h.2.1, h1⟩, h2⟩

theorem Chain.congr {w : Nat} {m m' : Mem} {p : Nat} {fl}
    (h : Chain w m p fl) (hm : ∀ e ∈ fl, ∀ x, e.1 ≤ x → x < e.1 + 2 * w → m' x = m x) : Chain w m' p fl := by
  induction fl generalizing p with
  | nil => exact h
  | cons e t ih =>
    obtain ⟨a, s⟩ := e
    obtain ⟨h1, h2, h3⟩ := h
    have hx := hm (a, s) List.mem_cons_self
    refine ⟨h1, ?_, ?_⟩
    · rw [load_congr (m := m') (m' := m)]; exact h2
      intro x h1 h2; exact hx x h1 (by omega)
    · rw [load_congr (w := w) (m := m') (m' := m) (a := a + w)]
      · exact ih h3 (fun e he => hm e (List.mem_cons_of_mem _ he))
      · intro x h1 h2; exact hx x (by omega) (by omega)

theorem setSlot_out {w : Nat} {m : Mem} {c : Ctx} {hp : Slot} {v x : Nat} (h : OffSlot w hp x) :
    (setSlot w m c hp v).1 x = m x := by
  cases hp with
  | none => rfl
  | some q => exact store_out (h q rfl)

theorem slot_setSlot {w : Nat} {m : Mem} {c : Ctx} {hp : Slot} {v : Nat} (h : v < wrap w) :
    slot w (setSlot w m c hp v).1 (setSlot w m c hp v).2 hp = v := by
  cases hp with
  | none => rfl
  | some q => exact load_store_same h

theorem setSlot_ctx {w : Nat} {m : Mem} {c : Ctx} {hp : Slot} {v : Nat} :
    (setSlot w m c hp v).2 = { c with freeList := (setSlot w m c hp v).2.freeList } := by
  cases hp <;> rfl

theorem setSlot_ctx_some {w : Nat} {m : Mem} {c : Ctx} {q v : Nat} : (setSlot w m c (some q) v).2 = c := rfl

/-- The slot's value after stores elsewhere. -/
theorem slot_congr {w : Nat} {m m' : Mem} {c : Ctx} {hp : Slot}
    (h : ∀ q, hp = some q → ∀ x, q ≤ x → x < q + w → m' x = m x) : slot w m' c hp = slot w m c hp := by
  cases hp with
  | none => rfl
  | some q => exact load_congr (h q rfl)

/-- Insertion with coalescing, on the list of entries. -/
def insertFL (a s : Nat) : List (Nat × Nat) → List (Nat × Nat)
  | [] => [(a, s)]
  | (b, t) :: r =>
    if b > a then
      if a + s = b then (a, s + t) :: r else (a, s) :: (b, t) :: r
    else if b + t = a then
      match r with
      | (c, u) :: r' => if b + t + s = c then (b, t + s + u) :: r' else (b, t + s) :: (c, u) :: r'
      | [] => [(b, t + s)]
    else (b, t) :: insertFL a s r

theorem mergeLoop_spec {w : Nat} (hw : WordOk w) (a s hi : Nat) (hhi : hi < wrap w) (ha0 : 0 < a) (hs : 2 * w ≤ s)
    (hahi : a + s ≤ hi) (fl : List (Nat × Nat)) :
    ∀ (k : Nat) (m : Mem) (c : Ctx) (hp : Slot) (lo : Nat), 0 < lo → Ordered w lo fl hi →
      Chain w m (slot w m c hp) fl → load w m a = s →
      (∀ e ∈ fl, e.1 + e.2 ≤ a ∨ a + s ≤ e.1) →
      (∀ q, hp = some q → q + w ≤ lo ∧ q + w ≤ a) →
      fl.length < k →
      ∃ m' c', mergeLoop w a k m c hp (slot w m c hp) = some (m', c') ∧
        Chain w m' (slot w m' c' hp) (insertFL a s fl) ∧
        c' = { c with freeList := c'.freeList } ∧ (∀ q, hp = some q → c' = c) ∧
        (∀ x, OffSlot w hp x → (x < a ∨ a + 2 * w ≤ x) → OffList w fl x → m' x = m x) := by
  have hw0 : 0 < w := by rcases hw with rfl | rfl <;> omega
  induction fl with
  | nil =>
    intro k m c hp lo hlo hord hch hla hdisj hhp hk
    obtain ⟨k, rfl⟩ : ∃ j, k = j + 1 := ⟨k - 1, by simp at hk; omega⟩
    have h0 : slot w m c hp = 0 := hch
    refine ⟨store w (setSlot w m c hp a).1 (a + w) 0, (setSlot w m c hp a).2, ?_, ?_, setSlot_ctx, ?_, ?_⟩
    · rw [mergeLoop, if_pos h0]
    · refine ⟨?_, ?_, ?_⟩
      · rw [slot_congr (m := (setSlot w m c hp a).1)]
        · exact slot_setSlot (by omega)
        · intro q hq x h1 h2
          have := hhp q hq
          exact store_out (by omega)
      · rw [load_store_ne (by omega), load_congr (m' := m)]; exact hla
        intro x h1 h2
        apply setSlot_out
        intro q hq; have := hhp q hq; omega
      · rw [load_store_same (by omega)]; rfl
    · rintro q rfl; rfl
    · intro x h1 h2 h3
      rw [store_out (by omega), setSlot_out h1]
  | cons e r ih =>
    obtain ⟨b, t⟩ := e
    intro k m c hp lo hlo hord hch hla hdisj hhp hk
    obtain ⟨k, rfl⟩ : ∃ j, k = j + 1 := ⟨k - 1, by simp at hk; omega⟩
    obtain ⟨hb, hlb, hch'⟩ := hch
    obtain ⟨o1, o2, o3⟩ := hord
    have hle := o3.le
    have hd := hdisj (b, t) List.mem_cons_self
    simp only at hd
    rw [hb, mergeLoop, if_neg (by omega)]
    by_cases hba : b > a
    · -- insert before
      have hab : a + s ≤ b := by omega
      rw [if_pos hba]
      have hl1 : load w (setSlot w m c hp a).1 a = s := by
        rw [load_congr (m' := m)]; exact hla
        intro x h1 h2; apply setSlot_out; intro q hq; have := hhp q hq; omega
      have hl2 : load w (setSlot w m c hp a).1 b = t := by
        rw [load_congr (m' := m)]; exact hlb
        intro x h1 h2; apply setSlot_out; intro q hq; have := hhp q hq; omega
      have hl3 : load w (setSlot w m c hp a).1 (b + w) = load w m (b + w) := by
        rw [load_congr (m' := m)]
        intro x h1 h2; apply setSlot_out; intro q hq; have := hhp q hq; omega
      simp only [hl1]
      by_cases hab' : a + s = b
      · rw [if_pos (by rw [Nat.mod_eq_of_lt (by omega)]; exact hab')]
        simp only [hl2, Nat.mod_eq_of_lt (show s + t < wrap w by omega)]
        refine ⟨_, _, rfl, ?_, setSlot_ctx, ?_, ?_⟩
        · rw [insertFL.eq_def]; simp only; rw [if_pos hba, if_pos hab']
          refine ⟨?_, ?_, ?_⟩
          · rw [slot_congr (m := (setSlot w m c hp a).1)]
            · exact slot_setSlot (by omega)
            · intro q hq x h1 h2
              have := hhp q hq
              rw [store_out (by omega), store_out (by omega)]
          · rw [load_store_ne (by omega), load_store_same (by omega)]
          · rw [load_store_same (load_lt _ _ _), load_store_ne (by omega), hl3]
            refine hch'.congr ?_
            intro e he x h1 h2
            have := o3.mem he
            rw [store_out (by omega), store_out (by omega), setSlot_out]
            intro q hq; have := hhp q hq; omega
        · rintro q rfl; rfl
        · intro x h1 h2 h3
          rw [store_out (by omega), store_out (by omega), setSlot_out h1]
      · rw [if_neg (by rw [Nat.mod_eq_of_lt (by omega)]; exact hab')]
        refine ⟨_, _, rfl, ?_, setSlot_ctx, ?_, ?_⟩
        · rw [insertFL.eq_def]; simp only; rw [if_pos hba, if_neg hab']
          refine ⟨?_, ?_, ?_, ?_, ?_⟩
          · rw [slot_congr (m := (setSlot w m c hp a).1)]
            · exact slot_setSlot (by omega)
            · intro q hq x h1 h2
              have := hhp q hq
              exact store_out (by omega)
          · rw [load_store_ne (by omega), hl1]
          · rw [load_store_same (by omega)]
          · rw [load_store_ne (by omega), hl2]
          · rw [load_store_ne (by omega), hl3]
            refine hch'.congr ?_
            intro e he x h1 h2
            have := o3.mem he
            rw [store_out (by omega), setSlot_out]
            intro q hq; have := hhp q hq; omega
        · rintro q rfl; rfl
        · intro x h1 h2 h3
          rw [store_out (by omega), setSlot_out h1]
    · rw [if_neg hba]
      have hba' : b + t ≤ a := by omega
      rw [hlb, Nat.mod_eq_of_lt (show b + t < wrap w by omega)]
      by_cases hbt : b + t = a
      · rw [if_pos hbt]
        simp only [hla, Nat.mod_eq_of_lt (show t + s < wrap w by omega)]
        rw [load_store_same (by omega), load_store_ne (show b + w + w ≤ b ∨ b + w ≤ b + w by omega),
          Nat.mod_eq_of_lt (show b + (t + s) < wrap w by omega)]
        cases r with
        | nil =>
          have hz : load w m (b + w) = 0 := hch'
          rw [hz, if_neg (by omega)]
          refine ⟨_, _, rfl, ?_, rfl, fun _ _ => rfl, ?_⟩
          · rw [insertFL, if_neg hba, if_pos hbt]
            refine ⟨?_, ?_, ?_⟩
            · rw [slot_congr (m := m)]; exact hb
              intro q hq x h1 h2; have := hhp q hq; exact store_out (by omega)
            · exact load_store_same (by omega)
            · rw [load_store_ne (by omega)]; exact hz
          · intro x h1 h2 h3
            have := h3 (b, t) List.mem_cons_self
            simp only at this
            exact store_out (by omega)
        | cons e r =>
          obtain ⟨c', u⟩ := e
          obtain ⟨hn, hlc, hch''⟩ := hch'
          obtain ⟨p1, p2, p3⟩ := o3
          have hle' := p3.le
          have hdc := hdisj (c', u) (by simp)
          simp only at hdc
          rw [hn]
          by_cases hm2 : b + (t + s) = c'
          · rw [if_pos hm2]
            have hl4 : load w (store w m b (t + s)) c' = u := by rw [load_store_ne (by omega)]; exact hlc
            simp only [hl4, Nat.mod_eq_of_lt (show t + s + u < wrap w by omega)]
            refine ⟨_, _, rfl, ?_, rfl, fun _ _ => rfl, ?_⟩
            · rw [insertFL, if_neg hba, if_pos hbt]
              rw [if_pos (by omega)]
              refine ⟨?_, ?_, ?_⟩
              · rw [slot_congr (m := m)]; exact hb
                intro q hq x h1 h2; have := hhp q hq
                rw [store_out (by omega), store_out (by omega), store_out (by omega)]
              · rw [load_store_ne (by omega), load_store_same (by omega)]
              · rw [load_store_same (load_lt _ _ _), load_store_ne (a := b + w) (by omega),
                  load_store_ne (a := b + w) (by omega), hn, load_store_ne (by omega), load_store_ne (by omega)]
                refine hch''.congr ?_
                intro e he x h1 h2
                have := p3.mem he
                rw [store_out (by omega), store_out (by omega), store_out (by omega)]
            · intro x h1 h2 h3
              have := h3 (b, t) List.mem_cons_self
              simp only at this
              rw [store_out (by omega), store_out (by omega), store_out (by omega)]
          · rw [if_neg hm2]
            refine ⟨_, _, rfl, ?_, rfl, fun _ _ => rfl, ?_⟩
            · rw [insertFL, if_neg hba, if_pos hbt]
              rw [if_neg (by omega)]
              refine ⟨?_, ?_, ?_, ?_, ?_⟩
              · rw [slot_congr (m := m)]; exact hb
                intro q hq x h1 h2; have := hhp q hq
                exact store_out (by omega)
              · exact load_store_same (by omega)
              · rw [load_store_ne (by omega)]; exact hn
              · rw [load_store_ne (by omega)]; exact hlc
              · rw [load_store_ne (by omega)]
                refine hch''.congr ?_
                intro e he x h1 h2
                have := p3.mem he
                exact store_out (by omega)
            · intro x h1 h2 h3
              have := h3 (b, t) List.mem_cons_self
              simp only at this
              exact store_out (by omega)
      · rw [if_neg hbt]
        have := ih k m c (some (b + w)) (b + t) (by omega) o3 hch' hla
          (fun e he => hdisj e (List.mem_cons_of_mem _ he))
          (by rintro q ⟨⟩; omega) (by simp at hk; omega)
        obtain ⟨m', c', h1, h2, h3, h4, h5⟩ := this
        have hc : c' = c := h4 _ rfl
        subst hc
        refine ⟨m', c', h1, ?_, rfl, fun _ _ => rfl, ?_⟩
        · rw [insertFL.eq_def]; simp only; rw [if_neg hba, if_neg hbt]
          have hoff : ∀ x, x < b + w → m' x = m x := by
            intro x hx
            apply h5
            · rintro q ⟨⟩; omega
            · omega
            · intro e he; have := o3.mem he; omega
          refine ⟨?_, ?_, h2⟩
          · rw [slot_congr (m := m)]; exact hb
            intro q hq x h1 h2; have := hhp q hq
            exact hoff x (by omega)
          · rw [load_congr (m' := m)]; exact hlb
            intro x h1 h2; exact hoff x h2
        · intro x h6 h7 h8
          have := h8 (b, t) List.mem_cons_self
          simp only at this
          apply h5
          · rintro q ⟨⟩; omega
          · exact h7
          · intro e he; exact h8 e (List.mem_cons_of_mem _ he)

end Fpm.Alloc
