import Verif.Alloc.ListLemmas
/-! # Lemmas: allocation from the free list -/
namespace Fpm.Alloc

/-- The link that points to what follows `pre`. -/
def slotAfter (w : Nat) : Slot → List (Nat × Nat) → Slot
  | hp, [] => hp
  | _, (b, _) :: r => slotAfter w (some (b + w)) r

theorem slotAfter_range {w : Nat} {pre : List (Nat × Nat)} {hp : Slot} {lo mid : Nat}
    (ho : Ordered w lo pre mid) (hhp : ∀ q, hp = some q → q + w ≤ lo) {q : Nat}
    (hq : slotAfter w hp pre = some q) : q + w ≤ mid ∧ ((pre = [] ∧ hp = some q) ∨ lo + w ≤ q) := by
  induction pre generalizing hp lo with
  | nil => exact ⟨Nat.le_trans (hhp q hq) ho, Or.inl ⟨rfl, hq⟩⟩
  | cons e r ih =>
    obtain ⟨b, t⟩ := e
    obtain ⟨o1, o2, o3⟩ := ho
    have := ih o3 (hp := some (b + w)) (by rintro q ⟨⟩; omega) hq
    refine ⟨this.1, Or.inr ?_⟩
    rcases this.2 with ⟨_, h⟩ | h
    · cases h; omega
    · omega

theorem slotAfter_mem {w : Nat} {pre : List (Nat × Nat)} {hp : Slot} {q : Nat}
    (hq : slotAfter w hp pre = some q) : hp = some q ∨ ∃ e ∈ pre, q = e.1 + w := by
  induction pre generalizing hp with
  | nil => exact Or.inl hq
  | cons e r ih =>
    obtain ⟨b, t⟩ := e
    rcases ih (hp := some (b + w)) hq with h | ⟨e, he, h⟩
    · cases h; exact Or.inr ⟨(b, t), List.mem_cons_self, rfl⟩
    · exact Or.inr ⟨e, List.mem_cons_of_mem _ he, h⟩

theorem findFit_spec {w : Nat} (m : Mem) (n : Nat) (fl : List (Nat × Nat)) :
    ∀ (k : Nat) (hp : Slot) (p lo hi : Nat), 0 < lo → Ordered w lo fl hi → Chain w m p fl → fl.length < k →
      ((∀ e ∈ fl, e.2 < n) ∧ ∃ hp', findFit w m n k hp p = some (hp', 0)) ∨
      ∃ pre a s post, fl = pre ++ (a, s) :: post ∧ (∀ e ∈ pre, e.2 < n) ∧ n ≤ s ∧
        findFit w m n k hp p = some (slotAfter w hp pre, a) := by
  induction fl with
  | nil =>
    intro k hp p lo hi hlo ho hc hk
    obtain ⟨k, rfl⟩ : ∃ j, k = j + 1 := ⟨k - 1, by simp at hk; omega⟩
    exact Or.inl ⟨by simp, hp, by rw [findFit, if_pos (show p = 0 from hc)]⟩
  | cons e r ih =>
    obtain ⟨b, t⟩ := e
    intro k hp p lo hi hlo ho hc hk
    obtain ⟨k, rfl⟩ : ∃ j, k = j + 1 := ⟨k - 1, by simp at hk; omega⟩
    obtain ⟨o1, o2, o3⟩ := ho
    obtain ⟨rfl, c2, c3⟩ := hc
    rw [findFit, if_neg (by omega), c2]
    by_cases ht : t ≥ n
    · rw [if_pos ht]
      exact Or.inr ⟨[], p, t, r, rfl, by simp, ht, rfl⟩
    · rw [if_neg ht]
      rcases ih k (some (p + w)) _ (p + t) hi (by omega) o3 c3 (by simp at hk; omega) with ⟨h1, h2⟩ | ⟨pre, a, s, post, h1, h2, h3, h4⟩
      · exact Or.inl ⟨by simp; exact ⟨by omega, fun a b h => h1 (a, b) h⟩, h2⟩
      · exact Or.inr ⟨(p, t) :: pre, a, s, post, by rw [h1]; rfl,
          by simp; exact ⟨by omega, fun a b h => h2 (a, b) h⟩, h3, h4⟩

theorem relink {w : Nat} {m m1 : Mem} {c : Ctx} {old new : List (Nat × Nat)} {v mid : Nat} (hv : v < wrap w)
    (pre : List (Nat × Nat)) (hp : Slot) (lo : Nat) (ho : Ordered w lo pre mid) (hhp : ∀ q, hp = some q → q + w ≤ lo)
    (hc : Chain w m (slot w m c hp) (pre ++ old)) (hm : ∀ x, x < mid → m1 x = m x)
    (hnew : Chain w (setSlot w m1 c (slotAfter w hp pre) v).1 v new) :
    Chain w (setSlot w m1 c (slotAfter w hp pre) v).1
      (slot w (setSlot w m1 c (slotAfter w hp pre) v).1 (setSlot w m1 c (slotAfter w hp pre) v).2 hp) (pre ++ new) := by
  induction pre generalizing hp lo with
  | nil =>
    have e : slotAfter w hp [] = hp := rfl
    rw [e] at hnew ⊢
    rw [slot_setSlot hv]; exact hnew
  | cons e r ih =>
    obtain ⟨b, t⟩ := e
    obtain ⟨o1, o2, o3⟩ := ho
    obtain ⟨c1, c2, c3⟩ := hc
    have hmid := o3.le
    have e : slotAfter w hp ((b, t) :: r) = slotAfter w (some (b + w)) r := rfl
    rw [e] at hnew ⊢
    have hhp' : ∀ q, some (b + w) = some q → q + w ≤ b + t := by rintro q ⟨⟩; omega
    have hoff : ∀ x, x < b + w → (setSlot w m1 c (slotAfter w (some (b + w)) r) v).1 x = m x := by
      intro x hx
      rw [setSlot_out, hm x (by omega)]
      intro q hq
      have := slotAfter_range o3 hhp' hq
      rcases this.2 with ⟨_, h⟩ | h
      · cases h; omega
      · omega
    refine ⟨?_, ?_, ?_⟩
    · cases hp with
      | none =>
        have : (setSlot w m1 c (slotAfter w (some (b + w)) r) v).2 = c := by
          have : ∃ q, slotAfter w (some (b + w)) r = some q := by
            have g : ∀ (r : List (Nat × Nat)) x, ∃ q, slotAfter w (some x) r = some q := by
              intro r
              induction r with
              | nil => intro x; exact ⟨x, rfl⟩
              | cons e r ih => intro x; exact ih _
            exact g r _
          obtain ⟨q, hq⟩ := this
          rw [hq]; rfl
        rw [this]; exact c1
      | some q =>
        have := hhp q rfl
        change load w _ q = b
        rw [load_congr (m' := m)]
        · exact c1
        · intro x h1 h2; exact hoff x (by omega)
    · rw [load_congr (m' := m)]; exact c2
      intro x h1 h2; exact hoff x h2
    · exact ih (some (b + w)) (b + t) o3 hhp' c3 hnew

/-- What `fpm_alloc_dirty` does, in terms of the list of free blocks. -/
theorem allocDirty_spec {w : Nat} (hw : WordOk w) {m : Mem} {c : Ctx} {fl : List (Nat × Nat)} {lo hi nbytes : Nat}
    (hlo : 3 * w ≤ lo) (hhi : hi < wrap w) (hn : nbytes + 2 * w ≤ 2 ^ 32)
    (ho : Ordered w lo fl hi) (hc : Chain w m c.freeList fl) :
    ((∀ e ∈ fl, e.2 < reqSize w nbytes) ∧ allocDirty w m c nbytes = some (m, c, 0)) ∨
    ∃ pre a s post m' c', fl = pre ++ (a, s) :: post ∧ (∀ e ∈ pre, e.2 < reqSize w nbytes) ∧
      reqSize w nbytes ≤ s ∧ allocDirty w m c nbytes = some (m', c', a + w) ∧
      Chain w m' c'.freeList (pre ++ (if reqSize w nbytes + 3 * w ≤ s
        then (a + reqSize w nbytes, s - reqSize w nbytes) :: post else post)) ∧
      load w m' a = (if reqSize w nbytes + 3 * w ≤ s then reqSize w nbytes else s) ∧
      c' = { c with freeList := c'.freeList, freeSize := (c.freeSize + wrap w - load w m' a) % wrap w } ∧
      (∀ x, (x < a ∨ a + s ≤ x) → OffList w pre x → m' x = m x) := by
  have hw0 : 0 < w := by rcases hw with rfl | rfl <;> omega
  have hlen := ho.length hw0
  obtain ⟨f1, f2, f3, f4, f5⟩ := reqSize_facts hw hn
  generalize hN : reqSize w nbytes = n at *
  have hslot : slot w m c none = c.freeList := rfl
  rcases findFit_spec m n fl (wrap w) none c.freeList lo hi (by omega) ho hc (by omega) with
    ⟨h1, hp', h2⟩ | ⟨pre, a, s, post, rfl, h2, h3, h4⟩
  · refine Or.inl ⟨h1, ?_⟩
    simp only [allocDirty, hN, h2]
    rw [if_pos trivial]
  · right
    obtain ⟨mid, o1, o2⟩ := ho.append
    obtain ⟨p1, p2, p3⟩ := o2
    have hmid := o1.le
    have hle := p3.le
    -- facts about the chain
    have hca : Chain w m a ((a, s) :: post) ∧ True := by
      have g : ∀ (pre : List (Nat × Nat)) p, Chain w m p (pre ++ (a, s) :: post) → Chain w m a ((a, s) :: post) := by
        intro pre
        induction pre with
        | nil => intro p hp; exact ⟨rfl, hp.2⟩
        | cons e r ih => intro p hp; exact ih _ hp.2.2
      exact ⟨g pre _ hc, trivial⟩
    obtain ⟨⟨_, c2, c3⟩, _⟩ := hca
    have hsr : ∀ q, slotAfter w none pre = some q → q + w ≤ mid := fun q hq =>
      (slotAfter_range o1 (by rintro q ⟨⟩) hq).1
    have hsm : ∀ x, OffList w pre x → OffSlot w (slotAfter w none pre) x := by
      intro x hx q hq
      rcases slotAfter_mem hq with h | ⟨e, he, h⟩
      · cases h
      · have := hx e he; omega
    by_cases hsp : n + 3 * w ≤ s
    · -- split
      let m1 := store w (store w (store w m (a + n) (s - n)) a n) (a + n + w) (load w m (a + w))
      let r := setSlot w m1 c (slotAfter w none pre) (a + n)
      have hm1 : ∀ x, x < mid → m1 x = m x := by
        intro x hx
        simp only [m1]
        rw [store_out (by omega), store_out (by omega), store_out (by omega)]
      have hr1 : ∀ x, mid ≤ x → r.1 x = m1 x := by
        intro x hx
        exact setSlot_out (fun q hq => by have := hsr q hq; omega)
      have hra : load w r.1 a = n := by
        rw [load_congr (m' := m1) (fun x h1 h2 => hr1 x (by omega))]
        simp only [m1]
        rw [load_store_ne (by omega), load_store_same (by omega)]
      have hrs : load w r.1 (a + n) = s - n := by
        rw [load_congr (m' := m1) (fun x h1 h2 => hr1 x (by omega))]
        simp only [m1]
        rw [load_store_ne (by omega), load_store_ne (by omega), load_store_same (by omega)]
      have hrn : load w r.1 (a + n + w) = load w m (a + w) := by
        rw [load_congr (m' := m1) (fun x h1 h2 => hr1 x (by omega))]
        simp only [m1]
        rw [load_store_same (load_lt _ _ _)]
      refine ⟨pre, a, s, post, r.1, { r.2 with freeSize := (c.freeSize + wrap w - n) % wrap w }, rfl, h2, h3, ?_, ?_, ?_, ?_, ?_⟩
      · have hfs : r.2.freeSize = c.freeSize := by
          have := setSlot_ctx (w := w) (m := m1) (c := c) (hp := slotAfter w none pre) (v := a + n)
          change r.2.freeSize = _
          rw [show r.2 = { c with freeList := r.2.freeList } from this]
        simp only [allocDirty, hN, h4]
        rw [if_neg (by omega), c2, Nat.mod_eq_of_lt (show n + w + 2 * w < wrap w by omega), if_pos (by omega),
          Nat.mod_eq_of_lt (show a + n < wrap w by omega),
          show (s + wrap w - n) % wrap w = s - n by
            rw [show s + wrap w - n = s - n + wrap w by omega, Nat.add_mod_right, Nat.mod_eq_of_lt (by omega)],
          show load w (store w (store w m (a + n) (s - n)) a n) (a + w) = load w m (a + w) by
            rw [load_store_ne (by omega), load_store_ne (by omega)]]
        change some (r.1, { r.2 with freeSize := (r.2.freeSize + wrap w - load w r.1 a) % wrap w }, a + w) = _
        rw [hra, hfs]
      · rw [if_pos hsp]
        have := relink (w := w) (m := m) (m1 := m1) (c := c) (old := (a, s) :: post)
          (new := (a + n, s - n) :: post) (v := a + n) (mid := mid) (by omega) pre none lo o1 (by rintro q ⟨⟩) hc hm1 ?_
        · exact this
        · refine ⟨rfl, hrs, ?_⟩
          change Chain w r.1 (load w r.1 (a + n + w)) post
          rw [hrn]
          refine c3.congr ?_
          intro e he x h1 h2
          have := p3.mem he
          rw [hr1 x (by omega)]
          simp only [m1]
          rw [store_out (by omega), store_out (by omega), store_out (by omega)]
      · rw [if_pos hsp]; exact hra
      · rw [hra]
        have := setSlot_ctx (w := w) (m := m1) (c := c) (hp := slotAfter w none pre) (v := a + n)
        simp only
        rw [show r.2 = { c with freeList := r.2.freeList } from this]
      · intro x h1 h5
        simp only [r]
        rw [setSlot_out (hsm x h5)]
        simp only [m1]
        rw [store_out (by omega), store_out (by omega), store_out (by omega)]
    · let r := setSlot w m c (slotAfter w none pre) (load w m (a + w))
      have hr1 : ∀ x, mid ≤ x → r.1 x = m x := by
        intro x hx
        exact setSlot_out (fun q hq => by have := hsr q hq; omega)
      have hra : load w r.1 a = s := by
        rw [load_congr (m' := m) (fun x h1 h2 => hr1 x (by omega))]; exact c2
      refine ⟨pre, a, s, post, r.1, { r.2 with freeSize := (c.freeSize + wrap w - s) % wrap w }, rfl, h2, h3, ?_, ?_, ?_, ?_, ?_⟩
      · have hfs : r.2.freeSize = c.freeSize := by
          have := setSlot_ctx (w := w) (m := m) (c := c) (hp := slotAfter w none pre) (v := load w m (a + w))
          change r.2.freeSize = _
          rw [show r.2 = { c with freeList := r.2.freeList } from this]
        simp only [allocDirty, hN, h4]
        rw [if_neg (by omega), c2, Nat.mod_eq_of_lt (show n + w + 2 * w < wrap w by omega), if_neg (by omega)]
        change some (r.1, { r.2 with freeSize := (r.2.freeSize + wrap w - load w r.1 a) % wrap w }, a + w) = _
        rw [hra, hfs]
      · rw [if_neg hsp]
        have := relink (w := w) (m := m) (m1 := m) (c := c) (old := (a, s) :: post)
          (new := post) (v := load w m (a + w)) (mid := mid) (load_lt _ _ _) pre none lo o1 (by rintro q ⟨⟩) hc (fun _ _ => rfl) ?_
        · exact this
        · refine c3.congr ?_
          intro e he x h1 h2
          have := p3.mem he
          exact hr1 x (by omega)
      · rw [if_neg hsp]; exact hra
      · rw [hra]
        have := setSlot_ctx (w := w) (m := m) (c := c) (hp := slotAfter w none pre) (v := load w m (a + w))
        simp only
        rw [show r.2 = { c with freeList := r.2.freeList } from this]
      · intro x h1 h5
        exact setSlot_out (hsm x h5)

end Fpm.Alloc
