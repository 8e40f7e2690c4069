import Verif.Alloc.HeapLemmas
/-! # Lemmas: calls in terms of the blocks a program holds -/
namespace Fpm.Alloc

/-- The heap of `l` consists of the blocks `segs`, the busy ones being those the program holds. -/
structure LevelOk (w : Nat) (m : Mem) (l : Level) (segs : List Seg) : Prop where
  heap : HeapOk w m l.ctx segs
  perm : (l.live.map (·.1)).Perm ((busy segs).map (·.1 + w))
  size : ∀ b ∈ l.live, b.2 + w ≤ load w m (b.1 - w)

/-- `x` is in the heap region of `c`. -/
def InRegion (c : Ctx) (x : Nat) : Prop := c.heapStart ≤ x ∧ x < c.heapStart + c.heapSize

/-- The block keeps its header and contents. -/
def Keeps (m m' : Mem) (e : Nat × Nat) : Prop := ∀ x, e.1 ≤ x → x < e.1 + e.2 → m' x = m x

theorem LevelOk.busy_of_live {w : Nat} {m : Mem} {l : Level} {segs} (h : LevelOk w m l segs) {p : Nat}
    (hp : p ∈ l.live.map (·.1)) : ∃ e ∈ busy segs, p = e.1 + w := by
  have := h.perm.mem_iff.mp hp
  obtain ⟨e, he, rfl⟩ := List.mem_map.mp this
  exact ⟨e, he, rfl⟩

theorem LevelOk.live_of_busy {w : Nat} {m : Mem} {l : Level} {segs} (h : LevelOk w m l segs) {e}
    (he : e ∈ busy segs) : e.1 + w ∈ l.live.map (·.1) :=
  h.perm.mem_iff.mpr (List.mem_map.mpr ⟨e, he, rfl⟩)

/-- Addresses of busy blocks are distinct. -/
theorem Tile.busy_nodup {w lo hi : Nat} (hw : 0 < w) {l} (h : Tile w lo l hi) : ((busy l).map (·.1 + w)).Nodup := by
  induction l generalizing lo with
  | nil => simp
  | cons x t ih =>
    obtain ⟨h1, h2, h3⟩ := h
    rw [busy_cons]
    split
    · exact ih h3
    · rw [List.map_cons, List.nodup_cons]
      refine ⟨?_, ih h3⟩
      intro hm
      obtain ⟨e, he, h4⟩ := List.mem_map.mp hm
      have := h3.mem (mem_busy.mp he)
      simp only at this h4
      omega

theorem LevelOk.nodup {w : Nat} (hw : 0 < w) {m : Mem} {l : Level} {segs} (h : LevelOk w m l segs) :
    (l.live.map (·.1)).Nodup := h.perm.nodup_iff.mpr (h.heap.tile.busy_nodup hw)

theorem busy_split {l : List Seg} {a s : Nat} (h : (a, s) ∈ busy l) : ∃ A B, l = A ++ ⟨a, s, false⟩ :: B :=
  List.append_of_mem (mem_busy.mp h)

/-- Sizes seen by the program are those of the blocks. -/
theorem LevelOk.hdr_live {w : Nat} {m : Mem} {l : Level} {segs} (h : LevelOk w m l segs) {e}
    (he : e ∈ busy segs) : load w m (e.1 + w - w) = e.2 := by
  rw [Nat.add_sub_cancel]; exact h.heap.hdr e he

theorem Keeps.hdr {w : Nat} {m m' : Mem} {e : Nat × Nat} (h : Keeps m m' e) (hs : w ≤ e.2) :
    load w m' e.1 = load w m e.1 := load_congr fun x h1 h2 => h x h1 (by omega)

/-- Changing memory outside the bookkeeping of a level preserves it. -/
theorem LevelOk.congr {w : Nat} {m m' : Mem} {l : Level} {segs} (h : LevelOk w m l segs)
    (hb : ∀ e ∈ busy segs, ∀ x, e.1 ≤ x → x < e.1 + w → m' x = m x)
    (hf : ∀ e ∈ frees segs, ∀ x, e.1 ≤ x → x < e.1 + 2 * w → m' x = m x) : LevelOk w m' l segs := by
  refine ⟨h.heap.congr hb hf, h.perm, ?_⟩
  intro b hbm
  obtain ⟨e, he, hp⟩ := h.busy_of_live (List.mem_map.mpr ⟨b, hbm, rfl⟩)
  have := h.size b hbm
  rw [hp, Nat.add_sub_cancel] at this ⊢
  rw [load_congr (hb e he)]; exact this

theorem allocDirty_level {w : Nat} (hw : WordOk w) {m : Mem} {l : Level} {segs : List Seg} {n : Nat}
    (hn : n + 2 * w ≤ 2 ^ 32) (h : LevelOk w m l segs) :
    ∃ m' c' p segs', allocDirty w m l.ctx n = some (m', c', p) ∧ LevelOk w m' ⟨c', add p n l.live⟩ segs' ∧
      SameRegion l.ctx c' ∧
      ((frees segs).find? (fun e => decide (reqSize w n ≤ e.2)) = none ∧ p = 0 ∧ m' = m ∧ c' = l.ctx ∧ segs' = segs ∨
        ∃ a s, (frees segs).find? (fun e => decide (reqSize w n ≤ e.2)) = some (a, s) ∧ p = a + w ∧ a ∈ segs.map (·.addr) ∧
          ∃ sz, (a, sz) ∈ busy segs' ∧ n + w ≤ sz ∧ sz ≤ s ∧
            (sz = (if reqSize w n + 3 * w ≤ s then reqSize w n else s))) ∧
      (∀ e ∈ busy segs, Keeps m m' e ∧ e ∈ busy segs') ∧
      (∀ x, ¬ InRegion l.ctx x → m' x = m x) := by
  have hw0 : 0 < w := by rcases hw with rfl | rfl <;> omega
  obtain ⟨f1, f2, f3, f4, f5⟩ := reqSize_facts hw hn
  rcases allocDirty_heap hw hn h.heap with ⟨h1, h2⟩ | ⟨A, a, s, B, m', c', rfl, h2, h3, h4, h5, h6, h7⟩
  · refine ⟨m, l.ctx, 0, segs, h2, ?_, ⟨rfl, rfl⟩, Or.inl ⟨?_, rfl, rfl, rfl, rfl⟩, fun e he => ⟨fun _ _ _ => rfl, he⟩,
      fun _ _ => rfl⟩
    · simpa [add] using h
    · rw [List.find?_eq_none]; intro e he; have := h1 e he; simp; omega
  · have hbsub : ∀ e ∈ busy (A ++ ⟨a, s, true⟩ :: B), e ∈ busy (A ++ carve w (reqSize w n) a s B) := by
      intro e he
      rw [busy_append, busy_cons, if_pos rfl] at he
      rw [busy_append, carve]
      split <;> simp [busy_cons] <;> simp at he <;> rcases he with he | he <;> simp [he]
    have hk : ∀ e ∈ busy (A ++ ⟨a, s, true⟩ :: B), Keeps m m' e := fun e he x h8 h9 =>
      h7 x (h.heap.busy_notFree he h8 h9)
    obtain ⟨mid, tA, tB⟩ := Tile.append.mp h.heap.tile
    obtain ⟨t1, t2, t3⟩ := tB
    simp only at t1 t2 t3
    subst t1
    let sz := if reqSize w n + 3 * w ≤ s then reqSize w n else s
    have hsz : (a, sz) ∈ busy (A ++ carve w (reqSize w n) a s B) := by
      rw [busy_append, carve]; simp only [sz]
      split <;> simp [busy_cons]
    have hszn : n + w ≤ sz := by simp only [sz]; split <;> omega
    refine ⟨m', c', a + w, _, h4, ⟨h5, ?_, ?_⟩, h6, Or.inr ⟨a, s, ?_, rfl, by simp, sz, hsz, hszn, ?_, rfl⟩,
      fun e he => ⟨hk e he, hbsub e he⟩, ?_⟩
    · have e1 : (busy (A ++ carve w (reqSize w n) a s B)).Perm ((a, sz) :: busy (A ++ ⟨a, s, true⟩ :: B)) := by
        have : busy (A ++ carve w (reqSize w n) a s B) = busy A ++ (a, sz) :: busy B := by
          rw [busy_append, carve]; simp only [sz]
          split <;> simp [busy_cons]
        rw [this, busy_append, busy_cons, if_pos rfl]
        exact List.perm_middle
      have e2 := (e1.map (fun e => e.1 + w)).symm
      refine List.Perm.trans ?_ e2
      simp only [add, List.map_cons]
      rw [if_neg (by omega)]
      exact List.Perm.cons _ h.perm
    · intro b hb
      simp only [add] at hb
      rw [if_neg (by omega)] at hb
      rcases List.mem_cons.mp hb with rfl | hb
      · simp only
        rw [Nat.add_sub_cancel, h5.hdr _ hsz]; exact hszn
      · obtain ⟨e, he, hp⟩ := h.busy_of_live (List.mem_map.mpr ⟨b, hb, rfl⟩)
        have := h.size b hb
        rw [hp, Nat.add_sub_cancel] at this ⊢
        rw [(hk e he).hdr (by have := h.heap.busy_range he; omega)]; exact this
    · rw [List.find?_eq_some_iff_append]
      refine ⟨by simpa using h3, frees A, frees B, by simp [frees_cons], ?_⟩
      intro e he; have := h2 e he; simp; omega
    · simp only [sz]; split <;> omega
    · intro x hx
      apply h7
      rintro ⟨e, he, h8, h9⟩
      have := h.heap.tile.ordered.mem he
      exact hx ⟨by omega, by omega⟩

/-- Contents of a live block may change freely. -/
theorem LevelOk.payload {w : Nat} {m m' : Mem} {l : Level} {segs} (h : LevelOk w m l segs) {e} (he : e ∈ busy segs)
    (hm : ∀ x, (x < e.1 + w ∨ e.1 + e.2 ≤ x) → m' x = m x) : LevelOk w m' l segs := by
  have he' := mem_busy.mp (show (e.1, e.2) ∈ busy segs from he)
  apply h.congr
  · intro f hf x h1 h2
    have hr := h.heap.busy_range hf
    rcases h.heap.tile.disjoint he' (mem_busy.mp (show (f.1, f.2) ∈ busy segs from hf)) with h3 | h3 | h3
    · simp at h3; exact hm x (by omega)
    · simp only at h3; exact hm x (by omega)
    · simp only at h3; exact hm x (by omega)
  · intro f hf x h1 h2
    have := h.heap.tile.ordered.mem hf
    rcases busy_ne_free h.heap.tile he hf with h3 | h3
    · exact hm x (by omega)
    · exact hm x (by omega)

theorem keeps_of_ne {w : Nat} {m m' : Mem} {l : Level} {segs} (h : LevelOk w m l segs) {e f} (he : e ∈ busy segs)
    (hf : f ∈ busy segs) (hne : f.1 ≠ e.1) (hm : ∀ x, (x < e.1 ∨ e.1 + e.2 ≤ x) → m' x = m x) : Keeps m m' f := by
  intro x h1 h2
  rcases h.heap.tile.disjoint (mem_busy.mp (show (e.1, e.2) ∈ busy segs from he))
    (mem_busy.mp (show (f.1, f.2) ∈ busy segs from hf)) with h3 | h3 | h3
  · simp at h3; omega
  · simp only at h3; exact hm x (by omega)
  · simp only at h3; exact hm x (by omega)

theorem alloc_level {w : Nat} (hw : WordOk w) {m : Mem} {l : Level} {segs : List Seg} {n : Nat}
    (hn : n + 2 * w ≤ 2 ^ 32) (h : LevelOk w m l segs) :
    ∃ m' c' p segs', alloc w m l.ctx n = some (m', c', p) ∧ LevelOk w m' ⟨c', add p n l.live⟩ segs' ∧
      SameRegion l.ctx c' ∧
      ((frees segs).find? (fun e => decide (reqSize w n ≤ e.2)) = none ∧ p = 0 ∧ m' = m ∧ c' = l.ctx ∧ segs' = segs ∨
        ∃ a s, (frees segs).find? (fun e => decide (reqSize w n ≤ e.2)) = some (a, s) ∧ p = a + w ∧ a ∈ segs.map (·.addr) ∧
          ∃ sz, (a, sz) ∈ busy segs' ∧ n + w ≤ sz ∧ sz ≤ s ∧
            (sz = (if reqSize w n + 3 * w ≤ s then reqSize w n else s))) ∧
      (∀ e ∈ busy segs, Keeps m m' e ∧ e ∈ busy segs') ∧
      (∀ x, ¬ InRegion l.ctx x → m' x = m x) ∧
      (p ≠ 0 → ∀ x, p ≤ x → x < p + n → m' x = 0) := by
  have hw0 : 0 < w := by rcases hw with rfl | rfl <;> omega
  obtain ⟨m1, c', p, segs', h1, h2, h3, h4, h5, h6⟩ := allocDirty_level hw hn h
  simp only [alloc, h1]
  rcases h4 with ⟨g1, rfl, rfl, rfl, rfl⟩ | ⟨a, s, g1, rfl, g2, sz, g3, g4, g5, g6⟩
  · exact ⟨_, _, _, _, by rw [if_neg (by simp)], h2, h3, Or.inl ⟨g1, rfl, rfl, rfl, rfl⟩, h5, h6, by simp⟩
  · by_cases hz : 0 < n
    · have hout : ∀ x, (x < a + w ∨ a + sz ≤ x) → zeroFill m1 (a + w) n x = m1 x := by
        intro x hx; unfold zeroFill; rw [if_neg (by omega)]
      have hne : ∀ e ∈ busy segs, e.1 ≠ a := by
        intro e he hea
        -- the block was free before
        have hfree : (a, s) ∈ frees segs := List.mem_of_find?_eq_some g1
        have := busy_ne_free h.heap.tile he hfree
        have hr := h.heap.busy_range he
        have hr2 := h.heap.tile.ordered.mem hfree
        simp only at this hr2
        omega
      refine ⟨_, _, _, segs', by rw [if_pos ⟨by omega, hz⟩], h2.payload g3 (fun x hx => hout x hx), h3,
        Or.inr ⟨a, s, g1, rfl, g2, sz, g3, g4, g5, g6⟩, ?_, ?_, ?_⟩
      · intro e he
        refine ⟨?_, (h5 e he).2⟩
        have := keeps_of_ne h2 (m' := zeroFill m1 (a + w) n) g3 (h5 e he).2 (hne e he)
          (fun x hx => hout x (by simp only at hx; omega))
        intro x hx1 hx2
        rw [this x hx1 hx2, (h5 e he).1 x hx1 hx2]
      · intro x hx
        rw [hout x, h6 x hx]
        have hr := h2.heap.busy_range g3
        simp only [h3.1, h3.2] at hr
        rcases Nat.lt_or_ge x (a + w) with h | h
        · exact Or.inl h
        · right
          rcases Nat.lt_or_ge x (a + sz) with h' | h'
          · exact absurd ⟨by omega, by omega⟩ hx
          · exact h'
      · intro _ x hx1 hx2; unfold zeroFill; rw [if_pos ⟨hx1, hx2⟩]
    · exact ⟨_, _, _, segs', by rw [if_neg (by omega)], h2, h3, Or.inr ⟨a, s, g1, rfl, g2, sz, g3, g4, g5, g6⟩, h5, h6,
        by intro _ x h1 h2; omega⟩

theorem drop_perm {L : List (Nat × Nat)} {p : Nat} {X Y : List Nat} (hp : (L.map (·.1)).Perm (X ++ p :: Y))
    (hnd : (X ++ p :: Y).Nodup) : ((drop p L).map (·.1)).Perm (X ++ Y) := by
  have h1 := hp.filter (fun x => decide (x ≠ p))
  have h2 : (drop p L).map (·.1) = (L.map (·.1)).filter (fun x => decide (x ≠ p)) := by
    simp only [drop, List.filter_map]; rfl
  rw [h2]
  refine h1.trans ?_
  rw [List.filter_append, List.filter_cons, if_neg (by simp)]
  rw [List.nodup_append] at hnd
  obtain ⟨_, h3, h4⟩ := hnd
  rw [List.nodup_cons] at h3
  rw [List.filter_eq_self.mpr, List.filter_eq_self.mpr]
  · intro x hx; simp; rintro rfl; exact h3.1 hx
  · intro x hx; simp; exact h4 x hx p (by simp)

theorem makeFree_level {w : Nat} (hw : WordOk w) {m : Mem} {l : Level} {segs : List Seg} {a s : Nat}
    (h : LevelOk w m l segs) (he : (a, s) ∈ busy segs) :
    ∃ m' c' segs', makeFreeBlock w m l.ctx a = some (m', c') ∧ LevelOk w m' ⟨c', drop (a + w) l.live⟩ segs' ∧
      SameRegion l.ctx c' ∧ (∀ e ∈ busy segs, e.1 ≠ a → Keeps m m' e ∧ e ∈ busy segs') ∧
      (∀ x, ¬ InRegion l.ctx x → m' x = m x) := by
  have hw0 : 0 < w := by rcases hw with rfl | rfl <;> omega
  obtain ⟨A, B, rfl⟩ := busy_split he
  obtain ⟨m', c', h1, h2, h3, h4⟩ := makeFree_heap hw h.heap
  have hr := h.heap.busy_range he
  simp only at hr
  have hk : ∀ e ∈ busy (A ++ ⟨a, s, false⟩ :: B), e.1 ≠ a → Keeps m m' e ∧ e ∈ busy (freeMerge A a s B) := by
    intro e he2 hne
    constructor
    · intro x hx1 hx2
      apply h4 x (h.heap.busy_notFree he2 hx1 hx2)
      have hr2 := h.heap.busy_range he2
      rcases h.heap.tile.disjoint (mem_busy.mp he) (mem_busy.mp (show (e.1, e.2) ∈ _ from he2)) with h5 | h5 | h5
      · simp at h5; omega
      · simp only at h5; omega
      · simp only at h5; omega
    · rw [freeMerge_busy]
      rw [busy_append, busy_cons, if_neg (by simp)] at he2
      simp at he2 ⊢
      rcases he2 with h | h | h
      · exact Or.inl h
      · rw [h] at hne; simp at hne
      · exact Or.inr h
  refine ⟨m', c', _, h1, ⟨h2, ?_, ?_⟩, h3, hk, ?_⟩
  · rw [freeMerge_busy, List.map_append]
    have hp := h.perm
    have hnd := h.heap.tile.busy_nodup hw0
    rw [busy_append, busy_cons, if_neg (by simp), List.map_append, List.map_cons] at hp hnd
    exact drop_perm hp hnd
  · intro b hb
    simp only [drop, List.mem_filter] at hb
    obtain ⟨e, he2, hp⟩ := h.busy_of_live (List.mem_map.mpr ⟨b, hb.1, rfl⟩)
    have h5 := h.size b hb.1
    have hne : e.1 ≠ a := by
      rintro rfl; have := hb.2; simp [hp] at this
    rw [hp, Nat.add_sub_cancel] at h5 ⊢
    rw [(hk e he2 hne).1.hdr (by have := h.heap.busy_range he2; omega)]; exact h5
  · intro x hx
    apply h4
    · rintro ⟨e, he, h8, h9⟩
      have := h.heap.tile.ordered.mem he
      exact hx ⟨by omega, by omega⟩
    · rcases Nat.lt_or_ge x a with h5 | h5
      · exact Or.inl h5
      · rcases Nat.lt_or_ge x (a + 2 * w) with h6 | h6
        · exact absurd ⟨by omega, by omega⟩ hx
        · exact Or.inr h6

theorem truncate_level {w : Nat} (hw : WordOk w) {m : Mem} {l : Level} {segs : List Seg} {a s n : Nat}
    (hn : n + 5 * w ≤ 2 ^ 32) (h : LevelOk w m l segs) (he : (a, s) ∈ busy segs) :
    ∃ m' c' segs', truncate w m l.ctx (a + w) n = some (m', c') ∧
      LevelOk w m' ⟨c', l.live.map fun b => if b.1 = a + w then (a + w, min b.2 n) else b⟩ segs' ∧
      SameRegion l.ctx c' ∧ (∀ e ∈ busy segs, e.1 ≠ a → Keeps m m' e ∧ e ∈ busy segs') ∧
      (∀ x, ¬ InRegion l.ctx x → m' x = m x) ∧
      (∃ sz, (a, sz) ∈ busy segs' ∧ sz = (if reqSize w n + 3 * w ≤ s then reqSize w n else s) ∧
        total (frees segs') + sz = total (frees segs) + s ∧
        ∀ x, a + w ≤ x → x < a + sz → m' x = m x) := by
  have hw0 : 0 < w := by rcases hw with rfl | rfl <;> omega
  obtain ⟨f1, f2, f3, f4, f5⟩ := reqSize_facts (n := n) hw (by omega)
  obtain ⟨A, B, rfl⟩ := busy_split he
  have hr := h.heap.busy_range he
  simp only at hr
  have hfst : ∀ L : List (Nat × Nat), (L.map fun b => if b.1 = a + w then (a + w, min b.2 n) else b).map (·.1) = L.map (·.1) := by
    intro L
    rw [List.map_map]
    apply List.map_congr_left
    intro b _
    simp only [Function.comp]
    split <;> simp_all
  have hla : load w m a = s := h.heap.hdr _ he
  rcases truncate_heap hw hn h.heap with ⟨h1, h2⟩ | ⟨h1, m', c', segs', h2, h3, h4, h5, h6⟩
  · refine ⟨m, l.ctx, _, h2, ⟨h.heap, ?_, ?_⟩, ⟨rfl, rfl⟩, fun e he _ => ⟨fun _ _ _ => rfl, he⟩, fun _ _ => rfl,
      s, he, by rw [if_neg (by omega)], rfl, fun _ _ _ => rfl⟩
    · rw [hfst]; exact h.perm
    · intro b hb
      obtain ⟨b0, hb0, rfl⟩ := List.mem_map.mp hb
      have := h.size b0 hb0
      split
      · rename_i hh; rw [hh] at this; simp only; omega
      · exact this
  · have hk : ∀ e ∈ busy (A ++ ⟨a, s, false⟩ :: B), e.1 ≠ a → Keeps m m' e ∧ e ∈ busy segs' := by
      intro e he2 hne
      constructor
      · intro x hx1 hx2
        have hr2 := h.heap.busy_range he2
        rcases h.heap.tile.disjoint (mem_busy.mp he) (mem_busy.mp (show (e.1, e.2) ∈ _ from he2)) with h7 | h7 | h7
        · simp at h7; omega
        · simp only at h7; exact h6 x (h.heap.busy_notFree he2 hx1 hx2) (by omega) (by omega)
        · simp only at h7; exact h6 x (h.heap.busy_notFree he2 hx1 hx2) (by omega) (by omega)
      · rw [h5]
        rw [busy_append, busy_cons, if_neg (by simp)] at he2
        simp at he2 ⊢
        rcases he2 with h | h | h
        · exact Or.inl h
        · rw [h] at hne; simp at hne
        · exact Or.inr (Or.inr h)
    have hin : (a, reqSize w n) ∈ busy segs' := by rw [h5]; simp
    refine ⟨m', c', segs', h2, ⟨h3, ?_, ?_⟩, h4, hk, ?_, reqSize w n, hin, by rw [if_pos h1], ?_, ?_⟩
    · rw [hfst, h5]
      have hp := h.perm
      rw [busy_append, busy_cons, if_neg (by simp), List.map_append, List.map_cons] at hp
      rw [List.map_append, List.map_cons]; exact hp
    · intro b hb
      obtain ⟨b0, hb0, rfl⟩ := List.mem_map.mp hb
      obtain ⟨e, he2, hp⟩ := h.busy_of_live (List.mem_map.mpr ⟨b0, hb0, rfl⟩)
      have h8 := h.size b0 hb0
      split
      · simp only
        rw [Nat.add_sub_cancel, h3.hdr _ hin]; simp only; omega
      · have hne : e.1 ≠ a := by rintro rfl; exact absurd hp (by assumption)
        rw [hp, Nat.add_sub_cancel] at h8 ⊢
        rw [(hk e he2 hne).1.hdr (by have := h.heap.busy_range he2; omega)]; exact h8
    · intro x hx
      apply h6
      · rintro ⟨e, he, h8, h9⟩
        have := h.heap.tile.ordered.mem he
        exact hx ⟨by omega, by omega⟩
      · rcases Nat.lt_or_ge x a with h7 | h7
        · exact Or.inl h7
        · rcases Nat.lt_or_ge x (a + w) with h8 | h8
          · exact absurd ⟨by omega, by omega⟩ hx
          · exact Or.inr h8
      · rcases Nat.lt_or_ge x a with h7 | h7
        · exact Or.inl (by omega)
        · rcases Nat.lt_or_ge x (a + s) with h8 | h8
          · exact absurd ⟨by omega, by omega⟩ hx
          · exact Or.inr h8
    · have q1 := h3.tile.sum
      have q2 := h.heap.tile.sum
      rw [h5, h4.1, h4.2] at q1
      simp only [busy_append, busy_cons, total_append, total_cons, if_neg (show ¬ (false = true) by simp)] at q1 q2
      omega
    · intro x hx1 hx2
      exact h6 x (h.heap.busy_notFree he (by omega) (by simp only; omega)) (by omega) (by omega)

theorem drop_add {p q n : Nat} {L : List (Nat × Nat)} (h : q ≠ p) : drop p (add q n L) = add q n (drop p L) := by
  simp only [drop, add]
  split
  · rfl
  · rw [List.filter_cons, if_pos (by simpa using h)]

/-- Replacing a block by a larger one. -/
theorem realloc_level {w : Nat} (hw : WordOk w) {m : Mem} {l : Level} {segs : List Seg} {a s n : Nat}
    (hn : n + 2 * w ≤ 2 ^ 32) (h : LevelOk w m l segs) (he : (a, s) ∈ busy segs) :
    ∃ m' c' q segs', realloc w m l.ctx (a + w) n = some (m', c', q) ∧
      LevelOk w m' ⟨c', add q n (drop (a + w) l.live)⟩ segs' ∧ SameRegion l.ctx c' ∧
      (∀ e ∈ busy segs, e.1 ≠ a → Keeps m m' e ∧ e ∈ busy segs') ∧
      (∀ x, ¬ InRegion l.ctx x → m' x = m x) ∧
      (n + w ≤ s ∧ q = a + w ∧ m' = m ∧ c' = l.ctx ∨
       s < n + w ∧ (frees segs).find? (fun e => decide (reqSize w n ≤ e.2)) = none ∧ q = 0 ∧
         makeFreeBlock w m l.ctx a = some (m', c') ∨
       s < n + w ∧ q ≠ 0 ∧ q ≠ a + w ∧ q ∉ l.live.map (·.1) ∧
         (∀ i, i < s - w → m' (q + i) = m (a + w + i)) ∧ (∀ i, s - w ≤ i → i < n → m' (q + i) = 0)) := by
  have hw0 : 0 < w := by rcases hw with rfl | rfl <;> omega
  have hr := h.heap.busy_range he
  have hlo := h.heap.lo
  have hhi := h.heap.hi
  have hla : load w m a = s := h.heap.hdr _ he
  simp only at hr
  simp only [realloc]
  rw [if_neg (show ¬ a + w = 0 by omega), show a + w - w = a by omega, hla,
    show (s + wrap w - w) % wrap w = s - w by
      rw [show s + wrap w - w = s - w + wrap w by omega, Nat.add_mod_right, Nat.mod_eq_of_lt (by omega)]]
  by_cases hs : n + w ≤ s
  · rw [if_pos (by omega)]
    have hnd := h.nodup hw0
    refine ⟨m, l.ctx, a + w, segs, rfl, ⟨h.heap, ?_, ?_⟩, ⟨rfl, rfl⟩, fun e he _ => ⟨fun _ _ _ => rfl, he⟩,
      fun _ _ => rfl, Or.inl ⟨hs, rfl, rfl, rfl⟩⟩
    · have hp := h.perm
      obtain ⟨A, B, hAB⟩ := List.append_of_mem (h.live_of_busy he)
      rw [hAB] at hnd
      have h1 := drop_perm (L := l.live) (p := a + w) (X := A) (Y := B) (by rw [hAB]) hnd
      simp only [add]
      rw [if_neg (by omega), List.map_cons]
      refine ((List.Perm.cons _ h1).trans ?_).trans hp
      simp only at hAB
      rw [hAB]; exact List.perm_middle.symm
    · intro b hb
      simp only [add] at hb
      rw [if_neg (by omega)] at hb
      rcases List.mem_cons.mp hb with rfl | hb
      · simp only; rw [Nat.add_sub_cancel, hla]; omega
      · exact h.size b (List.mem_filter.mp hb).1
  · rw [if_neg (by omega)]
    obtain ⟨m1, c1, q, segs1, h1, h2, h3, h4, h5, h6, h7⟩ := alloc_level hw hn h
    simp only [h1]
    rcases h4 with ⟨g1, rfl, rfl, rfl, rfl⟩ | ⟨b, t, g1, rfl, g2, sz, g3, g4, g5, g6⟩
    · rw [if_pos rfl]
      obtain ⟨m', c', segs', k1, k2, k3, k4, k5⟩ := makeFree_level hw h he
      simp only [k1]
      exact ⟨m', c', 0, segs', rfl, by simpa [add] using k2, k3, k4, k5, Or.inr (Or.inl ⟨by omega, g1, rfl, rfl⟩)⟩
    · rw [if_neg (by omega)]
      have hfree : (b, t) ∈ frees segs := List.mem_of_find?_eq_some g1
      have hbr := h.heap.tile.ordered.mem hfree
      simp only at hbr
      have hdis := busy_ne_free h.heap.tile he hfree
      simp only at hdis
      have hout : ∀ x, (x < b + w ∨ b + sz ≤ x) → copyMem m1 (b + w) (a + w) (s - w) x = m1 x := by
        intro x hx; unfold copyMem; rw [if_neg (by omega)]
      have k0 : LevelOk w (copyMem m1 (b + w) (a + w) (s - w)) ⟨c1, add (b + w) n l.live⟩ segs1 :=
        h2.payload g3 (fun x hx => hout x hx)
      have he1 := (h5 _ he).2
      obtain ⟨m', c', segs', k1, k2, k3, k4, k5⟩ := makeFree_level hw k0 he1
      simp only [k1]
      have hba : b ≠ a := by omega
      have hnel : ∀ e ∈ busy segs, e.1 ≠ b := by
        intro e he2 heb
        have := busy_ne_free h.heap.tile he2 hfree
        have hr2 := h.heap.busy_range he2
        simp only at this
        omega
      have hreg : SameRegion l.ctx c' := ⟨k3.1.trans h3.1, k3.2.trans h3.2⟩
      refine ⟨m', c', b + w, segs', rfl, ?_, hreg, ?_, ?_, Or.inr (Or.inr ⟨by omega, by omega, by omega, ?_, ?_, ?_⟩)⟩
      · rw [← drop_add (by omega)]; exact k2
      · intro e he2 hne
        have s1 := h5 e he2
        have s2 := keeps_of_ne h2 (m' := copyMem m1 (b + w) (a + w) (s - w)) g3 s1.2 (hnel e he2)
          (fun x hx => hout x (by simp only at hx; omega))
        have s3 := k4 e s1.2 hne
        refine ⟨?_, s3.2⟩
        intro x hx1 hx2
        rw [s3.1 x hx1 hx2, s2 x hx1 hx2, s1.1 x hx1 hx2]
      · intro x hx
        rw [k5 x, hout x, h6 x hx]
        · rcases Nat.lt_or_ge x (b + w) with h8 | h8
          · exact Or.inl h8
          · rcases Nat.lt_or_ge x (b + sz) with h9 | h9
            · exact absurd ⟨by omega, by omega⟩ hx
            · exact Or.inr h9
        · simpa [InRegion, h3.1, h3.2] using hx
      · intro hmem
        obtain ⟨e, he2, hp⟩ := h.busy_of_live hmem
        exact hnel e he2 (by omega)
      · intro i hi
        have s3 := (k4 (b, sz) g3 (by simpa using hba)).1
        have s1 := (h5 _ he).1
        rw [s3 (b + w + i) (by simp only; omega) (by simp only; omega)]
        unfold copyMem
        rw [if_pos (by omega), show a + w + (b + w + i - (b + w)) = a + w + i by omega]
        exact s1 _ (by simp only; omega) (by simp only; omega)
      · intro i hi1 hi2
        have s3 := (k4 (b, sz) g3 (by simpa using hba)).1
        rw [s3 (b + w + i) (by simp only; omega) (by simp only; omega)]
        unfold copyMem
        rw [if_neg (by omega)]
        exact h7 (by omega) _ (by omega) (by omega)

end Fpm.Alloc
