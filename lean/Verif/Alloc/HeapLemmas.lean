import Verif.Alloc.TileLemmas
/-! # Lemmas: effect of each call on a well-formed heap -/
namespace Fpm.Alloc

/-- The heap of context `c` consists of the blocks `segs`. -/
structure HeapOk (w : Nat) (m : Mem) (c : Ctx) (segs : List Seg) : Prop where
  lo : 3 * w ≤ c.heapStart
  hi : c.heapStart + c.heapSize < wrap w
  al : ∀ x ∈ segs, x.addr % w = 0
  tile : Tile w c.heapStart segs (c.heapStart + c.heapSize)
  coal : Coal segs
  hdr : ∀ e ∈ busy segs, load w m e.1 = e.2
  chain : Chain w m c.freeList (frees segs)
  sum : c.freeSize = total (frees segs)

/-- `x` lies in a free block. -/
def InFree (segs : List Seg) (x : Nat) : Prop := ∃ e ∈ frees segs, e.1 ≤ x ∧ x < e.1 + e.2

theorem HeapOk.congr {w : Nat} {m m' : Mem} {c : Ctx} {segs} (h : HeapOk w m c segs)
    (hb : ∀ e ∈ busy segs, ∀ x, e.1 ≤ x → x < e.1 + w → m' x = m x)
    (hf : ∀ e ∈ frees segs, ∀ x, e.1 ≤ x → x < e.1 + 2 * w → m' x = m x) : HeapOk w m' c segs :=
  { h with
    hdr := fun e he => by rw [← h.hdr e he]; exact load_congr (hb e he)
    chain := h.chain.congr hf }

/-- The same region. -/
def SameRegion (c c' : Ctx) : Prop := c'.heapStart = c.heapStart ∧ c'.heapSize = c.heapSize

theorem busy_ne_free {w lo hi : Nat} {segs} (ht : Tile w lo segs hi) {e f} (he : e ∈ busy segs) (hf : f ∈ frees segs) :
    e.1 + e.2 ≤ f.1 ∨ f.1 + f.2 ≤ e.1 := by
  obtain ⟨a, s⟩ := e; obtain ⟨b, t⟩ := f
  rcases ht.disjoint (mem_busy.mp he) (mem_frees.mp hf) with h | h | h
  · simp at h
  · exact Or.inl h
  · exact Or.inr h

theorem HeapOk.busy_range {w : Nat} {m : Mem} {c : Ctx} {segs} (h : HeapOk w m c segs) {e} (he : e ∈ busy segs) :
    c.heapStart ≤ e.1 ∧ 2 * w ≤ e.2 ∧ e.1 + e.2 ≤ c.heapStart + c.heapSize ∧ e.1 % w = 0 := by
  obtain ⟨a, s⟩ := e
  have hm := mem_busy.mp he
  have := h.tile.mem hm
  exact ⟨this.1, this.2.1, this.2.2, h.al _ hm⟩

theorem HeapOk.busy_notFree {w : Nat} {m : Mem} {c : Ctx} {segs} (h : HeapOk w m c segs) {e} (he : e ∈ busy segs)
    {x : Nat} (h1 : e.1 ≤ x) (h2 : x < e.1 + e.2) : ¬ InFree segs x := by
  rintro ⟨f, hf, h3, h4⟩
  have := busy_ne_free h.tile he hf
  omega

/-- Result of a successful allocation at the block `⟨a, s⟩`. -/
def carve (w n a s : Nat) (B : List Seg) : List Seg :=
  if n + 3 * w ≤ s then ⟨a, n, false⟩ :: ⟨a + n, s - n, true⟩ :: B else ⟨a, s, false⟩ :: B

theorem allocDirty_heap {w : Nat} (hw : WordOk w) {m : Mem} {c : Ctx} {segs : List Seg} {nbytes : Nat}
    (hn : nbytes + 2 * w ≤ 2 ^ 32) (h : HeapOk w m c segs) :
    ((∀ e ∈ frees segs, e.2 < reqSize w nbytes) ∧ allocDirty w m c nbytes = some (m, c, 0)) ∨
    ∃ A a s B m' c', segs = A ++ ⟨a, s, true⟩ :: B ∧ (∀ e ∈ frees A, e.2 < reqSize w nbytes) ∧
      reqSize w nbytes ≤ s ∧ allocDirty w m c nbytes = some (m', c', a + w) ∧
      HeapOk w m' c' (A ++ carve w (reqSize w nbytes) a s B) ∧ SameRegion c c' ∧
      (∀ x, ¬ InFree segs x → m' x = m x) := by
  have hw0 : 0 < w := by rcases hw with rfl | rfl <;> omega
  have hsp := allocDirty_spec hw h.lo h.hi hn h.tile.ordered h.chain
  obtain ⟨f1, f2, f3, f4, f5⟩ := reqSize_facts hw hn
  generalize reqSize w nbytes = n at *
  rcases hsp with h1 | ⟨pre, a, s, post, m', c', h1, h2, h3, h4, h5, h6, h7, h8⟩
  · exact Or.inl h1
  · right
    obtain ⟨A, B, rfl, rfl, rfl⟩ := frees_split h1
    obtain ⟨mid, tA, tB⟩ := Tile.append.mp h.tile
    obtain ⟨t1, t2, t3⟩ := tB
    simp only at t1 t2 t3
    subst t1
    have hle := t3.le
    have hreg : SameRegion c c' := by rw [h7]; exact ⟨rfl, rfl⟩
    have hfr : ∀ x, ¬ InFree (A ++ ⟨a, s, true⟩ :: B) x → m' x = m x := by
      intro x hx
      have hx' : ∀ e ∈ frees (A ++ ⟨a, s, true⟩ :: B), x < e.1 ∨ e.1 + e.2 ≤ x := by
        intro e he
        rcases Nat.lt_or_ge x e.1 with h | h
        · exact Or.inl h
        · rcases Nat.lt_or_ge x (e.1 + e.2) with h' | h'
          · exact absurd ⟨e, he, h, h'⟩ hx
          · exact Or.inr h'
      apply h8
      · exact hx' (a, s) (by rw [h1]; simp)
      · intro e he
        have h9 := hx' e (by rw [h1]; simp [he])
        have h10 := tA.ordered.mem he
        omega
    refine ⟨A, a, s, B, m', c', rfl, h2, h3, h4, ?_, hreg, hfr⟩
    have hcf : c'.freeSize = (c.freeSize + wrap w - load w m' a) % wrap w := by rw [h7]
    have htot := h.tile.sum
    have hhi := h.hi
    have hlo := h.lo
    rw [h.sum] at hcf
    simp only [frees_append, frees_cons, if_pos, total_append, total_cons] at hcf htot
    have hold : ∀ e ∈ busy (A ++ ⟨a, s, true⟩ :: B), load w m' e.1 = e.2 := by
      intro e he
      rw [← h.hdr e he]
      apply load_congr
      intro x hx1 hx2
      have := h.busy_range he
      exact hfr x (h.busy_notFree he hx1 (by omega))
    constructor
    · rw [hreg.1]; exact h.lo
    · rw [hreg.1, hreg.2]; exact h.hi
    · intro x hx
      rw [List.mem_append] at hx
      have hal := h.al ⟨a, s, true⟩ (by simp)
      simp only at hal
      rcases hx with hx | hx
      · exact h.al x (by simp [hx])
      · rw [carve] at hx
        split at hx
        · rcases List.mem_cons.mp hx with rfl | hx
          · exact hal
          · rcases List.mem_cons.mp hx with rfl | hx
            · simp only; rw [Nat.add_mod, hal, f3]; simp
            · exact h.al x (by simp [hx])
        · rcases List.mem_cons.mp hx with rfl | hx
          · exact hal
          · exact h.al x (by simp [hx])
    · rw [hreg.1, hreg.2, Tile.append]
      refine ⟨a, tA, ?_⟩
      rw [carve]; split
      · refine ⟨rfl, by simpa using f2, rfl, by simp only; omega, ?_⟩
        simp only
        rw [show a + n + (s - n) = a + s by omega]; exact t3
      · exact ⟨rfl, t2, t3⟩
    · have hc := Coal.append_iff.mp h.coal
      rw [Coal.append_iff]
      refine ⟨hc.1, ?_, ?_⟩
      · rw [carve]
        have hcB := hc.2.1
        split
        · refine ⟨by simp, ?_⟩
          cases B with
          | nil => trivial
          | cons b B => exact hcB
        · cases B with
          | nil => trivial
          | cons b B => exact ⟨by simp, hcB.2⟩
      · intro x hx y hy
        rw [carve] at hy
        split at hy <;> simp at hy <;> simp [← hy]
    · intro e he
      rw [busy_append, List.mem_append, carve] at he
      rcases he with he | he
      · exact hold e (by simp [he])
      · split at he
        · rename_i hs
          rw [busy_cons, if_neg (by simp), busy_cons, if_pos rfl] at he
          rcases List.mem_cons.mp he with rfl | he
          · rw [if_pos hs] at h6; exact h6
          · exact hold e (by simp [busy_cons, he])
        · rename_i hs
          rw [busy_cons, if_neg (by simp)] at he
          rcases List.mem_cons.mp he with rfl | he
          · rw [if_neg hs] at h6; exact h6
          · exact hold e (by simp [busy_cons, he])
    · rw [carve]
      split
      · rename_i hs
        rw [if_pos hs] at h5
        simpa [frees_cons] using h5
      · rename_i hs
        rw [if_neg hs] at h5
        simpa [frees_cons] using h5
    · rw [carve, hcf, h6]
      split
      · simp [frees_cons]
        rw [show ∀ x y, x + (s + y) + wrap w - n = x + (s - n + y) + wrap w by omega, Nat.add_mod_right,
          Nat.mod_eq_of_lt (by omega)]
      · simp [frees_cons]
        rw [show ∀ x y, x + (s + y) + wrap w - s = x + y + wrap w by omega, Nat.add_mod_right,
          Nat.mod_eq_of_lt (by omega)]

theorem makeFree_heap {w : Nat} (hw : WordOk w) {m : Mem} {c : Ctx} {A B : List Seg} {a s : Nat}
    (h : HeapOk w m c (A ++ ⟨a, s, false⟩ :: B)) :
    ∃ m' c', makeFreeBlock w m c a = some (m', c') ∧ HeapOk w m' c' (freeMerge A a s B) ∧ SameRegion c c' ∧
      (∀ x, ¬ InFree (A ++ ⟨a, s, false⟩ :: B) x → (x < a ∨ a + 2 * w ≤ x) → m' x = m x) := by
  have hw0 : 0 < w := by rcases hw with rfl | rfl <;> omega
  obtain ⟨mid, tA, tB⟩ := Tile.append.mp h.tile
  obtain ⟨t1, t2, t3⟩ := tB
  simp only at t1 t2 t3
  subst t1
  have hle := t3.le
  have hleA := tA.le
  have hlo := h.lo
  have hhi := h.hi
  have hin : (a, s) ∈ busy (A ++ ⟨a, s, false⟩ :: B) := mem_busy.mpr (by simp)
  have hla : load w m a = s := h.hdr _ hin
  let c1 : Ctx := { c with freeSize := (c.freeSize + s) % wrap w }
  have hord := h.tile.ordered
  have hlen := hord.length hw0
  have hms := mergeLoop_spec hw a s (c.heapStart + c.heapSize) h.hi (by omega) t2 (by omega)
    (frees (A ++ ⟨a, s, false⟩ :: B)) (wrap w) m c1 none c.heapStart (by omega) hord h.chain hla
    (fun e he => by have := busy_ne_free h.tile hin he; omega)
    (by rintro q ⟨⟩) (by omega)
  obtain ⟨m', c', h1, h2, h3, -, h5⟩ := hms
  have hreg : SameRegion c c' := by rw [h3]; exact ⟨rfl, rfl⟩
  have hfr : ∀ x, ¬ InFree (A ++ ⟨a, s, false⟩ :: B) x → (x < a ∨ a + 2 * w ≤ x) → m' x = m x := by
    intro x hx1 hx2
    apply h5 x (by rintro q ⟨⟩) hx2
    intro e he
    have h9 := hord.mem he
    rcases Nat.lt_or_ge x e.1 with h | h
    · exact Or.inl h
    · rcases Nat.lt_or_ge x (e.1 + e.2) with h' | h'
      · exact absurd ⟨e, he, h, h'⟩ hx1
      · exact Or.inr (by omega)
  refine ⟨m', c', ?_, ?_, hreg, hfr⟩
  · simp only [makeFreeBlock, hla]; exact h1
  · have hff := freeMerge_frees hw0 tA t2 t3
    have htot := h.tile.sum
    constructor
    · rw [hreg.1]; exact hlo
    · rw [hreg.1, hreg.2]; exact hhi
    · intro x hx
      rcases freeMerge_mem hx with ⟨y, hy, e⟩ | e | hB
      · rw [e]; exact h.al y (by simp [hy])
      · rw [e]; exact h.al ⟨a, s, false⟩ (by simp)
      · exact h.al x (by simp [hB])
    · rw [hreg.1, hreg.2]; exact freeMerge_tile tA t2 t3
    · exact freeMerge_coal h.coal
    · intro e he
      rw [freeMerge_busy] at he
      have he' : e ∈ busy (A ++ ⟨a, s, false⟩ :: B) := by
        rw [busy_append, busy_cons]; simp at he ⊢; rcases he with he | he <;> simp [he]
      rw [← h.hdr e he']
      have hr := h.busy_range he'
      apply load_congr
      intro x hx1 hx2
      apply hfr x (h.busy_notFree he' hx1 (by omega))
      rcases List.mem_append.mp he with he | he
      · have := tA.mem (mem_busy.mp he); simp only at this; omega
      · have := t3.mem (mem_busy.mp he); simp only at this; omega
    · rw [hff]; simpa [frees_cons, slot] using h2
    · rw [freeMerge_total, h3]
      simp only [c1]
      rw [h.sum]
      simp only [frees_append, frees_cons, busy_append, busy_cons, total_append, total_cons,
        if_neg (show ¬ (false = true) by simp)] at htot ⊢
      rw [Nat.mod_eq_of_lt (by omega)]; omega

/-- Truncation at block `⟨a, s⟩`. -/
theorem truncate_heap {w : Nat} (hw : WordOk w) {m : Mem} {c : Ctx} {A B : List Seg} {a s nbytes : Nat}
    (hn : nbytes + 5 * w ≤ 2 ^ 32) (h : HeapOk w m c (A ++ ⟨a, s, false⟩ :: B)) :
    (s < reqSize w nbytes + 3 * w ∧ truncate w m c (a + w) nbytes = some (m, c)) ∨
    (reqSize w nbytes + 3 * w ≤ s ∧
    ∃ m' c' segs', truncate w m c (a + w) nbytes = some (m', c') ∧ HeapOk w m' c' segs' ∧ SameRegion c c' ∧
      busy segs' = busy A ++ (a, reqSize w nbytes) :: busy B ∧
      (∀ x, ¬ InFree (A ++ ⟨a, s, false⟩ :: B) x → (x < a ∨ a + w ≤ x) →
        (x < a + reqSize w nbytes ∨ a + s ≤ x) → m' x = m x)) := by
  have hw0 : 0 < w := by rcases hw with rfl | rfl <;> omega
  obtain ⟨f1, f2, f3, f4, f5⟩ := reqSize_facts (n := nbytes) hw (by omega)
  have hin : (a, s) ∈ busy (A ++ ⟨a, s, false⟩ :: B) := mem_busy.mpr (by simp)
  have hla : load w m a = s := h.hdr _ hin
  have hr := h.busy_range hin
  simp only at hr
  have hlo := h.lo
  have hhi := h.hi
  simp only [truncate]
  rw [if_neg (show ¬ a + w = 0 by omega), show a + w - w = a by omega, hla]
  have f6 : reqSize w nbytes + 3 * w < 2 ^ 32 := by rcases hw with rfl | rfl <;> omega
  generalize reqSize w nbytes = n at *
  obtain ⟨mid, tA, tB⟩ := Tile.append.mp h.tile
  obtain ⟨t1, t2, t3⟩ := tB
  simp only at t1 t2 t3
  subst t1
  have hle := t3.le
  by_cases hs : n + 3 * w ≤ s
  · right
    refine ⟨hs, ?_⟩
    rw [Nat.mod_eq_of_lt (show n + w + 2 * w < wrap w by omega), if_pos (by omega),
      Nat.mod_eq_of_lt (show a + n < wrap w by omega),
      show (s + wrap w - n) % wrap w = s - n by
        rw [show s + wrap w - n = s - n + wrap w by omega, Nat.add_mod_right, Nat.mod_eq_of_lt (by omega)]]
    have hinF : ∀ x, InFree ((A ++ [⟨a, n, false⟩]) ++ ⟨a + n, s - n, false⟩ :: B) x ↔ InFree (A ++ ⟨a, s, false⟩ :: B) x := by
      intro x; simp [InFree, frees_cons]
    have hm1 : ∀ x, (x < a ∨ a + w ≤ x) → (x < a + n ∨ a + n + w ≤ x) →
        store w (store w m (a + n) (s - n)) a n x = m x := by
      intro x h1 h2; rw [store_out (by omega), store_out (by omega)]
    have hok : HeapOk w (store w (store w m (a + n) (s - n)) a n) c ((A ++ [⟨a, n, false⟩]) ++ ⟨a + n, s - n, false⟩ :: B) := by
      constructor
      · exact hlo
      · exact hhi
      · intro x hx
        simp only [List.mem_append, List.mem_cons, List.not_mem_nil, or_false] at hx
        rcases hx with (hx | rfl) | rfl | hx
        · exact h.al x (by simp [hx])
        · exact h.al ⟨a, s, false⟩ (by simp)
        · simp only; rw [Nat.add_mod, hr.2.2.2, f3]; simp
        · exact h.al x (by simp [hx])
      · rw [Tile.append]
        refine ⟨a + n, ?_, rfl, by simp only; omega, ?_⟩
        · rw [Tile.append]; exact ⟨a, tA, rfl, f2, rfl⟩
        · simp only; rw [show a + n + (s - n) = a + s by omega]; exact t3
      · have hc := Coal.append_iff.mp h.coal
        rw [Coal.append_iff, Coal.append_iff]
        refine ⟨⟨hc.1, trivial, ?_⟩, ?_, ?_⟩
        · intro x _ y hy; simp at hy; simp [← hy]
        · have hcB := hc.2.1
          cases B with
          | nil => trivial
          | cons b B => exact ⟨by simp, hcB.2⟩
        · intro x _ y hy; simp at hy; simp [← hy]
      · intro e he
        simp only [busy_append, busy_cons, busy_nil, if_neg (show ¬ (false = true) by simp), List.mem_append,
          List.mem_cons, List.not_mem_nil, or_false] at he
        rcases he with (he | rfl) | rfl | he
        · have he' : e ∈ busy (A ++ ⟨a, s, false⟩ :: B) := by simp [he]
          rw [← h.hdr e he']
          have := tA.mem (mem_busy.mp he)
          simp only at this
          apply load_congr
          intro x h1 h2; exact hm1 x (by omega) (by omega)
        · simp only; rw [load_store_same (by omega)]
        · simp only; rw [load_store_ne (by omega), load_store_same (by omega)]
        · have he' : e ∈ busy (A ++ ⟨a, s, false⟩ :: B) := by simp [busy_cons, he]
          rw [← h.hdr e he']
          have := t3.mem (mem_busy.mp he)
          simp only at this
          apply load_congr
          intro x h1 h2; exact hm1 x (by omega) (by omega)
      · have : frees ((A ++ [⟨a, n, false⟩]) ++ ⟨a + n, s - n, false⟩ :: B) = frees (A ++ ⟨a, s, false⟩ :: B) := by
          simp [frees_cons]
        rw [this]
        refine h.chain.congr ?_
        intro e he x h1 h2
        have h3 := busy_ne_free h.tile hin he
        have h4 := h.tile.ordered.mem he
        simp only at h3
        exact hm1 x (by omega) (by omega)
      · rw [h.sum]; simp [frees_cons]
    obtain ⟨m', c', h1, h2, h3, h4⟩ := makeFree_heap hw hok
    refine ⟨m', c', _, h1, h2, h3, ?_, ?_⟩
    · rw [freeMerge_busy]; simp [busy_cons]
    · intro x g1 g2 g3
      rw [h4 x (by rw [hinF]; exact g1) (by omega), hm1 x (by omega) (by omega)]
  · left
    refine ⟨by omega, ?_⟩
    rw [Nat.mod_eq_of_lt (show n + w + 2 * w < wrap w by have := wrap_ge hw; omega), if_neg (by omega)]

end Fpm.Alloc
