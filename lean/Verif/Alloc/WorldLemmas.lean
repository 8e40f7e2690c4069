import Verif.Alloc.LevelLemmas
import Verif.Alloc.Spec
/-! # Lemmas: the chain of contexts -/
namespace Fpm.Alloc
open Spec

/-- Every context of the chain is well-formed and its successor (the region `[lo, hi)`) lies
inside one of its free blocks, after header and link. -/
def Below (w : Nat) (m : Mem) : Nat → Nat → List Level → Prop
  | _, _, [] => True
  | lo, hi, l :: rest =>
    (∃ segs, LevelOk w m l segs ∧ ∃ e ∈ frees segs, e.1 + 2 * w ≤ lo ∧ hi ≤ e.1 + e.2) ∧
    Below w m l.ctx.heapStart (l.ctx.heapStart + l.ctx.heapSize) rest

def WorldOk (w : Nat) (s : World) : Prop :=
  (∃ segs, LevelOk w s.mem s.top segs) ∧
  Below w s.mem s.top.ctx.heapStart (s.top.ctx.heapStart + s.top.ctx.heapSize) s.below

theorem LevelOk.outside_free {w : Nat} {m m' : Mem} {l : Level} {segs} (h : LevelOk w m l segs) {e} (he : e ∈ frees segs)
    {lo hi : Nat} (h1 : e.1 + 2 * w ≤ lo) (h2 : hi ≤ e.1 + e.2) (hm : ∀ x, (x < lo ∨ hi ≤ x) → m' x = m x) :
    LevelOk w m' l segs := by
  apply h.congr
  · intro f hf x h3 h4
    have := busy_ne_free h.heap.tile hf he
    have := h.heap.busy_range hf
    exact hm x (by omega)
  · intro f hf x h3 h4
    have r1 := h.heap.tile.ordered.mem hf
    rcases h.heap.tile.disjoint (mem_frees.mp (show (e.1, e.2) ∈ frees segs from he))
      (mem_frees.mp (show (f.1, f.2) ∈ frees segs from hf)) with h5 | h5 | h5
    · simp at h5; exact hm x (by omega)
    · simp only at h5; exact hm x (by omega)
    · simp only at h5; exact hm x (by omega)

theorem Below.congr {w : Nat} {m m' : Mem} {lo hi : Nat} {ls : List Level} (h : Below w m lo hi ls)
    (hm : ∀ x, (x < lo ∨ hi ≤ x) → m' x = m x) : Below w m' lo hi ls := by
  induction ls generalizing lo hi with
  | nil => trivial
  | cons l rest ih =>
    obtain ⟨⟨segs, h1, e, he, h2, h3⟩, h4⟩ := h
    refine ⟨⟨segs, h1.outside_free he h2 h3 hm, e, he, h2, h3⟩, ih h4 ?_⟩
    intro x hx
    have := h1.heap.tile.ordered.mem he
    exact hm x (by omega)

/-- Regions get larger down the chain. -/
theorem Below.nested {w : Nat} {m : Mem} {lo hi : Nat} {ls : List Level} (h : Below w m lo hi ls) {l} (hl : l ∈ ls) :
    ∃ segs, LevelOk w m l segs ∧ ∃ e ∈ frees segs, e.1 + 2 * w ≤ lo ∧ hi ≤ e.1 + e.2 := by
  induction ls generalizing lo hi with
  | nil => cases hl
  | cons k rest ih =>
    obtain ⟨⟨segs, h1, e, he, h2, h3⟩, h4⟩ := h
    rcases List.mem_cons.mp hl with rfl | hl
    · exact ⟨segs, h1, e, he, h2, h3⟩
    · obtain ⟨segs', g1, e', he', g2, g3⟩ := ih h4 hl
      have := h1.heap.tile.ordered.mem he
      exact ⟨segs', g1, e', he', by omega, by omega⟩

theorem Below.busy_outside {w : Nat} {m : Mem} {lo hi : Nat} {ls : List Level} (h : Below w m lo hi ls) {l} (hl : l ∈ ls) :
    ∃ segs, LevelOk w m l segs ∧ ∀ e ∈ busy segs, e.1 + e.2 ≤ lo ∨ hi ≤ e.1 := by
  obtain ⟨segs, h1, e, he, h2, h3⟩ := h.nested hl
  refine ⟨segs, h1, ?_⟩
  intro f hf
  have := busy_ne_free h1.heap.tile hf he
  have := h1.heap.tile.ordered.mem he
  omega

theorem sizeOf_eq {w : Nat} {m : Mem} {l : Level} {segs} (hw : 0 < w) (h : LevelOk w m l segs) {e} (he : e ∈ busy segs) :
    sizeOf w m (e.1 + w) = e.2 - w := by
  have hr := h.heap.busy_range he
  have := h.heap.hi
  simp only [sizeOf]
  rw [if_neg (by omega), Nat.add_sub_cancel, h.heap.hdr e he,
    show e.2 + wrap w - w = e.2 - w + wrap w by omega, Nat.add_mod_right, Nat.mod_eq_of_lt (by omega)]

/-- Blocks and sizes do not depend on the chosen representation. -/
theorem live_block {w : Nat} {m : Mem} {l : Level} {segs} (hw : 0 < w) (h : LevelOk w m l segs) {p : Nat}
    (hp : p ∈ l.live.map (·.1)) : (p - w, sizeOf w m p + w) ∈ busy segs ∧ w ≤ p ∧ w ≤ sizeOf w m p := by
  obtain ⟨e, he, rfl⟩ := h.busy_of_live hp
  have hr := h.heap.busy_range he
  rw [sizeOf_eq hw h he, Nat.add_sub_cancel, show e.2 - w + w = e.2 by omega]
  exact ⟨he, by omega, by omega⟩

theorem store_below {w : Nat} (hw : 0 < w) {m m' : Mem} {lo hi a : Nat} {ls : List Level} (h : Below w m lo hi ls)
    {l : Level} (hl : l ∈ ls) {p : Nat} (hp : p ∈ l.live.map (·.1)) (h1 : p ≤ a) (h2 : a < p + sizeOf w m p)
    (hm : ∀ x, x ≠ a → m' x = m x) : Below w m' lo hi ls := by
  induction ls generalizing lo hi with
  | nil => cases hl
  | cons k rest ih =>
    obtain ⟨⟨segs, g1, e, he, g2, g3⟩, g4⟩ := h
    rcases List.mem_cons.mp hl with rfl | hl
    · have hb := live_block hw g1 hp
      have hr := g1.heap.busy_range hb.1
      refine ⟨⟨segs, g1.payload hb.1 (fun x hx => hm x (by simp only at hx; omega)), e, he, g2, g3⟩, g4.congr ?_⟩
      intro x hx
      simp only at hr
      exact hm x (by omega)
    · obtain ⟨segs', k1, k2⟩ := g4.busy_outside hl
      have hb := live_block hw k1 hp
      have hb2 := k2 _ hb.1
      simp only at hb2
      refine ⟨⟨segs, ?_, e, he, g2, g3⟩, ih g4 hl⟩
      apply g1.congr
      · intro f hf x hx1 hx2
        have := g1.heap.busy_range hf
        exact hm x (by omega)
      · intro f hf x hx1 hx2
        have := g1.heap.tile.ordered.mem hf
        exact hm x (by omega)

/-! ## Starting a nested program -/

/-- First largest entry. -/
def maxFirst : Option (Nat × Nat) → List (Nat × Nat) → Option (Nat × Nat)
  | cur, [] => cur
  | none, e :: t => maxFirst (some e) t
  | some c, e :: t => maxFirst (some (if e.2 > c.2 then e else c)) t

theorem findMax_spec {w : Nat} (m : Mem) (fl : List (Nat × Nat)) :
    ∀ (k p lo hi : Nat) (cur : Option (Nat × Nat)), 0 < lo → Ordered w lo fl hi → Chain w m p fl → fl.length < k →
      (∀ c, cur = some c → c.1 ≠ 0 ∧ load w m c.1 = c.2) →
      findMax w m k (match cur with | none => 0 | some c => c.1) p =
        some (match maxFirst cur fl with | none => 0 | some c => c.1) := by
  induction fl with
  | nil =>
    intro k p lo hi cur hlo ho hc hk hcur
    obtain ⟨k, rfl⟩ : ∃ j, k = j + 1 := ⟨k - 1, by simp at hk; omega⟩
    rw [findMax, if_pos (show p = 0 from hc)]
    cases cur <;> rfl
  | cons e t ih =>
    intro k p lo hi cur hlo ho hc hk hcur
    obtain ⟨a, s⟩ := e
    obtain ⟨k, rfl⟩ : ∃ j, k = j + 1 := ⟨k - 1, by simp at hk; omega⟩
    obtain ⟨o1, o2, o3⟩ := ho
    obtain ⟨rfl, c2, c3⟩ := hc
    rw [findMax, if_neg (by omega)]
    cases cur with
    | none =>
      have := ih k _ (p + s) hi (some (p, s)) (by omega) o3 c3 (by simp at hk; omega)
        (by rintro c ⟨⟩; exact ⟨by simp only; omega, c2⟩)
      simpa [maxFirst] using this
    | some c =>
      have hcc := hcur c rfl
      have := ih k _ (p + s) hi (some (if s > c.2 then (p, s) else c)) (by omega) o3 c3 (by simp at hk; omega)
        (by
          rintro d ⟨⟩
          split
          · exact ⟨by simp only; omega, c2⟩
          · exact hcc)
      simp only [maxFirst]
      rw [← this]
      congr 1
      rw [c2, hcc.2]
      by_cases h : s > c.2
      · simp [h]
      · simp [h, hcc.1]

theorem maxFirst_max (fl : List (Nat × Nat)) : ∀ cur,
    match maxFirst cur fl with
    | none => cur = none ∧ fl = []
    | some e => (some e = cur ∨ e ∈ fl) ∧ (∀ f ∈ fl, f.2 ≤ e.2) ∧ (∀ c, cur = some c → c.2 ≤ e.2) := by
  induction fl with
  | nil => intro cur; cases cur <;> simp [maxFirst]
  | cons x t ih =>
    intro cur
    cases cur with
    | none =>
      have := ih (some x)
      rw [maxFirst]
      cases h : maxFirst (some x) t with
      | none => rw [h] at this; simp at this
      | some e =>
        rw [h] at this
        simp only at this ⊢
        refine ⟨Or.inr ?_, ?_, by simp⟩
        · rcases this.1 with h | h
          · cases h; simp
          · simp [h]
        · intro f hf
          rcases List.mem_cons.mp hf with rfl | hf
          · exact this.2.2 _ rfl
          · exact this.2.1 f hf
    | some c =>
      have := ih (some (if x.2 > c.2 then x else c))
      rw [maxFirst]
      cases h : maxFirst (some (if x.2 > c.2 then x else c)) t with
      | none => rw [h] at this; simp at this
      | some e =>
        rw [h] at this
        simp only at this ⊢
        have h3 := this.2.2 _ rfl
        refine ⟨?_, ?_, ?_⟩
        · rcases this.1 with h | h
          · cases h; split <;> simp
          · simp [h]
        · intro f hf
          rcases List.mem_cons.mp hf with rfl | hf
          · split at h3 <;> omega
          · exact this.2.1 f hf
        · rintro d ⟨⟩; split at h3 <;> omega

theorem push_level {w : Nat} (hw : WordOk w) {m : Mem} {l : Level} {segs : List Seg} (h : LevelOk w m l segs) :
    ((∀ e ∈ frees segs, e.2 < 1024) ∧ contextPush w m l.ctx = some none) ∨
    ∃ e ∈ frees segs, (∀ f ∈ frees segs, f.2 ≤ e.2) ∧ 1024 ≤ e.2 ∧
      ∃ m' c', contextPush w m l.ctx = some (some (m', c')) ∧ c'.heapStart = e.1 + 2 * w ∧ c'.heapSize = e.2 - 2 * w ∧
        LevelOk w m' ⟨c', []⟩ [⟨e.1 + 2 * w, e.2 - 2 * w, true⟩] ∧
        (∀ x, (x < e.1 + 2 * w ∨ e.1 + 4 * w ≤ x) → m' x = m x) := by
  have hw0 : 0 < w := by rcases hw with rfl | rfl <;> omega
  have hlo := h.heap.lo
  have hhi := h.heap.hi
  have ho := h.heap.tile.ordered
  have hlen := ho.length hw0
  have hfm := findMax_spec m (frees segs) (wrap w) l.ctx.freeList _ _ none (by omega) ho h.heap.chain (by omega) (by simp)
  have hmx := maxFirst_max (frees segs) none
  simp only at hfm
  simp only [contextPush, hfm]
  cases hmf : maxFirst none (frees segs) with
  | none =>
    rw [hmf] at hmx
    simp only at hmx ⊢
    left
    exact ⟨by rw [hmx.2]; simp, by rw [if_pos (Or.inl trivial)]⟩
  | some e =>
    rw [hmf] at hmx
    simp only at hmx ⊢
    have he : e ∈ frees segs := by
      rcases hmx.1 with h | h
      · cases h
      · exact h
    have hr := ho.mem he
    have hload : load w m e.1 = e.2 := by
      have g : ∀ (fl : List (Nat × Nat)) p, Chain w m p fl → e ∈ fl → load w m e.1 = e.2 := by
        intro fl
        induction fl with
        | nil => intro p _ he; cases he
        | cons x t ih =>
          intro p hc he
          rcases List.mem_cons.mp he with rfl | he
          · exact hc.2.1
          · exact ih _ hc.2.2 he
      exact g _ _ h.heap.chain he
    rw [hload]
    by_cases hs : e.2 < 1024
    · left
      exact ⟨fun f hf => by have := hmx.2.1 f hf; omega, by rw [if_pos (Or.inr hs)]⟩
    · right
      refine ⟨e, he, hmx.2.1, by omega, ?_⟩
      have hw8 : w ≤ 8 := by rcases hw with rfl | rfl <;> omega
      rw [if_neg (by omega), Nat.mod_eq_of_lt (show e.1 + (w + w) < wrap w by omega),
        show (e.2 + wrap w - (w + w)) % wrap w = e.2 - 2 * w by
          rw [show e.2 + wrap w - (w + w) = e.2 - 2 * w + wrap w by omega, Nat.add_mod_right, Nat.mod_eq_of_lt (by omega)]]
      have e1 : e.1 + (w + w) = e.1 + 2 * w := by omega
      rw [e1]
      have hld : load w (store w (store w m (e.1 + 2 * w) (e.2 - 2 * w)) (e.1 + 2 * w + w) 0) (e.1 + 2 * w) = e.2 - 2 * w := by
        rw [load_store_ne (by omega), load_store_same (by omega)]
      refine ⟨_, _, rfl, rfl, rfl, ⟨⟨?_, ?_, ?_, ?_, ?_, ?_, ?_, ?_⟩, ?_, ?_⟩, ?_⟩
      · change 3 * w ≤ e.1 + 2 * w; omega
      · change e.1 + 2 * w + (e.2 - 2 * w) < wrap w; omega
      · intro x hx
        simp at hx; subst hx
        have := h.heap.al _ (mem_frees.mp (show (e.1, e.2) ∈ frees segs from he))
        simp only at this ⊢
        rw [Nat.add_mod, this]; simp
      · exact ⟨rfl, by simp only; omega, rfl⟩
      · trivial
      · intro f hf; simp [busy_cons] at hf
      · rw [frees_cons, if_pos rfl]
        refine ⟨rfl, ?_, ?_⟩
        · exact hld
        · simp only
          rw [load_store_same (by omega)]; rfl
      · simp only [frees_cons, if_pos, total_cons, frees_nil, total_nil, Nat.add_zero]
        exact hld
      · simp [busy_cons]
      · simp
      · intro x hx
        rw [store_out (by omega), store_out (by omega)]

/-! ## One operation -/

theorem exec_ok {w : Nat} (hw : WordOk w) {s : World} (h : WorldOk w s) {op : Op} (hl : Legal w s op) :
    ∃ s' r, exec w s op = some (s', r) ∧ WorldOk w s' := by
  have hw0 : 0 < w := by rcases hw with rfl | rfl <;> omega
  obtain ⟨⟨segs, h1⟩, h2⟩ := h
  have hregion : ∀ (m' : Mem), (∀ x, ¬ InRegion s.top.ctx x → m' x = s.mem x) → ∀ c' : Ctx, SameRegion s.top.ctx c' →
      Below w m' c'.heapStart (c'.heapStart + c'.heapSize) s.below := by
    intro m' hm c' hc
    rw [hc.1, hc.2]
    exact h2.congr (fun x hx => hm x (fun hi => by have := hi.1; have := hi.2; omega))
  cases op with
  | alloc n =>
    obtain ⟨m', c', p, segs', g1, g2, g3, g4, g5, g6, g7⟩ := alloc_level hw hl h1
    simp only [exec, g1]
    exact ⟨_, _, rfl, ⟨segs', g2⟩, hregion m' g6 c' g3⟩
  | allocDirty n =>
    obtain ⟨m', c', p, segs', g1, g2, g3, g4, g5, g6⟩ := allocDirty_level hw hl h1
    simp only [exec, g1]
    exact ⟨_, _, rfl, ⟨segs', g2⟩, hregion m' g6 c' g3⟩
  | free p =>
    rcases hl with rfl | hp
    · simp only [exec, free, if_pos]
      refine ⟨_, _, rfl, ⟨segs, ?_⟩, h2⟩
      have : drop 0 s.top.live = s.top.live := by
        rw [drop, List.filter_eq_self]
        intro b hb
        have := (live_block hw0 h1 (List.mem_map.mpr ⟨b, hb, rfl⟩)).2.1
        simp; omega
      rw [this]; exact h1
    · have hb := live_block hw0 h1 hp
      obtain ⟨m', c', segs', g1, g2, g3, g4, g5⟩ := makeFree_level hw h1 hb.1
      simp only [exec, free]
      rw [if_neg (by omega)]
      simp only [g1]
      rw [show p - w + w = p by omega] at g2
      exact ⟨_, _, rfl, ⟨segs', g2⟩, hregion m' g5 c' g3⟩
  | realloc p n =>
    obtain ⟨hp, hn⟩ := hl
    rcases hp with rfl | hp
    · simp only [exec, realloc, if_pos]
      refine ⟨_, _, rfl, ⟨segs, ?_⟩, h2⟩
      have : drop 0 s.top.live = s.top.live := by
        rw [drop, List.filter_eq_self]
        intro b hb
        have := (live_block hw0 h1 (List.mem_map.mpr ⟨b, hb, rfl⟩)).2.1
        simp; omega
      rw [this]; exact h1
    · have hb := live_block hw0 h1 hp
      obtain ⟨m', c', q, segs', g1, g2, g3, g4, g5, g6⟩ := realloc_level hw hn h1 hb.1
      rw [show p - w + w = p by omega] at g1 g2
      simp only [exec, g1]
      exact ⟨_, _, rfl, ⟨segs', g2⟩, hregion m' g5 c' g3⟩
  | truncate p n =>
    obtain ⟨hp, hn⟩ := hl
    rcases hp with rfl | hp
    · simp only [exec, truncate, if_pos]
      refine ⟨_, _, rfl, ⟨segs, ?_⟩, h2⟩
      have : (s.top.live.map fun b => if b.1 = 0 then (0, min b.2 n) else b) = s.top.live := by
        conv => rhs; rw [← List.map_id s.top.live]
        apply List.map_congr_left
        intro b hb
        have := (live_block hw0 h1 (List.mem_map.mpr ⟨b, hb, rfl⟩)).2.1
        rw [if_neg (by omega)]; rfl
      rw [this]; exact h1
    · have hb := live_block hw0 h1 hp
      obtain ⟨m', c', segs', g1, g2, g3, g4, g5, g6⟩ := truncate_level hw hn h1 hb.1
      rw [show p - w + w = p by omega] at g1 g2
      simp only [exec, g1]
      exact ⟨_, _, rfl, ⟨segs', g2⟩, hregion m' g5 c' g3⟩
  | store a b =>
    obtain ⟨l, hl, p, hp, h3, h4⟩ := hl
    refine ⟨_, _, rfl, ?_⟩
    have hm : ∀ x, x ≠ a → (fun x => if x = a then b else s.mem x) x = s.mem x := fun x hx => by simp [hx]
    rcases List.mem_cons.mp hl with rfl | hl
    · have hb := live_block hw0 h1 hp
      have hr := h1.heap.busy_range hb.1
      simp only at hr
      refine ⟨⟨segs, h1.payload hb.1 (fun x hx => hm x (by simp only at hx; omega))⟩, h2.congr ?_⟩
      intro x hx; exact hm x (by omega)
    · obtain ⟨segs', k1, k2⟩ := h2.busy_outside hl
      have hb := live_block hw0 k1 hp
      have hb2 := k2 _ hb.1
      simp only at hb2
      refine ⟨⟨segs, ?_⟩, store_below hw0 h2 hl hp h3 h4 hm⟩
      apply h1.congr
      · intro f hf x hx1 hx2
        have := h1.heap.busy_range hf
        exact hm x (by omega)
      · intro f hf x hx1 hx2
        have := h1.heap.tile.ordered.mem hf
        exact hm x (by omega)
  | push =>
    rcases push_level hw h1 with ⟨_, g1⟩ | ⟨e, he, g1, g2, m', c', g3, g4, g5, g6, g7⟩
    · simp only [exec, g1]
      exact ⟨_, _, rfl, ⟨segs, h1⟩, h2⟩
    · simp only [exec, g3]
      have hw8 : w ≤ 8 := by rcases hw with rfl | rfl <;> omega
      have hr := h1.heap.tile.ordered.mem he
      refine ⟨_, _, rfl, ⟨_, g6⟩, ⟨segs, ?_, e, he, ?_, ?_⟩, ?_⟩
      · exact h1.outside_free he (Nat.le_refl (e.1 + 2 * w)) (hi := e.1 + 4 * w) (by omega) g7
      · simp only; omega
      · simp only; omega
      · exact h2.congr (fun x hx => g7 x (by omega))
  | pop =>
    simp only [exec]
    cases hb : s.below with
    | nil => exact absurd hb hl
    | cons l ls =>
      rw [hb] at h2
      obtain ⟨⟨segs', k1, _⟩, k2⟩ := h2
      exact ⟨_, _, rfl, ⟨segs', k1⟩, k2⟩

theorem init_ok {w : Nat} (hw : WordOk w) {m : Mem} {start size : Nat} (h : Region w start size) :
    LevelOk w (heapInit w m start size).1 ⟨(heapInit w m start size).2, []⟩ [⟨start, size, true⟩] := by
  have hw0 : 0 < w := by rcases hw with rfl | rfl <;> omega
  obtain ⟨r1, r2, r3, r4⟩ := h
  have r4 : start + size < wrap w := r4
  have hld : load w (store w (store w m start size) (start + w) 0) start = size := by
    rw [load_store_ne (by omega), load_store_same (by omega)]
  refine ⟨⟨r2, r4, ?_, ?_, trivial, ?_, ?_, ?_⟩, ?_, ?_⟩
  · intro x hx; simp at hx; subst hx; exact r1
  · exact ⟨rfl, r3, rfl⟩
  · intro f hf; simp [busy_cons] at hf
  · rw [frees_cons, if_pos rfl]
    refine ⟨rfl, hld, ?_⟩
    simp only [heapInit, heapSetup]
    rw [load_store_same (by omega)]; rfl
  · simp only [heapInit, heapSetup, frees_cons, if_pos, total_cons, frees_nil, total_nil, Nat.add_zero]
    exact hld
  · simp [busy_cons]
  · simp

theorem reach_ok {w : Nat} (hw : WordOk w) {s : World} (h : Reach w s) : WorldOk w s := by
  induction h with
  | init m start size h => exact ⟨⟨_, init_ok hw h⟩, trivial⟩
  | step s s' op r _ hl he ih =>
    obtain ⟨s2, r2, h1, h2⟩ := exec_ok hw ih hl
    rw [h1] at he; cases he; exact h2

theorem WorldOk.level {w : Nat} {s : World} (h : WorldOk w s) {l} (hl : l ∈ s.top :: s.below) :
    ∃ segs, LevelOk w s.mem l segs := by
  rcases List.mem_cons.mp hl with rfl | hl
  · exact h.1
  · obtain ⟨segs, h1, _⟩ := h.2.nested hl
    exact ⟨segs, h1⟩

theorem walk_eq {w : Nat} {m : Mem} {fl : List (Nat × Nat)} : ∀ (k p lo hi : Nat), 0 < lo → Ordered w lo fl hi →
    Chain w m p fl → fl.length < k → walk w m k p = fl := by
  induction fl with
  | nil =>
    intro k p lo hi hlo ho hc hk
    obtain ⟨k, rfl⟩ : ∃ j, k = j + 1 := ⟨k - 1, by simp at hk; omega⟩
    rw [walk, if_pos (show p = 0 from hc)]
  | cons e t ih =>
    intro k p lo hi hlo ho hc hk
    obtain ⟨a, s⟩ := e
    obtain ⟨k, rfl⟩ : ∃ j, k = j + 1 := ⟨k - 1, by simp at hk; omega⟩
    obtain ⟨o1, o2, o3⟩ := ho
    obtain ⟨rfl, c2, c3⟩ := hc
    rw [walk, if_neg (by omega), c2, ih k _ (p + s) hi (by omega) o3 c3 (by simp at hk; omega)]

theorem freeBlocks_eq {w : Nat} (hw : 0 < w) {m : Mem} {l : Level} {segs} (h : LevelOk w m l segs) :
    freeBlocks w m l.ctx = frees segs := by
  have hlo := h.heap.lo
  have hhi := h.heap.hi
  have ho := h.heap.tile.ordered
  have := ho.length hw
  exact walk_eq (256 ^ w) _ _ _ (by omega) ho h.heap.chain (by change _ < wrap w; omega)

theorem need_eq {w n : Nat} (hw : WordOk w) (h : n + 2 * w ≤ 2 ^ 32) : reqSize w n = need w n := by
  have hg := wrap_ge hw
  unfold reqSize need
  have e : (if n < w then w else n) = max n w := by
    rw [Nat.max_def]; split <;> split <;> omega
  rw [e, Nat.mod_eq_of_lt (by rcases hw with rfl | rfl <;> omega),
    sizeAlign_eq hw (by rcases hw with rfl | rfl <;> omega)]

end Fpm.Alloc
