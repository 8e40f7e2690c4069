import Verif.Alloc.WorldLemmas
/-! # Lemmas: what an operation leaves alone -/
namespace Fpm.Alloc
open Spec

/-- Any operation but a store keeps the other blocks of the current program and everything
outside the current heap. -/
theorem exec_frame {w : Nat} (hw : WordOk w) {s s' : World} {r : Nat} (h : WorldOk w s) {op : Op} (hl : Legal w s op)
    (he : exec w s op = some (s', r)) (hns : ∀ a b, op ≠ .store a b) {segs} (h1 : LevelOk w s.mem s.top segs) :
    (∀ e ∈ busy segs, target op ≠ some (e.1 + w) → Keeps s.mem s'.mem e) ∧
    (∀ x, ¬ InRegion s.top.ctx x → s'.mem x = s.mem x) := by
  have hw0 : 0 < w := by rcases hw with rfl | rfl <;> omega
  cases op with
  | alloc n =>
    obtain ⟨m', c', p, segs', g1, g2, g3, g4, g5, g6, g7⟩ := alloc_level hw hl h1
    simp only [exec, g1] at he; cases he
    exact ⟨fun e he _ => (g5 e he).1, g6⟩
  | allocDirty n =>
    obtain ⟨m', c', p, segs', g1, g2, g3, g4, g5, g6⟩ := allocDirty_level hw hl h1
    simp only [exec, g1] at he; cases he
    exact ⟨fun e he _ => (g5 e he).1, g6⟩
  | free p =>
    rcases hl with rfl | hp
    · simp only [exec, free, if_pos] at he; cases he
      exact ⟨fun _ _ _ _ _ _ => rfl, fun _ _ => rfl⟩
    · have hb := live_block hw0 h1 hp
      obtain ⟨m', c', segs', g1, g2, g3, g4, g5⟩ := makeFree_level hw h1 hb.1
      simp only [exec, free] at he
      rw [if_neg (by omega)] at he
      simp only [g1] at he; cases he
      refine ⟨fun e he ht => (g4 e he ?_).1, g5⟩
      rintro h; apply ht; simp [target]; omega
  | realloc p n =>
    obtain ⟨hp, hn⟩ := hl
    rcases hp with rfl | hp
    · simp only [exec, realloc, if_pos] at he; cases he
      exact ⟨fun _ _ _ _ _ _ => rfl, fun _ _ => rfl⟩
    · have hb := live_block hw0 h1 hp
      obtain ⟨m', c', q, segs', g1, g2, g3, g4, g5, g6⟩ := realloc_level hw hn h1 hb.1
      rw [show p - w + w = p by omega] at g1 g2
      simp only [exec, g1] at he; cases he
      refine ⟨fun e he ht => (g4 e he ?_).1, g5⟩
      rintro h; apply ht; simp [target]; omega
  | truncate p n =>
    obtain ⟨hp, hn⟩ := hl
    rcases hp with rfl | hp
    · simp only [exec, truncate, if_pos] at he; cases he
      exact ⟨fun _ _ _ _ _ _ => rfl, fun _ _ => rfl⟩
    · have hb := live_block hw0 h1 hp
      obtain ⟨m', c', segs', g1, g2, g3, g4, g5, g6⟩ := truncate_level hw hn h1 hb.1
      rw [show p - w + w = p by omega] at g1 g2
      simp only [exec, g1] at he; cases he
      refine ⟨fun e he ht => (g4 e he ?_).1, g5⟩
      rintro h; apply ht; simp [target]; omega
  | store a b => exact absurd rfl (hns a b)
  | push =>
    rcases push_level hw h1 with ⟨_, g1⟩ | ⟨e, he', g1, g2, m', c', g3, g4, g5, g6, g7⟩
    · simp only [exec, g1] at he; cases he
      exact ⟨fun _ _ _ _ _ _ => rfl, fun _ _ => rfl⟩
    · simp only [exec, g3] at he; cases he
      have hw8 : w ≤ 8 := by rcases hw with rfl | rfl <;> omega
      have hr := h1.heap.tile.ordered.mem he'
      refine ⟨fun f hf _ x hx1 hx2 => ?_, fun x hx => ?_⟩
      · have := busy_ne_free h1.heap.tile hf he'
        have := h1.heap.busy_range hf
        exact g7 x (by omega)
      · apply g7
        rcases Nat.lt_or_ge x (e.1 + 2 * w) with h | h
        · exact Or.inl h
        · rcases Nat.lt_or_ge x (e.1 + 4 * w) with h' | h'
          · exact absurd ⟨by omega, by omega⟩ hx
          · exact Or.inr h'
  | pop =>
    simp only [exec] at he
    cases hb : s.below with
    | nil => exact absurd hb hl
    | cons l ls => rw [hb] at he; cases he; exact ⟨fun _ _ _ _ _ _ => rfl, fun _ _ => rfl⟩

theorem coal_not_adjacent {w lo hi : Nat} (hw : 0 < w) {l : List Seg} (ht : Tile w lo l hi) (hc : Coal l) :
    ∀ e ∈ frees l, ∀ f ∈ frees l, e.1 + e.2 ≠ f.1 := by
  induction l generalizing lo with
  | nil => simp
  | cons x t ih =>
    obtain ⟨h1, h2, h3⟩ := ht
    have hct : Coal t := by
      cases t with
      | nil => trivial
      | cons y t => exact hc.2
    intro e he f hf
    rw [frees_cons] at he hf
    by_cases hx : x.isFree
    · rw [if_pos hx] at he hf
      rcases List.mem_cons.mp he with he | he <;> rcases List.mem_cons.mp hf with hf | hf
      · subst he hf; simp only; omega
      · subst he
        cases t with
        | nil => simp at hf
        | cons y t =>
          have hy : ¬ y.isFree = true := fun hy => hc.1 ⟨hx, hy⟩
          rw [frees_cons, if_neg hy] at hf
          have h4 := h3.2.2.ordered.mem hf
          have h5 := h3.2.1
          simp only; omega
      · subst hf
        have h4 := h3.ordered.mem he
        simp only; omega
      · exact ih h3 hct e he f hf
    · rw [if_neg hx] at he hf
      exact ih h3 hct e he f hf

theorem all_free {w lo hi : Nat} {l : List Seg} (ht : Tile w lo l hi) (hc : Coal l) (hb : busy l = []) (hlt : lo < hi) :
    frees l = [(lo, hi - lo)] := by
  cases l with
  | nil => have : lo = hi := ht; omega
  | cons x t =>
    obtain ⟨h1, h2, h3⟩ := ht
    rw [busy_cons] at hb
    by_cases hx : x.isFree
    · rw [if_pos hx] at hb
      cases t with
      | nil =>
        have h3 : lo + x.size = hi := h3
        rw [frees_cons, if_pos hx, frees_nil, h1]
        congr 2; omega
      | cons y t =>
        have hy : ¬ y.isFree = true := fun hy => hc.1 ⟨hx, hy⟩
        rw [busy_cons, if_neg hy] at hb; cases hb
    · rw [if_neg hx] at hb; cases hb

theorem LevelOk.live_total {w : Nat} (hw : 0 < w) {m : Mem} {l : Level} {segs} (h : LevelOk w m l segs) :
    (l.live.map fun b => sizeOf w m b.1 + w).sum = total (busy segs) := by
  have h1 : (l.live.map fun b => sizeOf w m b.1 + w) = (l.live.map (·.1)).map (fun p => sizeOf w m p + w) := by
    rw [List.map_map]; rfl
  rw [h1, (h.perm.map _).sum_nat, List.map_map, total]
  congr 1
  apply List.map_congr_left
  intro e he
  simp only [Function.comp]
  rw [sizeOf_eq hw h he]
  have := h.heap.busy_range he
  omega

/-- While a child program runs, memory outside its region is unchanged. -/
theorem child_frame {w : Nat} (hw : WordOk w) {base : List Level} {s1 s2 : World} (hok : WorldOk w s1)
    (hb : s1.below = base) (hr : ChildRun w base s1 s2) :
    WorldOk w s2 ∧
    (∃ pre, s2.below = pre ++ base ∧ SameRegion s1.top.ctx ((s2.top :: pre).getLast (by simp)).ctx) ∧
    (∀ x, ¬ InRegion s1.top.ctx x → s2.mem x = s1.mem x) := by
  have hw0 : 0 < w := by rcases hw with rfl | rfl <;> omega
  induction hr with
  | refl => exact ⟨hok, ⟨[], by simp [hb], ⟨rfl, rfl⟩⟩, fun _ _ => rfl⟩
  | step s2 s3 op r h hl hs he hb3 ih =>
    obtain ⟨ok2, ⟨pre, hp, hreg⟩, hfr⟩ := ih
    obtain ⟨s', r', he', ok3⟩ := exec_ok hw ok2 hl
    rw [he] at he'; cases he'
    obtain ⟨segs, hlev⟩ := ok2.1
    -- regions of the chain above `base` lie in the child's region
    have hsub : ∀ l ∈ s2.top :: pre, ∀ x, InRegion l.ctx x → InRegion s1.top.ctx x := by
      have hlast : ∀ (pre : List Level) (t : Level) (lo hi : Nat),
          (∃ sg, LevelOk w s2.mem t sg) → Below w s2.mem t.ctx.heapStart (t.ctx.heapStart + t.ctx.heapSize) (pre ++ base) →
          ∀ l ∈ t :: pre, ∀ x, InRegion l.ctx x → InRegion ((t :: pre).getLast (by simp)).ctx x := by
        intro pre
        induction pre with
        | nil => intro t lo hi _ _ l hl x hx; simp at hl; subst hl; exact hx
        | cons k pre ih =>
          intro t lo hi hsg hbel l hl x hx
          obtain ⟨⟨sg, k1, e, he, k2, k3⟩, k4⟩ := hbel
          have hkx := ih k lo hi ⟨sg, k1⟩ k4
          rw [List.getLast_cons (by simp)]
          rcases List.mem_cons.mp hl with rfl | hl
          · apply hkx k (by simp) x
            have := k1.heap.tile.ordered.mem he
            obtain ⟨hx1, hx2⟩ := hx
            exact ⟨by omega, by omega⟩
          · exact hkx l hl x hx
      intro l hl x hx
      have := hlast pre s2.top 0 0 ok2.1 (by rw [← hp]; exact ok2.2) l hl x hx
      simpa [InRegion, hreg.1, hreg.2] using this
    have hmem : ∀ x, ¬ InRegion s1.top.ctx x → s3.mem x = s2.mem x := by
      intro x hx
      by_cases hst : ∃ a b, op = .store a b
      · obtain ⟨a, b, rfl⟩ := hst
        obtain ⟨l, p, hl', hp', ha1, ha2⟩ := hs a b rfl
        simp only [exec] at he; cases he
        simp only
        rw [if_neg]
        rintro rfl
        apply hx
        have hmeml : l ∈ s2.top :: pre := by
          rcases hl' with rfl | ⟨pre', e1, e2⟩
          · simp
          · rw [hp] at e1
            have := List.append_cancel_right e1
            subst this; simp [e2]
        have hmeml2 : l ∈ s2.top :: s2.below := by
          rw [hp]; simp at hmeml ⊢
          rcases hmeml with h | h
          · exact Or.inl h
          · exact Or.inr (Or.inl h)
        obtain ⟨sg, k1⟩ := ok2.level hmeml2
        have hblk := live_block hw0 k1 hp'
        have hrng := k1.heap.busy_range hblk.1
        simp only at hrng
        exact hsub l hmeml x ⟨by omega, by omega⟩
      · have hns : ∀ a b, op ≠ .store a b := fun a b h => hst ⟨a, b, h⟩
        have := (exec_frame hw ok2 hl he hns hlev).2
        exact this x (fun hin => hx (hsub s2.top (by simp) x hin))
    refine ⟨ok3, ?_, fun x hx => by rw [hmem x hx, hfr x hx]⟩
    obtain ⟨pre3, hb3⟩ := hb3
    -- the chain structure
    have hcase : ∀ c' live', s3.below = s2.below → s3.top = ⟨c', live'⟩ → SameRegion s2.top.ctx c' →
        ∃ pre, s3.below = pre ++ base ∧ SameRegion s1.top.ctx ((s3.top :: pre).getLast (by simp)).ctx := by
      intro c' live' h1 h2 h3
      refine ⟨pre, by rw [h1, hp], ?_⟩
      cases pre with
      | nil =>
        simp only [List.getLast_singleton] at hreg ⊢
        rw [h2]; exact ⟨h3.1.trans hreg.1, h3.2.trans hreg.2⟩
      | cons k pre =>
        rw [List.getLast_cons (by simp)] at hreg ⊢
        exact hreg
    cases op with
    | alloc n =>
      obtain ⟨m', c', p, segs', g1, g2, g3, _⟩ := alloc_level hw hl hlev
      simp only [exec, g1] at he; cases he
      exact hcase _ _ rfl rfl g3
    | allocDirty n =>
      obtain ⟨m', c', p, segs', g1, g2, g3, _⟩ := allocDirty_level hw hl hlev
      simp only [exec, g1] at he; cases he
      exact hcase _ _ rfl rfl g3
    | free p =>
      rcases hl with rfl | hp
      · simp only [exec, free, if_pos] at he; cases he
        exact hcase _ _ rfl rfl ⟨rfl, rfl⟩
      · have hb := live_block hw0 hlev hp
        obtain ⟨m', c', segs', g1, g2, g3, g4, g5⟩ := makeFree_level hw hlev hb.1
        simp only [exec, free] at he
        rw [if_neg (by omega)] at he
        simp only [g1] at he; cases he
        exact hcase _ _ rfl rfl g3
    | realloc p n =>
      obtain ⟨hp, hn⟩ := hl
      rcases hp with rfl | hp
      · simp only [exec, realloc, if_pos] at he; cases he
        exact hcase _ _ rfl rfl ⟨rfl, rfl⟩
      · have hb := live_block hw0 hlev hp
        obtain ⟨m', c', q, segs', g1, g2, g3, g4, g5, g6⟩ := realloc_level hw hn hlev hb.1
        rw [show p - w + w = p by omega] at g1 g2
        simp only [exec, g1] at he; cases he
        exact hcase _ _ rfl rfl g3
    | truncate p n =>
      obtain ⟨hp, hn⟩ := hl
      rcases hp with rfl | hp
      · simp only [exec, truncate, if_pos] at he; cases he
        exact hcase _ _ rfl rfl ⟨rfl, rfl⟩
      · have hb := live_block hw0 hlev hp
        obtain ⟨m', c', segs', g1, g2, g3, g4, g5, g6⟩ := truncate_level hw hn hlev hb.1
        rw [show p - w + w = p by omega] at g1 g2
        simp only [exec, g1] at he; cases he
        exact hcase _ _ rfl rfl g3
    | store a b =>
      simp only [exec] at he; cases he
      exact hcase s2.top.ctx s2.top.live rfl rfl ⟨rfl, rfl⟩
    | push =>
      rcases push_level hw hlev with ⟨_, g1⟩ | ⟨e, he', g1, g2, m', c', g3, g4, g5, g6, g7⟩
      · simp only [exec, g1] at he; cases he
        exact hcase s2.top.ctx s2.top.live rfl rfl ⟨rfl, rfl⟩
      · simp only [exec, g3] at he; cases he
        refine ⟨s2.top :: pre, by simp [hp], ?_⟩
        rw [List.getLast_cons (by simp)]; exact hreg
    | pop =>
      simp only [exec] at he
      cases hbe : s2.below with
      | nil => exact absurd hbe hl
      | cons l ls =>
        rw [hbe] at he; cases he
        simp only at hb3 ⊢
        refine ⟨pre3, hb3, ?_⟩
        have : pre = l :: pre3 := by
          rw [hbe, hb3] at hp
          have : (l :: pre3) ++ base = pre ++ base := by simpa using hp
          exact (List.append_cancel_right this).symm
        subst this
        rw [List.getLast_cons (by simp)] at hreg
        exact hreg

end Fpm.Alloc
