import Verif.Alloc.FrameLemmas
/-!
# Properties of the allocator and the context stack: C01 - C10

`Reach w s` are the states that legal histories of heap calls, stores into live blocks, nested
program starts and ends can produce, on a machine with `w`-byte pointers.  `top.live` and the
`live` lists in `below` are the blocks the programs hold with the sizes they asked for.
-/
namespace Fpm.Alloc
open Spec

/-! ## A concrete reachable world, used to show that hypotheses can be met -/

/-- A fresh heap of 4096 bytes at 4096 on a 32-bit machine. -/
def ex0 : World := ⟨(heapInit 4 (fun _ => 7) 4096 4096).1, ⟨(heapInit 4 (fun _ => 7) 4096 4096).2, []⟩, []⟩
/-- After a request of 10 bytes. -/
def ex1 : World := ((exec 4 ex0 (.alloc 10)).getD (ex0, 0)).1
/-- After a further request of 100 bytes. -/
def ex2 : World := ((exec 4 ex1 (.allocDirty 100)).getD (ex0, 0)).1
/-- After the first block is freed: two free blocks around a live one. -/
def ex3 : World := ((exec 4 ex2 (.free 4100)).getD (ex0, 0)).1
/-- After a nested program is started. -/
def ex4 : World := ((exec 4 ex3 .push).getD (ex0, 0)).1
/-- After the nested program allocates. -/
def ex5 : World := ((exec 4 ex4 (.alloc 24)).getD (ex0, 0)).1

/-- The result of a step without the world (whose memory is a function). -/
def resultOf (w : Nat) (s : World) (op : Op) : Option Nat := (exec w s op).map (·.2)

theorem step_of_result {w : Nat} {s : World} {op : Op} {r : Nat} (d : World × Nat) (h : resultOf w s op = some r) :
    exec w s op = some (((exec w s op).getD d).1, r) := by
  unfold resultOf at h
  cases he : exec w s op with
  | none => rw [he] at h; cases h
  | some x => rw [he] at h; cases h; rfl

theorem ex0_reach : Reach 4 ex0 := .init _ _ _ ⟨by decide, by decide, by decide, by decide⟩
theorem ex1_reach : Reach 4 ex1 :=
  .step ex0 _ (.alloc 10) 4100 ex0_reach (by show 10 + 2 * 4 ≤ 2 ^ 32; decide) (step_of_result _ (by decide +kernel))
theorem ex2_reach : Reach 4 ex2 :=
  .step ex1 _ (.allocDirty 100) 4116 ex1_reach (by show 100 + 2 * 4 ≤ 2 ^ 32; decide) (step_of_result _ (by decide +kernel))
theorem ex3_reach : Reach 4 ex3 :=
  .step ex2 _ (.free 4100) 0 ex2_reach (Or.inr (by decide +kernel)) (step_of_result _ (by decide +kernel))
theorem ex4_reach : Reach 4 ex4 :=
  .step ex3 _ .push 1 ex3_reach trivial (step_of_result _ (by decide +kernel))
theorem ex5_reach : Reach 4 ex5 :=
  .step ex4 _ (.alloc 24) 4228 ex4_reach (by show 24 + 2 * 4 ≤ 2 ^ 32; decide) (step_of_result _ (by decide +kernel))

example : Reach 4 ex2 ∧ ex2.top.live = [(4116, 100), (4100, 10)] := ⟨ex2_reach, by decide +kernel⟩
example : Reach 4 ex3 ∧ freeBlocks 4 ex3.mem ex3.top.ctx = [(4096, 16), (4216, 3976)] := ⟨ex3_reach, by decide +kernel⟩
example : Reach 4 ex5 ∧ ex5.top.live = [(4228, 24)] ∧ ex5.below.map (·.live) = [[(4116, 100)]] :=
  ⟨ex5_reach, by decide +kernel, by decide +kernel⟩

/-! ## C01 -/

/-- What C01 asks of one program's heap. -/
def BlocksOk (w : Nat) (m : Mem) (l : Level) : Prop :=
  (∀ b ∈ l.live, b.1 % w = 0 ∧ l.ctx.heapStart + w ≤ b.1 ∧
    b.1 + sizeOf w m b.1 ≤ l.ctx.heapStart + l.ctx.heapSize ∧ b.2 ≤ sizeOf w m b.1) ∧
  l.live.Pairwise (fun b b' => b.1 + sizeOf w m b.1 ≤ b'.1 - w ∨ b'.1 + sizeOf w m b'.1 ≤ b.1 - w) ∧
  (∀ b ∈ l.live, ∀ f ∈ freeBlocks w m l.ctx, b.1 + sizeOf w m b.1 ≤ f.1 ∨ f.1 + f.2 ≤ b.1 - w)

/-- The claim for calls with any `size_t` argument: already a single request on a fresh heap must
give a block that is large enough. -/
def C01_full (w : Nat) : Prop :=
  ∀ (m : Mem) (start size n : Nat), Region w start size → n < 256 ^ w →
    ∀ m' c' p, allocDirty w (heapInit w m start size).1 (heapInit w m start size).2 n = some (m', c', p) →
      p ≠ 0 → n ≤ sizeOf w m' p

theorem wrap4 : wrap 4 = 4294967295 + 1 := by decide
theorem wrap8 : wrap 8 = 18446744073709551615 + 1 := by decide

/-- On both machines some requests are answered with a block far smaller than asked for: on the
Pico 2^32 - 1 bytes get a block of 0 bytes, on a 64-bit host 2^32 bytes one of 0 bytes. -/
theorem C01_violated : ¬ C01_full 4 ∧ ¬ C01_full 8 := by
  constructor
  · intro h
    have hx : ∃ m' c', allocDirty 4 (heapInit 4 (fun _ => 0) 4096 4096).1 (heapInit 4 (fun _ => 0) 4096 4096).2 4294967295 =
        some (m', c', 4100) ∧ sizeOf 4 m' 4100 = 0 := by
      have e : (allocDirty 4 (heapInit 4 (fun _ => 0) 4096 4096).1 (heapInit 4 (fun _ => 0) 4096 4096).2 4294967295).map
          (fun x => (x.2.2, sizeOf 4 x.1 4100)) = some (4100, 0) := by decide +kernel
      cases hc : allocDirty 4 (heapInit 4 (fun _ => 0) 4096 4096).1 (heapInit 4 (fun _ => 0) 4096 4096).2 4294967295 with
      | none => rw [hc] at e; cases e
      | some x =>
        obtain ⟨m', c', p⟩ := x
        rw [hc] at e
        simp only [Option.map_some, Option.some.injEq, Prod.mk.injEq] at e
        obtain ⟨rfl, e2⟩ := e
        exact ⟨m', c', rfl, e2⟩
    obtain ⟨m', c', h1, h2⟩ := hx
    have := h (fun _ => 0) 4096 4096 4294967295 ⟨by decide, by decide, by decide, by decide⟩ (by decide) m' c' 4100 h1 (by decide)
    omega
  · intro h
    have hx : ∃ m' c', allocDirty 8 (heapInit 8 (fun _ => 0) 4096 4096).1 (heapInit 8 (fun _ => 0) 4096 4096).2 4294967296 =
        some (m', c', 4104) ∧ sizeOf 8 m' 4104 = 0 := by
      have e : (allocDirty 8 (heapInit 8 (fun _ => 0) 4096 4096).1 (heapInit 8 (fun _ => 0) 4096 4096).2 4294967296).map
          (fun x => (x.2.2, sizeOf 8 x.1 4104)) = some (4104, 0) := by decide +kernel
      cases hc : allocDirty 8 (heapInit 8 (fun _ => 0) 4096 4096).1 (heapInit 8 (fun _ => 0) 4096 4096).2 4294967296 with
      | none => rw [hc] at e; cases e
      | some x =>
        obtain ⟨m', c', p⟩ := x
        rw [hc] at e
        simp only [Option.map_some, Option.some.injEq, Prod.mk.injEq] at e
        obtain ⟨rfl, e2⟩ := e
        exact ⟨m', c', rfl, e2⟩
    obtain ⟨m', c', h1, h2⟩ := hx
    have := h (fun _ => 0) 4096 4096 4294967296 ⟨by decide, by decide, by decide, by decide⟩ (by decide) m' c' 4104 h1 (by decide)
    omega

theorem wpos {w : Nat} (hw : Word w) : 0 < w := by rcases hw with rfl | rfl <;> omega

/-- C01 for all histories whose request sizes stay clear of the wrap-around: in every reachable
state, for every program of the chain. Missing: requests in the last few bytes below 2^32
(32-bit) or of 2^32 and more (64-bit), for which `C01_violated` shows the claim false. -/
theorem C01_blocks_partial {w : Nat} (hw : Word w) {s : World} (h : Reach w s) {l : Level} (hl : l ∈ s.top :: s.below) :
    BlocksOk w s.mem l := by
  have hw0 := wpos hw
  obtain ⟨segs, hk⟩ := (reach_ok hw h).level hl
  have mem1 : ∀ b ∈ l.live, b.1 ∈ l.live.map (·.1) := fun b hb => List.mem_map.mpr ⟨b, hb, rfl⟩
  refine ⟨?_, ?_, ?_⟩
  · intro b hb
    have hb1 := live_block hw0 hk (mem1 b hb)
    have hr := hk.heap.busy_range hb1.1
    have hsz := hk.size b hb
    have hal := hk.heap.al _ (mem_busy.mp hb1.1)
    rw [hk.heap.hdr _ hb1.1] at hsz
    simp only at hr hsz hal
    refine ⟨?_, by omega, by omega, by omega⟩
    have : b.1 = b.1 - w + w := by omega
    rw [this, Nat.add_mod_right]; exact hal
  · have hn : l.live.Pairwise (fun b b' => b.1 ≠ b'.1) := by
      have := hk.nodup hw0
      rw [List.Nodup, List.pairwise_map] at this
      exact this
    refine List.Pairwise.imp_of_mem ?_ hn
    intro b b' hb hb' hne
    have h1 := live_block hw0 hk (mem1 b hb)
    have h2 := live_block hw0 hk (mem1 b' hb')
    rcases hk.heap.tile.disjoint (mem_busy.mp h1.1) (mem_busy.mp h2.1) with h3 | h3 | h3
    · simp at h3; omega
    · simp only at h3; omega
    · simp only at h3; omega
  · intro b hb f hf
    rw [freeBlocks_eq hw0 hk] at hf
    have h1 := live_block hw0 hk (mem1 b hb)
    have := busy_ne_free hk.heap.tile h1.1 hf
    simp only at this; omega

/-- No legal call loops or fails to return. -/
theorem C01_calls_return {w : Nat} (hw : Word w) {s : World} (h : Reach w s) {op : Op} (hl : Legal w s op) :
    ∃ s' r, exec w s op = some (s', r) ∧ Reach w s' := by
  obtain ⟨s', r, h1, _⟩ := exec_ok hw (reach_ok hw h) hl
  exact ⟨s', r, h1, .step _ _ _ _ h hl h1⟩

/-! ## C02 -/

/-- `fpm_alloc` returns zeroed memory. -/
theorem C02_zero_fill {w : Nat} (hw : Word w) {s s' : World} {n p : Nat} (h : Reach w s) (hl : Legal w s (.alloc n))
    (he : exec w s (.alloc n) = some (s', p)) (hp : p ≠ 0) : ∀ i < n, s'.mem (p + i) = 0 := by
  obtain ⟨segs, hk⟩ := (reach_ok hw h).1
  obtain ⟨m', c', q, segs', g1, g2, g3, g4, g5, g6, g7⟩ := alloc_level hw hl hk
  simp only [exec, g1] at he; cases he
  intro i hi
  exact g7 hp (p + i) (by omega) (by omega)

/-- No heap call, program start or program end changes the size or a byte of a block held by any
program, except for the block that is passed to the call. -/
theorem C02_isolation {w : Nat} (hw : Word w) {s s' : World} {r : Nat} (h : Reach w s) {op : Op} (hl : Legal w s op)
    (he : exec w s op = some (s', r)) (hns : ∀ a b, op ≠ .store a b)
    {l : Level} (hlv : l ∈ s.top :: s.below) {p : Nat} (hp : p ∈ l.live.map (·.1)) (ht : target op ≠ some p) :
    sizeOf w s'.mem p = sizeOf w s.mem p ∧ ∀ i < sizeOf w s.mem p, s'.mem (p + i) = s.mem (p + i) := by
  have hw0 := wpos hw
  have hok := reach_ok hw h
  obtain ⟨segs, hk⟩ := hok.1
  have hf := exec_frame hw hok hl he hns hk
  have key : Keeps s.mem s'.mem (p - w, sizeOf w s.mem p + w) ∧ w ≤ p := by
    rcases List.mem_cons.mp hlv with rfl | hlv
    · have hb := live_block hw0 hk hp
      refine ⟨hf.1 _ hb.1 ?_, hb.2.1⟩
      simp only; rw [show p - w + w = p by omega]; exact ht
    · obtain ⟨sg, k1, k2⟩ := hok.2.busy_outside hlv
      have hb := live_block hw0 k1 hp
      refine ⟨fun x hx1 hx2 => hf.2 x ?_, hb.2.1⟩
      have := k2 _ hb.1
      rintro ⟨i1, i2⟩
      simp only at hx1 hx2 this; omega
  obtain ⟨k1, k2⟩ := key
  constructor
  · have : load w s'.mem (p - w) = load w s.mem (p - w) := load_congr fun x h1 h2 => k1 x h1 (by simp only; omega)
    simp only [sizeOf, this]
  · intro i hi
    exact k1 (p + i) (by simp only; omega) (by simp only; omega)

example : Reach 4 ex2 ∧ Legal 4 ex2 (.free 4100) ∧ 4116 ∈ ex2.top.live.map (·.1) ∧ target (.free 4100) ≠ some 4116 :=
  ⟨ex2_reach, Or.inr (by decide +kernel), by decide +kernel, by decide⟩

/-! ## C03 -/

/-- `fpm_heap_available` is the total size of the free blocks, and free blocks plus live blocks
with their headers make up the whole heap. -/
theorem C03_accounting {w : Nat} (hw : Word w) {s : World} (h : Reach w s) {l : Level} (hl : l ∈ s.top :: s.below) :
    heapAvailable l.ctx = ((freeBlocks w s.mem l.ctx).map (·.2)).sum ∧
    heapAvailable l.ctx + (l.live.map fun b => sizeOf w s.mem b.1 + w).sum = l.ctx.heapSize := by
  have hw0 := wpos hw
  obtain ⟨segs, hk⟩ := (reach_ok hw h).level hl
  have h1 : heapAvailable l.ctx = total (frees segs) := hk.heap.sum
  have h2 := hk.heap.tile.sum
  rw [freeBlocks_eq hw0 hk, hk.live_total hw0, h1]
  exact ⟨rfl, by omega⟩

example : heapAvailable ex5.top.ctx = 3940 ∧ ex5.top.ctx.heapSize = 3968 := by decide +kernel

/-! ## C04 -/

/-- No two free blocks are adjacent. -/
theorem C04_coalesced {w : Nat} (hw : Word w) {s : World} (h : Reach w s) {l : Level} (hl : l ∈ s.top :: s.below) :
    ∀ e ∈ freeBlocks w s.mem l.ctx, ∀ f ∈ freeBlocks w s.mem l.ctx, e.1 + e.2 ≠ f.1 := by
  obtain ⟨segs, hk⟩ := (reach_ok hw h).level hl
  rw [freeBlocks_eq (wpos hw) hk]
  exact coal_not_adjacent (wpos hw) hk.heap.tile hk.heap.coal

/-- A program that holds no block has its whole heap in one free block. -/
theorem C04_one_block {w : Nat} (hw : Word w) {s : World} (h : Reach w s) {l : Level} (hl : l ∈ s.top :: s.below)
    (hs : 0 < l.ctx.heapSize) (he : l.live = []) :
    freeBlocks w s.mem l.ctx = [(l.ctx.heapStart, l.ctx.heapSize)] ∧ heapAvailable l.ctx = l.ctx.heapSize := by
  have hw0 := wpos hw
  obtain ⟨segs, hk⟩ := (reach_ok hw h).level hl
  have hb : busy segs = [] := by
    have := hk.perm
    rw [he] at this
    exact List.map_eq_nil_iff.mp this.symm.eq_nil
  have h1 := all_free hk.heap.tile hk.heap.coal hb (by omega)
  have h2 : heapAvailable l.ctx = total (frees segs) := hk.heap.sum
  rw [freeBlocks_eq hw0 hk, h2, h1]
  have : l.ctx.heapStart + l.ctx.heapSize - l.ctx.heapStart = l.ctx.heapSize := by omega
  rw [this]
  exact ⟨rfl, by simp [total]⟩

/-- Freeing every block, in any order, leaves one free block that spans the heap. -/
theorem C04_free_all {w : Nat} (hw : Word w) {s : World} (h : Reach w s) (hs : 0 < s.top.ctx.heapSize) (ps : List Nat)
    (hp : ps.Perm (s.top.live.map (·.1))) :
    ∃ s', run w s (ps.map .free) = some s' ∧ Reach w s' ∧ s'.top.live = [] ∧ s'.below = s.below ∧
      s'.top.ctx.heapStart = s.top.ctx.heapStart ∧ s'.top.ctx.heapSize = s.top.ctx.heapSize ∧
      freeBlocks w s'.mem s'.top.ctx = [(s.top.ctx.heapStart, s.top.ctx.heapSize)] := by
  have hw0 := wpos hw
  induction ps generalizing s with
  | nil =>
    have : s.top.live = [] := List.map_eq_nil_iff.mp hp.symm.eq_nil
    exact ⟨s, rfl, h, this, rfl, rfl, rfl, (C04_one_block hw h (by simp) hs this).1⟩
  | cons p ps ih =>
    have hpm : p ∈ s.top.live.map (·.1) := hp.mem_iff.mp (by simp)
    obtain ⟨segs, hk⟩ := (reach_ok hw h).1
    have hb := live_block hw0 hk hpm
    obtain ⟨m', c', segs', g1, g2, g3, g4, g5⟩ := makeFree_level hw hk hb.1
    have he : exec w s (.free p) = some ({ s with mem := m', top := ⟨c', drop p s.top.live⟩ }, 0) := by
      simp only [exec, free]
      rw [if_neg (by omega)]
      simp only [g1]
    have hl : Legal w s (.free p) := Or.inr hpm
    have hperm : ps.Perm ((drop p s.top.live).map (·.1)) := by
      have hnd := hp.nodup_iff.mpr (hk.nodup hw0)
      exact (drop_perm (X := []) (Y := ps) hp.symm hnd).symm
    obtain ⟨s', q1, q2, q3, q4, q5, q6, q7⟩ := ih (.step _ _ _ _ h hl he) (by simp only; rw [g3.2]; exact hs) hperm
    simp only at q4 q5 q6 q7
    rw [g3.1] at q5 q7; rw [g3.2] at q6 q7
    refine ⟨s', ?_, q2, q3, q4, q5, q6, q7⟩
    rw [List.map_cons, run, he]; exact q1

example : Reach 4 ex2 ∧ 0 < ex2.top.ctx.heapSize ∧ [4100, 4116].Perm (ex2.top.live.map (·.1)) := by
  refine ⟨ex2_reach, by decide +kernel, ?_⟩
  have : ex2.top.live.map (·.1) = [4116, 4100] := by decide +kernel
  rw [this]; exact List.Perm.swap _ _ _

/-! ## C05 -/

/-- Free blocks are listed by increasing address. -/
theorem freeBlocks_sorted {w : Nat} (hw : Word w) {s : World} (h : Reach w s) :
    (freeBlocks w s.mem s.top.ctx).Pairwise (fun e f => e.1 < f.1) := by
  obtain ⟨segs, hk⟩ := (reach_ok hw h).1
  rw [freeBlocks_eq (wpos hw) hk]
  have := hk.heap.tile.ordered
  revert this
  generalize frees segs = fl
  generalize s.top.ctx.heapStart + s.top.ctx.heapSize = hi
  generalize s.top.ctx.heapStart = lo
  induction fl generalizing lo with
  | nil => simp
  | cons e t ih =>
    intro ho
    refine List.pairwise_cons.mpr ⟨fun f hf => ?_, ih _ ho.2.2⟩
    have := ho.2.2.mem hf
    have := ho.2.1
    have := wpos hw
    omega

theorem first_fit {fl : List (Nat × Nat)} {k : Nat} (hs : fl.Pairwise (fun e f => e.1 < f.1)) {e}
    (h : fl.find? (fun e => decide (k ≤ e.2)) = some e) : e ∈ fl ∧ k ≤ e.2 ∧ ∀ g ∈ fl, k ≤ g.2 → e.1 ≤ g.1 := by
  obtain ⟨h1, A, B, rfl, h2⟩ := List.find?_eq_some_iff_append.mp h
  refine ⟨by simp, by simpa using h1, ?_⟩
  intro g hg hk
  rcases List.mem_append.mp hg with hg | hg
  · have := h2 g hg; simp at this; omega
  · rcases List.mem_cons.mp hg with rfl | hg
    · exact Nat.le_refl _
    · have := (List.pairwise_append.mp hs).2.1
      have := (List.pairwise_cons.mp this).1 g hg
      omega

/-- Allocation fails exactly when every free block is too small for the rounded request, and then
nothing changes; otherwise it uses the lowest free block that is large enough. -/
theorem C05_first_fit {w : Nat} (hw : Word w) {s s' : World} {n p : Nat} (h : Reach w s) {op : Op}
    (hop : op = .alloc n ∨ op = .allocDirty n) (hl : Legal w s op) (he : exec w s op = some (s', p)) :
    (p = 0 ↔ ∀ f ∈ freeBlocks w s.mem s.top.ctx, f.2 < need w n) ∧
    (p = 0 → s' = s) ∧
    (p ≠ 0 → ∃ f ∈ freeBlocks w s.mem s.top.ctx, p = f.1 + w ∧ need w n ≤ f.2 ∧
      ∀ g ∈ freeBlocks w s.mem s.top.ctx, need w n ≤ g.2 → f.1 ≤ g.1) := by
  have hw0 := wpos hw
  have hsort := freeBlocks_sorted hw h
  obtain ⟨segs, hk⟩ := (reach_ok hw h).1
  have hlen : n + 2 * w ≤ 2 ^ 32 := by rcases hop with rfl | rfl <;> exact hl
  rw [freeBlocks_eq hw0 hk] at hsort ⊢
  rw [← need_eq hw hlen]
  have main : ∀ (m' : Mem) (c' : Ctx),
      s' = { s with mem := m', top := ⟨c', add p n s.top.live⟩ } →
      ((frees segs).find? (fun e => decide (reqSize w n ≤ e.2)) = none ∧ p = 0 ∧ m' = s.mem ∧ c' = s.top.ctx ∨
        ∃ a sz, (frees segs).find? (fun e => decide (reqSize w n ≤ e.2)) = some (a, sz) ∧ p = a + w) →
      ((p = 0 ↔ ∀ f ∈ frees segs, f.2 < reqSize w n) ∧ (p = 0 → s' = s) ∧
        (p ≠ 0 → ∃ f ∈ frees segs, p = f.1 + w ∧ reqSize w n ≤ f.2 ∧ ∀ g ∈ frees segs, reqSize w n ≤ g.2 → f.1 ≤ g.1)) := by
    rintro m' c' rfl (⟨h1, rfl, rfl, rfl⟩ | ⟨a, sz, h1, rfl⟩)
    · refine ⟨⟨fun _ f hf => ?_, fun _ => rfl⟩, fun _ => ?_, fun h => absurd rfl h⟩
      · have := List.find?_eq_none.mp h1 f hf
        simp at this; omega
      · simp [add]
    · obtain ⟨f1, f2, f3⟩ := first_fit hsort h1
      refine ⟨⟨fun h => by omega, fun hall => ?_⟩, fun h => by omega, fun _ => ⟨_, f1, rfl, f2, f3⟩⟩
      have := hall _ f1; omega
  rcases hop with rfl | rfl
  · obtain ⟨m', c', q, segs', g1, g2, g3, g4, g5⟩ := alloc_level hw hlen hk
    simp only [exec, g1] at he; cases he
    refine main m' c' rfl ?_
    rcases g4 with ⟨a, b, c, d, _⟩ | ⟨a, sz, h1, h2, _⟩
    · exact Or.inl ⟨a, b, c, d⟩
    · exact Or.inr ⟨a, sz, h1, h2⟩
  · obtain ⟨m', c', q, segs', g1, g2, g3, g4, g5⟩ := allocDirty_level hw hlen hk
    simp only [exec, g1] at he; cases he
    refine main m' c' rfl ?_
    rcases g4 with ⟨a, b, c, d, _⟩ | ⟨a, sz, h1, h2, _⟩
    · exact Or.inl ⟨a, b, c, d⟩
    · exact Or.inr ⟨a, sz, h1, h2⟩

/-- In the fragmented heap of `ex3` a request of 13 bytes skips the first hole. -/
example : resultOf 4 ex3 (.alloc 12) = some 4100 ∧ resultOf 4 ex3 (.alloc 13) = some 4220 ∧
    resultOf 4 ex3 (.alloc 4000) = some 0 := by decide +kernel

/-- The block handed out is the rounded request, plus at most two words and a bit that would be too
small for a free block of their own. -/
theorem C05_no_waste {w : Nat} (hw : Word w) {s s' : World} {n p : Nat} (h : Reach w s) {op : Op}
    (hop : op = .alloc n ∨ op = .allocDirty n) (hl : Legal w s op) (he : exec w s op = some (s', p)) (hp : p ≠ 0) :
    need w n ≤ sizeOf w s'.mem p + w ∧ sizeOf w s'.mem p + w < need w n + 3 * w ∧
    heapAvailable s'.top.ctx + (sizeOf w s'.mem p + w) = heapAvailable s.top.ctx := by
  have hw0 := wpos hw
  have hlen : n + 2 * w ≤ 2 ^ 32 := by rcases hop with rfl | rfl <;> exact hl
  have hr' : Reach w s' := .step _ _ _ _ h hl he
  have a1 := (C03_accounting hw h (l := s.top) (by simp)).2
  have a2 := (C03_accounting hw hr' (l := s'.top) (by simp)).2
  obtain ⟨segs, hk⟩ := (reach_ok hw h).1
  have main : ∀ (m' : Mem) (c' : Ctx) (segs' : List Seg) (a sz t : Nat),
      s' = { s with mem := m', top := ⟨c', add p n s.top.live⟩ } → p = a + w →
      LevelOk w m' ⟨c', add p n s.top.live⟩ segs' → SameRegion s.top.ctx c' →
      (∀ e ∈ busy segs, Keeps s.mem m' e ∧ e ∈ busy segs') → (a, sz) ∈ busy segs' →
      reqSize w n ≤ t → (sz = (if reqSize w n + 3 * w ≤ t then reqSize w n else t)) →
      (need w n ≤ sizeOf w s'.mem p + w ∧ sizeOf w s'.mem p + w < need w n + 3 * w ∧
        heapAvailable s'.top.ctx + (sizeOf w s'.mem p + w) = heapAvailable s.top.ctx) := by
    rintro m' c' segs' a sz t rfl rfl hk' hsame hb hmem ht hsz
    have hneed := need_eq (n := n) hw hlen
    have hblk := live_block hw0 hk' (p := a + w) (by
      have hadd : add (a + w) n s.top.live = (a + w, n) :: s.top.live := by unfold add; rw [if_neg hp]
      simp [hadd])
    have hld := hk'.heap.hdr _ hmem
    have hld2 := hk'.heap.hdr _ hblk.1
    simp only [Nat.add_sub_cancel] at hld hld2
    have hsize : sizeOf w m' (a + w) + w = sz := by omega
    have hrest : (s.top.live.map fun b => sizeOf w m' b.1 + w).sum = (s.top.live.map fun b => sizeOf w s.mem b.1 + w).sum := by
      congr 1
      apply List.map_congr_left
      intro b hbm
      have h1 := live_block hw0 hk (List.mem_map.mpr ⟨b, hbm, rfl⟩)
      have h2 := (hb _ h1.1).1
      unfold sizeOf
      have hl1 := hk.heap.hdr _ h1.1
      have hl2 := hk'.heap.hdr _ (hb _ h1.1).2
      simp only at hl1 hl2
      rw [hl1, hl2]
    simp only [add, show a + w ≠ 0 by omega, if_false, List.map_cons, List.sum_cons, hrest] at a2
    have hreg : c'.heapSize = s.top.ctx.heapSize := hsame.2
    simp only at a2 ⊢
    refine ⟨?_, ?_, ?_⟩
    · rw [hsize, hsz]; split <;> omega
    · rw [hsize, hsz]; split <;> omega
    · omega
  rcases hop with rfl | rfl
  · obtain ⟨m', c', q, segs', g1, g2, g3, g4, g5, g6⟩ := alloc_level hw hlen hk
    simp only [exec, g1] at he; cases he
    rcases g4 with ⟨a, b, c, d, _⟩ | ⟨a, t, h1, h2, h3, sz, h4, h5, h6, h7⟩
    · exact absurd b hp
    · have := List.find?_some h1
      exact main m' c' segs' a sz t rfl h2 g2 g3 g5 h4 (by simpa using this) h7
  · obtain ⟨m', c', q, segs', g1, g2, g3, g4, g5, g6⟩ := allocDirty_level hw hlen hk
    simp only [exec, g1] at he; cases he
    rcases g4 with ⟨a, b, c, d, _⟩ | ⟨a, t, h1, h2, h3, sz, h4, h5, h6, h7⟩
    · exact absurd b hp
    · have := List.find?_some h1
      exact main m' c' segs' a sz t rfl h2 g2 g3 g5 h4 (by simpa using this) h7

example : Reach 4 ex2 ∧ Legal 4 ex2 (.alloc 13) ∧ resultOf 4 ex2 (.alloc 13) = some 4220 :=
  ⟨ex2_reach, by show 13 + 2 * 4 ≤ 2 ^ 32; decide, by decide +kernel⟩

/-- A heap with no live block answers every request as a fresh heap in the same place does. -/
theorem C04_as_fresh {w : Nat} (hw : Word w) {s : World} (h : Reach w s) (he : s.top.live = [])
    (hr : Region w s.top.ctx.heapStart s.top.ctx.heapSize) (m : Mem) {n p q : Nat} {s' f' : World}
    (hl : Legal w s (.alloc n)) (h1 : exec w s (.alloc n) = some (s', p))
    (h2 : exec w ⟨(heapInit w m s.top.ctx.heapStart s.top.ctx.heapSize).1,
      ⟨(heapInit w m s.top.ctx.heapStart s.top.ctx.heapSize).2, []⟩, []⟩ (.alloc n) = some (f', q)) : p = q := by
  have hf := Reach.init m _ _ hr
  have hpos : 0 < s.top.ctx.heapSize := by have := hr.2.2.1; have := wpos hw; omega
  have a1 := (C04_one_block hw h (by simp) hpos he).1
  have a2 := (C04_one_block hw hf (l := ⟨(heapInit w m s.top.ctx.heapStart s.top.ctx.heapSize).2, []⟩) (by simp) hpos rfl).1
  have b1 := C05_first_fit hw h (Or.inl rfl) hl h1
  have b2 := C05_first_fit hw hf (Or.inl rfl) (show Legal w _ (.alloc n) from hl) h2
  simp only at a2 b2
  rw [a1] at b1; rw [a2] at b2
  change (_ ∧ _ ∧ (q ≠ 0 → ∃ f ∈ [(s.top.ctx.heapStart, s.top.ctx.heapSize)], _)) at b2
  simp only [List.mem_singleton, forall_eq, exists_eq_left] at b1 b2
  by_cases hp : p = 0
  · rw [hp]; exact (b2.1.mpr (b1.1.mp hp)).symm
  · have hq : q ≠ 0 := fun h => hp (b1.1.mpr (b2.1.mp h))
    have c1 := (b1.2.2 hp).1
    have c2 := (b2.2.2 hq).1
    exact c1.trans c2.symm

/-! ## C06 -/

/-- `fpm_realloc` of a block the program holds. -/
theorem C06_realloc {w : Nat} (hw : Word w) {s s' : World} {p n q : Nat} (h : Reach w s) (hp : p ∈ s.top.live.map (·.1))
    (hl : Legal w s (.realloc p n)) (he : exec w s (.realloc p n) = some (s', q)) :
    (n ≤ sizeOf w s.mem p → q = p ∧ s'.mem = s.mem ∧ s'.top.ctx = s.top.ctx) ∧
    (sizeOf w s.mem p < n →
      (q = 0 ∧ (∀ f ∈ freeBlocks w s.mem s.top.ctx, f.2 < need w n) ∧ exec w s (.free p) = some (s', 0)) ∨
      (q ≠ 0 ∧ q ∉ s.top.live.map (·.1) ∧ p ∉ s'.top.live.map (·.1) ∧
        (∀ i < sizeOf w s.mem p, s'.mem (q + i) = s.mem (p + i)) ∧
        (∀ i, sizeOf w s.mem p ≤ i → i < n → s'.mem (q + i) = 0))) := by
  have hw0 := wpos hw
  obtain ⟨segs, hk⟩ := (reach_ok hw h).1
  have hb := live_block hw0 hk hp
  obtain ⟨m', c', r, segs', g1, g2, g3, g4, g5, g6⟩ := realloc_level hw hl.2 hk hb.1
  rw [show p - w + w = p by omega] at g1 g2 g6
  simp only [exec, g1] at he; cases he
  rcases g6 with ⟨k1, rfl, rfl, rfl⟩ | ⟨k1, k2, rfl, k3⟩ | ⟨k1, k2, k3, k4, k5, k6⟩
  · exact ⟨fun _ => ⟨rfl, rfl, rfl⟩, fun h => by omega⟩
  · refine ⟨fun h => by omega, fun _ => Or.inl ⟨rfl, fun f hf => ?_, ?_⟩⟩
    · rw [freeBlocks_eq hw0 hk] at hf
      rw [← need_eq hw hl.2]
      have := List.find?_eq_none.mp k2 f hf
      simp at this; omega
    · simp only [exec, free]
      rw [if_neg (by omega)]
      simp only [k3, add, if_pos]
  · refine ⟨fun h => by omega, fun _ => Or.inr ⟨k2, k4, ?_, ?_, ?_⟩⟩
    · simp only [add, if_neg k2, List.map_cons, List.mem_cons, not_or, drop]
      refine ⟨fun h => k3 h.symm, ?_⟩
      simp only [List.mem_map, List.mem_filter, not_exists, not_and]
      rintro b ⟨_, hb⟩ rfl
      simp at hb
    · intro i hi
      exact k5 i (by omega)
    · intro i h1 h2
      exact k6 i (by omega) h2

example : Reach 4 ex2 ∧ 4100 ∈ ex2.top.live.map (·.1) ∧ Legal 4 ex2 (.realloc 4100 200) ∧
    resultOf 4 ex2 (.realloc 4100 200) = some 4220 ∧ resultOf 4 ex2 (.realloc 4100 12) = some 4100 ∧
    resultOf 4 ex2 (.realloc 4100 5000) = some 0 :=
  ⟨ex2_reach, by decide +kernel, ⟨Or.inr (by decide +kernel), by decide⟩, by decide +kernel, by decide +kernel,
    by decide +kernel⟩

/-- A NULL pointer is answered with NULL and nothing happens (also when a size is given, unlike
the C library's `realloc`). -/
theorem C06_null {w : Nat} (s : World) (n : Nat) : exec w s (.realloc 0 n) = some ({ s with top := ⟨s.top.ctx, drop 0 s.top.live⟩ }, 0) := by
  simp [exec, realloc, add]

/-! ## C07 -/

/-- What C07 asks of a call `fpm_truncate(p, n)`. -/
def TruncateOk (w : Nat) (s s' : World) (p n : Nat) : Prop :=
  p ∈ s'.top.live.map (·.1) ∧
  sizeOf w s'.mem p ≤ sizeOf w s.mem p ∧
  min n (sizeOf w s.mem p) ≤ sizeOf w s'.mem p ∧
  (∀ i < sizeOf w s'.mem p, s'.mem (p + i) = s.mem (p + i)) ∧
  heapAvailable s'.top.ctx = heapAvailable s.top.ctx + (sizeOf w s.mem p - sizeOf w s'.mem p)

/-- The claim for every `size_t`. -/
def C07_full (w : Nat) : Prop :=
  ∀ (s s' : World) (p n r : Nat), Reach w s → p ∈ s.top.live.map (·.1) → n < 256 ^ w →
    exec w s (.truncate p n) = some (s', r) → TruncateOk w s s' p n

/-- Asking to keep 2^32 - 1 bytes cuts a block down to nothing. -/
theorem C07_violated : ¬ C07_full 4 := by
  intro h
  have e : (exec 4 ex2 (.truncate 4116 4294967295)).map
      (fun x => (sizeOf 4 ex2.mem 4116, sizeOf 4 x.1.mem 4116)) = some (100, 0) := by decide +kernel
  cases hc : exec 4 ex2 (.truncate 4116 4294967295) with
  | none => rw [hc] at e; cases e
  | some x =>
    obtain ⟨s', r⟩ := x
    rw [hc] at e
    simp only [Option.map_some, Option.some.injEq, Prod.mk.injEq] at e
    have := (h ex2 s' 4116 4294967295 r ex2_reach (by decide +kernel) (by decide) hc).2.2.1
    omega

/-- C07 for sizes clear of the wrap-around, with the exact size kept: the block is cut when at
least a header and two words remain over the rounded size. Missing: sizes above 2^32 - 5w, for
which `C07_violated` shows the claim false. -/
theorem C07_truncate_partial {w : Nat} (hw : Word w) {s s' : World} {p n r : Nat} (h : Reach w s)
    (hp : p ∈ s.top.live.map (·.1)) (hl : Legal w s (.truncate p n)) (he : exec w s (.truncate p n) = some (s', r)) :
    TruncateOk w s s' p n ∧
    sizeOf w s'.mem p = (if need w n + 2 * w ≤ sizeOf w s.mem p then need w n - w else sizeOf w s.mem p) := by
  have hw0 := wpos hw
  have hr' : Reach w s' := .step _ _ _ _ h hl he
  obtain ⟨segs, hk⟩ := (reach_ok hw h).1
  have hb := live_block hw0 hk hp
  obtain ⟨m', c', segs', g1, g2, g3, g4, g5, sz, g6, g7, g8, g9⟩ := truncate_level hw hl.2 hk hb.1
  rw [show p - w + w = p by omega] at g1 g2 g9
  simp only [exec, g1] at he; cases he
  have hneed := need_eq (n := n) hw (by have := hl.2; omega)
  obtain ⟨f1, f2, f3, f4, f5⟩ := reqSize_facts (n := n) hw (by have := hl.2; omega)
  have hsz : sizeOf w m' p = sz - w := by
    have := sizeOf_eq hw0 g2 g6
    simp only at this
    rwa [show p - w + w = p by omega] at this
  have a1 : s.top.ctx.freeSize = total (frees segs) := hk.heap.sum
  have a2 : c'.freeSize = total (frees segs') := g2.heap.sum
  rw [← hneed]
  simp only [TruncateOk, hsz, heapAvailable, a1, a2]
  refine ⟨⟨?_, ?_, ?_, ?_, ?_⟩, ?_⟩
  · simp only [List.map_map]
    obtain ⟨b, hb1, rfl⟩ := List.mem_map.mp hp
    refine List.mem_map.mpr ⟨b, hb1, ?_⟩
    simp
  · split at g7 <;> omega
  · split at g7 <;> omega
  · intro i hi
    exact g9 (p + i) (by omega) (by omega)
  · split at g7 <;> omega
  · split at g7
    · rw [if_pos (by omega)]; omega
    · rw [if_neg (by omega)]; omega

example : Reach 4 ex2 ∧ 4116 ∈ ex2.top.live.map (·.1) ∧ Legal 4 ex2 (.truncate 4116 20) ∧
    (exec 4 ex2 (.truncate 4116 20)).map (fun x => sizeOf 4 x.1.mem 4116) = some 20 :=
  ⟨ex2_reach, by decide +kernel, ⟨Or.inr (by decide +kernel), by decide⟩, by decide +kernel⟩

/-! ## C08 -/

/-- A request of more than the whole heap is refused, for every `size_t`. -/
def C08_full (w : Nat) : Prop :=
  ∀ (m : Mem) (start size n : Nat), Region w start size → size < n → n < 256 ^ w →
    ∀ m' c' p, alloc w (heapInit w m start size).1 (heapInit w m start size).2 n = some (m', c', p) → p = 0

/-- It is not: on the Pico a request of 2^32 - 1 bytes is granted, on a 64-bit host one of 2^32
bytes; `fpm_alloc` then zeroes that many bytes, that is, memory past the end of the heap. -/
theorem C08_violated : ¬ C08_full 4 ∧ ¬ C08_full 8 := by
  constructor
  · intro h
    have e : (alloc 4 (heapInit 4 (fun _ => 7) 4096 4096).1 (heapInit 4 (fun _ => 7) 4096 4096).2 4294967295).map
          (fun x => x.2.2) = some 4100 := by decide +kernel
    cases hc : alloc 4 (heapInit 4 (fun _ => 7) 4096 4096).1 (heapInit 4 (fun _ => 7) 4096 4096).2 4294967295 with
    | none => rw [hc] at e; cases e
    | some x =>
      rw [hc] at e
      have := h (fun _ => 7) 4096 4096 4294967295 ⟨by decide, by decide, by decide, by decide⟩ (by decide) (by decide)
        x.1 x.2.1 x.2.2 hc
      simp [this] at e
  · intro h
    have e : (alloc 8 (heapInit 8 (fun _ => 7) 4096 4096).1 (heapInit 8 (fun _ => 7) 4096 4096).2 4294967296).map
          (fun x => x.2.2) = some 4104 := by decide +kernel
    cases hc : alloc 8 (heapInit 8 (fun _ => 7) 4096 4096).1 (heapInit 8 (fun _ => 7) 4096 4096).2 4294967296 with
    | none => rw [hc] at e; cases e
    | some x =>
      rw [hc] at e
      have := h (fun _ => 7) 4096 4096 4294967296 ⟨by decide, by decide, by decide, by decide⟩ (by decide) (by decide)
        x.1 x.2.1 x.2.2 hc
      simp [this] at e

/-- The zero fill of such a request reaches memory outside the heap. -/
theorem C08_writes_outside :
    (alloc 4 (heapInit 4 (fun _ => 7) 4096 4096).1 (heapInit 4 (fun _ => 7) 4096 4096).2 4294967295).map
      (fun x => x.1 100000) = some 0 ∧ (heapInit 4 (fun _ => 7) 4096 4096).1 100000 = 7 := by decide +kernel

/-- Requests clear of the wrap-around that exceed the heap are refused and change nothing, in
every reachable state. Missing: larger sizes, see `C08_violated`. -/
theorem C08_refused_partial {w : Nat} (hw : Word w) {s : World} {n : Nat} (h : Reach w s)
    (hl : Legal w s (.alloc n)) (hn : s.top.ctx.heapSize < n) : exec w s (.alloc n) = some (s, 0) := by
  have hw0 := wpos hw
  obtain ⟨s', p, he, _⟩ := C01_calls_return hw h hl
  obtain ⟨h1, h2, h3⟩ := C05_first_fit hw h (Or.inl rfl) hl he
  have hp : p = 0 := by
    apply h1.mpr
    intro f hf
    obtain ⟨segs, hk⟩ := (reach_ok hw h).1
    rw [freeBlocks_eq hw0 hk] at hf
    have := hk.heap.tile.ordered.mem hf
    rw [← need_eq hw hl]
    have := (reqSize_facts (n := n) hw (by have : n + 2 * w ≤ 2 ^ 32 := hl; omega)).1
    omega
  rw [he, hp, h2 hp]

example : Reach 4 ex3 ∧ Legal 4 ex3 (.alloc 4000000000) ∧ ex3.top.ctx.heapSize < 4000000000 :=
  ⟨ex3_reach, by show 4000000000 + 2 * 4 ≤ 2 ^ 32; decide, by decide +kernel⟩

/-! ## C09 -/

/-- While a nested program (and programs it starts) runs, in whatever way, every byte outside one
free block of the parent keeps its value, and so do the header and the link of that block. Hence
all parents keep their free lists, blocks and contents. -/
theorem C09_child_isolated {w : Nat} (hw : Word w) {s s1 s2 : World} (h : Reach w s)
    (h1 : exec w s .push = some (s1, 1)) (h2 : ChildRun w (s.top :: s.below) s1 s2) :
    (∃ pre, s2.below = pre ++ s.top :: s.below) ∧
    (∃ f ∈ freeBlocks w s.mem s.top.ctx, ∀ x, (x < f.1 + 2 * w ∨ f.1 + f.2 ≤ x) → s2.mem x = s.mem x) ∧
    (∀ l ∈ s.top :: s.below, freeBlocks w s2.mem l.ctx = freeBlocks w s.mem l.ctx ∧
      ∀ p ∈ l.live.map (·.1), sizeOf w s2.mem p = sizeOf w s.mem p ∧
        ∀ i < sizeOf w s.mem p, s2.mem (p + i) = s.mem (p + i)) := by
  have hw0 := wpos hw
  have hok := reach_ok hw h
  obtain ⟨segs, hk⟩ := hok.1
  obtain ⟨s1', r1, he1, ok1⟩ := exec_ok hw hok (op := .push) trivial
  rw [h1] at he1; cases he1
  rcases push_level hw hk with ⟨_, g1⟩ | ⟨e, he, g1, g2, m', c', g3, g4, g5, g6, g7⟩
  · simp only [exec, g1] at h1; cases h1
  · simp only [exec, g3] at h1; cases h1
    obtain ⟨ok2, ⟨pre, hp, _⟩, hfr⟩ := child_frame hw ok1 rfl h2
    simp only [InRegion] at hfr
    rw [g4, g5] at hfr
    have hw8 : w ≤ 8 := by rcases hw with rfl | rfl <;> omega
    have hmem : ∀ x, (x < e.1 + 2 * w ∨ e.1 + e.2 ≤ x) → s2.mem x = s.mem x := by
      intro x hx
      rw [hfr x (by omega), g7 x (by omega)]
    refine ⟨⟨pre, hp⟩, ⟨e, by rw [freeBlocks_eq hw0 hk]; exact he, hmem⟩, ?_⟩
    -- every level of the parents, at `s` and at `s2`
    have hlev : ∀ l ∈ s.top :: s.below, ∃ sg, LevelOk w s.mem l sg ∧ ∃ f ∈ frees sg, f.1 + 2 * w ≤ e.1 + 2 * w ∧ e.1 + e.2 ≤ f.1 + f.2 := by
      intro l hl
      rcases List.mem_cons.mp hl with rfl | hl
      · exact ⟨segs, hk, e, he, Nat.le_refl _, Nat.le_refl _⟩
      · obtain ⟨sg, k1, f, hf, k2, k3⟩ := hok.2.nested hl
        have := hk.heap.tile.ordered.mem he
        exact ⟨sg, k1, f, hf, by omega, by omega⟩
    intro l hl
    obtain ⟨sg, k1, f, hf, k2, k3⟩ := hlev l hl
    have k4 : LevelOk w s2.mem l sg := k1.outside_free hf k2 k3 (fun x hx => hmem x hx)
    refine ⟨by rw [freeBlocks_eq hw0 k1, freeBlocks_eq hw0 k4], ?_⟩
    intro p hpl
    have hb := live_block hw0 k1 hpl
    have hr := k1.heap.busy_range hb.1
    have hd := busy_ne_free k1.heap.tile hb.1 hf
    have ho := k1.heap.tile.ordered.mem hf
    simp only at hd hr
    have hx : ∀ x, p - w ≤ x → x < p + sizeOf w s.mem p → s2.mem x = s.mem x := by
      intro x h1 h2
      exact hmem x (by omega)
    constructor
    · have : load w s2.mem (p - w) = load w s.mem (p - w) := load_congr fun x h1 h2 => hx x h1 (by omega)
      simp only [sizeOf, this]
    · intro i hi
      exact hx (p + i) (by omega) (by omega)

/-- After the nested program ends, the parent's allocator is in the state it was in. -/
theorem C09_pop_restores {w : Nat} (hw : Word w) {s s1 s2 s3 : World} {r : Nat} (h : Reach w s)
    (h1 : exec w s .push = some (s1, 1)) (h2 : ChildRun w (s.top :: s.below) s1 s2)
    (hb : s2.below = s.top :: s.below) (h3 : exec w s2 .pop = some (s3, r)) :
    s3.top = s.top ∧ s3.below = s.below ∧
    (∀ l ∈ s3.top :: s3.below, freeBlocks w s3.mem l.ctx = freeBlocks w s.mem l.ctx ∧
      ∀ p ∈ l.live.map (·.1), sizeOf w s3.mem p = sizeOf w s.mem p ∧
        ∀ i < sizeOf w s.mem p, s3.mem (p + i) = s.mem (p + i)) := by
  have := (C09_child_isolated hw h h1 h2).2.2
  simp only [exec, hb] at h3; cases h3
  exact ⟨rfl, rfl, this⟩

theorem push_below {w : Nat} {s s' : World} (h : exec w s .push = some (s', 1)) : s'.below = s.top :: s.below := by
  simp only [exec] at h
  split at h
  · cases h
  · cases h
  · cases h; rfl

theorem alloc_below {w n p : Nat} {s s' : World} (h : exec w s (.alloc n) = some (s', p)) : s'.below = s.below := by
  simp only [exec] at h
  split at h
  · cases h
  · cases h; rfl

/-- A nested program that allocates and writes. -/
example : ∃ s2, Reach 4 ex3 ∧ exec 4 ex3 .push = some (ex4, 1) ∧ ChildRun 4 (ex3.top :: ex3.below) ex4 s2 ∧
    s2.mem 4228 = 99 ∧ s2.below = ex3.top :: ex3.below := by
  have e4 : exec 4 ex3 .push = some (ex4, 1) := step_of_result _ (by decide +kernel)
  have e5 : exec 4 ex4 (.alloc 24) = some (ex5, 4228) := step_of_result _ (by decide +kernel)
  have hb4 := push_below e4
  have hb5 := alloc_below e5
  have hlv : 4228 ∈ ex5.top.live.map (·.1) := by decide +kernel
  have hsz : 4228 < 4228 + sizeOf 4 ex5.mem 4228 := by decide +kernel
  refine ⟨{ ex5 with mem := fun x => if x = 4228 then 99 else ex5.mem x }, ex3_reach, e4, ?_, rfl, by rw [← hb4, ← hb5]⟩
  have r5 : ChildRun 4 (ex3.top :: ex3.below) ex4 ex5 := by
    refine ChildRun.step _ _ _ (.alloc 24) 4228 (.refl _) ?_ (fun _ _ h => by cases h) e5 ⟨[], ?_⟩
    · show 24 + 2 * 4 ≤ 2 ^ 32; decide
    · rw [hb5, hb4]; rfl
  refine ChildRun.step _ _ _ (.store 4228 99) 0 r5 ?_ ?_ rfl ⟨[], ?_⟩
  · exact ⟨ex5.top, by simp, 4228, hlv, by omega, hsz⟩
  · rintro a b h
    cases h
    exact ⟨ex5.top, 4228, Or.inl rfl, hlv, by omega, hsz⟩
  · simp only; rw [hb5, hb4]; rfl

/-! ## C10 -/

/-- `fpm_context_push` uses a largest free block, and refuses exactly when all are smaller than
1024 bytes. -/
theorem C10_push {w : Nat} (hw : Word w) {s s' : World} {r : Nat} (h : Reach w s) (he : exec w s .push = some (s', r)) :
    (r = 0 ↔ ∀ f ∈ freeBlocks w s.mem s.top.ctx, f.2 < 1024) ∧
    (r = 0 → s' = s) ∧
    (r ≠ 0 → s'.below = s.top :: s.below ∧ s'.top.live = [] ∧
      ∃ f ∈ freeBlocks w s.mem s.top.ctx, (∀ g ∈ freeBlocks w s.mem s.top.ctx, g.2 ≤ f.2) ∧
        s'.top.ctx.heapStart = f.1 + 2 * w ∧ s'.top.ctx.heapSize = f.2 - 2 * w ∧
        freeBlocks w s'.mem s'.top.ctx = [(f.1 + 2 * w, f.2 - 2 * w)] ∧
        heapAvailable s'.top.ctx = f.2 - 2 * w) := by
  have hw0 := wpos hw
  obtain ⟨segs, hk⟩ := (reach_ok hw h).1
  rw [freeBlocks_eq hw0 hk]
  rcases push_level hw hk with ⟨g0, g1⟩ | ⟨e, he', g1, g2, m', c', g3, g4, g5, g6, g7⟩
  · simp only [exec, g1] at he; cases he
    exact ⟨⟨fun _ => g0, fun _ => rfl⟩, fun _ => rfl, fun h => absurd rfl h⟩
  · simp only [exec, g3] at he; cases he
    refine ⟨⟨fun h => by omega, fun h => ?_⟩, fun h => by omega, fun _ => ⟨rfl, rfl, e, he', g1, g4, g5, ?_, ?_⟩⟩
    · have := h e he'; omega
    · exact freeBlocks_eq hw0 g6
    · have : c'.freeSize = total (frees [⟨e.1 + 2 * w, e.2 - 2 * w, true⟩]) := g6.heap.sum
      rw [heapAvailable, this]; simp [total, frees]

example : Reach 4 ex3 ∧ resultOf 4 ex3 .push = some 1 ∧ ex4.top.ctx.heapStart = 4224 ∧ ex4.top.ctx.heapSize = 3968 :=
  ⟨ex3_reach, by decide +kernel, by decide +kernel, by decide +kernel⟩

end Fpm.Alloc
