import Verif.Elfexe.Model
import Verif.Elfexe.Spec
/-!
# Lemmas on the linkage table
-/
namespace Fpm.Elfexe
open Fpm.Elfexe.Spec

theorem at_nil (c : List Nat) (o : Nat) : At c o [] := List.nil_prefix

theorem at_cons (c : List Nat) (o v : Nat) (l : List Nat) : At c o (v :: l) ↔ c[o]? = some v ∧ At c (o + 1) l := by
  unfold At
  constructor
  · rintro ⟨t, h⟩
    rw [List.cons_append] at h
    have h0 : c[o]? = some v := by
      have := List.getElem?_drop (xs := c) (i := o) (j := 0)
      rw [← h] at this
      simpa using this.symm
    refine ⟨h0, t, ?_⟩
    have := congrArg (List.drop 1) h
    rwa [List.drop_succ_cons, List.drop_zero, List.drop_drop] at this
  · rintro ⟨h, t, h'⟩
    refine ⟨t, ?_⟩
    obtain ⟨hl, rfl⟩ := List.getElem?_eq_some_iff.mp h
    rw [List.drop_eq_getElem_cons hl, List.cons_append, h']

theorem same_cons (c : List Nat) (o v : Nat) (r : List (Nat × Nat)) : same c ((o, v) :: r) = some true ↔ c[o]? = some v ∧ same c r = some true := by
  rw [same]
  cases c[o]? with
  | none => simp
  | some b =>
    simp only [Option.some.injEq]
    by_cases h : b = v
    · rw [if_pos h]; simp [h]
    · rw [if_neg h]; simp [h]

theorem same_nil (c : List Nat) : same c [] = some true := rfl

/-- Inside of the code the comparison is decided. -/
theorem same_def (c : List Nat) : ∀ r : List (Nat × Nat), (∀ x ∈ r, x.1 < c.length) → ∃ b, same c r = some b
  | [], _ => ⟨true, rfl⟩
  | (o, v) :: r, h => by
    have ho := h (o, v) (by simp)
    rw [same, List.getElem?_eq_getElem ho]
    simp only
    split
    · exact same_def c r fun x hx => h x (by simp [hx])
    · exact ⟨false, rfl⟩

theorem tracked_iff (c : List Nat) : isAmd64Entry c = some true ∧ 16 ≤ c.length ↔ Amd64Tracked c := by
  unfold isAmd64Entry Amd64Tracked
  simp only [same_cons, same_nil, at_cons, at_nil, and_true, and_assoc]

theorem simple_iff (c : List Nat) : isAmd64Entry2 c = some true ∧ 16 ≤ c.length ↔ Amd64Simple c := by
  unfold isAmd64Entry2 Amd64Simple
  simp only [same_cons, same_nil, at_cons, at_nil, and_true, and_assoc]

theorem preamble_iff (c : List Nat) : isAmd64Preamble c = some true ↔ Amd64Preamble c := by
  unfold isAmd64Preamble Amd64Preamble
  simp only [same_cons, same_nil, at_cons, at_nil, and_true, and_assoc]

theorem rd_val : ∀ (n : Nat) (c : List Nat) , n ≤ c.length → rd c n = some (val (c.take n))
  | 0, _, _ => by rw [rd.eq_def]; simp [val]
  | n + 1, [], h => by simp at h
  | n + 1, b :: c, h => by
    rw [rd, rd_val n c (by simpa using h)]
    rfl

theorem rd_none : ∀ (n : Nat) (c : List Nat), ¬ n ≤ c.length → rd c n = none
  | 0, _, h => by simp at h
  | n + 1, [], _ => rfl
  | n + 1, b :: c, h => by
    rw [rd, rd_none n c (by simpa using h)]
    rfl

theorem sameWords_cons (c : List Nat) (o mask v : Nat) (r : List (Nat × Nat × Nat)) : sameWords c ((o, mask, v) :: r) = some true ↔ WordAt c o mask v ∧ sameWords c r = some true := by
  rw [sameWords]
  unfold WordAt
  by_cases h : 4 ≤ (c.drop o).length
  · rw [rd_val 4 _ h]
    have h' : o + 4 ≤ c.length := by simp at h; omega
    simp only
    by_cases hv : val ((c.drop o).take 4) &&& mask = v
    · rw [if_pos hv]; simp [hv, h']
    · rw [if_neg hv]; simp [hv]
  · rw [rd_none 4 _ h]
    have h' : ¬ o + 4 ≤ c.length := by simp at h; omega
    simp [h']

theorem sameWords_nil (c : List Nat) : sameWords c [] = some true := rfl

theorem sameWords_def (c : List Nat) : ∀ r : List (Nat × Nat × Nat), (∀ x ∈ r, x.1 + 4 ≤ c.length) → ∃ b, sameWords c r = some b
  | [], _ => ⟨true, rfl⟩
  | (o, mask, v) :: r, h => by
    have ho := h (o, mask, v) (by simp)
    rw [sameWords, rd_val 4 _ (by simp at ho ⊢; omega)]
    simp only
    split
    · exact sameWords_def c r fun x hx => h x (by simp [hx])
    · exact ⟨false, rfl⟩

theorem arm64_iff (c : List Nat) : isArm64Entry c = some true ↔ Arm64Entry c := by
  unfold isArm64Entry Arm64Entry
  simp only [sameWords_cons, sameWords_nil, and_true]

theorem arm32_iff (c : List Nat) : isArm32Entry c = some true ↔ Arm32Entry c := by
  unfold isArm32Entry Arm32Entry
  simp only [sameWords_cons, sameWords_nil, and_true]

/-! ## The loop -/

theorem getElem?_behind (l c : List Nat) (x : Nat) : (l ++ c)[x]? = if x < l.length then l[x]? else c[x - l.length]? := by
  split
  · rename_i h; rw [List.getElem?_append_left h]
  · rename_i h; rw [List.getElem?_append_right (by omega)]

/-- Steps that rewrite imports and leave others alone; for numbers below `B`. -/
structure Good (step : List Nat → Nat → Step) (size B : Nat) (imp other : List Nat → Prop) (jump : List Nat → Nat → Prop) : Prop where
  pos : 0 < size
  patch : ∀ c i bs, step c i = .patch bs → imp c ∧ bs.length = size ∧ size ≤ c.length ∧ (i < B → jump bs i)
  skip : ∀ c i, step c i = .skip → other c ∧ size ≤ c.length

theorem loop_spec {step : List Nat → Nat → Step} {size B : Nat} {imp other : List Nat → Prop} {jump : List Nat → Nat → Prop} (hs : Good step size B imp other jump) :
    ∀ (n : Nat) (c : List Nat) (i : Nat) (c' : List Nat) (k : Nat), i + n ≤ B → loop step size n c i = .ok c' k → Rewritten size n i imp other jump c c' k
  | 0, c, i, c', k, _, h => by
    rw [loop] at h
    cases h
    exact ⟨rfl, [], by simp, List.Pairwise.nil, by simp, by simp, by simp, fun x _ => rfl⟩
  | n + 1, c, i, c', k, hB, h => by
    rw [loop] at h
    have hp := hs.pos
    have hdrop : ∀ (d e : List Nat) (m : Nat), d.length = size → (d ++ e).drop ((m + 1) * size) = e.drop (m * size) := by
      intro d e m hd
      rw [Nat.add_mul, Nat.one_mul, Nat.add_comm, ← List.drop_drop, ← hd, List.drop_left]
    have hcdrop : ∀ m, (c.drop size).drop (m * size) = c.drop ((m + 1) * size) := by
      intro m
      rw [List.drop_drop, Nat.add_mul, Nat.one_mul, Nat.add_comm]
    cases hst : step c i with
    | ub => rw [hst] at h; cases h
    | bad => rw [hst] at h; cases h
    | skip =>
      rw [hst] at h
      simp only at h
      obtain ⟨ho, hl⟩ := hs.skip c i hst
      cases hr : loop step size n (c.drop size) i with
      | ub => rw [hr] at h; cases h
      | bad d => rw [hr] at h; cases h
      | ok d k' =>
        rw [hr] at h
        cases h
        obtain ⟨h1, ps, h2, h3, h4, h5, h6, h7⟩ := loop_spec hs n (c.drop size) i d k (by omega) hr
        have htl : (c.take size).length = size := by simp; omega
        refine ⟨by simp [h1]; omega, ps.map (· + 1), by simpa using h2, ?_, ?_, ?_, ?_, ?_⟩
        · exact List.pairwise_map.mpr (h3.imp fun h => by omega)
        · intro m hm
          obtain ⟨m', hm', rfl⟩ := List.mem_map.mp hm
          have := h4 m' hm'
          omega
        · intro m hm
          cases m with
          | zero =>
            rw [if_neg (by simp), Nat.zero_mul, List.drop_zero]
            exact ho
          | succ m =>
            have := h5 m (by omega)
            have hiff : m + 1 ∈ ps.map (· + 1) ↔ m ∈ ps := by simp
            rw [← hcdrop]
            by_cases hin : m ∈ ps
            · rw [if_pos hin] at this; rw [if_pos (hiff.mpr hin)]; exact this
            · rw [if_neg hin] at this; rw [if_neg fun h => hin (hiff.mp h)]; exact this
        · intro j m hj
          rw [List.getElem?_map] at hj
          cases hps : ps[j]? with
          | none => rw [hps] at hj; cases hj
          | some m' =>
            rw [hps] at hj
            cases hj
            rw [hdrop _ _ m' htl]
            exact h6 j m' hps
        · intro x hx
          rw [getElem?_behind, htl]
          by_cases hlt : x < size
          · rw [if_pos hlt, List.getElem?_take_of_lt hlt]
          · rw [if_neg hlt, h7 (x - size), List.getElem?_drop]
            · congr 1; omega
            · intro m hm hmx
              refine hx (m + 1) (List.mem_map.mpr ⟨m, hm, rfl⟩) ?_
              rw [Nat.add_mul, Nat.one_mul]
              omega
    | patch bs =>
      rw [hst] at h
      simp only at h
      obtain ⟨hi, hbl, hl, hj⟩ := hs.patch c i bs hst
      cases hr : loop step size n (c.drop size) (i + 1) with
      | ub => rw [hr] at h; cases h
      | bad d => rw [hr] at h; cases h
      | ok d k' =>
        rw [hr] at h
        cases h
        obtain ⟨h1, ps, h2, h3, h4, h5, h6, h7⟩ := loop_spec hs n (c.drop size) (i + 1) d k (by omega) hr
        refine ⟨by simp [h1, hbl]; omega, 0 :: ps.map (· + 1), by simp; omega, ?_, ?_, ?_, ?_, ?_⟩
        · refine List.pairwise_cons.mpr ⟨fun m hm => ?_, List.pairwise_map.mpr (h3.imp fun h => by omega)⟩
          obtain ⟨m', _, rfl⟩ := List.mem_map.mp hm
          omega
        · intro m hm
          rcases List.mem_cons.mp hm with rfl | hm
          · omega
          · obtain ⟨m', hm', rfl⟩ := List.mem_map.mp hm
            have := h4 m' hm'
            omega
        · intro m hm
          cases m with
          | zero =>
            rw [if_pos (by simp), Nat.zero_mul, List.drop_zero]
            exact hi
          | succ m =>
            have := h5 m (by omega)
            have hiff : m + 1 ∈ 0 :: ps.map (· + 1) ↔ m ∈ ps := by simp
            rw [← hcdrop]
            by_cases hin : m ∈ ps
            · rw [if_pos hin] at this; rw [if_pos (hiff.mpr hin)]; exact this
            · rw [if_neg hin] at this; rw [if_neg fun h => hin (hiff.mp h)]; exact this
        · intro j m hjm
          cases j with
          | zero =>
            cases hjm
            rw [Nat.zero_mul, List.drop_zero, List.take_append_of_le_length (by omega), List.take_of_length_le (by omega)]
            exact hj (by omega)
          | succ j =>
            rw [List.getElem?_cons_succ, List.getElem?_map] at hjm
            cases hps : ps[j]? with
            | none => rw [hps] at hjm; cases hjm
            | some m' =>
              rw [hps] at hjm
              cases hjm
              rw [hdrop _ _ m' hbl]
              have := h6 j m' hps
              rwa [Nat.add_right_comm] at this
        · intro x hx
          have h0 := hx 0 (by simp)
          rw [getElem?_behind, hbl, if_neg (by omega), h7 (x - size), List.getElem?_drop]
          · congr 1; omega
          · intro m hm hmx
            refine hx (m + 1) (by simp [hm]) ?_
            rw [Nat.add_mul, Nat.one_mul]
            omega

/-- Tables of good entries are processed. -/
theorem loop_ok {step : List Nat → Nat → Step} {size : Nat} {ok : List Nat → Prop} (hs : ∀ c i, ok c → step c i = .skip ∨ ∃ bs, step c i = .patch bs) :
    ∀ (n : Nat) (c : List Nat) (i : Nat), (∀ m < n, ok (c.drop (m * size))) → ∃ c' k, loop step size n c i = .ok c' k
  | 0, c, i, _ => ⟨c, i, rfl⟩
  | n + 1, c, i, h => by
    have h0 := h 0 (by omega)
    rw [Nat.zero_mul, List.drop_zero] at h0
    have hr : ∀ i, ∃ c' k, loop step size n (c.drop size) i = .ok c' k := fun i => loop_ok hs n (c.drop size) i fun m hm => by
      have := h (m + 1) (by omega)
      rwa [Nat.add_mul, Nat.one_mul, Nat.add_comm, ← List.drop_drop] at this
    rw [loop]
    rcases hs c i h0 with e | ⟨bs, e⟩
    · rw [e]
      obtain ⟨c', k, e'⟩ := hr i
      simp only
      rw [e']
      exact ⟨_, _, rfl⟩
    · rw [e]
      obtain ⟨c', k, e'⟩ := hr (i + 1)
      simp only
      rw [e']
      exact ⟨_, _, rfl⟩

theorem write_patch {c bs bs' : List Nat} (h : write c bs = .patch bs') : bs' = bs ∧ bs.length ≤ c.length := by
  unfold write at h
  split at h
  · cases h; exact ⟨rfl, by assumption⟩
  · cases h

theorem write_skip {c bs : List Nat} (h : write c bs = .skip) : False := by
  unfold write at h
  split at h <;> cases h

theorem val_le32 {v : Nat} (h : v < 2 ^ 32) : val (le32 v) = v := by
  simp only [le32, val]
  omega

theorem le32_bytes (v : Nat) : ∀ b ∈ le32 v, b < 256 := by
  intro b hb
  simp only [le32, List.mem_cons, List.not_mem_nil, or_false] at hb
  omega

theorem preamble_length {c : List Nat} (h : Amd64Preamble c) : 16 ≤ c.length := by
  have := h.2.2
  unfold At at this
  have := this.length_le
  simp at this
  omega

theorem amd64_good : Good amd64Step 16 (2 ^ 28) (fun c => Amd64Tracked c ∨ Amd64Simple c) Amd64Preamble (fun bs i => JumpAmd64 bs (8 * i)) := by
  have hj : ∀ (i : Nat) (t : List Nat), i < 2 ^ 28 → JumpAmd64 ([0x65, 0xff, 0x24, 0x25] ++ le32 (i * 8 % 2 ^ 32) ++ t) (8 * i) := by
    intro i t hi
    have hm : i * 8 % 2 ^ 32 = 8 * i := by omega
    have hv := val_le32 (v := 8 * i) (by omega)
    rw [hm]
    have := JumpAmd64.jmp (d := le32 (8 * i)) (c := t) rfl (le32_bytes _) (by rw [hv]; omega)
    rwa [hv] at this
  refine ⟨by decide, fun c i bs h => ?_, fun c i h => ?_⟩
  · unfold amd64Step at h
    split at h
    · cases h
    · cases h
    · split at h
      · cases h
      · rename_i he
        obtain ⟨rfl, hl⟩ := write_patch h
        have hl' : 16 ≤ c.length := hl
        refine ⟨.inl ((tracked_iff c).mp ⟨he, hl'⟩), rfl, hl', fun hi => ?_⟩
        exact .endbr (hj i [0x0f, 0x1f, 0x04, 0x00] hi)
      · split at h
        · cases h
        · rename_i he
          obtain ⟨rfl, hl⟩ := write_patch h
          have hl' : 16 ≤ c.length := hl
          refine ⟨.inr ((simple_iff c).mp ⟨he, hl'⟩), rfl, hl', fun hi => ?_⟩
          exact hj i _ hi
        · split at h <;> cases h
  · unfold amd64Step at h
    split at h
    · cases h
    · rename_i he
      have := (preamble_iff c).mp he
      exact ⟨this, preamble_length this⟩
    · split at h
      · cases h
      · exact (write_skip h).elim
      · split at h
        · cases h
        · exact (write_skip h).elim
        · split at h <;> cases h

theorem amd64_ok (c : List Nat) (i : Nat) (h : Amd64Tracked c ∨ Amd64Simple c ∨ Amd64Preamble c) : amd64Step c i = .skip ∨ ∃ bs, amd64Step c i = .patch bs := by
  have hl : 16 ≤ c.length := by
    rcases h with h | h | h
    · exact h.2.2.2
    · exact h.2
    · exact preamble_length h
  obtain ⟨b1, e1⟩ : ∃ b, isAmd64Preamble c = some b := same_def c _ (by simp; omega)
  obtain ⟨b2, e2⟩ : ∃ b, isAmd64Entry c = some b := same_def c _ (by simp; omega)
  obtain ⟨b3, e3⟩ : ∃ b, isAmd64Entry2 c = some b := same_def c _ (by simp; omega)
  unfold amd64Step
  rw [e1]
  cases b1 with
  | true => exact .inl rfl
  | false =>
    simp only
    rw [e2]
    cases b2 with
    | true => exact .inr ⟨amd64Stub i, by simp only; unfold write; rw [if_pos (show (amd64Stub i).length ≤ c.length from hl)]⟩
    | false =>
      simp only
      rw [e3]
      cases b3 with
      | true => exact .inr ⟨amd64Stub2 i, by simp only; unfold write; rw [if_pos (show (amd64Stub2 i).length ≤ c.length from hl)]⟩
      | false =>
        exfalso
        rcases h with h | h | h
        · have := ((tracked_iff c).mpr h).1; rw [e2] at this; cases this
        · have := ((simple_iff c).mpr h).1; rw [e3] at this; cases this
        · have := (preamble_iff c).mpr h; rw [e1] at this; cases this

theorem arm64_jump : ∀ i < 512, runArm64 (words (arm64Stub i)) (fun _ => .other) = some (8 * i) := by decide +kernel

theorem arm32_jump_table : ∀ a < 64, ∀ b < 64, runArm32 (words (arm32Stub (64 * a + b))) (fun _ => .other) = some (64 * a + b) := by decide +kernel

theorem arm32_jump (i : Nat) (h : i < 4096) : runArm32 (words (arm32Stub i)) (fun _ => .other) = some i := by
  have := arm32_jump_table (i / 64) (by omega) (i % 64) (by omega)
  rwa [show 64 * (i / 64) + i % 64 = i by omega] at this

theorem arm64_good : Good arm64Step 16 512 Arm64Entry (fun _ => False) (fun bs i => JumpArm64 bs (8 * i)) := by
  refine ⟨by decide, fun c i bs h => ?_, fun c i h => ?_⟩
  · unfold arm64Step at h
    split at h
    · cases h
    · rename_i he
      obtain ⟨rfl, hl⟩ := write_patch h
      exact ⟨(arm64_iff c).mp he, rfl, hl, arm64_jump i⟩
    · split at h <;> cases h
  · unfold arm64Step at h
    split at h
    · cases h
    · exact (write_skip h).elim
    · split at h <;> cases h

theorem arm64_ok (c : List Nat) (i : Nat) (h : Arm64Entry c) : arm64Step c i = .skip ∨ ∃ bs, arm64Step c i = .patch bs := by
  have hl : 16 ≤ c.length := h.2.2.2.1
  unfold arm64Step
  rw [(arm64_iff c).mpr h]
  exact .inr ⟨arm64Stub i, by simp only; unfold write; rw [if_pos (show (arm64Stub i).length ≤ c.length from hl)]⟩

theorem arm32_good : Good arm32Step 12 4096 Arm32Entry (fun _ => False) (fun bs i => JumpArm32 bs i) := by
  refine ⟨by decide, fun c i bs h => ?_, fun c i h => ?_⟩
  · unfold arm32Step at h
    split at h
    · cases h
    · rename_i he
      obtain ⟨rfl, hl⟩ := write_patch h
      exact ⟨(arm32_iff c).mp he, rfl, hl, arm32_jump i⟩
    · split at h <;> cases h
  · unfold arm32Step at h
    split at h
    · cases h
    · exact (write_skip h).elim
    · split at h <;> cases h

theorem arm32_ok (c : List Nat) (i : Nat) (h : Arm32Entry c) : arm32Step c i = .skip ∨ ∃ bs, arm32Step c i = .patch bs := by
  have hl : 12 ≤ c.length := h.2.2.1
  unfold arm32Step
  rw [(arm32_iff c).mpr h]
  exact .inr ⟨arm32Stub i, by simp only; unfold write; rw [if_pos (show (arm32Stub i).length ≤ c.length from hl)]⟩

/-! ## The file -/

/-- What is behind the bytes of a result. -/
theorem behind_ok {l c' : List Nat} {o : Out} {k : Nat} (h : o.behind l = .ok c' k) : ∃ d, o = .ok d k ∧ c' = l ++ d := by
  cases o with
  | ub => cases h
  | bad => cases h
  | ok d n => cases h; exact ⟨d, rfl, rfl⟩

theorem preamble32_spec : ∀ (n : Nat) (c : List Nat) (k : Nat), preamble32 n c = some k → k ≤ n ∧ ∀ j < k, ¬ Arm32Entry (c.drop (4 * j))
  | 0, c, k, h => by cases h; simp
  | n + 1, c, k, h => by
    rw [preamble32] at h
    split at h
    · cases h
    · cases h; simp
    · rename_i he
      cases hr : preamble32 n (c.drop 4) with
      | none => rw [hr] at h; cases h
      | some k' =>
        rw [hr] at h
        cases h
        obtain ⟨h1, h2⟩ := preamble32_spec n (c.drop 4) k' hr
        refine ⟨Nat.succ_le_succ h1, fun j hj => ?_⟩
        have hj : j < k' + 1 := hj
        cases j with
        | zero => rw [Nat.mul_zero, List.drop_zero, ← arm32_iff, he]; simp
        | succ j =>
          have := h2 j (by omega)
          rwa [List.drop_drop, Nat.add_comm, show 4 * j + 4 = 4 * (j + 1) by omega] at this

end Fpm.Elfexe
