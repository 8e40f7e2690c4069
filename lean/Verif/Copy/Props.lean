import Verif.Copy.Spec

/-!
# Properties of copying (C61) and of destination paths (C62)
-/
namespace Fpm.Copy
open Fpm.Copy.Spec

/-! ## C61 Copying a file copies every byte -/

theorem readCount_le (size rest k : Nat) : readCount size rest k ≤ rest := by
  unfold readCount; omega

theorem readCount_zero (size rest k : Nat) (h : 0 < size) : readCount size rest k = 0 ↔ rest = 0 := by
  unfold readCount; omega

/-- The loop ends, stores a prefix, and stores everything exactly if there is no message. -/
theorem copyLoop_spec (e : Env) (size fuel i : Nat) (rest out : List Nat) (hs : 0 < size)
    (hf : rest.length < fuel) :
    ∃ d m, copyLoop e size fuel i rest out = some (d, m) ∧ d <+: out ++ rest ∧
      (m = none → d = out ++ rest) ∧
      ((∀ j, e.read j ≠ none) → (∀ j, (e.write j).1 = true ∧ size ≤ (e.write j).2) → m = none) := by
  induction fuel generalizing i rest out with
  | zero => omega
  | succ fuel ih =>
    rw [copyLoop]
    cases hr : e.read i with
    | none =>
      exact ⟨out, some .readError, rfl, List.prefix_append _ _, by simp, fun h _ => absurd hr (h i)⟩
    | some k =>
      simp only []
      by_cases h0 : readCount size rest.length k = 0
      · rw [if_pos h0]
        rw [readCount_zero _ _ _ hs] at h0
        have : rest = [] := by simpa using h0
        subst this
        exact ⟨out, none, rfl, by simp, by simp, by simp⟩
      · rw [if_neg h0]
        have hpre : ∀ w, out ++ (rest.take (readCount size rest.length k)).take w <+: out ++ rest := by
          intro w
          rw [List.take_take]
          exact (List.prefix_append_right_inj out).mpr (List.take_prefix _ _)
        have hle := readCount_le size rest.length k
        cases hw : (e.write i).1 with
        | false =>
          rw [if_pos rfl]
          exact ⟨_, _, rfl, hpre _, by simp, fun _ h => by have := (h i).1; rw [hw] at this; cases this⟩
        | true =>
          rw [if_neg (by simp)]
          by_cases hs' : min (readCount size rest.length k) (e.write i).2 ≠
              readCount size rest.length k
          · rw [if_pos hs']
            refine ⟨_, _, rfl, hpre _, by simp, fun _ h => ?_⟩
            have := (h i).2
            have hc : readCount size rest.length k ≤ size := by unfold readCount; omega
            omega
          · rw [if_neg hs']
            obtain ⟨d, m, h1, h2, h3, h4⟩ := ih (i + 1) (rest.drop (readCount size rest.length k))
              (out ++ rest.take (readCount size rest.length k)) (by simp; omega)
            rw [List.append_assoc, List.take_append_drop] at h2 h3
            exact ⟨d, m, h1, h2, h3, h4⟩

/-- Full claim: no error message means an identical copy. -/
def C61_full : Prop := ∀ (e : Env) (verbose : Bool) (src : List Nat), ∃ d msgs,
  copyFile e verbose (src.length + 1) src = some (d, msgs) ∧
    ((∀ m ∈ msgs, m = .copied) → d = src)

/-- The results of `f_close` are ignored: a copy whose last sector or directory entry cannot be
flushed is reported as copied. -/
theorem C61_violated : ¬ C61_full := by
  intro h
  obtain ⟨d, msgs, h1, h2⟩ := h ⟨fun _ => some 4096, fun _ => (true, 4096), true, false, []⟩ true [65]
  have : copyFile ⟨fun _ => some 4096, fun _ => (true, 4096), true, false, []⟩ true 2 [65] =
      some ([], [.copied]) := by decide
  rw [show [65].length + 1 = 2 from rfl, this] at h1
  simp only [Option.some.injEq, Prod.mk.injEq] at h1
  rw [← h1.1, ← h1.2] at h2
  simp at h2

/-- Missing for the full claim: failure to close the destination.  If closing succeeds then, for
every file and every pattern of short reads, the copy is identical if no error is reported; a short
or failed write or a failed read is always reported, and what is stored then is a prefix. -/
theorem C61_copy_partial (e : Env) (verbose : Bool) (src : List Nat) (hc : e.closeDstOk = true) :
    ∃ d msgs, copyFile e verbose (src.length + 1) src = some (d, msgs) ∧ d <+: src ∧
      ((∀ m ∈ msgs, m = .copied) → d = src) ∧
      (d ≠ src → msgs = [.readError] ∨ msgs = [.writeError] ∨ msgs = [.noSpace]) ∧
      ((∀ j, e.read j ≠ none) → (∀ j, (e.write j).1 = true ∧ 4096 ≤ (e.write j).2) →
        d = src ∧ msgs = if verbose then [.copied] else []) := by
  obtain ⟨d, m, h1, h2, h3, h4⟩ := copyLoop_spec e 4096 (src.length + 1) 0 src [] (by decide)
    (by omega)
  simp only [List.nil_append] at h2 h3
  have hm : m ≠ some .copied := by
    intro hm
    have : ∀ fuel i rest out d, copyLoop e 4096 fuel i rest out ≠ some (d, some .copied) := by
      intro fuel
      induction fuel with
      | zero => intro i rest out d h; cases h
      | succ fuel ih =>
        intro i rest out d h
        rw [copyLoop] at h
        cases hr : e.read i with
        | none => rw [hr] at h; simp at h
        | some k =>
          rw [hr] at h
          simp only [] at h
          split at h
          · simp at h
          · split at h
            · simp at h
            · split at h
              · simp at h
              · exact ih _ _ _ _ h
    exact this _ _ _ _ _ (hm ▸ h1)
  unfold copyFile
  rw [h1]
  simp only [Option.map_some, hc, if_true]
  refine ⟨d, _, rfl, h2, ?_, ?_, ?_⟩
  · intro hall
    cases m with
    | none => exact h3 rfl
    | some m =>
      have := hall m (by simp)
      exact absurd (by rw [this]) hm
  · intro hne
    cases m with
    | none => exact absurd (h3 rfl) hne
    | some m => cases m <;> simp at hm ⊢
  · intro ha hb
    have := h4 ha hb
    subst this
    exact ⟨h3 rfl, rfl⟩

example : copyFile ⟨fun i => some (i + 1), fun _ => (true, 4096), true, true, []⟩ true 4 [7, 8, 9] =
    some ([7, 8, 9], [.copied]) := by decide

/-! ## C62 Copying into a directory appends each source's own base name -/

theorem skipSlashes_eq (pre sl : List Nat) (c : Nat) (hc : c ≠ 47) (hs : ∀ x ∈ sl, x = 47)
    (k : Nat) (hk : k ≤ sl.length) :
    skipSlashes (pre ++ [c] ++ sl) (pre.length + 1 + k) = pre.length + 1 := by
  induction k with
  | zero =>
    rw [Nat.add_zero, skipSlashes, if_neg]
    rw [List.append_assoc, List.getElem?_append_right (Nat.le_refl _)]
    simp [hc]
  | succ k ih =>
    rw [← Nat.add_assoc, skipSlashes, if_pos]
    · exact ih (by omega)
    · rw [List.getElem?_append_right (by simp)]
      simp only [List.length_append, List.length_cons, List.length_nil, Nat.zero_add,
        Nat.add_sub_cancel_left]
      rw [List.getElem?_eq_getElem (by omega), hs _ (List.getElem_mem _)]

theorem skipName_eq (pre name rest : List Nat) (hp : pre = [] ∨ pre.getLast? = some 47)
    (hn : 47 ∉ name) (k : Nat) (hk : k ≤ name.length) :
    skipName (pre ++ name ++ rest) (pre.length + k) = pre.length := by
  induction k with
  | zero =>
    rcases hp with rfl | hp
    · rfl
    · obtain ⟨q, rfl⟩ : ∃ q, pre = q ++ [47] := by
        rw [List.getLast?_eq_some_iff] at hp
        exact hp
      rw [Nat.add_zero, List.length_append, List.length_singleton, skipName, if_neg]
      rw [List.append_assoc, List.append_assoc, List.getElem?_append_right (Nat.le_refl _)]
      simp
  | succ k ih =>
    rw [← Nat.add_assoc, skipName, if_pos]
    · exact ih (by omega)
    · rw [List.append_assoc, List.getElem?_append_right (by omega), Nat.add_sub_cancel_left,
        List.getElem?_append_left (by omega), List.getElem?_eq_getElem (by omega)]
      intro h
      simp only [Option.some.injEq] at h
      exact hn (h ▸ List.getElem_mem _)

/-- Both loops find the last component. -/
theorem lastPart_eq (s name sl : List Nat) (h : Last s name sl) : lastPart s = name ++ sl := by
  obtain ⟨pre, rfl, hp, h0, hn, hs⟩ := h
  rcases List.eq_nil_or_concat name with rfl | ⟨q, c, rfl⟩
  · exact absurd rfl h0
  rw [List.concat_eq_append] at *
  have hc : c ≠ 47 := by intro e; simp [e] at hn
  have h1 : skipSlashes (pre ++ (q ++ [c]) ++ sl) (pre ++ (q ++ [c]) ++ sl).length =
      pre.length + (q ++ [c]).length := by
    have := skipSlashes_eq (pre ++ q) sl c hc hs sl.length (Nat.le_refl _)
    rw [show pre ++ (q ++ [c]) ++ sl = pre ++ q ++ [c] ++ sl by simp]
    rw [show (pre ++ q ++ [c] ++ sl).length = (pre ++ q).length + 1 + sl.length by simp; omega, this]
    simp; omega
  unfold lastPart
  rw [h1, skipName_eq pre (q ++ [c]) sl hp hn _ (Nat.le_refl _), List.append_assoc,
    List.drop_left' rfl]

theorem base_spec (dir : List Nat) : DirSlash dir (base dir) := by
  unfold base DirSlash
  by_cases h : dir.getLast? = some 47
  · rw [if_pos h]; exact ⟨h, Or.inl rfl, fun _ => rfl⟩
  · rw [if_neg h]; exact ⟨by simp, Or.inr rfl, fun e => absurd e h⟩

/-- The documented destination of a source: the directory, and the last component unless the source
ends in a slash (table in kernel/cmd/cmd_copy.c:194-206). -/
def Dest (dir s d : List Nat) : Prop :=
  ∃ b, DirSlash dir b ∧ ((s.getLast? = some 47 ∧ d = b) ∨ ∃ name, Last s name [] ∧ d = b ++ name)

/-- Full claim. -/
def C62_full : Prop := ∀ (dir : List Nat) (sources : List (List Nat)),
  (∀ s ∈ sources, s ≠ [] ∧ 0 ∉ s ∧ s.length ≤ 384) →
  ∃ ds, copyToDirectory dir sources = some ds ∧ ds.map (·.1) = sources ∧
    ∀ p ∈ ds, Dest dir p.1 p.2

/-- A name of 256 bytes overruns the array (a command line of 128 characters holds up to 381
bytes); also `cp -r foo/ bar` uses uninitialised bytes, and `cp -r a foo/ bar` copies `foo/` to
`bar/a`. -/
theorem C62_violated : ¬ C62_full := by
  intro h
  obtain ⟨ds, h1, _⟩ := h [98] [List.replicate 256 97] (by
    intro s hs
    simp only [List.mem_singleton] at hs
    subst hs
    refine ⟨by decide, by decide +kernel, by decide +kernel⟩)
  have : copyToDirectory [98] [List.replicate 256 97] = none := by decide +kernel
  rw [this] at h1
  cases h1

theorem C62_uninitialised : copyToDirectory [98] [[102, 47]] = none := by decide

theorem C62_stale_name : copyToDirectory [98] [[97], [102, 47]] =
    some [([97], [98, 47, 97]), ([102, 47], [98, 47, 97])] := by decide

/-- Missing for the full claim: sources ending in a slash, and names longer than 255 bytes. -/
theorem C62_copy_partial (dir : List Nat) (sources : List (List Nat))
    (h : ∀ s ∈ sources, ∃ name, Last s name [] ∧ name.length ≤ 255) :
    ∃ ds, copyToDirectory dir sources = some ds ∧ ds.map (·.1) = sources ∧
      ∀ p ∈ ds, Dest dir p.1 p.2 := by
  have hb : (base dir).length ≤ dir.length + 1 := by unfold base; split <;> simp
  have loop : ∀ ss cur, (∀ s ∈ ss, ∃ name, Last s name [] ∧ name.length ≤ 255) →
      ∃ ds, copyDests (dir.length + lfnBuf + 2) (base dir) cur ss = some ds ∧ ds.map (·.1) = ss ∧
        ∀ p ∈ ds, Dest dir p.1 p.2 := by
    intro ss
    induction ss with
    | nil => intro cur _; exact ⟨[], rfl, rfl, by simp⟩
    | cons s ss ih =>
      intro cur hss
      obtain ⟨name, hl, hlen⟩ := hss s (by simp)
      have hp := lastPart_eq s name [] hl
      rw [List.append_nil] at hp
      obtain ⟨ds, h1, h2, h3⟩ := ih (some name) (fun x hx => hss x (by simp [hx]))
      have hne : s.length ≠ 0 ∧ s.getLast? ≠ some 47 := by
        obtain ⟨pre, rfl, _, hn, h47, _⟩ := hl
        rcases List.eq_nil_or_concat name with rfl | ⟨q, c, rfl⟩
        · exact absurd rfl hn
        · rw [List.concat_eq_append] at *
          refine ⟨by simp, ?_⟩
          intro e
          simp [← List.append_assoc] at e
          simp [e] at h47
      rw [copyDests.eq_def]; simp only []
      rw [if_neg hne.1, if_pos hne.2, hp, if_neg (by simp [lfnBuf]; omega), h1]
      refine ⟨_, rfl, by simp [h2], ?_⟩
      intro p hmem
      simp only [List.mem_cons] at hmem
      rcases hmem with rfl | hmem
      · exact ⟨_, base_spec dir, Or.inr ⟨name, hl, rfl⟩⟩
      · exact h3 p hmem
  exact loop sources _ h

/-- The mv command: destinations for all sources with a name of at most 255 bytes (including
slashes at the end, which are kept). -/
theorem C62_move_partial (dir : List Nat) (sources : List (List Nat))
    (h : ∀ s ∈ sources, ∃ name sl, Last s name sl ∧ (name ++ sl).length ≤ 255) :
    ∃ ds, moveToDirectory dir sources = some ds ∧ ds.map (·.1) = sources ∧
      ∀ p ∈ ds, ∃ b name sl, DirSlash dir b ∧ Last p.1 name sl ∧ p.2 = b ++ name ++ sl := by
  have hb : (base dir).length ≤ dir.length + 1 := by unfold base; split <;> simp
  unfold moveToDirectory
  induction sources with
  | nil => exact ⟨[], rfl, rfl, by simp⟩
  | cons s ss ih =>
    obtain ⟨name, sl, hl, hlen⟩ := h s (by simp)
    have hp := lastPart_eq s name sl hl
    obtain ⟨ds, h1, h2, h3⟩ := ih (fun x hx => h x (by simp [hx]))
    rw [moveDests, hp, if_neg (by simp only [lfnBuf]; omega), h1]
    refine ⟨_, rfl, by simp [h2], ?_⟩
    intro p hmem
    simp only [List.mem_cons] at hmem
    rcases hmem with rfl | hmem
    · exact ⟨_, name, sl, base_spec dir, hl, by simp⟩
    · exact h3 p hmem

example : Last [97, 47, 98, 99, 47] [98, 99] [47] ∧ Last [98, 99] [98, 99] [] :=
  ⟨⟨[97, 47], by decide, by decide, by decide, by decide, by decide⟩,
   ⟨[], by decide, by decide, by decide, by decide, by decide⟩⟩

/-- Every path with a character other than a slash has exactly one last component, so the
hypotheses above exclude nothing else. -/
theorem Last.exists (s : List Nat) (h : ∃ c ∈ s, c ≠ 47) : ∃ name sl, Last s name sl := by
  have key : ∀ s : List Nat, (∃ c ∈ s, c ≠ 47) →
      ∃ pre name sl, s = pre ++ name ++ sl ∧ (pre = [] ∨ pre.getLast? = some 47) ∧
      name ≠ [] ∧ 47 ∉ name ∧ ∀ c ∈ sl, c = 47 := by
    intro s
    induction s with
    | nil => rintro ⟨c, hc, _⟩; simp at hc
    | cons x s ih =>
      intro hx
      by_cases hs : ∃ c ∈ s, c ≠ 47
      · obtain ⟨pre, name, sl, rfl, h1, h2, h3, h4⟩ := ih hs
        by_cases hp : pre = []
        · subst hp
          by_cases h47 : x = 47
          · exact ⟨[x], name, sl, by simp, Or.inr (by simp [h47]), h2, h3, h4⟩
          · exact ⟨[], x :: name, sl, by simp, Or.inl rfl, by simp, by
              simp [h3, Ne.symm h47], h4⟩
        · refine ⟨x :: pre, name, sl, by simp, Or.inr ?_, h2, h3, h4⟩
          rcases h1 with h1 | h1
          · exact absurd h1 hp
          · cases pre with
            | nil => exact absurd rfl hp
            | cons y ys => rw [List.getLast?_cons_cons]; exact h1
      · have hall : ∀ c ∈ s, c = 47 := by
          intro c hc; exact Decidable.byContradiction fun hn => hs ⟨c, hc, hn⟩
        obtain ⟨c, hc, hn⟩ := hx
        have hxc : x ≠ 47 := by
          rcases List.mem_cons.mp hc with rfl | hc
          · exact hn
          · exact absurd (hall c hc) hn
        exact ⟨[], [x], s, by simp, Or.inl rfl, by simp, by simp [Ne.symm hxc], hall⟩
  obtain ⟨pre, name, sl, h⟩ := key s h
  exact ⟨name, sl, pre, h⟩

end Fpm.Copy
