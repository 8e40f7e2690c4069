import Verif.Exec.Spec

/-!
# Properties of running commands (C40) and of the prompt (C63)
-/
namespace Fpm.Exec
open Fpm.Exec.Spec

/-! ## C40 Running a program releases everything it acquired -/

/-- The path buffer is never overrun, and the file found is the named one, the one with extension,
or the one in `flash:/bin`; a command with a slash or dot is used as it is. -/
theorem C40_path (exist : List Nat → Bool) (cmd : List Nat) :
    lookupPath exist cmd =
      some (if 47 ∈ cmd ∨ 46 ∈ cmd then some cmd
        else if exist (cmd ++ [46, 101, 120, 101]) then some (cmd ++ [46, 101, 120, 101])
        else if exist ([102, 108, 97, 115, 104, 58, 47, 98, 105, 110, 47] ++ cmd ++ [46, 101, 120, 101])
          then some ([102, 108, 97, 115, 104, 58, 47, 98, 105, 110, 47] ++ cmd ++ [46, 101, 120, 101])
          else none) := by
  have h1 : (cmd ++ dotExe).length + 1 ≤ bufSize cmd := by simp [dotExe, bufSize]
  have h2 : (binDir ++ cmd ++ dotExe).length + 1 ≤ bufSize cmd := by
    simp [dotExe, bufSize, binDir] <;> omega
  unfold lookupPath findExe fit
  by_cases ha : 47 ∈ cmd
  · simp [ha]
  by_cases hb : 46 ∈ cmd
  · simp [hb]
  rw [if_neg ha, if_neg hb, if_pos h1, if_pos h2, if_neg (by simp [ha, hb])]
  simp only []
  show (if exist (cmd ++ dotExe) = true then some (some (cmd ++ dotExe)) else _) =
    some (if exist (cmd ++ dotExe) = true then some (cmd ++ dotExe) else
      if exist (binDir ++ cmd ++ dotExe) = true then some (binDir ++ cmd ++ dotExe) else none)
  split
  · rfl
  · split <;> rfl

/-- The buffer is used up to its last byte: one byte less would be overrun for every command
without slash and dot that is not found in the current directory. -/
theorem C40_path_tight (exist : List Nat → Bool) (cmd : List Nat) (h : 47 ∉ cmd) (h' : 46 ∉ cmd)
    (hx : exist (cmd ++ dotExe) = false) : findExe exist (bufSize cmd - 1) cmd = none := by
  have h1 : (cmd ++ dotExe).length + 1 ≤ bufSize cmd - 1 := by simp [dotExe, bufSize]
  have h2 : ¬ (binDir ++ cmd ++ dotExe).length + 1 ≤ bufSize cmd - 1 := by
    simp [dotExe, bufSize, binDir] <;> omega
  unfold findExe fit
  rw [if_neg h, if_neg h', if_pos h1, if_neg h2]
  simp [hx]

example : (47 : Nat) ∉ [108, 115] ∧ (46 : Nat) ∉ [108, 115] := by decide

/-- The drive test never reads outside a non-empty command. -/
theorem C40_drive (cmd : List Nat) (h : cmd ≠ []) :
    isDrive cmd = some (decide (cmd.getLast? = some 58)) := by
  unfold isDrive
  have hl : cmd.length ≠ 0 := by simp [h]
  rw [if_neg hl, ← List.getLast?_eq_getElem?]
  cases h2 : cmd.getLast? with
  | none => simp [h] at h2
  | some c =>
    simp only [Option.map_some, Option.some.injEq]
    by_cases hc : c = 58 <;> simp [hc]

/-- Full claim: whatever happens, everything acquired is released. -/
def C40_full : Prop := ∀ h e, Os h e → Released h (exec e)

/-- A state and an environment: file mapped at 4096, but not enough stack. -/
def exEnv : Env := ⟨some 3, true, some 4096, true, false, true, .returned⟩
def exHeld : Held := ⟨[0, 1, 2], [], 0⟩

theorem C40_violated : ¬ C40_full := by
  intro h
  exact absurd (h exHeld exEnv ⟨by decide, by decide, by
    intro fd h; simp [exEnv] at h; subst h; decide, by
    intro a h; simp [exEnv] at h; subst h; decide⟩) (by unfold Released; decide)

/-- The outcomes after which everything has been released: the file cannot be opened, is not an
executable, cannot be bound, or returns. -/
def clean (e : Env) : Prop :=
  e.fd = none ∨
    (e.fstatOk = true ∧ e.map ≠ none ∧
      (e.formatOk = false ∨ (e.stackOk = true ∧ e.pushOk = true ∧ e.run ≠ .interrupted)))

/-- Missing for the full claim, exactly: failure of `fstat` or `mmap` (descriptor closed twice,
`munmap` of `MAP_FAILED`), too little stack or heap (descriptor and mapping leak), and ^C
(descriptor, mapping and context leak). -/
theorem C40_released_partial (h : Held) (e : Env) (ho : Os h e) :
    Released h (exec e) ↔ clean e := by
  obtain ⟨h0, hm, hfd, hmap⟩ := ho
  obtain ⟨fds, maps, depth⟩ := h
  obtain ⟨fd, fstatOk, map, formatOk, stackOk, pushOk, run⟩ := e
  simp only at h0 hm hfd hmap
  unfold clean Released
  cases fd with
  | none => simp [exec, load, loadArch, unloadArch, replay]
  | some fd =>
    have hf := hfd fd rfl
    have hpos : 0 < fd := by
      rcases Nat.eq_zero_or_pos fd with e | e
      · subst e; exact absurd h0 hf
      · exact e
    have hne : ∀ l : List Nat, ¬ fd :: l = l := by
      intro l e; have := congrArg List.length e; simp at this
    have hnl : ∀ (a : Nat) (l : List Nat), ¬ a :: l = l := by
      intro a l e; have := congrArg List.length e; simp at this
    cases fstatOk with
    | false =>
      simp [exec, load, loadArch, unloadArch, replay, step, hpos, hf]
    | true =>
      cases map with
      | none =>
        have : mapFailed ≠ 0 := by decide
        simp [exec, load, loadArch, unloadArch, replay, step, hm, this]
      | some a =>
        obtain ⟨ha, hb, hc⟩ := hmap a rfl
        cases formatOk with
        | false =>
          simp [exec, load, loadArch, unloadArch, replay, step, hpos, ha]
        | true =>
          cases stackOk with
          | false => simp [exec, load, loadArch, replay, step, hnl]
          | true =>
            cases pushOk with
            | false => simp [exec, load, loadArch, replay, step, hnl]
            | true =>
              cases run <;>
                simp [exec, load, loadArch, unloadArch, replay, step, hpos, ha, hnl]

example : Os exHeld ⟨some 3, true, some 4096, true, true, true, .returned⟩ ∧
    clean ⟨some 3, true, some 4096, true, true, true, .returned⟩ := by
  refine ⟨⟨by decide, by decide, ?_, ?_⟩, by unfold clean; decide⟩
  · intro fd h; simp at h; subst h; decide
  · intro a h; simp at h; subst h; decide

/-! ## C63 The shell prompt fits its buffer -/

theorem lastSlash_none (s : List Nat) (h : 47 ∉ s) : lastSlash s = none := by
  induction s with
  | nil => rfl
  | cons c s ih =>
    simp at h
    rw [lastSlash, ih h.2]
    simp [show ¬ c = 47 from fun e => h.1 e.symm]

theorem lastSlash_append (a c : List Nat) (h : 47 ∉ c) : lastSlash (a ++ 47 :: c) = some a.length := by
  induction a with
  | nil => rw [List.nil_append, lastSlash, lastSlash_none c h]; simp
  | cons x a ih => rw [List.cons_append, lastSlash, ih]; simp

/-- The part of the path in front of the last slash, and the last name. -/
theorem cwd_split (disk : List Nat) (comps : List (List Nat)) (hn : ∀ c ∈ comps, Name c) :
    ∃ a c, cwdPath disk comps = disk ++ 58 :: a ++ 47 :: c ∧ 47 ∉ c ∧
      (a = [] → dirText comps = 47 :: c) ∧
      (∀ x b, a = b ++ [x] → x ≠ 58 ∧ dirText comps = c) := by
  rcases comps with _ | ⟨c, cs⟩
  · exact ⟨[], [], by simp [cwdPath], by simp, by simp [dirText], by simp⟩
  rcases List.eq_nil_or_concat cs with rfl | ⟨ds, d, rfl⟩
  · refine ⟨[], c, by simp [cwdPath], (hn c (by simp)).2.1, by simp [dirText], by simp⟩
  · refine ⟨((c :: ds).map (47 :: ·)).flatten, d, by simp [cwdPath], (hn d (by simp)).2.1,
      by simp, ?_⟩
    intro x b e
    refine ⟨?_, ?_⟩
    · rintro rfl
      have hx : 58 ∈ ((c :: ds).map (47 :: ·)).flatten := by rw [e]; simp
      simp only [List.mem_flatten, List.mem_map] at hx
      obtain ⟨l, ⟨y, hy, rfl⟩, hl⟩ := hx
      have hny := hn y (by
        rcases List.mem_cons.mp hy with rfl | h
        · simp
        · simp [h])
      simp only [List.mem_cons] at hl
      rcases hl with hl | hl
      · cases hl
      · exact hny.2.2 hl
    · cases ds with
      | nil => simp [dirText]
      | cons y ys =>
        show ((y :: ys).concat d).getLast?.getD [] = d
        rw [List.concat_eq_append, List.getLast?_append]
        simp

theorem promptDir_eq (disk : List Nat) (comps : List (List Nat)) (hn : ∀ c ∈ comps, Name c) :
    promptDir (cwdPath disk comps) = some (dirText comps) := by
  obtain ⟨a, c, e, hc, h1, h2⟩ := cwd_split disk comps hn
  rw [e]
  unfold promptDir
  rw [lastSlash_append _ _ hc]
  rcases List.eq_nil_or_concat a with rfl | ⟨b, x, rfl⟩
  · rw [h1 rfl]
    simp
  · obtain ⟨hx, hd⟩ := h2 x b (by simp)
    rw [hd]
    simp only [List.length_append, List.length_cons, List.concat_eq_append, List.length_nil]
    have hg : (disk ++ 58 :: (b ++ [x]) ++ 47 :: c)[disk.length.add (b.length + 1)]? = some x := by
      rw [show disk ++ 58 :: (b ++ [x]) ++ 47 :: c = (disk ++ 58 :: b) ++ (x :: 47 :: c) by simp]
      rw [List.getElem?_append_right (by simp)]
      simp
    rw [hg, if_pos (by simpa using hx)]
    rw [show disk ++ 58 :: (b ++ [x]) ++ 47 :: c = (disk ++ 58 :: (b ++ [x, 47])) ++ c by simp]
    rw [List.drop_left' (by simp; omega)]

/-- Full claim: for every drive and current directory the prompt fits. -/
def C63_full : Prop := ∀ disk comps, (disk = [102, 108, 97, 115, 104] ∨ disk = [115, 100]) →
  (∀ c ∈ comps, Name c ∧ c.length ≤ 255) →
  prompt cmdlineSize disk (some (cwdPath disk comps)) ≠ none

/-- Directory names may have 255 characters; a name of 101 overruns the prompt buffer. -/
theorem C63_violated : ¬ C63_full := by
  intro h
  refine h [102, 108, 97, 115, 104] [List.replicate 101 97] (Or.inl rfl) ?_ (by decide +kernel)
  intro c hc
  simp only [List.mem_singleton] at hc
  subst hc
  refine ⟨⟨by decide, by decide +kernel, by decide +kernel⟩, by decide +kernel⟩

/-- Missing for the full claim: only directories whose shown text is short enough, exactly those
with `disk.length + text ≤ 106`.  Then the prompt is drive, colon and text, coloured. -/
theorem C63_fits_partial (disk : List Nat) (comps : List (List Nat)) (hn : ∀ c ∈ comps, Name c) :
    (prompt cmdlineSize disk (some (cwdPath disk comps)) ≠ none ↔
      disk.length + (dirText comps).length ≤ 106) ∧
    ∀ p, prompt cmdlineSize disk (some (cwdPath disk comps)) = some p →
      p = [27, 91, 48, 59, 51, 49, 109] ++ disk ++ [58] ++ dirText comps ++
        [27, 91, 49, 59, 51, 50, 109, 32, 62, 27, 91, 109, 32] := by
  unfold prompt
  simp only [promptDir_eq disk comps hn, fit]
  constructor
  · simp only [ne_eq, ite_eq_right_iff, reduceCtorEq, imp_false, Decidable.not_not]
    simp [red, tail, cmdlineSize]
    omega
  · intro p hp
    split at hp
    · cases hp; rfl
    · cases hp

example : (∀ c ∈ [[97], [98, 99]], Name c) ∧
    ([115, 100] : List Nat).length + (dirText [[97], [98, 99]]).length ≤ 106 := by
  constructor
  · intro c hc; simp at hc; rcases hc with rfl | rfl <;> exact ⟨by decide, by decide, by decide⟩
  · decide

/-- Without a file system the prompt always fits. -/
theorem C63_no_cwd (disk : List Nat) (h : disk = [102, 108, 97, 115, 104] ∨ disk = [115, 100]) :
    prompt cmdlineSize disk none ≠ none := by
  rcases h with rfl | rfl <;> decide

end Fpm.Exec
