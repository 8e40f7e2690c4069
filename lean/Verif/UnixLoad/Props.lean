import Verif.UnixLoad.Spec
/-!
# C135: running programs on Unix
-/
namespace Fpm.UnixLoad
open Fpm.UnixLoad.Spec

/-- Running a program leaves no descriptor open and nothing mapped that was not before, and makes no call with an invalid argument. -/
def C135_full : Prop := ∀ (r : Replies) (fits stack heap : Bool) (o : Os), Fresh r o → exec r fits stack heap o = o

/-- An empty file cannot be mapped.  Then the descriptor is closed twice, and `munmap` is called with MAP_FAILED. -/
theorem C135_violated : ¬ C135_full := by
  intro h
  have h1 := h ⟨some 3, true, none⟩ true true true ⟨[0], [], []⟩ ⟨by decide, fun fd h => by cases h; decide, fun a h => by cases h⟩
  exact absurd h1 (by decide)

theorem positive {r : Replies} {o : Os} {fd : Nat} (hf : Fresh r o) (h : r.opened = some fd) : 0 < fd := by
  rcases Nat.eq_zero_or_pos fd with rfl | hp
  · exact absurd hf.1 (hf.2.1 _ h)
  · exact hp

/-- The same whenever the file can be opened but not mapped: both calls are invalid.  If `fstat` fails, the descriptor is closed twice. -/
theorem C135_twice (r : Replies) (fits stack heap : Bool) (o : Os) (hf : Fresh r o) (fd : Nat) (h : r.opened = some fd) :
    (r.fstat = true → r.mapped = none → exec r fits stack heap o = { o with bad := o.bad ++ [.unmap] ++ [.close fd] }) ∧
    (r.fstat = false → exec r fits stack heap o = { o with bad := o.bad ++ [.close fd] }) := by
  have hp := positive hf h
  have hn := hf.2.1 fd h
  constructor
  · intro h1 h2
    simp [exec, load, loadArch, h, h1, h2, unloadArch, unmapBase, closeFd, osClose, osUnmap, Ctx.zero, hp, hn]
  · intro h1
    simp [exec, load, loadArch, h, h1, unloadArch, unmapBase, closeFd, osClose, Ctx.zero, hp, hn]

/-- When there is not enough space for stack or heap, the file stays open, and mapped. -/
theorem C135_leaks (r : Replies) (stack heap : Bool) (o : Os) (fd a : Nat) (h : r.opened = some fd) (h1 : r.fstat = true) (h2 : r.mapped = some a) (hs : stack = false ∨ heap = false) :
    exec r true stack heap o = { o with fds := fd :: o.fds, maps := a :: o.maps } := by
  rcases hs with rfl | rfl
  · simp [exec, load, loadArch, h, h1, h2]
  · cases stack <;> simp [exec, load, loadArch, h, h1, h2]

/-- After a load that succeeded unloading gives everything back; unloading once more does nothing. -/
theorem C135_unload (r : Replies) (c c' : Ctx) (o o' : Os) (hf : Fresh r o) (h : load r true c o = (true, c', o')) : unloadArch c' o' = (.zero, o) ∧ ∀ q, unloadArch (unloadArch c' o').1 q = (.zero, q) := by
  have e : unloadArch c' o' = (.zero, o) := by
    unfold load loadArch at h
    cases ho : r.opened with
    | none => simp [ho] at h
    | some fd =>
      have hp := positive hf ho
      cases hs : r.fstat with
      | false => simp [ho, hs] at h
      | true =>
        cases hm : r.mapped with
        | none => simp [ho, hs, hm] at h
        | some a =>
          simp [ho, hs, hm] at h
          obtain ⟨rfl, rfl⟩ := h
          simp [unloadArch, unmapBase, closeFd, osClose, osUnmap, Ctx.zero, hp]
  refine ⟨e, fun q => ?_⟩
  rw [e]
  rfl

/-- It is so if the system lets the file be opened and mapped, or does not let it be opened, and there is space for stack and heap, or the file is not a program. -/
theorem C135_run_partial (r : Replies) (fits stack heap : Bool) (o : Os) (hf : Fresh r o) (hw : Willing r) (hs : fits = true → stack = true ∧ heap = true) : exec r fits stack heap o = o := by
  cases ho : r.opened with
  | none => simp [exec, load, loadArch, ho, unloadArch, unmapBase, closeFd, Ctx.zero]
  | some fd =>
    have hp := positive hf ho
    obtain ⟨h1, h2⟩ : r.fstat = true ∧ r.mapped ≠ none := hw.resolve_left (by simp [ho])
    cases hm : r.mapped with
    | none => exact absurd hm h2
    | some a =>
      cases fits with
      | false => simp [exec, load, loadArch, ho, h1, hm, unloadArch, unmapBase, closeFd, osClose, osUnmap, hp]
      | true =>
        obtain ⟨rfl, rfl⟩ := hs rfl
        simp [exec, load, loadArch, ho, h1, hm, unloadArch, unmapBase, closeFd, osClose, osUnmap, hp]

/-- A program of which the file is descriptor 3. -/
example : Fresh ⟨some 3, true, some 4096⟩ ⟨[0, 1, 2], [8192], []⟩ ∧ Willing ⟨some 3, true, some 4096⟩ ∧ (load ⟨some 3, true, some 4096⟩ true .zero ⟨[0, 1, 2], [8192], []⟩).2.2 = ⟨[3, 0, 1, 2], [4096, 8192], []⟩ :=
  ⟨⟨by decide, fun fd h => (by cases h; decide), fun a h => (by cases h; decide)⟩, .inr ⟨rfl, by simp⟩, rfl⟩

end Fpm.UnixLoad
