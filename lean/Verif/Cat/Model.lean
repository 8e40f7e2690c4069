import Verif.TextIo.IoLemmas

/-!
# The cat command

Model of `kernel/cmd/cmd_cat.c`.  The console is the list of bytes passed to `fpm_putchar`.  File
access errors other than end of file are not modelled.
-/
namespace Fpm.Cat
open Fpm.TextIo

/-- `puts_with_cr`, kernel/cmd/cmd_cat.c:13-36: output and the new value of `*need_cr`.
`none`: no terminator in the object. -/
def putsCr : Bool → List Nat → Option (List Nat × Bool)
  | _, [] => none
  | need, ch :: str =>
    if ch = 0 then some ([], need)
    else if ch = 10 then
      if need then (putsCr false str).map fun r => (13 :: 10 :: r.1, r.2)
      else (putsCr need str).map fun r => (10 :: r.1, r.2)
    else if ch = 13 then (putsCr false str).map fun r => (13 :: r.1, r.2)
    else (putsCr true str).map fun r => (ch :: r.1, r.2)

theorem fgets_shrinks (len : Nat) (file l rest : List Nat) (h : fgets len file = (some l, rest)) :
    rest.length < file.length := by
  unfold fgets at h
  simp only [Prod.mk.injEq] at h
  obtain ⟨h1, h2⟩ := h
  split at h1
  · cases h1
  · rename_i hne
    rw [← h2]
    apply (getsLoop_shrinks _ _ _).2
    intro e
    rw [e] at hne
    exact hne rfl

/-- Reading loop of `display_file`, kernel/cmd/cmd_cat.c:49-56, including the final line break.
The buffer holds the string and its terminator.  `none`: undefined behaviour. -/
def displayLoop (need : Bool) (file : List Nat) : Option (List Nat) :=
  match _h : fgets 1024 file with
  | (none, _) => some (if need then [13, 10] else [])
  | (some l, rest) =>
    match putsCr need (l ++ [0]) with
    | none => none
    | some r => (displayLoop r.2 rest).map (r.1 ++ ·)
  termination_by file.length
  decreasing_by exact fgets_shrinks _ _ _ _ _h

/-- `display_file`, kernel/cmd/cmd_cat.c:38-60, of an existing file. -/
def displayFile (file : List Nat) : Option (List Nat) := displayLoop false file

end Fpm.Cat
