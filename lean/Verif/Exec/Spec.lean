import Verif.Exec.Model

/-!
# What running a command and the prompt have to do
-/
namespace Fpm.Exec.Spec
open Fpm.Exec

/-- Resources held by the system. -/
structure Held where
  fds : List Nat
  maps : List Nat
  /-- contexts on the context stack -/
  depth : Nat
deriving DecidableEq, Repr

/-- Effect of one event; `none`: something is released that is not held. -/
def step (h : Held) : Ev → Option Held
  | .opened fd => some { h with fds := fd :: h.fds }
  | .closed fd => if fd ∈ h.fds then some { h with fds := h.fds.erase fd } else none
  | .mapped a => some { h with maps := a :: h.maps }
  | .unmapped a => if a ∈ h.maps then some { h with maps := h.maps.erase a } else none
  | .pushed => some { h with depth := h.depth + 1 }
  | .popped => if h.depth = 0 then none else some { h with depth := h.depth - 1 }

/-- Effect of a trace. -/
def replay : Held → List Ev → Option Held
  | h, [] => some h
  | h, e :: t => (step h e).bind (replay · t)

/-- Everything acquired is released, and nothing else. -/
def Released (h : Held) (t : List Ev) : Prop := replay h t = some h

/-- What the operating system guarantees: a new descriptor was not open (and standard input is
open); a new mapping is neither NULL nor `MAP_FAILED` nor an existing one; `MAP_FAILED` is no
mapping. -/
def Os (h : Held) (e : Env) : Prop :=
  0 ∈ h.fds ∧ mapFailed ∉ h.maps ∧ (∀ fd, e.fd = some fd → fd ∉ h.fds) ∧
    ∀ a, e.map = some a → a ≠ 0 ∧ a ≠ mapFailed ∧ a ∉ h.maps

/-- Text shown for the current directory given by its path components: the last name, preceded by
a slash if it is in the root. -/
def dirText : List (List Nat) → List Nat
  | [] => [47]
  | [c] => 47 :: c
  | _ :: cs => cs.getLast?.getD []

/-- The path reported by `f_getcwd`: drive, colon, and every component after a slash. -/
def cwdPath (disk : List Nat) (comps : List (List Nat)) : List Nat :=
  disk ++ [58] ++ (if comps = [] then [47] else (comps.map (47 :: ·)).flatten)

/-- A name of a directory: not empty, without slash and colon. -/
def Name (c : List Nat) : Prop := c ≠ [] ∧ 47 ∉ c ∧ 58 ∉ c

end Fpm.Exec.Spec
