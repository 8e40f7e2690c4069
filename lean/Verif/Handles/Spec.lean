import Verif.Handles.Model

/-!
# What is open
-/

namespace Fpm.Handles.Spec
open Fpm.Handles

/-- An object was opened and no attempt to close it succeeded. -/
def Remains (log : List Ev) (h : Nat) : Prop := .opened h ∈ log ∧ .closed h true ∉ log

/-- Objects are closed while they are open only: each close has a matching open before it, and no
successful close before it. -/
def Proper (log : List Ev) : Prop :=
  ∀ pre h ok post, log = pre ++ .closed h ok :: post → .opened h ∈ pre ∧ .closed h true ∉ pre

/-- Nothing stays open, and nothing is closed that is not open. -/
def Clean (log : List Ev) : Prop := (∀ h, ¬ Remains log h) ∧ Proper log

/-- All attempts to close succeed. -/
def Closes (e : Env) : Prop := ∀ n, e.closes n = true

/-- No ^C is typed at prompts. -/
def Undisturbed (e : Env) : Prop := ∀ n, e.int n = false

/-- The log of a command that has ended, in whatever way. -/
def Ends (m : M Unit) (e : Env) (log : List Ev) : Prop :=
  ∃ s, s.log = log ∧ (m e start = .ok () s ∨ m e start = .left s)

end Fpm.Handles.Spec
