import Verif.Alloc.Model
/-!
# Specification vocabulary for the allocator

Which calls are legal, which states can be reached, and how a state is observed.
-/
namespace Fpm.Alloc.Spec

/-- Word sizes of the supported machines. -/
def Word (w : Nat) : Prop := w = 4 ∨ w = 8

/-- Heap regions: aligned, room for one header and link, not at address 0 and not touching the
very end of the address space. -/
def Region (w start size : Nat) : Prop :=
  start % w = 0 ∧ 3 * w ≤ start ∧ 2 * w ≤ size ∧ start + size < 256 ^ w

/-- Legal operations: pointers passed to the allocator are NULL or blocks the current program
holds; sizes stay clear of the 32-bit wrap-around (see C08); stores go into blocks held by a
program of the chain; the outermost program does not end. -/
def Legal (w : Nat) (s : World) : Op → Prop
  | .alloc n => n + 2 * w ≤ 2 ^ 32
  | .allocDirty n => n + 2 * w ≤ 2 ^ 32
  | .free p => p = 0 ∨ p ∈ s.top.live.map (·.1)
  | .realloc p n => (p = 0 ∨ p ∈ s.top.live.map (·.1)) ∧ n + 2 * w ≤ 2 ^ 32
  | .truncate p n => (p = 0 ∨ p ∈ s.top.live.map (·.1)) ∧ n + 5 * w ≤ 2 ^ 32
  | .store a _ => ∃ l ∈ s.top :: s.below, ∃ p ∈ l.live.map (·.1), p ≤ a ∧ a < p + sizeOf w s.mem p
  | .push => True
  | .pop => s.below ≠ []

/-- States reachable by legal operations from a fresh heap in arbitrary memory. -/
inductive Reach (w : Nat) : World → Prop
  | init (m : Mem) (start size : Nat) (h : Region w start size) :
      Reach w ⟨(heapInit w m start size).1, ⟨(heapInit w m start size).2, []⟩, []⟩
  | step (s s' : World) (op : Op) (r : Nat) (h : Reach w s) (hl : Legal w s op) (he : exec w s op = some (s', r)) :
      Reach w s'

/-- The free blocks (address of the header, size) found by following the list in memory. -/
def walk (w : Nat) (m : Mem) : Nat → Nat → List (Nat × Nat)
  | 0, _ => []
  | k + 1, h => if h = 0 then [] else (h, load w m h) :: walk w m k (load w m (h + w))

/-- Free blocks of a context. -/
def freeBlocks (w : Nat) (m : Mem) (c : Ctx) : List (Nat × Nat) := walk w m (256 ^ w) c.freeList

/-- Bytes a request needs: at least a pointer, plus the header, rounded up to a multiple of the
word size. -/
def need (w n : Nat) : Nat := (max n w + w + (w - 1)) / w * w

/-- The block an operation is about. -/
def target : Op → Option Nat
  | .free p => some p
  | .realloc p _ => some p
  | .truncate p _ => some p
  | _ => none

/-- Run a sequence of operations. -/
def run (w : Nat) (s : World) : List Op → Option World
  | [] => some s
  | op :: ops => match exec w s op with
    | none => none
    | some (s', _) => run w s' ops

/-- Runs of a child program (and programs started by it): the contexts in `base` stay below, and
stores go into blocks of the contexts above them. -/
inductive ChildRun (w : Nat) (base : List Level) : World → World → Prop
  | refl (s : World) : ChildRun w base s s
  | step (s s1 s2 : World) (op : Op) (r : Nat) (h : ChildRun w base s s1) (hl : Legal w s1 op)
      (hs : ∀ a b, op = .store a b → ∃ l p, (l = s1.top ∨ ∃ pre, s1.below = pre ++ base ∧ l ∈ pre) ∧
        p ∈ l.live.map (·.1) ∧ p ≤ a ∧ a < p + sizeOf w s1.mem p)
      (he : exec w s1 op = some (s2, r)) (hb : ∃ pre, s2.below = pre ++ base) : ChildRun w base s s2

end Fpm.Alloc.Spec
