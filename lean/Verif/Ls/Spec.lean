import Verif.Ls.Model
import Verif.Dir.Spec
/-!
# Specification of `ls` and `dir`
-/
namespace Fpm.Ls.Spec
open Fpm.Dir Fpm.Dir.Spec

/-- Is an entry a directory? -/
def IsDir (x : Item) : Prop := x.attrib / 16 % 2 = 1

instance (x : Item) : Decidable (IsDir x) := inferInstanceAs (Decidable (_ = _))

/-- Path of the entry `n` of the directory with path `q`. -/
def child (q n : List Nat) : List Nat := if q = [] then n else q ++ [47] ++ n

/-- Paths of the directories at `p` and below it. -/
inductive Below (e : Env) (p : List Nat) : List Nat → Prop
  | self : Below e p p
  | sub {q l x} : Below e p q → e.scan q = .ok l → x ∈ l → IsDir x → Below e p (child q x.name)

/-- The same, but no entry on the way is hidden (unless hidden ones are to be shown). -/
inductive Open (e : Env) (o : Opts) (p : List Nat) : List Nat → Prop
  | self : Open e o p p
  | sub {q l x} : Open e o p q → e.scan q = .ok l → x ∈ l → IsDir x → o.showhidden = true ∨ x.attrib / 2 % 2 = 0 → Open e o p (child q x.name)

/-- Directories to be listed for `p`: all below it with option `-R`. -/
def Listed (e : Env) (rec : Bool) (p q : List Nat) : Prop := if rec = true then Below e p q else q = p

/-- The listing of a directory below the top level: its entries (C33 - C36), or a message. -/
def content (e : Env) (o : Opts) (b : List Nat × Except Nat (List Item)) : List Nat :=
  match b.2 with
  | .ok l => (showFiles { o with toplevel := false } l).getD []
  | .error r => b.1 ++ [58, 32] ++ e.strerror r ++ [13, 10]

/-- Directories listed one after another: the path with a colon, then the listing; with an empty line between them, and before them if something is above. -/
def render (e : Env) (o : Opts) : Bool → List (List Nat × Except Nat (List Item)) → List Nat
  | _, [] => []
  | above, b :: l => (if above then [13, 10] else []) ++ b.1 ++ [58, 13, 10] ++ content e o b ++ render e o true l

/-- Is an entry of the directory to be shown, so that its listing is not empty? -/
def Visible (o : Opts) : Except Nat (List Item) → Bool
  | .ok l => l.any fun x => o.showhidden || x.attrib / 2 % 2 == 0
  | .error _ => false

/-- Entries of directories have distinct names without slashes. -/
def Proper (e : Env) (p : List Nat) : Prop := ∀ q l, Below e p q → e.scan q = .ok l → (l.map (·.name)).Nodup ∧ ∀ x ∈ l, 47 ∉ x.name

/-- Path `a` may be listed before path `b`: they differ, `b` does not contain `a`, and of two entries of one directory the one with the smaller name comes first (or the one with the greater, in reverse). -/
def Before (o : Opts) (a b : List Nat) : Prop :=
  a ≠ b ∧ (¬ ∃ t, a = b ++ 47 :: t) ∧ (o.timesort = false → ∀ q n m : List Nat, 47 ∉ n → 47 ∉ m → a = child q n → b = child q m → if o.reversesort then nameLe m n else nameLe n m)

/-- There are less than `n` directories on any way down from `p`. -/
def Shallow (e : Env) : Nat → List Nat → Prop
  | 0, _ => False
  | n + 1, p => ∀ l, e.scan p = .ok l → ∀ x ∈ l, IsDir x → Shallow e n (child p x.name)

/-- The listings of all directories below are defined (C33 - C36 say when). -/
def Printable (e : Env) (o : Opts) (p : List Nat) : Prop := ∀ q l, Below e p q → e.scan q = .ok l → ∃ t, showFiles { o with toplevel := false } l = some t

/-- Item for an argument, if there is such a file or directory; a path that has no name itself (the root directory) stands for a directory. -/
def asked (e : Env) (a : List Nat) : Option Item :=
  if (e.stat a).1 = 0 then some (e.stat a).2 else if (e.stat a).1 = 6 then some ⟨a, 0, 0, 16, false⟩ else none

/-- Messages for the arguments that do not exist. -/
def complaints (e : Env) (args : List (List Nat)) : List Nat := args.flatMap fun a => if (e.stat a).1 = 0 ∨ (e.stat a).1 = 6 then [] else a ++ [58, 32] ++ e.strerror (e.stat a).1 ++ [13, 10]

/-! ## A file system -/

/-- Names of a path. -/
def names : List Nat → List Nat → List (List Nat)
  | acc, [] => if acc = [] then [] else [acc]
  | acc, c :: s => if c = 47 then (if acc = [] then names [] s else acc :: names [] s) else names (acc ++ [c]) s

/-- A tree of files: entries of the directory to which names lead from the current directory, if there is one. -/
abbrev Files := List (List Nat) → Option (List Item)

/-- Directories are entries of directories. -/
def Consistent (fs : Files) : Prop := ∀ d n l, fs (d ++ [n]) = some l → ∃ l', fs d = some l' ∧ ∃ x ∈ l', x.name = n ∧ IsDir x

/-- What a tree of files answers: an object has the name its entry has; the current directory has none. -/
def answers (fs : Files) : Env where
  stat p :=
    match (names [] p).reverse with
    | [] => (6, ⟨[], 0, 0, 0, false⟩)
    | n :: d =>
      match fs d.reverse with
      | none => (5, ⟨[], 0, 0, 0, false⟩)
      | some l =>
        match l.find? (·.name = n) with
        | none => (4, ⟨[], 0, 0, 0, false⟩)
        | some x => (0, x)
  scan p := match fs (names [] p) with
    | none => .error 5
    | some l => .ok l
  strerror _ := [63]

end Fpm.Ls.Spec
