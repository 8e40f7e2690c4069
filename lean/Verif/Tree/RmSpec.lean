import Verif.Tree.RmModel
import Verif.Tree.CwdSpec
/-!
# What rm should do
-/
namespace Fpm.Tree.Spec
open Fpm.Fat Fpm.DirDev Fpm.FatDir Fpm.Names Fpm.Fat.Spec Fpm.FatFile.Spec Fpm.Lfn Fpm.Names.Spec Fpm.TextIo.Spec Fpm.FatDir.Spec Fpm.Mount Fpm.Mount.Spec Fpm.DirDev.Spec
open Fpm.FatLock (Sem)

/-- The object is a file, and its chain is `m`. -/
def Owns (v : Vol) (o : Obj) (m : List Nat) : Prop := ¬ Dotted o ∧ ¬ IsDir o ∧ first v o ≠ 0 ∧ first v o = m.headD 0

/-- Objects have been removed, only from directories in `S`, and perhaps these directories: nothing is new, and `.` and `..` stay as long as their directory; directories that are left can be reached from where they could be reached before;
files that are left have their bytes, and chains of files that have gone are free. -/
structure Pruned (v : Vol) (S : Nat → Prop) (T : List Dir) (F : List (List Nat)) (s : St) (T' : List Dir) (F' : List (List Nat)) (s' : St) : Prop where
  dirs : ∀ e' ∈ T', ∃ e ∈ T, e'.sclust = e.sclust ∧ e'.loc = e.loc ∧ e'.os.Sublist e.os ∧ ∀ o ∈ e.os, Dotted o → o ∈ e'.os
  same : ∀ e ∈ T, ¬ S e.sclust → e ∈ T'
  reach : ∀ e ∈ T', ∀ x, Within v T x e.sclust → Within v T' x e.sclust
  chains : ∀ m ∈ F', m ∈ F
  kept : ∀ m ∈ F, m ∈ F' ∨ ∃ e ∈ T, S e.sclust ∧ ∃ o ∈ e.os, Owns v o m
  freed : ∀ e ∈ T, ∀ o ∈ e.os, ∀ m ∈ F', Owns v o m → ∃ e' ∈ T', e'.sclust = e.sclust ∧ o ∈ e'.os
  data : ∀ m ∈ F', ∀ n ∈ secs v m, view s' n = view s n

/-- All objects in the directory with cluster `n`, and below it, have names that can be listed. -/
def Listable (v : Vol) (T : List Dir) (n : Nat) : Prop := ∀ e ∈ T, Within v T n e.sclust → ∀ o ∈ e.os, ¬ Dotted o → ∃ cs, Known o cs

/-- Clusters of the directories in what a path leads to, that is of the directory itself and those below it. -/
def Inside (v : Vol) (T : List Dir) : Goal → Nat → Prop
  | .self d, c => Within v T d.sclust c
  | .object _ _ o, c => IsDir o ∧ Within v T (first v o) c
  | _, _ => False

/-- Directories and chains before and after removing object `o` of directory `d` with all that is in the directories with clusters in `S`. -/
def Wiped (v : Vol) (S : Nat → Prop) (d : Dir) (o : Obj) (T : List Dir) (F : List (List Nat)) (T' : List Dir) (F' : List (List Nat)) : Prop :=
  ∃ x y, d.os = x ++ o :: y ∧ (∀ e, e ∈ T' ↔ e ∈ T ∧ e ≠ d ∧ ¬ S e.sclust ∨ e = { d with os := x ++ y }) ∧
    ∀ m, m ∈ F' ↔ m ∈ F ∧ ¬ Owns v o m ∧ ∀ e ∈ T, S e.sclust → ∀ o' ∈ e.os, ¬ Owns v o' m

/-- Did the user want what the path leads to to be removed?  A directory needs the option for that, and the answer yes. -/
def Wanted (opt : RmOpt) (yes : Bool) : Goal → Prop
  | .object _ _ o => if IsDir o then opt.recursive = true ∧ yes = true else opt.force = true ∨ yes = true
  | _ => False

/-! ## When it succeeds -/

/-- Below directory `n` there are less than `k` levels of directories, and it is not below itself. -/
def Depth (v : Vol) (T : List Dir) : Nat → Nat → Prop
  | 0, _ => False
  | k + 1, n => ∀ e ∈ T, e.sclust = n → ∀ o ∈ e.os, ¬ Dotted o → IsDir o → Depth v T k (first v o)

/-- Places in the table of open objects that are not in use. -/
def spare (files : List Sem) : Nat := files.countP (·.key.fs = 0)

/-- Nothing prevents removing object `o` of directory `d`, a directory, with all that is in it: nothing is read-only, the current directory is not in it, nothing in it is open, and for each level there is a place in the table of open objects.
The first entry of a directory is `.`. -/
structure Removable (v : Vol) (T : List Dir) (cdir fs : Nat) (files : List Sem) (k : Nat) (d : Dir) (o : Obj) : Prop where
  dir : IsDir o
  write : ¬ ReadOnly o
  all : ∀ e ∈ T, Within v T (first v o) e.sclust → ∀ o' ∈ e.os, ¬ Dotted o' → ¬ ReadOnly o' ∧ o'.pos ≠ 0
  cwd : ¬ Within v T (first v o) cdir
  closed : ∀ x ∈ files, x.key ≠ ⟨fs, d.sclust, 32 * o.pos⟩ ∧ (x.key.fs = fs → ¬ Within v T (first v o) x.key.clu)
  depth : Depth v T k (first v o)
  slots : k ≤ spare files

/-- The tables are the same but for places that are not in use. -/
def SameLocks (f f' : List Sem) : Prop := f'.length = f.length ∧ ∀ (j : Nat) (x y : Sem), f[j]? = some x → f'[j]? = some y → x = y ∨ x.key.fs = 0 ∧ y.key.fs = 0

/-- Segments of a path that does not start in the directory, and has no dots. -/
structure Straight (g : Env) (T : List Dir) (abs : Bool) (l : List (List Nat)) (n : Nat) : Prop where
  nodots : ∀ c ∈ l, ¬ DotName c
  start : ¬ Within g.v T n (if abs then 0 else g.cdir)

end Fpm.Tree.Spec
