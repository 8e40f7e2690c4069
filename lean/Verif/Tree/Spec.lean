import Verif.Tree.Model
import Verif.DirDev.Spec
import Verif.FatSync.Spec
/-!
# Directories of a volume, and what paths mean
-/
namespace Fpm.Tree.Spec
open Fpm.Fat Fpm.DirDev Fpm.FatDir Fpm.Names Fpm.Fat.Spec Fpm.FatFile.Spec Fpm.Lfn Fpm.Names.Spec Fpm.TextIo.Spec Fpm.FatDir.Spec Fpm.Mount Fpm.Mount.Spec Fpm.DirDev.Spec

/-- A directory: the cluster by which entries refer to it (0 for the root directory), where it is, and its objects. -/
structure Dir where
  sclust : Nat
  loc : Loc
  os : List Obj

/-- First cluster in a directory entry; the upper half counts in FAT32 only. -/
def first (v : Vol) (o : Obj) : Nat := FatSync.Spec.first v o.entry 0

/-- Size of a file in its entry. -/
def size (o : Obj) : Nat := FatSync.Spec.field o.entry 28 4

/-- Attribute of sub-directories. -/
def IsDir (o : Obj) : Prop := byte o.entry 11 &&& 0x10 ≠ 0

/-- Attribute of files that must not be changed. -/
def ReadOnly (o : Obj) : Prop := byte o.entry 11 &&& 1 ≠ 0

instance (o : Obj) : Decidable (IsDir o) := by unfold IsDir; infer_instance
instance (o : Obj) : Decidable (ReadOnly o) := by unfold ReadOnly; infer_instance

/-- The objects `.` and `..`. -/
def Dotted (o : Obj) : Prop := byte o.entry 0 = 46

instance (o : Obj) : Decidable (Dotted o) := by unfold Dotted; infer_instance

/-- Chain of a directory, if it has one. -/
def chainOf : Loc → List (List Nat)
  | .root => []
  | .chain l => [l]

/-- Chains of directories. -/
def dirChains (T : List Dir) : List (List Nat) := T.flatMap fun d => chainOf d.loc

/-- Clusters that the objects of a directory other than `.` and `..` refer to. -/
def claims (v : Vol) (os : List Obj) : List Nat := ((os.filter fun o => ¬ Dotted o).map (first v)).filter (· ≠ 0)

/-- A directory on the device. -/
structure DirOk (v : Vol) (i : Info) (s : St) (d : Dir) : Prop where
  starts : Starts v i d.sclust d.loc
  dir : Directory true (entries v i (view s) d.loc) d.os
  names : Names d.os
  nodot : ∀ o ∈ d.os, o.long ≠ some [46] ∧ o.long ≠ some [46, 46]

/-- A file object: an empty file has no clusters, others have a chain that is long enough. -/
def FileOk (v : Vol) (F : List (List Nat)) (o : Obj) : Prop := ∃ m, (m = [] ∨ m ∈ F) ∧ first v o = m.headD 0 ∧ size o ≤ m.length * (v.csize * v.ss)

/-- A sub-directory object leads to a directory, not to the root. -/
def SubOk (v : Vol) (T : List Dir) (o : Obj) : Prop := first v o ≠ 0 ∧ ∃ d ∈ T, d.sclust = first v o

/-- Objects `.` and `..` have no long names, and lead to the directory itself and to the one where it is an object. -/
def DotOk (v : Vol) (T : List Dir) (d : Dir) (o : Obj) : Prop :=
  IsDir o ∧ o.long = none ∧ (o.fn = pad 11 [46] ∧ first v o = d.sclust ∨ o.fn = pad 11 [46, 46] ∧ ∃ p ∈ T, p.sclust = first v o ∧ ∃ o' ∈ p.os, ¬ Dotted o' ∧ IsDir o' ∧ first v o' = d.sclust)

/-- The volume with all of its directories `T`, `F` are the other chains: those of files, and perhaps some that nothing refers to.  No two objects share a chain. -/
structure Tree (v : Vol) (i : Info) (T : List Dir) (F : List (List Nat)) (s : St) : Prop where
  inv : Inv v s
  count : CountOk v s
  chains : Chains v.nFatent (tab v s) (dirChains T ++ F)
  root : ∃ d ∈ T, d.sclust = 0
  once : (T.map Dir.sclust).Nodup
  dirs : ∀ d ∈ T, DirOk v i s d
  refs : (T.flatMap fun d => claims v d.os).Nodup
  files : ∀ d ∈ T, ∀ o ∈ d.os, ¬ Dotted o → ¬ IsDir o → FileOk v F o
  subs : ∀ d ∈ T, ∀ o ∈ d.os, ¬ Dotted o → IsDir o → SubOk v T o
  dots : ∀ d ∈ T, ∀ o ∈ d.os, Dotted o → DotOk v T d o

/-! ## Paths -/

/-- `.` or `..` -/
def DotName (cs : List Nat) : Prop := cs = [46] ∨ cs = [46, 46]

instance (cs : List Nat) : Decidable (DotName cs) := by unfold DotName; infer_instance

/-- Does a segment of a path mean the object? -/
def Calls (cs : List Nat) (o : Obj) : Prop := if DotName cs then o.fn = pad 11 cs else Means (units (trimmed cs)) o

/-- The bytes of a path, without separators in front, and its segments. -/
inductive PathText : List Nat → List (List Nat) → Prop where
  | last {cs t rest : List Nat} : (∀ c ∈ cs, NameChar c) → cs ≠ [] → Tail t true rest → PathText (text cs ++ t) [cs]
  | cons {cs t rest : List Nat} {l : List (List Nat)} : (∀ c ∈ cs, NameChar c) → cs ≠ [] → Tail t false rest → PathText rest l → PathText (text cs ++ t) (cs :: l)

/-- The bytes of a path: does it start at the root directory, that is with a separator, and its segments. -/
inductive PathOf : List Nat → Bool → List (List Nat) → Prop where
  | empty {z rest : List Nat} {b : Nat} : (∀ c ∈ z, c = 47 ∨ c = 92) → b < 32 → PathOf (z ++ b :: rest) (!z.isEmpty) []
  | segs {z p : List Nat} {l : List (List Nat)} : (∀ c ∈ z, c = 47 ∨ c = 92) → PathText p l → PathOf (z ++ p) (!z.isEmpty) l

/-- Where a path leads: nowhere because of a segment that is no name, nowhere because there is no such directory, to a name that is free in a directory, to a directory itself, or to an object. -/
inductive Goal where
  | badName
  | noPath
  | free (d : Dir) (cs : List Nat)
  | self (d : Dir)
  | object (d : Dir) (cs : List Nat) (o : Obj)

/-- Where the segments lead from a directory.  `.` and `..` mean the directory itself where there are no such objects. -/
inductive Leads (v : Vol) (T : List Dir) : Dir → List (List Nat) → Goal → Prop where
  | bad {d : Dir} {cs : List Nat} {l : List (List Nat)} : ¬ Good cs → Leads v T d (cs :: l) .badName
  | stay {d : Dir} {cs : List Nat} {l : List (List Nat)} {g : Goal} : DotName cs → (∀ o ∈ d.os, ¬ Calls cs o) → Leads v T d l g → Leads v T d (cs :: l) g
  | self {d : Dir} {cs : List Nat} : DotName cs → (∀ o ∈ d.os, ¬ Calls cs o) → Leads v T d [cs] (.self d)
  | free {d : Dir} {cs : List Nat} : Good cs → ¬ DotName cs → (∀ o ∈ d.os, ¬ Calls cs o) → Leads v T d [cs] (.free d cs)
  | missing {d : Dir} {cs : List Nat} {l : List (List Nat)} : Good cs → ¬ DotName cs → (∀ o ∈ d.os, ¬ Calls cs o) → l ≠ [] → Leads v T d (cs :: l) .noPath
  | object {d : Dir} {cs : List Nat} {o : Obj} : Good cs → o ∈ d.os → Calls cs o → Leads v T d [cs] (.object d cs o)
  | noDir {d : Dir} {cs : List Nat} {l : List (List Nat)} {o : Obj} : Good cs → o ∈ d.os → Calls cs o → ¬ IsDir o → l ≠ [] → Leads v T d (cs :: l) .noPath
  | enter {d d' : Dir} {cs : List Nat} {l : List (List Nat)} {o : Obj} {g : Goal} : Good cs → o ∈ d.os → Calls cs o → IsDir o → d' ∈ T → d'.sclust = first v o → Leads v T d' l g → Leads v T d (cs :: l) g

/-- Where a path leads; without segments it is the directory where it starts: the root directory, or the one with cluster `cdir`. -/
def Resolves (v : Vol) (T : List Dir) (cdir : Nat) (abs : Bool) (l : List (List Nat)) (g : Goal) : Prop :=
  ∃ d ∈ T, d.sclust = (if abs then 0 else cdir) ∧ (l = [] ∧ g = .self d ∨ Leads v T d l g)

/-- What the outcome of following a path says. -/
def Arrived (v : Vol) (i : Info) (f : Fol) : Goal → Prop
  | .badName => f.res = FR_INVALID_NAME
  | .noPath => f.res = FR_NO_PATH
  | .free d cs => f.res = FR_NO_FILE ∧ f.dp.sclust = d.sclust ∧ FileName cs true f.buf f.fn f.fl
  | .self d => f.res = FR_OK ∧ f.dp.sclust = d.sclust ∧ f.fl &&& 0x80 ≠ 0
  | .object d cs o => f.res = FR_OK ∧ f.dp.sclust = d.sclust ∧ f.fl &&& 0x80 = 0 ∧ (f.fl &&& 0x20 ≠ 0 ↔ DotName cs) ∧ At v i d.loc o.pos f.dp ∧ dirEnt v f.st f.dp = some o.entry

/-! ## Removing objects -/

/-- Nothing is in the directory that the object leads to. -/
def Vacant (v : Vol) (T : List Dir) (o : Obj) : Prop := ∀ d ∈ T, d.sclust = first v o → ∀ o' ∈ d.os, Dotted o'

/-- Objects that must not be removed: read-only ones, the current directory, and directories that have objects. -/
def Protected (v : Vol) (T : List Dir) (cdir : Nat) (o : Obj) : Prop := ReadOnly o ∨ IsDir o ∧ (first v o = cdir ∨ ¬ Vacant v T o)

/-- Directories and chains before and after removing object `o` of directory `d`: the object has gone, with its clusters, and with the directory that it leads to. -/
inductive Unlinked (v : Vol) (d : Dir) (o : Obj) : List Dir → List (List Nat) → List Dir → List (List Nat) → Prop where
  | empty {x y : List Obj} {R : List Dir} {F : List (List Nat)} : d.os = x ++ o :: y → ¬ IsDir o → first v o = 0 → Unlinked v d o (d :: R) F ({ d with os := x ++ y } :: R) F
  | file {x y : List Obj} {R : List Dir} {F : List (List Nat)} {m : List Nat} : d.os = x ++ o :: y → ¬ IsDir o → m ≠ [] → first v o = m.headD 0 → Unlinked v d o (d :: R) (m :: F) ({ d with os := x ++ y } :: R) F
  | dir {x y : List Obj} {d' : Dir} {R : List Dir} {F : List (List Nat)} : d.os = x ++ o :: y → IsDir o → d'.sclust = first v o → Unlinked v d o (d :: d' :: R) F ({ d with os := x ++ y } :: R) F

/-- Reasons not to remove what a path leads to, with results; `share` says whether an object is in use. -/
def Refused (v : Vol) (i : Info) (T : List Dir) (cdir : Nat) (share : Dp → Nat) (r : Nat) : Goal → Prop
  | .badName => r = FR_INVALID_NAME
  | .noPath => r = FR_NO_PATH
  | .free _ _ => r = FR_NO_FILE
  | .self d => r = FR_INVALID_NAME ∨ ∃ dp : Dp, dp.sclust = d.sclust ∧ share dp ≠ FR_OK ∧ r = share dp
  | .object d cs o => DotName cs ∧ r = FR_INVALID_NAME ∨ ¬ DotName cs ∧ (∃ dp : Dp, dp.sclust = d.sclust ∧ At v i d.loc o.pos dp ∧ share dp ≠ FR_OK ∧ r = share dp) ∨ ¬ DotName cs ∧ Protected v T cdir o ∧ r = DirDev.FR_DENIED

/-! ## Making directories -/

/-- Time in an entry. -/
def stamp (o : Obj) : Nat := FatSync.Spec.field o.entry 22 4

/-- The directories before and after making one called `cs` in directory `d`: there is one new object, a directory where nothing but `.` and `..` is, as first and second entry, and `d` may have got more clusters. -/
inductive Made (v : Vol) (tm : Nat) (cs : List Nat) (d : Dir) : List Dir → List Dir → Prop where
  | mk {x y : List Obj} {o a b : Obj} {loc : Loc} {n : Dir} {R : List Dir} : d.os = x ++ y → Longer d.loc loc → Calls cs o → IsDir o → ¬ ReadOnly o → ¬ Dotted o → stamp o = tm % 2 ^ 32 → n.sclust = first v o → n.os = [a, b] →
      a.fn = pad 11 [46] → b.fn = pad 11 [46, 46] → a.pos = 0 → b.pos = 1 → Made v tm cs d (d :: R) ({ d with loc := loc, os := x ++ o :: y } :: n :: R)

/-- There is no place for a new directory called `cs` in `d`: at most one cluster is free, or directory `d` cannot get longer and has no room, or 99 numbered names are in use. -/
def NoPlace (v : Vol) (i : Info) (T : List Dir) (F : List (List Nat)) (disk : Disk) (d : Dir) (cs : List Nat) : Prop :=
  v.nFatent - 2 ≤ (dirChains T ++ F).flatten.length + 1 ∨ ∃ buf fn fl, FileName cs true buf fn fl ∧
    ((d.loc = .root ∨ (entries v i disk d.loc).length = 65536) ∧ NoRoom (entries v i disk d.loc) (fl &&& 2 ≠ 0) (units (trimmed cs)).length ∨ ∀ z, 1 ≤ z → z < 100 → ∃ o ∈ d.os, genNumname fn buf z = some o.fn)

/-- Results when no directory is made. -/
def MkdirRefused (r : Nat) : Goal → Prop
  | .badName => r = FR_INVALID_NAME
  | .noPath => r = FR_NO_PATH
  | .free _ _ => False
  | .self _ => r = FR_EXIST
  | .object _ _ _ => r = FR_EXIST

end Fpm.Tree.Spec
