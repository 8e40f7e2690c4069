import Verif.DirDev.Model
import Verif.Mount.Spec
import Verif.FatDir.Spec
/-!
# What a directory on the device is
-/
namespace Fpm.DirDev.Spec
open Fpm.Fat Fpm.Fat.Spec Fpm.FatFile.Spec Fpm.FatDir Fpm.FatDir.Spec Fpm.Mount Fpm.Mount.Spec

/-- Where a directory is: the fixed root directory of FAT12 and FAT16, or a chain of clusters. -/
inductive Loc where
  | root
  | chain (l : List Nat)

/-- Its sectors, in order. -/
def dirSecs (v : Vol) (i : Info) : Loc → List Nat
  | .root => (List.range (i.nRoot * 32 / v.ss)).map (i.dirbase + ·)
  | .chain l => secs v l

/-- The entries in a sector. -/
def pieces (v : Vol) (b : List Nat) : List (List Nat) := (List.range (v.ss / 32)).map fun j => (b.drop (32 * j)).take 32

/-- The entries of a directory: those in its sectors, up to the largest number that there can be. -/
def entries (v : Vol) (i : Info) (d : Disk) (loc : Loc) : List (List Nat) := ((dirSecs v i loc).flatMap fun n => pieces v (d n)).take 65536

/-- The directory starting in cluster `sclust` is there; cluster 0 is the root directory. -/
def Starts (v : Vol) (i : Info) (sclust : Nat) : Loc → Prop
  | .root => sclust = 0 ∧ v.fsType ≠ 3
  | .chain l => l.headD 0 = (if sclust = 0 then i.dirbase else sclust) ∧ (sclust = 0 → v.fsType = 3)

/-- In the FAT `f` the clusters of the directory form a chain. -/
def Linked (v : Vol) (f : Nat → Nat) : Loc → Prop
  | .root => v.fsType ≠ 3
  | .chain l => Links v.nFatent f l

/-- A mounted volume with sectors that hold whole entries. -/
structure Ready (v : Vol) (i : Info) : Prop extends Layout v i where
  whole : v.ss % 32 = 0

/-- The directory object is at entry `j`. -/
structure At (v : Vol) (i : Info) (loc : Loc) (j : Nat) (dp : Dp) : Prop where
  dptr : dp.dptr = 32 * j
  small : j < 65536
  sect : (dirSecs v i loc)[32 * j / v.ss]? = some dp.sect
  root : loc = .root → dp.clust = 0
  clust : ∀ l, loc = .chain l → l[32 * j / (v.csize * v.ss)]? = some dp.clust

/-- All chains of the volume: those before and after, and that of the directory. -/
def allChains (a b : List (List Nat)) : Loc → List (List Nat)
  | .root => a ++ b
  | .chain l => a ++ l :: b

/-- A volume with a directory in it; `a` and `b` are the other chains. -/
structure DirVol (v : Vol) (a b : List (List Nat)) (loc : Loc) (s : St) : Prop where
  inv : Inv v s
  kind : loc = .root → v.fsType ≠ 3
  chains : Chains v.nFatent (tab v s) (allChains a b loc)
  count : CountOk v s

/-- Sectors that the directory has or may get: nobody else has them. -/
def DirOwn (v : Vol) (i : Info) (a b : List (List Nat)) : Loc → Nat → Prop
  | .root, n => n ∈ dirSecs v i .root
  | .chain _, n => OwnSect v (a ++ b).flatten n

/-- Everything that does not belong to the directory stays as it is: other chains, and all sectors besides the FATs and those of the directory. -/
def Apart (v : Vol) (i : Info) (a b : List (List Nat)) (loc : Loc) (s s' : St) : Prop :=
  (∀ l ∈ a ++ b, Links v.nFatent (tab v s') l) ∧ ∀ n, ¬ Fat1 v n → ¬ Fat2 v n → ¬ DirOwn v i a b loc n → view s' n = view s n

/-- The directory has got more clusters. -/
def Longer : Loc → Loc → Prop
  | .root, loc' => loc' = .root
  | .chain l, loc' => ∃ m, loc' = .chain (l ++ m)

/-- How many entries can be added to a directory that has `len` of them: none in the fixed root directory, else those of a cluster, up to the largest number that there can be, as long as there is a
cluster that is not in a chain. -/
def growth (v : Vol) (a b : List (List Nat)) : Loc → Nat → Nat
  | .root, _ => 0
  | .chain _, len =>
    if len < 65536 ∧ len / (v.csize * (v.ss / 32)) + (a ++ b).flatten.length < v.nFatent - 2 then min (v.csize * (v.ss / 32)) (65536 - len) else 0

/-- The objects of a directory on the device. -/
structure OnDevice (c : Bool) (v : Vol) (i : Info) (a b : List (List Nat)) (loc : Loc) (s : St) (os : List Obj) : Prop where
  vol : DirVol v a b loc s
  dir : Directory c (entries v i (view s) loc) os

/-- The directory cannot get more clusters: it is the fixed root directory, or it has the largest number of entries, or all clusters are in use. -/
def Full (v : Vol) (i : Info) (a b : List (List Nat)) (d : Disk) (loc : Loc) : Prop :=
  loc = .root ∨ (entries v i d loc).length = 65536 ∨ (allChains a b loc).flatten.length = v.nFatent - 2

/-- Only sectors of the directory (and copies of the FAT) differ. -/
def Elsewhere (v : Vol) (i : Info) (loc : Loc) (d d' : Disk) : Prop := ∀ n, ¬ Fat2 v n → n ∉ dirSecs v i loc → d' n = d n

end Fpm.DirDev.Spec
