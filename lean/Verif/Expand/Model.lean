import Verif.FatFile.Model
/-!
# Allocating a contiguous block: `f_expand`, fatfs/fatfs.c:5355-5448

Without exFAT and `validate`.
-/
namespace Fpm.Expand
open Fpm.Fat Fpm.FatFile

/-- Number of clusters required, fatfs/fatfs.c:5374-5375; the size of a cluster is a power of two, so the bits tested are those of the
remainder. -/
def clusters (v : Vol) (fsz : Nat) : Nat := fsz / (v.csize * v.ss) + if fsz % (v.csize * v.ss) ≠ 0 then 1 else 0

/-- Where the search starts, fatfs/fatfs.c:5376-5379. -/
def start (v : Vol) (s : St) : Nat := if s.lastClst < 2 ∨ s.lastClst ≥ v.nFatent then 2 else s.lastClst

/-- End of the search: a result of `f_expand`, or the first cluster of a block. -/
inductive Found where
  | ret (r : Nat)
  | hit (c : Nat)
deriving DecidableEq, Repr

/-- Search for a block of `tcl` clusters, fatfs/fatfs.c:5399-5424; the first number bounds the number of rounds (running out of it is an
outcome of its own).  `clst` is the cluster looked at, `scl` the first one of `ncl` free ones before it. -/
def findBlock (v : Vol) (stcl tcl : Nat) : Nat → St → Nat → Nat → Nat → St × Found
  | 0, s, _, _, _ => (s, .ret UB)
  | k + 1, s, clst, scl, ncl =>
    if (getFat v s clst).2 = UB then ((getFat v s clst).1, .ret UB)
    else if (getFat v s clst).2 = 1 then ((getFat v s clst).1, .ret FR_INT_ERR)
    else if (getFat v s clst).2 = DERR then ((getFat v s clst).1, .ret FR_DISK_ERR)
    else if (getFat v s clst).2 = 0 then
      if ncl + 1 = tcl then ((getFat v s clst).1, .hit scl)
      else if nextClst v clst = stcl then ((getFat v s clst).1, .ret FR_DENIED)
      else findBlock v stcl tcl k (getFat v s clst).1 (nextClst v clst) scl (ncl + 1)
    else if nextClst v clst = stcl then ((getFat v s clst).1, .ret FR_DENIED)
    else findBlock v stcl tcl k (getFat v s clst).1 (nextClst v clst) (nextClst v clst) 0

/-- Loop that makes the chain, fatfs/fatfs.c:5427-5432. -/
def makeChain (v : Vol) : Nat → St → Nat → St × Nat
  | 0, s, _ => (s, FR_OK)
  | n + 1, s, clst => withPut v s clst (if n = 0 then 0xFFFFFFFF else clst + 1) fun s => makeChain v n s (clst + 1)

/-- After success with `opt`, fatfs/fatfs.c:5440-5450. -/
def allocated (v : Vol) (fsz scl tcl : Nat) (fp : File) (p : St × Nat) : St × File × Nat :=
  if p.2 = FR_OK then
    ({ p.1 with lastClst := scl + tcl - 1, freeClst := if p.1.freeClst ≤ v.nFatent - 2 then p.1.freeClst - tcl else p.1.freeClst,
                fsiFlag := if p.1.freeClst ≤ v.nFatent - 2 then true else p.1.fsiFlag },
     { fp with sclust := scl, objsize := fsz, modified := true }, FR_OK)
  else (p.1, fp, p.2)

/-- After the search, fatfs/fatfs.c:5425-5452. -/
def use (v : Vol) (fsz tcl : Nat) (opt : Bool) (fp : File) (p : St × Found) : St × File × Nat :=
  match p.2 with
  | .ret r => (p.1, fp, r)
  | .hit scl => if opt then allocated v fsz scl tcl fp (makeChain v tcl p.1 scl) else ({ p.1 with lastClst := scl - 1 }, fp, FR_OK)

/-- `f_expand`, fatfs/fatfs.c:5355-5453. -/
def fExpand (v : Vol) (fsz : Nat) (opt : Bool) (s : St) (fp : File) : St × File × Nat :=
  if fp.err ≠ FR_OK then (s, fp, fp.err)
  else if fsz = 0 ∨ fp.objsize ≠ 0 ∨ fp.canWrite = false then (s, fp, FR_DENIED)
  else if fsz ≥ 2 ^ 32 then (s, fp, FR_DENIED)
  else use v fsz (clusters v fsz) opt fp (findBlock v (start v s) (clusters v fsz) v.nFatent s (start v s) (start v s) 0)

end Fpm.Expand
