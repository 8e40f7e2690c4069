import Verif.Fat.Model
/-!
# Model of `remove_chain` and `create_chain`, fatfs/fatfs.c:1155-1362

Without exFAT and `FF_USE_TRIM` (both not configured).
-/
namespace Fpm.Fat

/-- `x = get_fat(obj, clst)` and what follows. -/
def withFat (v : Vol) (s : St) (clst : Nat) (k : St → Nat → St × Nat) : St × Nat :=
  if (getFat v s clst).2 = UB then getFat v s clst else k (getFat v s clst).1 (getFat v s clst).2

/-- `res = put_fat(fs, clst, val)` and what follows a success. -/
def withPut (v : Vol) (s : St) (clst val : Nat) (k : St → St × Nat) : St × Nat :=
  if (putFat v s clst val).2 = FR_OK then k (putFat v s clst val).1 else putFat v s clst val

/-- Update of the number of free clusters, fatfs/fatfs.c:1187-1190. -/
def oneMore (v : Vol) (s : St) : St :=
  if s.freeClst < v.nFatent - 2 then { s with freeClst := s.freeClst + 1, fsiFlag := true } else s

/-- Loop of `remove_chain`, fatfs/fatfs.c:1173-1211; the first argument bounds the number of rounds (running out of it
is an outcome of its own). -/
def removeLoop (v : Vol) : Nat → St → Nat → St × Nat
  | 0, s, _ => (s, UB)
  | k + 1, s, clst =>
    withFat v s clst fun s nxt =>
      if nxt = 0 then (s, FR_OK)
      else if nxt = 1 then (s, FR_INT_ERR)
      else if nxt = DERR then (s, FR_DISK_ERR)
      else withPut v s clst 0 fun s =>
        if nxt < v.nFatent then removeLoop v k (oneMore v s) nxt else (oneMore v s, FR_OK)

/-- `remove_chain`, fatfs/fatfs.c:1155-1248. -/
def removeChain (v : Vol) (s : St) (clst pclst : Nat) : St × Nat :=
  if clst < 2 ∨ clst ≥ v.nFatent then (s, FR_INT_ERR)
  else if pclst ≠ 0 then withPut v s pclst 0xFFFFFFFF fun s => removeLoop v v.nFatent s clst
  else removeLoop v v.nFatent s clst

/-- End of the search for a free cluster: return from `create_chain`, or a cluster. -/
inductive Found where
  | ret (r : Nat)
  | hit (c : Nat)
deriving DecidableEq, Repr

/-- Next candidate, fatfs/fatfs.c:1326-1328. -/
def nextClst (v : Vol) (ncl : Nat) : Nat := if ncl + 1 ≥ v.nFatent then 2 else ncl + 1

/-- Search for a free cluster, fatfs/fatfs.c:1324-1341; the first number bounds the number of rounds. -/
def search (v : Vol) (scl : Nat) : Nat → St → Nat → St × Found
  | 0, s, _ => (s, .ret UB)
  | k + 1, s, ncl =>
    if ncl + 1 ≥ v.nFatent ∧ 2 > scl then (s, .ret 0)
    else if (getFat v s (nextClst v ncl)).2 = 0 then ((getFat v s (nextClst v ncl)).1, .hit (nextClst v ncl))
    else if (getFat v s (nextClst v ncl)).2 = 1 ∨ (getFat v s (nextClst v ncl)).2 = DERR ∨ (getFat v s (nextClst v ncl)).2 = UB then
      ((getFat v s (nextClst v ncl)).1, .ret (getFat v s (nextClst v ncl)).2)
    else if nextClst v ncl = scl then ((getFat v s (nextClst v ncl)).1, .ret 0)
    else search v scl k (getFat v s (nextClst v ncl)).1 (nextClst v ncl)

/-- Update of FSINFO, fatfs/fatfs.c:1350-1354. -/
def oneLess (v : Vol) (s : St) (ncl : Nat) : St :=
  { s with lastClst := ncl, freeClst := if s.freeClst ≤ v.nFatent - 2 then s.freeClst - 1 else s.freeClst, fsiFlag := true }

/-- Result of `create_chain` from a result of `put_fat`, fatfs/fatfs.c:1350-1358. -/
def created (v : Vol) (ncl : Nat) (p : St × Nat) : St × Nat :=
  if p.2 = FR_OK then (oneLess v p.1 ncl, ncl)
  else if p.2 = UB then (p.1, UB)
  else (p.1, if p.2 = FR_DISK_ERR then DERR else 1)

/-- Using the cluster found, fatfs/fatfs.c:1342-1346. -/
def link (v : Vol) (s : St) (clst ncl : Nat) : St × Nat :=
  created v ncl (withPut v s ncl 0xFFFFFFFF fun s => if clst ≠ 0 then putFat v s clst ncl else (s, FR_OK))

/-- After the search. -/
def place (v : Vol) (clst : Nat) (p : St × Found) : St × Nat :=
  match p.2 with
  | .ret r => (p.1, r)
  | .hit ncl => link v p.1 clst ncl

/-- Where to start a new chain, fatfs/fatfs.c:1262-1265. -/
def startNew (v : Vol) (s : St) : Nat := if s.lastClst = 0 ∨ s.lastClst ≥ v.nFatent then 1 else s.lastClst

/-- Where to go on if the next cluster is taken, fatfs/fatfs.c:1316-1319. -/
def startOld (v : Vol) (s : St) (clst : Nat) : Nat := if s.lastClst ≥ 2 ∧ s.lastClst < v.nFatent then s.lastClst else clst

/-- Stretching, fatfs/fatfs.c:1306-1346. -/
def stretch (v : Vol) (s : St) (clst : Nat) : St × Nat :=
  withFat v s (nextClst v clst) fun s cs =>
    if cs = 1 ∨ cs = DERR then (s, cs)
    else if cs ≠ 0 then place v clst (search v (startOld v s clst) v.nFatent s (startOld v s clst))
    else link v s clst (nextClst v clst)

/-- `create_chain`, fatfs/fatfs.c:1255-1362. -/
def createChain (v : Vol) (s : St) (clst : Nat) : St × Nat :=
  if clst = 0 then
    if s.freeClst = 0 then (s, 0) else place v 0 (search v (startNew v s) v.nFatent s (startNew v s))
  else
    withFat v s clst fun s cs =>
      if cs < 2 then (s, 1)
      else if cs = DERR then (s, cs)
      else if cs < v.nFatent then (s, cs)
      else if s.freeClst = 0 then (s, 0)
      else stretch v s clst

end Fpm.Fat
