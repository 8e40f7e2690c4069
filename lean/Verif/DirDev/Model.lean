import Verif.Mount.Model
import Verif.Fat.ChainModel
import Verif.FatDir.Model
/-!
# Directories on the device

Model of `dir_clear`, `dir_sdi`, `dir_next`, `dir_read`, `dir_find`, `dir_alloc`, `dir_register` and `dir_remove` of `fatfs/fatfs.c` for FAT12, FAT16 and FAT32, on the device of
`Verif.Fat.Model`.  Steps that concern one entry are those of `Verif.FatDir.Model`.  Offsets (`dptr`, `blk_ofs`) are bytes, as in the code.  `FF_USE_LFN` is 2
(fatfs/ffconf.h:67), so that `dir_clear` uses the window as its buffer.  exFAT is not modelled.
-/
namespace Fpm.DirDev
open Fpm.Fat Fpm.FatBytes Fpm.Lfn Fpm.Names Fpm.FatDir Fpm.Mount

/-- Result codes, include/fpm/fs.h:24-28. -/
def FR_NO_FILE := 4
@[inherit_doc FR_NO_FILE] def FR_INVALID_NAME := 6
@[inherit_doc FR_NO_FILE] def FR_DENIED := 7

/-- Not a result of the code: a loop goes on for too long. -/
def HANG := 2 ^ 34

/-- Largest size of a directory, fatfs/fatfs.c:36. -/
def MAX_DIR := 0x200000

/-- A directory object, fatfs/fatfs.h:126-137: first cluster, offset, cluster and sector of the entry.  `dp->dir` is `fs->win + dptr % SS(fs)` whenever it is used. -/
structure Dp where
  sclust : Nat
  dptr : Nat
  clust : Nat
  sect : Nat
deriving DecidableEq

/-- State, directory object, and result. -/
structure Ret where
  st : St
  dp : Dp
  res : Nat

/-- The loop of `dir_clear` with `szb` 1, fatfs/fatfs.c:1429-1431: `k` more sectors. -/
def clearLoop (v : Vol) (w : List Nat) : Nat → St → Nat → St × Nat
  | 0, s, _ => (s, FR_OK)
  | k + 1, s, sect => if (diskWrite v s sect w).2 then clearLoop v w k (diskWrite v s sect w).1 (sect + 1) else ((diskWrite v s sect w).1, FR_DISK_ERR)

/-- `dir_clear`, fatfs/fatfs.c:1401-1434. -/
def dirClear (v : Vol) (s : St) (clst : Nat) : St × Nat :=
  if (syncWindow v s).2 = FR_OK then
    clearLoop v (List.replicate v.ss 0) v.csize { (syncWindow v s).1 with winsect := some (clst2sect v clst), win := List.replicate v.ss 0 } (clst2sect v clst)
  else ((syncWindow v s).1, FR_DISK_ERR)

/-- The cluster a directory starts in, fatfs/fatfs.c:1453-1457; 0 is the fixed root directory. -/
def startClust (v : Vol) (i : Info) (sclust : Nat) : Nat := if sclust = 0 ∧ v.fsType = 3 then i.dirbase else sclust

/-- The loop of `dir_sdi`, fatfs/fatfs.c:1467-1475; the number of rounds is the quotient of offset and cluster size.  The second number is a cluster if the third one is 0. -/
def follow (v : Vol) : Nat → St → Nat → St × Nat × Nat
  | 0, s, clst => (s, clst, FR_OK)
  | k + 1, s, clst =>
    if (getFat v s clst).2 = UB then ((getFat v s clst).1, clst, UB)
    else if (getFat v s clst).2 = DERR then ((getFat v s clst).1, clst, FR_DISK_ERR)
    else if (getFat v s clst).2 < 2 ∨ (getFat v s clst).2 ≥ v.nFatent then ((getFat v s clst).1, clst, FR_INT_ERR)
    else follow v k (getFat v s clst).1 (getFat v s clst).2

/-- Cluster and sector of the directory object, fatfs/fatfs.c:1476-1483; `ofs` is the offset in the cluster, or in the fixed root directory. -/
def sdiDone (v : Vol) (s : St) (dp : Dp) (clst sect ofs : Nat) : Ret :=
  if sect = 0 then ⟨s, { dp with clust := clst, sect := 0 }, FR_INT_ERR⟩ else ⟨s, { dp with clust := clst, sect := sect + ofs / v.ss }, FR_OK⟩

/-- `dir_sdi` for a chain of clusters, fatfs/fatfs.c:1464-1483. -/
def sdiChain (v : Vol) (s : St) (dp : Dp) (clst ofs : Nat) : Ret :=
  if (follow v (ofs / (v.csize * v.ss)) s clst).2.2 = FR_OK then
    sdiDone v (follow v (ofs / (v.csize * v.ss)) s clst).1 dp (follow v (ofs / (v.csize * v.ss)) s clst).2.1 (clst2sect v (follow v (ofs / (v.csize * v.ss)) s clst).2.1) (ofs % (v.csize * v.ss))
  else ⟨(follow v (ofs / (v.csize * v.ss)) s clst).1, dp, (follow v (ofs / (v.csize * v.ss)) s clst).2.2⟩

/-- `dir_sdi`, fatfs/fatfs.c:1441-1484. -/
def dirSdi (v : Vol) (i : Info) (s : St) (dp : Dp) (ofs : Nat) : Ret :=
  if ofs ≥ MAX_DIR ∨ ofs % 32 ≠ 0 then ⟨s, dp, FR_INT_ERR⟩
  else if startClust v i dp.sclust = 0 then
    if ofs / 32 ≥ i.nRoot then ⟨s, { dp with dptr := ofs }, FR_INT_ERR⟩ else sdiDone v s { dp with dptr := ofs } 0 i.dirbase ofs
  else sdiChain v s { dp with dptr := ofs } (startClust v i dp.sclust) ofs

/-- `dir_next` in a new cluster, fatfs/fatfs.c:1537-1546. -/
def enter (v : Vol) (s : St) (dp : Dp) (clst : Nat) : Ret := ⟨s, { dp with clust := clst, sect := clst2sect v clst, dptr := dp.dptr + 32 }, FR_OK⟩

/-- After `create_chain`, fatfs/fatfs.c:1521-1530. -/
def stretched (v : Vol) (dp : Dp) (p : St × Nat) : Ret :=
  if p.2 = UB then ⟨p.1, dp, UB⟩
  else if p.2 = 0 then ⟨p.1, dp, FR_DENIED⟩
  else if p.2 = 1 then ⟨p.1, dp, FR_INT_ERR⟩
  else if p.2 = DERR then ⟨p.1, dp, FR_DISK_ERR⟩
  else if (dirClear v p.1 p.2).2 = FR_OK then enter v (dirClear v p.1 p.2).1 dp p.2
  else ⟨(dirClear v p.1 p.2).1, dp, FR_DISK_ERR⟩

/-- After `get_fat`, fatfs/fatfs.c:1510-1539. -/
def nextClust (v : Vol) (st : Bool) (dp : Dp) (p : St × Nat) : Ret :=
  if p.2 = UB then ⟨p.1, dp, UB⟩
  else if p.2 ≤ 1 then ⟨p.1, dp, FR_INT_ERR⟩
  else if p.2 = DERR then ⟨p.1, dp, FR_DISK_ERR⟩
  else if p.2 ≥ v.nFatent then
    if st then stretched v dp (createChain v p.1 dp.clust) else ⟨p.1, { dp with sect := 0 }, FR_NO_FILE⟩
  else enter v p.1 dp p.2

/-- `dir_next`, fatfs/fatfs.c:1491-1549. -/
def dirNext (v : Vol) (i : Info) (st : Bool) (s : St) (dp : Dp) : Ret :=
  if dp.dptr + 32 ≥ MAX_DIR ∨ dp.sect = 0 then ⟨s, { dp with sect := 0 }, FR_NO_FILE⟩
  else if (dp.dptr + 32) % v.ss ≠ 0 then ⟨s, { dp with dptr := dp.dptr + 32 }, FR_OK⟩
  else if dp.clust = 0 then
    if (dp.dptr + 32) / 32 ≥ i.nRoot then ⟨s, { dp with sect := 0 }, FR_NO_FILE⟩
    else ⟨s, { dp with sect := dp.sect + 1, dptr := dp.dptr + 32 }, FR_OK⟩
  else if (dp.dptr + 32) / v.ss &&& (v.csize - 1) = 0 then nextClust v st { dp with sect := dp.sect + 1 } (getFat v s dp.clust)
  else ⟨s, { dp with sect := dp.sect + 1, dptr := dp.dptr + 32 }, FR_OK⟩

/-- The entry `dp->dir` points to; `none`: not in the window. -/
def dirEnt (v : Vol) (s : St) (dp : Dp) : Option (List Nat) := if dp.dptr % v.ss + 32 ≤ s.win.length then some ((s.win.drop (dp.dptr % v.ss)).take 32) else none

/-- New contents of the entry, and `fs->wflag = 1`. -/
def setEnt (v : Vol) (s : St) (dp : Dp) (e : List Nat) : St := setWin s (s.win.take (dp.dptr % v.ss) ++ e ++ s.win.drop (dp.dptr % v.ss + 32))

/-! ## Going through a directory -/

/-- What to do after looking at an entry: stop, or go on to the next one.  `ub`: an access outside of a buffer. -/
inductive Step (σ ρ : Type) where
  | ub
  | stop (r : ρ)
  | go (q : σ)

/-- Rounds for which loops are followed: more than there are entries in the largest directory. -/
def ROUNDS := MAX_DIR / 32 + 1

/-- Outcome of a loop: there is a value if it has been stopped at an entry. -/
structure Walked (ρ : Type) where
  st : St
  dp : Dp
  res : Nat
  val : Option ρ

/-- The loops of `dir_read`, `dir_find` and `dir_alloc`, fatfs/fatfs.c:2045-2096, 2143-2186, 1568-1588, in the common form: get the sector, look at the entry at this offset, go to
the next one.  The first number bounds the rounds. -/
def walk {σ ρ : Type} (v : Vol) (i : Info) (st : Bool) (f : Nat → List Nat → σ → Step σ ρ) : Nat → St → Dp → σ → Walked ρ
  | 0, s, dp, _ => ⟨s, dp, HANG, none⟩
  | k + 1, s, dp, q =>
    if (moveWindow v s dp.sect).2 = FR_OK then
      match dirEnt v (moveWindow v s dp.sect).1 dp with
      | none => ⟨(moveWindow v s dp.sect).1, dp, UB, none⟩
      | some e =>
        match f dp.dptr e q with
        | .ub => ⟨(moveWindow v s dp.sect).1, dp, UB, none⟩
        | .stop r => ⟨(moveWindow v s dp.sect).1, dp, FR_OK, some r⟩
        | .go q =>
          if (dirNext v i st (moveWindow v s dp.sect).1 dp).res = FR_OK then
            walk v i st f k (dirNext v i st (moveWindow v s dp.sect).1 dp).st (dirNext v i st (moveWindow v s dp.sect).1 dp).dp q
          else ⟨(dirNext v i st (moveWindow v s dp.sect).1 dp).st, (dirNext v i st (moveWindow v s dp.sect).1 dp).dp, (dirNext v i st (moveWindow v s dp.sect).1 dp).res, none⟩
    else ⟨(moveWindow v s dp.sect).1, dp, (moveWindow v s dp.sect).2, none⟩

/-- Outcome of `dir_read` and `dir_find`: also `blk_ofs` if there is an entry, and the buffer for long names. -/
structure Got where
  st : St
  dp : Dp
  res : Nat
  blk : Option Nat
  buf : List Nat

/-- A round of `dir_read(dp, 0)`, fatfs/fatfs.c:2049-2092: stops with `none` at the end of the directory, else with `blk_ofs` and the buffer. -/
def readStep (ofs : Nat) (e : List Nat) (q : Seq × List Nat) : Step (Seq × List Nat) (Option (Option Nat × List Nat)) :=
  if byte e 0 = 0 then .stop none
  else if byte e 0 = 0xE5 ∨ byte e 0 = 46 ∨ attr e &&& 0x1F = 8 then .go ({ q.1 with ord := 0xFF }, q.2)
  else if attr e = 0x0F then
    match readLfn ofs e q.1 q.2 with
    | none => .ub
    | some q => .go q
  else .stop (some (if q.1.ord ≠ 0 ∨ q.1.sum ≠ sumSfn e then none else q.1.blk, q.2))

/-- End of `dir_read`, fatfs/fatfs.c:2098-2100.  (Simplification: if there is no entry the buffer is given as empty.) -/
def readEnd (w : Walked (Option (Option Nat × List Nat))) : Got :=
  match w.val with
  | some (some (blk, buf)) => ⟨w.st, w.dp, w.res, blk, buf⟩
  | some none => ⟨w.st, { w.dp with sect := 0 }, FR_NO_FILE, none, []⟩
  | none => ⟨w.st, { w.dp with sect := 0 }, w.res, none, []⟩

/-- `dir_read(dp, 0)`, fatfs/fatfs.c:2036-2101.  After `dir_next` has succeeded, `dp->sect` is not zero: it is looked at once. -/
def dirRead (v : Vol) (i : Info) (s : St) (dp : Dp) (buf : List Nat) : Got :=
  if dp.sect = 0 then ⟨s, dp, FR_NO_FILE, none, []⟩ else readEnd (walk v i false readStep ROUNDS s dp (⟨0xFF, 0xFF, none⟩, buf))

/-- A round of `dir_find`, fatfs/fatfs.c:2147-2184; `fn` and `fl` are the name and its flags, `buf` holds the long name. -/
def findStep (fn : List Nat) (fl : Nat) (buf : List Nat) (ofs : Nat) (e : List Nat) (q : Seq) : Step Seq (Option (Option Nat)) :=
  if byte e 0 = 0 then .stop none
  else if byte e 0 = 0xE5 ∨ (attr e &&& 8 ≠ 0 ∧ attr e ≠ 0x0F) then .go ⟨0xFF, q.sum, none⟩
  else if attr e = 0x0F then
    match findLfn ofs e fl q buf with
    | none => .ub
    | some q => .go q
  else if q.ord = 0 ∧ q.sum = sumSfn e then .stop (some q.blk)
  else if fl &&& 1 = 0 ∧ e.take 11 = fn then .stop (some q.blk)
  else .go ⟨0xFF, q.sum, none⟩

/-- End of `dir_find`. -/
def findEnd (buf : List Nat) (w : Walked (Option (Option Nat))) : Got :=
  match w.val with
  | some (some blk) => ⟨w.st, w.dp, w.res, blk, buf⟩
  | some none => ⟨w.st, w.dp, FR_NO_FILE, none, buf⟩
  | none => ⟨w.st, w.dp, w.res, none, buf⟩

/-- `dir_find`, fatfs/fatfs.c:2108-2189. -/
def dirFind (v : Vol) (i : Info) (s : St) (dp : Dp) (fn : List Nat) (fl : Nat) (buf : List Nat) : Got :=
  if (dirSdi v i s dp 0).res = FR_OK then findEnd buf (walk v i false (findStep fn fl buf) ROUNDS (dirSdi v i s dp 0).st (dirSdi v i s dp 0).dp ⟨0xFF, 0xFF, none⟩)
  else ⟨(dirSdi v i s dp 0).st, (dirSdi v i s dp 0).dp, (dirSdi v i s dp 0).res, none, buf⟩

/-! ## Adding and removing objects -/

/-- A round of `dir_alloc`, fatfs/fatfs.c:1573-1586; `k` counts free entries. -/
def allocStep (n : Nat) (_ : Nat) (e : List Nat) (k : Nat) : Step Nat Unit :=
  if isFree e then if k + 1 = n then .stop () else .go (k + 1) else .go 0

/-- End of `dir_alloc`, fatfs/fatfs.c:1591-1593. -/
def denied (r : Nat) : Nat := if r = FR_NO_FILE then FR_DENIED else r

/-- `dir_alloc`, fatfs/fatfs.c:1557-1594. -/
def dirAlloc (v : Vol) (i : Info) (s : St) (dp : Dp) (n : Nat) : Ret :=
  if (dirSdi v i s dp 0).res = FR_OK then
    ⟨(walk v i true (allocStep n) ROUNDS (dirSdi v i s dp 0).st (dirSdi v i s dp 0).dp 0).st, (walk v i true (allocStep n) ROUNDS (dirSdi v i s dp 0).st (dirSdi v i s dp 0).dp 0).dp,
      denied (walk v i true (allocStep n) ROUNDS (dirSdi v i s dp 0).st (dirSdi v i s dp 0).dp 0).res⟩
  else ⟨(dirSdi v i s dp 0).st, (dirSdi v i s dp 0).dp, denied (dirSdi v i s dp 0).res⟩

/-- Loop for a numbered name, fatfs/fatfs.c:2245-2258: from `n`, the rest of the rounds.  There is a name if the result is `FR_OK`. -/
def numLoop (v : Vol) (i : Info) (fn buf : List Nat) : Nat → Nat → St → Dp → Ret × List Nat
  | 0, _, s, dp => (⟨s, dp, FR_DENIED⟩, fn)
  | k + 1, n, s, dp =>
    match genNumname fn buf n with
    | none => (⟨s, dp, UB⟩, fn)
    | some fn' =>
      if (dirFind v i s dp fn' 0x40 buf).res = FR_OK then numLoop v i fn buf k (n + 1) (dirFind v i s dp fn' 0x40 buf).st (dirFind v i s dp fn' 0x40 buf).dp
      else if (dirFind v i s dp fn' 0x40 buf).res = FR_NO_FILE then (⟨(dirFind v i s dp fn' 0x40 buf).st, (dirFind v i s dp fn' 0x40 buf).dp, FR_OK⟩, fn')
      else (⟨(dirFind v i s dp fn' 0x40 buf).st, (dirFind v i s dp fn' 0x40 buf).dp, (dirFind v i s dp fn' 0x40 buf).res⟩, fn')

/-- Entries of the long name, fatfs/fatfs.c:2266-2273: `k` of them left. -/
def lfnLoop (v : Vol) (i : Info) (buf : List Nat) (sum : Nat) : Nat → St → Dp → Ret
  | 0, s, dp => ⟨s, dp, FR_OK⟩
  | k + 1, s, dp =>
    if (moveWindow v s dp.sect).2 = FR_OK then
      match (dirEnt v (moveWindow v s dp.sect).1 dp).bind fun e => putLfn buf e (k + 1) sum with
      | none => ⟨(moveWindow v s dp.sect).1, dp, UB⟩
      | some e =>
        if (dirNext v i false (setEnt v (moveWindow v s dp.sect).1 dp e) dp).res = FR_OK then
          lfnLoop v i buf sum k (dirNext v i false (setEnt v (moveWindow v s dp.sect).1 dp e) dp).st (dirNext v i false (setEnt v (moveWindow v s dp.sect).1 dp e) dp).dp
        else dirNext v i false (setEnt v (moveWindow v s dp.sect).1 dp e) dp
    else ⟨(moveWindow v s dp.sect).1, dp, (moveWindow v s dp.sect).2⟩

/-- The short entry, fatfs/fatfs.c:2278-2288. -/
def putSfn (v : Vol) (s : St) (dp : Dp) (fn : List Nat) (fl : Nat) : Ret :=
  if (moveWindow v s dp.sect).2 = FR_OK then
    match dirEnt v (moveWindow v s dp.sect).1 dp with
    | none => ⟨(moveWindow v s dp.sect).1, dp, UB⟩
    | some _ => ⟨setEnt v (moveWindow v s dp.sect).1 dp (sfnEntry fn fl), dp, FR_OK⟩
  else ⟨(moveWindow v s dp.sect).1, dp, (moveWindow v s dp.sect).2⟩

/-- Long name entries after `dir_sdi`, and the short entry; fatfs/fatfs.c:2263-2288. -/
def storeNames (v : Vol) (i : Info) (fn : List Nat) (fl : Nat) (buf : List Nat) (n : Nat) (r : Ret) : Ret :=
  if r.res = FR_OK then
    if (lfnLoop v i buf (sumSfn fn) n r.st r.dp).res = FR_OK then putSfn v (lfnLoop v i buf (sumSfn fn) n r.st r.dp).st (lfnLoop v i buf (sumSfn fn) n r.st r.dp).dp fn fl
    else lfnLoop v i buf (sumSfn fn) n r.st r.dp
  else r

/-- After `dir_alloc`, fatfs/fatfs.c:2261-2288; `n` entries are for the long name. -/
def allocated (v : Vol) (i : Info) (fn : List Nat) (fl : Nat) (buf : List Nat) (n : Nat) (r : Ret) : Ret :=
  if r.res = FR_OK then
    if n = 0 then putSfn v r.st r.dp fn fl else storeNames v i fn fl buf n (dirSdi v i r.st r.dp (r.dp.dptr - n * 32))
  else r

/-- `dir_register` once the short name is known, fatfs/fatfs.c:2260-2291. -/
def store (v : Vol) (i : Info) (s : St) (dp : Dp) (fn : List Nat) (fl : Nat) (buf : List Nat) (len : Nat) : Ret :=
  allocated v i fn fl buf (numEntries fl len - 1) (dirAlloc v i s dp (numEntries fl len))

/-- `dir_register`, fatfs/fatfs.c:2197-2296. -/
def dirRegister (v : Vol) (i : Info) (s : St) (dp : Dp) (fn : List Nat) (fl : Nat) (buf : List Nat) : Ret :=
  if fl &&& 0xA0 ≠ 0 then ⟨s, dp, FR_INVALID_NAME⟩
  else
    match lfnLen buf 0 with
    | none => ⟨s, dp, UB⟩
    | some len =>
      if fl &&& 1 ≠ 0 then
        if (numLoop v i fn buf 99 1 s dp).1.res = FR_OK then store v i (numLoop v i fn buf 99 1 s dp).1.st (numLoop v i fn buf 99 1 s dp).1.dp (numLoop v i fn buf 99 1 s dp).2 fl buf len
        else (numLoop v i fn buf 99 1 s dp).1
      else store v i s dp fn fl buf len

/-- Loop of `dir_remove`, fatfs/fatfs.c:2316-2332; the first number bounds the rounds. -/
def markLoop (v : Vol) (i : Info) (last : Nat) : Nat → St → Dp → Ret
  | 0, s, dp => ⟨s, dp, HANG⟩
  | k + 1, s, dp =>
    if (moveWindow v s dp.sect).2 = FR_OK then
      match dirEnt v (moveWindow v s dp.sect).1 dp with
      | none => ⟨(moveWindow v s dp.sect).1, dp, UB⟩
      | some e =>
        if dp.dptr ≥ last then ⟨setEnt v (moveWindow v s dp.sect).1 dp (e.set 0 0xE5), dp, FR_OK⟩
        else if (dirNext v i false (setEnt v (moveWindow v s dp.sect).1 dp (e.set 0 0xE5)) dp).res = FR_OK then
          markLoop v i last k (dirNext v i false (setEnt v (moveWindow v s dp.sect).1 dp (e.set 0 0xE5)) dp).st (dirNext v i false (setEnt v (moveWindow v s dp.sect).1 dp (e.set 0 0xE5)) dp).dp
        else dirNext v i false (setEnt v (moveWindow v s dp.sect).1 dp (e.set 0 0xE5)) dp
    else ⟨(moveWindow v s dp.sect).1, dp, (moveWindow v s dp.sect).2⟩

/-- End of `dir_remove`, fatfs/fatfs.c:2333-2334. -/
def endRemove (r : Ret) : Ret := if r.res = FR_NO_FILE then { r with res := FR_INT_ERR } else r

/-- `dir_remove`, fatfs/fatfs.c:2306-2338; `blk` is `blk_ofs`. -/
def dirRemove (v : Vol) (i : Info) (s : St) (dp : Dp) (blk : Option Nat) : Ret :=
  match blk with
  | none => endRemove (markLoop v i dp.dptr ROUNDS s dp)
  | some b =>
    if (dirSdi v i s dp b).res = FR_OK then endRemove (markLoop v i dp.dptr ROUNDS (dirSdi v i s dp b).st (dirSdi v i s dp b).dp)
    else dirSdi v i s dp b

/-! ## Listing -/

/-- Outcome of `f_readdir`: name and entry, if any, and the buffer for long names. -/
structure Item where
  st : St
  dp : Dp
  res : Nat
  item : Option (List Nat × List Nat)
  buf : List Nat

/-- `dir_next` at the end of `f_readdir`, fatfs/fatfs.c:4506-4508. -/
def readNext (v : Vol) (i : Info) (s : St) (dp : Dp) (item : Option (List Nat × List Nat)) (buf : List Nat) : Item :=
  ⟨(dirNext v i false s dp).st, (dirNext v i false s dp).dp, if (dirNext v i false s dp).res = FR_NO_FILE then FR_OK else (dirNext v i false s dp).res, item, buf⟩

/-- After `dir_read`, fatfs/fatfs.c:4502-4509.  At the end of the directory `get_fileinfo` gives no name, fatfs/fatfs.c:2355-2357. -/
def readInfo (v : Vol) (i : Info) (g : Got) (buf : List Nat) : Item :=
  if g.res = FR_NO_FILE then readNext v i g.st g.dp none buf
  else if g.res = FR_OK then
    match dirEnt v g.st g.dp with
    | none => ⟨g.st, g.dp, UB, none, g.buf⟩
    | some e =>
      match listName (if g.blk = none then none else some g.buf) e with
      | none => ⟨g.st, g.dp, UB, none, g.buf⟩
      | some name => readNext v i g.st g.dp (some (name, e)) g.buf
  else ⟨g.st, g.dp, g.res, none, g.buf⟩

/-- `f_readdir`, fatfs/fatfs.c:4488-4515, without checks of the object. -/
def readdir (v : Vol) (i : Info) (s : St) (dp : Dp) (buf : List Nat) : Item := readInfo v i (dirRead v i s dp buf) buf

/-- Outcome of reading a directory to its end. -/
structure Listed where
  st : St
  res : Nat
  items : List (List Nat × List Nat)

/-- `f_readdir` until there is no name, as the `dir` command does; the number bounds the rounds.  (Simplification: an entry with an empty short name, which the code does not make, would end the loop.) -/
def listLoop (v : Vol) (i : Info) : Nat → St → Dp → List Nat → Listed
  | 0, s, _, _ => ⟨s, HANG, []⟩
  | k + 1, s, dp, buf =>
    if (readdir v i s dp buf).res = FR_OK then
      match (readdir v i s dp buf).item with
      | none => ⟨(readdir v i s dp buf).st, FR_OK, []⟩
      | some x => ⟨(listLoop v i k (readdir v i s dp buf).st (readdir v i s dp buf).dp (readdir v i s dp buf).buf).st, (listLoop v i k (readdir v i s dp buf).st (readdir v i s dp buf).dp (readdir v i s dp buf).buf).res,
          x :: (listLoop v i k (readdir v i s dp buf).st (readdir v i s dp buf).dp (readdir v i s dp buf).buf).items⟩
    else ⟨(readdir v i s dp buf).st, (readdir v i s dp buf).res, []⟩

/-- `dir_sdi` at the end of `f_opendir`, fatfs/fatfs.c:4435, and reading to the end. -/
def list (v : Vol) (i : Info) (s : St) (dp : Dp) (k : Nat) (buf : List Nat) : Listed :=
  if (dirSdi v i s dp 0).res = FR_OK then listLoop v i k (dirSdi v i s dp 0).st (dirSdi v i s dp 0).dp buf else ⟨(dirSdi v i s dp 0).st, (dirSdi v i s dp 0).res, []⟩

end Fpm.DirDev
