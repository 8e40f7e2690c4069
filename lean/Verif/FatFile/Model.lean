import Verif.Fat.ChainModel
/-!
# Reading, writing, seeking and truncating files with FatFs

Model of `f_read`, `f_write`, `f_lseek` and `f_truncate` of `fatfs/fatfs.c` on top of the model of the FAT.  The configuration is the one
of the repository: every file has a buffer of its own (`FF_FS_TINY` is 0, fatfs/ffconf.h).  Not modelled: exFAT, fast seek (`fp->cltbl` is
null unless a program sets it), `validate`.  Positions and sizes are natural numbers; where the code cuts them to 32 bits so does the model.
-/
namespace Fpm.FatFile
open Fpm.Fat

/-- Fields of `file_t`, fatfs/fatfs.h:82-122.  `FA_DIRTY`, `FA_MODIFIED`, `FA_READ` and `FA_WRITE` of `flag` are fields of their own. -/
structure File where
  fptr : Nat
  objsize : Nat
  sclust : Nat
  clust : Nat
  /-- sector in `buf`; 0 at first -/
  sect : Nat
  buf : List Nat
  dirty : Bool
  modified : Bool
  canRead : Bool
  canWrite : Bool
  err : Nat

/-- Result code, include/fpm/fs.h. -/
def FR_DENIED := 7

/-- `disk_read` of one sector into memory. -/
def diskRead (v : Vol) (s : St) (sect : Nat) : St × List Nat × Bool :=
  match v.io s.cnt with
  | .ok => ({ s with cnt := s.cnt + 1 }, s.disk sect, true)
  | .fail junk => ({ s with cnt := s.cnt + 1 }, junk, false)

/-- `disk_read` of several sectors; any of them may fail. -/
def diskReadN (v : Vol) : St → Nat → Nat → St × List Nat × Bool
  | s, _, 0 => (s, [], true)
  | s, sect, k + 1 =>
    ((diskReadN v (diskRead v s sect).1 (sect + 1) k).1,
     (diskRead v s sect).2.1 ++ (diskReadN v (diskRead v s sect).1 (sect + 1) k).2.1,
     (diskRead v s sect).2.2 && (diskReadN v (diskRead v s sect).1 (sect + 1) k).2.2)

/-- `disk_write` of several sectors; any of them may fail. -/
def diskWriteN (v : Vol) : St → Nat → List Nat → Nat → St × Bool
  | s, _, _, 0 => (s, true)
  | s, sect, b, k + 1 =>
    ((diskWriteN v (diskWrite v s sect (b.take v.ss)).1 (sect + 1) (b.drop v.ss) k).1,
     (diskWrite v s sect (b.take v.ss)).2 && (diskWriteN v (diskWrite v s sect (b.take v.ss)).1 (sect + 1) (b.drop v.ss) k).2)

/-- Outcome of a call, or of one round of its loop: volume, file, result code, and the bytes transferred. -/
structure Out where
  st : St
  fp : File
  res : Nat
  got : List Nat
  /-- `break` because the disk is full -/
  full : Bool

/-- `ABORT(fs, res)`, fatfs/fatfs.c:239-243. -/
def abort (s : St) (fp : File) (res : Nat) : Out := ⟨s, { fp with err := res }, res, [], false⟩

/-- `csect`, fatfs/fatfs.c:3663 and 3783. -/
def csect (v : Vol) (fp : File) : Nat := fp.fptr / v.ss &&& (v.csize - 1)

/-- `cc`, the number of sectors to transfer directly, fatfs/fatfs.c:3690-3694 and 3830-3834. -/
def direct (v : Vol) (cs n : Nat) : Nat := if cs + n / v.ss > v.csize then v.csize - cs else n / v.ss

/-- Write-back of the buffer, fatfs/fatfs.c:3718-3722, 3820-3824, 4380-4384. -/
def flush (v : Vol) (s : St) (fp : File) (k : St → File → Out) : Out :=
  if fp.dirty then
    if (diskWrite v s fp.sect fp.buf).2 then k (diskWrite v s fp.sect fp.buf).1 { fp with dirty := false }
    else abort (diskWrite v s fp.sect fp.buf).1 fp FR_DISK_ERR
  else k s fp

/-- Filling the buffer from `sect`, fatfs/fatfs.c:3724-3728, 3857-3863, 4386-4389. -/
def fill (v : Vol) (s : St) (fp : File) (sect : Nat) (k : St → File → Out) : Out :=
  if (diskRead v s sect).2.2 then k (diskRead v s sect).1 { fp with buf := (diskRead v s sect).2.1, sect := sect }
  else abort (diskRead v s sect).1 { fp with buf := (diskRead v s sect).2.1 } FR_DISK_ERR

/-- A part of the buffer, fatfs/fatfs.c:3731-3739. -/
def copyOut (v : Vol) (n : Nat) (s : St) (fp : File) : Out :=
  ⟨s, fp, FR_OK, (fp.buf.drop (fp.fptr % v.ss)).take (min (v.ss - fp.fptr % v.ss) n), false⟩

/-- Through the buffer, fatfs/fatfs.c:3716-3739. -/
def readCached (v : Vol) (s : St) (fp : File) (n sect : Nat) : Out :=
  if fp.sect ≠ sect then flush v s fp fun s fp => fill v s fp sect fun s fp => copyOut v n s fp
  else copyOut v n s fp

/-- Replacing one of the sectors by the buffer, fatfs/fatfs.c:3707-3709.  The difference in the condition is unsigned. -/
def patched (v : Vol) (fp : File) (sect cc : Nat) (b : List Nat) : List Nat :=
  if fp.dirty = true ∧ sect ≤ fp.sect ∧ fp.sect - sect < cc then b.take ((fp.sect - sect) * v.ss) ++ fp.buf ++ b.drop ((fp.sect - sect) * v.ss + v.ss)
  else b

/-- Without the buffer, fatfs/fatfs.c:3691-3714. -/
def readDirect (v : Vol) (s : St) (fp : File) (sect cc : Nat) : Out :=
  if (diskReadN v s sect cc).2.2 then ⟨(diskReadN v s sect cc).1, fp, FR_OK, patched v fp sect cc (diskReadN v s sect cc).2.1, false⟩
  else abort (diskReadN v s sect cc).1 fp FR_DISK_ERR

/-- At the start of a sector in the current cluster, fatfs/fatfs.c:3686-3739. -/
def readSector (v : Vol) (n : Nat) (s : St) (fp : File) : Out :=
  if clst2sect v fp.clust = 0 then abort s fp FR_INT_ERR
  else if n / v.ss > 0 then readDirect v s fp (clst2sect v fp.clust + csect v fp) (direct v (csect v fp) n)
  else readCached v s fp n (clst2sect v fp.clust + csect v fp)

/-- The next cluster, fatfs/fatfs.c:3667-3679. -/
def followed (v : Vol) (s : St) (fp : File) : St × Nat := if fp.fptr = 0 then (s, fp.sclust) else getFat v s fp.clust

/-- Checking the next cluster, fatfs/fatfs.c:3680-3684. -/
def entered (fp : File) (p : St × Nat) (k : St → File → Out) : Out :=
  if p.2 = UB then abort p.1 fp UB
  else if p.2 < 2 then abort p.1 fp FR_INT_ERR
  else if p.2 = DERR then abort p.1 fp FR_DISK_ERR
  else k p.1 { fp with clust := p.2 }

/-- One round of the loop of `f_read`, fatfs/fatfs.c:3661-3739, without the increments in its head. -/
def readRound (v : Vol) (s : St) (fp : File) (n : Nat) : Out :=
  if fp.fptr % v.ss = 0 then
    if csect v fp = 0 then entered fp (followed v s fp) (readSector v n)
    else readSector v n s fp
  else copyOut v n s fp

/-- Loop of `f_read`, fatfs/fatfs.c:3659-3740.  The first number bounds the number of rounds; running out of it is an outcome of its own. -/
def readLoop (v : Vol) : Nat → St → File → Nat → List Nat → Out
  | 0, s, fp, n, acc => ⟨s, fp, if n = 0 then FR_OK else UB, acc, false⟩
  | k + 1, s, fp, n, acc =>
    if n = 0 then ⟨s, fp, FR_OK, acc, false⟩
    else if (readRound v s fp n).res = FR_OK then
      readLoop v k (readRound v s fp n).st { (readRound v s fp n).fp with fptr := fp.fptr + (readRound v s fp n).got.length }
        (n - (readRound v s fp n).got.length) (acc ++ (readRound v s fp n).got)
    else { readRound v s fp n with got := acc }

/-- `f_read`, fatfs/fatfs.c:3639-3743: reading `n` bytes. -/
def fRead (v : Vol) (s : St) (fp : File) (n : Nat) : Out :=
  if fp.err ≠ 0 then ⟨s, fp, fp.err, [], false⟩
  else if fp.canRead = false then ⟨s, fp, FR_DENIED, [], false⟩
  else readLoop v (min n (fp.objsize - fp.fptr)) s fp (min n (fp.objsize - fp.fptr)) []

/-- Bytes into the buffer, fatfs/fatfs.c:3866-3876. -/
def copyIn (v : Vol) (b : List Nat) (s : St) (fp : File) : Out :=
  ⟨s, { fp with
        buf := fp.buf.take (fp.fptr % v.ss) ++ b.take (v.ss - fp.fptr % v.ss) ++ fp.buf.drop (fp.fptr % v.ss + min (v.ss - fp.fptr % v.ss) b.length),
        dirty := true },
    FR_OK, b.take (v.ss - fp.fptr % v.ss), false⟩

/-- Through the buffer, fatfs/fatfs.c:3857-3876.  At the growing edge the buffer is not filled. -/
def writeCached (v : Vol) (b : List Nat) (sect : Nat) (s : St) (fp : File) : Out :=
  if fp.sect ≠ sect ∧ fp.fptr < fp.objsize then fill v s fp sect fun s fp => copyIn v b s fp
  else copyIn v b s { fp with sect := sect }

/-- Bringing the buffer up to date after a direct write, fatfs/fatfs.c:3846-3850. -/
def refilled (v : Vol) (b : List Nat) (sect cc : Nat) (fp : File) : File :=
  if sect ≤ fp.sect ∧ fp.sect - sect < cc then { fp with buf := (b.drop ((fp.sect - sect) * v.ss)).take v.ss, dirty := false } else fp

/-- Without the buffer, fatfs/fatfs.c:3831-3855. -/
def writeDirect (v : Vol) (b : List Nat) (sect cc : Nat) (s : St) (fp : File) : Out :=
  if (diskWriteN v s sect b cc).2 then ⟨(diskWriteN v s sect b cc).1, refilled v b sect cc fp, FR_OK, b.take (v.ss * cc), false⟩
  else abort (diskWriteN v s sect b cc).1 fp FR_DISK_ERR

/-- At the start of a sector in the current cluster, after the write-back, fatfs/fatfs.c:3826-3876. -/
def writeHere (v : Vol) (b : List Nat) (s : St) (fp : File) : Out :=
  if clst2sect v fp.clust = 0 then abort s fp FR_INT_ERR
  else if b.length / v.ss > 0 then writeDirect v b (clst2sect v fp.clust + csect v fp) (direct v (csect v fp) b.length) s fp
  else writeCached v b (clst2sect v fp.clust + csect v fp) s fp

/-- At the start of a sector in the current cluster, fatfs/fatfs.c:3820-3876. -/
def writeSector (v : Vol) (b : List Nat) (s : St) (fp : File) : Out := flush v s fp (writeHere v b)

/-- The next cluster, fatfs/fatfs.c:3786-3803. -/
def stretched (v : Vol) (s : St) (fp : File) : St × Nat :=
  if fp.fptr = 0 then if fp.sclust = 0 then createChain v s 0 else (s, fp.sclust)
  else createChain v s fp.clust

/-- Checking the next cluster, fatfs/fatfs.c:3804-3812. -/
def grown (fp : File) (p : St × Nat) (k : St → File → Out) : Out :=
  if p.2 = UB then abort p.1 fp UB
  else if p.2 = 0 then ⟨p.1, fp, FR_OK, [], true⟩
  else if p.2 = 1 then abort p.1 fp FR_INT_ERR
  else if p.2 = DERR then abort p.1 fp FR_DISK_ERR
  else k p.1 { fp with clust := p.2, sclust := if fp.sclust = 0 then p.2 else fp.sclust }

/-- One round of the loop of `f_write`, fatfs/fatfs.c:3780-3876, without the increments in its head. -/
def writeRound (v : Vol) (s : St) (fp : File) (b : List Nat) : Out :=
  if fp.fptr % v.ss = 0 then
    if csect v fp = 0 then grown fp (stretched v s fp) (writeSector v b)
    else writeSector v b s fp
  else copyIn v b s fp

/-- The increments in the head of the loop of `f_write`, fatfs/fatfs.c:3776-3779. -/
def moved (fp : File) (n : Nat) : File :=
  { fp with fptr := fp.fptr + n, objsize := if fp.fptr + n > fp.objsize then fp.fptr + n else fp.objsize }

/-- Loop of `f_write`, fatfs/fatfs.c:3776-3877, and setting `FA_MODIFIED` after it. -/
def writeLoop (v : Vol) : Nat → St → File → List Nat → List Nat → Out
  | 0, s, fp, b, acc => ⟨s, { fp with modified := true }, if b = [] then FR_OK else UB, acc, false⟩
  | k + 1, s, fp, b, acc =>
    if b = [] then ⟨s, { fp with modified := true }, FR_OK, acc, false⟩
    else if (writeRound v s fp b).res ≠ FR_OK then { writeRound v s fp b with got := acc }
    else if (writeRound v s fp b).full then ⟨(writeRound v s fp b).st, { (writeRound v s fp b).fp with modified := true }, FR_OK, acc, true⟩
    else writeLoop v k (writeRound v s fp b).st (moved (writeRound v s fp b).fp (writeRound v s fp b).got.length)
      (b.drop (writeRound v s fp b).got.length) (acc ++ (writeRound v s fp b).got)

/-- Limit of the size of a file, fatfs/fatfs.c:3771-3774; sums are cut to 32 bits. -/
def clipped (fp : File) (b : List Nat) : List Nat :=
  if (fp.fptr + b.length) % 2 ^ 32 < fp.fptr % 2 ^ 32 then b.take (0xFFFFFFFF - fp.fptr % 2 ^ 32) else b

/-- `f_write`, fatfs/fatfs.c:3750-3879; `got` are the bytes written. -/
def fWrite (v : Vol) (s : St) (fp : File) (b : List Nat) : Out :=
  if fp.err ≠ 0 then ⟨s, fp, fp.err, [], false⟩
  else if fp.canWrite = false then ⟨s, fp, FR_DENIED, [], false⟩
  else writeLoop v (clipped fp b).length s fp (clipped fp b) []

/-- A larger file, fatfs/fatfs.c:4340-4345 and 4371-4375. -/
def extended (fp : File) : File := if fp.fptr > fp.objsize then { fp with objsize := fp.fptr, modified := true } else fp

/-- Success without bytes. -/
def done (s : St) (fp : File) : Out := ⟨s, fp, FR_OK, [], false⟩

/-- End of `f_lseek`, fatfs/fatfs.c:4376-4391. -/
def seekFill (v : Vol) (nsect : Nat) (s : St) (fp : File) : Out :=
  if fp.fptr % v.ss ≠ 0 ∧ nsect ≠ fp.sect then flush v s fp fun s fp => fill v s fp nsect done
  else done s fp

/-- End of `f_lseek`, fatfs/fatfs.c:4371-4391. -/
def seekEnd (v : Vol) (nsect : Nat) (s : St) (fp : File) : Out := seekFill v nsect s (extended fp)

/-- After following the chain, fatfs/fatfs.c:4362-4368. -/
def seekHere (v : Vol) (s : St) (fp : File) (ofs clst : Nat) : Out :=
  if ofs % v.ss ≠ 0 then
    if clst2sect v clst = 0 then abort s { fp with fptr := fp.fptr + ofs } FR_INT_ERR
    else seekEnd v (clst2sect v clst + ofs / v.ss) s { fp with fptr := fp.fptr + ofs }
  else seekEnd v 0 s { fp with fptr := fp.fptr + ofs }

/-- The next cluster, fatfs/fatfs.c:4338-4354. -/
def seekNext (v : Vol) (s : St) (fp : File) (clst : Nat) : St × Nat := if fp.canWrite then createChain v s clst else getFat v s clst

/-- One cluster further, fatfs/fatfs.c:4336-4345. -/
def seekStep (v : Vol) (fp : File) : File :=
  if fp.canWrite then extended { fp with fptr := fp.fptr + v.csize * v.ss } else { fp with fptr := fp.fptr + v.csize * v.ss }

/-- Checking the next cluster, fatfs/fatfs.c:4347-4360. -/
def seekChecked (v : Vol) (fp : File) (p : St × Nat) (k : St → File → Out) : Out :=
  if p.2 = UB then abort p.1 fp UB
  else if p.2 = 0 ∧ fp.canWrite = true then seekHere v p.1 fp 0 0
  else if p.2 = DERR then abort p.1 fp FR_DISK_ERR
  else if p.2 ≤ 1 ∨ p.2 ≥ v.nFatent then abort p.1 fp FR_INT_ERR
  else k p.1 { fp with clust := p.2 }

/-- Following the chain, fatfs/fatfs.c:4334-4368.  The first number bounds the number of rounds. -/
def seekLoop (v : Vol) : Nat → St → File → Nat → Nat → Out
  | 0, s, fp, _, _ => abort s fp UB
  | k + 1, s, fp, ofs, clst =>
    if ofs > v.csize * v.ss then
      seekChecked v (seekStep v fp) (seekNext v s (seekStep v fp) clst) fun s' fp' => seekLoop v k s' fp' (ofs - v.csize * v.ss) fp'.clust
    else seekHere v s fp ofs clst

/-- Where there are clusters, fatfs/fatfs.c:4333-4368. -/
def seekFrom (v : Vol) (ofs clst : Nat) (s : St) (fp : File) : Out :=
  if clst ≠ 0 then seekLoop v (ofs + 1) s fp ofs clst else seekEnd v 0 s fp

/-- A first cluster made for `f_lseek`, fatfs/fatfs.c:4322-4331. -/
def seekNew (v : Vol) (ofs : Nat) (fp : File) (p : St × Nat) : Out :=
  if p.2 = UB then abort p.1 fp UB
  else if p.2 = 1 then abort p.1 fp FR_INT_ERR
  else if p.2 = DERR then abort p.1 fp FR_DISK_ERR
  else seekFrom v ofs p.2 p.1 { fp with sclust := p.2, clust := p.2 }

/-- From the start of the file, fatfs/fatfs.c:4318-4332. -/
def seekStart (v : Vol) (ofs : Nat) (s : St) (fp : File) : Out :=
  if fp.sclust = 0 then seekNew v ofs fp (createChain v s 0) else seekFrom v ofs fp.sclust s { fp with clust := fp.sclust }

/-- Start of the cluster of a position, fatfs/fatfs.c:4315; the cluster size is a power of two. -/
def clusterStart (v : Vol) (p : Nat) : Nat := p / (v.csize * v.ss) * (v.csize * v.ss)

/-- `f_lseek` with an offset that has been clipped, fatfs/fatfs.c:4308-4391. -/
def seekTo (v : Vol) (s : St) (fp : File) (ofs : Nat) : Out :=
  if ofs = 0 then seekEnd v 0 s { fp with fptr := 0 }
  else if fp.fptr > 0 ∧ (ofs - 1) / (v.csize * v.ss) ≥ (fp.fptr - 1) / (v.csize * v.ss) then
    seekFrom v (ofs - clusterStart v (fp.fptr - 1)) fp.clust s { fp with fptr := clusterStart v (fp.fptr - 1) }
  else seekStart v ofs s { fp with fptr := 0 }

/-- Clipping of the offset, fatfs/fatfs.c:4299-4306. -/
def seekClip (fp : File) (ofs : Nat) : Nat :=
  if (if ofs ≥ 0x100000000 then 0xFFFFFFFF else ofs) > fp.objsize ∧ fp.canWrite = false then fp.objsize
  else if ofs ≥ 0x100000000 then 0xFFFFFFFF else ofs

/-- `f_lseek`, fatfs/fatfs.c:4209-4394. -/
def fLseek (v : Vol) (s : St) (fp : File) (ofs : Nat) : Out :=
  if fp.err ≠ 0 then ⟨s, fp, fp.err, [], false⟩
  else seekTo v s fp (seekClip fp ofs)

/-- Removing the rest of a chain in `f_truncate`, fatfs/fatfs.c:4736-4744. -/
def cutAfter (v : Vol) (fp : File) (p : St × Nat) : St × Nat :=
  if p.2 = UB then p
  else if p.2 = DERR then (p.1, FR_DISK_ERR)
  else if p.2 = 1 then (p.1, FR_INT_ERR)
  else if p.2 < v.nFatent then removeChain v p.1 p.2 fp.clust
  else (p.1, FR_OK)

/-- End of `f_truncate`, fatfs/fatfs.c:4746-4760. -/
def cutEnd (v : Vol) (fp : File) (p : St × Nat) : Out :=
  if p.2 ≠ FR_OK then abort p.1 { fp with objsize := fp.fptr, modified := true } p.2
  else flush v p.1 { fp with objsize := fp.fptr, modified := true } done

/-- `f_truncate`, fatfs/fatfs.c:4719-4764. -/
def fTruncate (v : Vol) (s : St) (fp : File) : Out :=
  if fp.err ≠ 0 then ⟨s, fp, fp.err, [], false⟩
  else if fp.canWrite = false then ⟨s, fp, FR_DENIED, [], false⟩
  else if fp.fptr < fp.objsize then
    if fp.fptr = 0 then cutEnd v { fp with sclust := 0 } (removeChain v s fp.sclust 0)
    else cutEnd v fp (cutAfter v fp (getFat v s fp.clust))
  else done s fp

end Fpm.FatFile
