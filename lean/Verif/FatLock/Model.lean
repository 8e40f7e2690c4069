/-!
# Sharing control of FatFs

Model of `chk_share`, `enq_share`, `inc_share`, `dec_share`, `clear_share` of `fatfs/fatfs.c` (FF_FS_LOCK is 16,
FF_FS_REENTRANT is 0, fatfs/ffconf.h:159-170) and of the calls made by `f_open`, `f_close`, `f_opendir`, `f_closedir`,
`f_unlink`, `f_rename`, `f_mount`, `f_unmount`.
-/
namespace Fpm.FatLock

/-- What identifies an object: volume, first cluster of the directory that contains it (0: root directory), offset in that
directory; fatfs/fatfs.c:297-299. -/
structure Key where
  fs : Nat
  clu : Nat
  ofs : Nat
deriving DecidableEq, Repr

/-- `FILESEM`, fatfs/fatfs.c:296-302; `fs` is 0 for the null pointer. -/
structure Sem where
  key : Key
  ctr : Nat
deriving DecidableEq, Repr

/-- Result codes, include/fpm/fs.h:20-38. -/
def FR_OK := 0
@[inherit_doc FR_OK] def FR_INT_ERR := 2
@[inherit_doc FR_OK] def FR_LOCKED := 16
@[inherit_doc FR_OK] def FR_TOO_MANY_OPEN_FILES := 18

/-- `FF_FS_LOCK`, fatfs/ffconf.h:159. -/
def FF_FS_LOCK := 16

/-- Loop of `chk_share`, fatfs/fatfs.c:672-682: the entry found and the variable `be`. -/
def chkLoop (k : Key) (be : Bool) : List Sem → Option Sem × Bool
  | [] => (none, be)
  | s :: r => if s.key.fs ≠ 0 then if s.key = k then (some s, be) else chkLoop k be r else chkLoop k true r

/-- `chk_share`, fatfs/fatfs.c:664-690; `acc` is 0 for reading, 1 for writing, 2 for removing. -/
def chkShare (files : List Sem) (k : Key) (acc : Nat) : Nat :=
  match chkLoop k false files with
  | (none, be) => if !be ∧ acc ≠ 2 then FR_TOO_MANY_OPEN_FILES else FR_OK
  | (some s, _) => if acc ≠ 0 ∨ s.ctr = 0x100 then FR_LOCKED else FR_OK

/-- `enq_share`, fatfs/fatfs.c:692-699. -/
def enqShare (files : List Sem) : Bool := files.any (·.key.fs = 0)

/-- Second half of `inc_share`, fatfs/fatfs.c:727-732, on entry `i`: table and index. -/
def incAt (files : List Sem) (acc i : Nat) : List Sem × Nat :=
  match files[i]? with
  | none => (files, 0)
  | some s =>
    if acc ≥ 1 ∧ s.ctr ≠ 0 then (files, 0)
    else (files.set i { s with ctr := if acc ≠ 0 then 0x100 else s.ctr + 1 }, i + 1)

/-- `inc_share`, fatfs/fatfs.c:705-733: new table and index, 0 for failure. -/
def incShare (files : List Sem) (k : Key) (acc : Nat) : List Sem × Nat :=
  match files.findIdx? (·.key = k) with
  | some i => incAt files acc i
  | none =>
    match files.findIdx? (·.key.fs = 0) with
    | none => (files, 0)
    | some i => incAt (files.set i ⟨k, 0⟩) acc i

/-- New counter in `dec_share`, fatfs/fatfs.c:744-748. -/
def decCtr (ctr : Nat) : Nat := (if ctr = 0x100 then 0 else ctr) - 1

/-- `dec_share`, fatfs/fatfs.c:738-760, with an index counted from 1; index 0 wraps around. -/
def decShare (files : List Sem) (lockid : Nat) : List Sem × Nat :=
  if lockid = 0 then (files, FR_INT_ERR)
  else match files[lockid - 1]? with
    | none => (files, FR_INT_ERR)
    | some s =>
      (files.set (lockid - 1) ⟨if decCtr s.ctr = 0 then { s.key with fs := 0 } else s.key, decCtr s.ctr⟩, FR_OK)

/-- `clear_share`, fatfs/fatfs.c:762-771. -/
def clearShare (files : List Sem) (fs : Nat) : List Sem :=
  files.map fun s => if s.key.fs = fs then { s with key := { s.key with fs := 0 } } else s

/-- The table at the start of the program: static data is zero, fatfs/fatfs.c:331. -/
def initial : List Sem := List.replicate FF_FS_LOCK ⟨⟨0, 0, 0⟩, 0⟩

/-- Locking in `f_open` of an existing object, fatfs/fatfs.c:3467 and 3550-3553; what is between does not use the table.
Result: table, lock index, result code. -/
def openOld (files : List Sem) (k : Key) (acc : Nat) : List Sem × Nat × Nat :=
  if chkShare files k acc ≠ FR_OK then (files, 0, chkShare files k acc)
  else ((incShare files k acc).1, (incShare files k acc).2, if (incShare files k acc).2 = 0 then FR_INT_ERR else FR_OK)

/-- Locking in `f_open` of a new file, fatfs/fatfs.c:3477 and 3550-3553.  Creating implies writing (3467, 3551: a
mode other than reading). -/
def openNew (files : List Sem) (k : Key) : List Sem × Nat × Nat :=
  if enqShare files = false then (files, 0, FR_TOO_MANY_OPEN_FILES)
  else ((incShare files k 1).1, (incShare files k 1).2, if (incShare files k 1).2 = 0 then FR_INT_ERR else FR_OK)

/-- Locking in `f_opendir`, fatfs/fatfs.c:4437-4446: the directory's own first cluster and the offset 0 are used; the
root directory (cluster 0) is not locked. -/
def openDir (files : List Sem) (fs clu : Nat) : List Sem × Nat × Nat :=
  if clu = 0 then (files, 0, FR_OK)
  else ((incShare files ⟨fs, clu, 0⟩ 0).1, (incShare files ⟨fs, clu, 0⟩ 0).2,
    if (incShare files ⟨fs, clu, 0⟩ 0).2 = 0 then FR_TOO_MANY_OPEN_FILES else FR_OK)

/-- Locking in `f_unlink` and `f_rename`, fatfs/fatfs.c:4790 and 4954. -/
def mayRemove (files : List Sem) (k : Key) : Bool := chkShare files k 2 = FR_OK

end Fpm.FatLock
