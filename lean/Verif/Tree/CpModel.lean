import Verif.Tree.OpenModel
import Verif.Tree.RmModel
/-!
# Copying a file with the command cp

Model of `copy_file` of `kernel/cmd/cmd_copy.c` on the device: `f_stat`, `f_open`, `f_read`, `f_write` and `f_close` are the models of these functions, and the table of open objects is part of the state.  Prompts are left out, the answer of
the user is a parameter.  Messages are told apart by what they say.  Paths are strings without their final zero.
-/
namespace Fpm.Tree
open Fpm.Fat Fpm.FatBytes Fpm.Lfn Fpm.Names Fpm.FatDir Fpm.Mount Fpm.FatSync Fpm.DirDev Fpm.FatFile
open Fpm.FatLock (Sem decShare)

/-- Messages of `copy_file`, with the result that `f_strerror` puts into words. -/
inductive CpMsg where
  /-- kernel/cmd/cmd_copy.c:38 -/
  | kept
  /-- lines 48 and 68, with the source -/
  | source (res : Nat)
  /-- lines 56 and 81, with the destination -/
  | dest (res : Nat)
  /-- line 86 -/
  | noSpace
  /-- the loop has not ended -/
  | hang
deriving DecidableEq

/-- State of the volume, table of open objects, number of calls with names so far, message. -/
structure Cp where
  st : St
  files : List Sem
  n : Nat
  msg : Option CpMsg

/-- `f_close`, fatfs/fatfs.c:3967-3992: the lock goes if flushing succeeds.  Result: volume and table; callers ignore the result code.  `validate` is left out. -/
def fClose (v : Vol) (tm : Nat) (p : Opd) (fp : File) (s : St) (files : List Sem) : St × List Sem :=
  ((fSync v p.place tm s fp).st, if (fSync v p.place tm s fp).res = FR_OK then (decShare files p.lock).1 else files)

/-- State of the loop when it ends: volume, both file objects, message. -/
structure CpEnd where
  st : St
  src : File
  dst : File
  msg : Option CpMsg

/-- Loop of `copy_file`, kernel/cmd/cmd_copy.c:63-89; the number bounds the rounds. -/
def cpLoop (v : Vol) : Nat → St → File → File → CpEnd
  | 0, s, a, b => ⟨s, a, b, some .hang⟩
  | k + 1, s, a, b =>
    if (fRead v s a 4096).res ≠ FR_OK then ⟨(fRead v s a 4096).st, (fRead v s a 4096).fp, b, some (.source (fRead v s a 4096).res)⟩
    else if (fRead v s a 4096).got.length = 0 then ⟨(fRead v s a 4096).st, (fRead v s a 4096).fp, b, none⟩
    else if (fWrite v (fRead v s a 4096).st b (fRead v s a 4096).got).res ≠ FR_OK then
      ⟨(fWrite v (fRead v s a 4096).st b (fRead v s a 4096).got).st, (fRead v s a 4096).fp, (fWrite v (fRead v s a 4096).st b (fRead v s a 4096).got).fp,
        some (.dest (fWrite v (fRead v s a 4096).st b (fRead v s a 4096).got).res)⟩
    else if (fWrite v (fRead v s a 4096).st b (fRead v s a 4096).got).got.length ≠ (fRead v s a 4096).got.length then
      ⟨(fWrite v (fRead v s a 4096).st b (fRead v s a 4096).got).st, (fRead v s a 4096).fp, (fWrite v (fRead v s a 4096).st b (fRead v s a 4096).got).fp, some .noSpace⟩
    else cpLoop v k (fWrite v (fRead v s a 4096).st b (fRead v s a 4096).got).st (fRead v s a 4096).fp (fWrite v (fRead v s a 4096).st b (fRead v s a 4096).got).fp

/-- Both files are closed, the source first, kernel/cmd/cmd_copy.c:69-70 and 92-93; `p` and `q` are what `f_open` gave, `tm` is the time. -/
def cpClose (v : Vol) (tm : Nat) (p q : Opd) (n : Nat) (e : CpEnd) : Cp :=
  ⟨(fClose v tm q e.dst (fClose v tm p e.src e.st q.files).1 (fClose v tm p e.src e.st q.files).2).1, (fClose v tm q e.dst (fClose v tm p e.src e.st q.files).1 (fClose v tm p e.src e.st q.files).2).2, n, e.msg⟩

/-- After opening the destination, kernel/cmd/cmd_copy.c:54-96; `fp` is the open source.  A file is not longer than 2^32 bytes, which bounds the rounds. -/
def cpDst (g : Env) (tm n : Nat) (p : Opd) (fp : File) (q : Opd) : Cp :=
  if q.res ≠ FR_OK then ⟨(fClose g.v tm p fp q.st q.files).1, (fClose g.v tm p fp q.st q.files).2, n, some (.dest q.res)⟩
  else
    match q.fp with
    | none => ⟨q.st, q.files, n, some (.dest UB)⟩
    | some fq => cpClose g.v tm p q n (cpLoop g.v (2 ^ 32) q.st fp fq)

/-- After opening the source, kernel/cmd/cmd_copy.c:46-96; `FA_WRITE | FA_CREATE_ALWAYS` is 0x0A; `tm` is the time of opening, `tm'` that of closing, `old` what is in `fdest->clust`. -/
def cpSrc (g : Env) (tm tm' old : Nat) (dst : List Nat) (n : Nat) (p : Opd) : Cp :=
  if p.res ≠ FR_OK then ⟨p.st, p.files, n, some (.source p.res)⟩
  else
    match p.fp with
    | none => ⟨p.st, p.files, n, some (.source UB)⟩
    | some fp => cpDst g tm' (n + 1) p fp (fOpen g.v g.i g.cdir p.files g.fs tm 0x0A old (dst ++ [0]) p.st (g.old n).1 (g.old n).2)

/-- Opening the source and what follows, kernel/cmd/cmd_copy.c:44-96; `FA_READ` is 1; `old` is what is in the fields `clust` of both file objects before. -/
def cpCopy (g : Env) (tm tm' : Nat) (old : Nat × Nat) (src dst : List Nat) (r : Cp) : Cp :=
  cpSrc g tm tm' old.2 dst (r.n + 1) (fOpen g.v g.i g.cdir r.files g.fs tm 1 old.1 (src ++ [0]) r.st (g.old r.n).1 (g.old r.n).2)

/-- The question, kernel/cmd/cmd_copy.c:27-42: `res` is the result of `f_stat`. -/
def cpAsk (g : Env) (yes : Bool) (tm tm' : Nat) (old : Nat × Nat) (src dst : List Nat) (r : Cp) (res : Nat) : Cp :=
  if res = FR_OK ∧ yes = false then { r with msg := some .kept } else cpCopy g tm tm' old src dst r

/-- `copy_file`, kernel/cmd/cmd_copy.c:22-96; `yes` is the answer of the user, `info` what is in the variable `info` before. -/
def cpFile (g : Env) (force yes : Bool) (tm tm' : Nat) (old : Nat × Nat) (info : FInfo) (src dst : List Nat) (r : Cp) : Cp :=
  if force then cpCopy g tm tm' old src dst r
  else
    cpAsk g yes tm tm' old src dst { r with st := (fStat g.v g.i g.cdir (dst ++ [0]) r.st (g.old r.n).1 (g.old r.n).2 info).1, n := r.n + 1 }
      (fStat g.v g.i g.cdir (dst ++ [0]) r.st (g.old r.n).1 (g.old r.n).2 info).2.1

end Fpm.Tree
