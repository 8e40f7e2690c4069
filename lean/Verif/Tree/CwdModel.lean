import Verif.Tree.StatModel
/-!
# f_getcwd

Model of `f_getcwd` of `fatfs/fatfs.c` for FAT12, FAT16 and FAT32, on a mounted volume whose medium is present.  exFAT is not modelled.
-/
namespace Fpm.Tree
open Fpm.Fat Fpm.FatBytes Fpm.Lfn Fpm.Names Fpm.FatDir Fpm.Mount Fpm.FatSync Fpm.DirDev

/-- include/fpm/fs.h:37 -/
def FR_NOT_ENOUGH_CORE := 17

/-- Go to the parent directory, fatfs/fatfs.c:4123-4132: its cluster is that of the second entry. -/
def parentDir (v : Vol) (i : Info) (s : St) (dp : Dp) : Ret :=
  if (dirSdi v i s dp 32).res = FR_OK then
    if (moveWindow v (dirSdi v i s dp 32).st (dirSdi v i s dp 32).dp.sect).2 = FR_OK then
      match (dirEnt v (moveWindow v (dirSdi v i s dp 32).st (dirSdi v i s dp 32).dp.sect).1 (dirSdi v i s dp 32).dp).bind fun e => ldClust v e 0 with
      | none => ⟨(moveWindow v (dirSdi v i s dp 32).st (dirSdi v i s dp 32).dp.sect).1, (dirSdi v i s dp 32).dp, UB⟩
      | some cl => dirSdi v i (moveWindow v (dirSdi v i s dp 32).st (dirSdi v i s dp 32).dp.sect).1 { (dirSdi v i s dp 32).dp with sclust := cl } 0
    else ⟨(moveWindow v (dirSdi v i s dp 32).st (dirSdi v i s dp 32).dp.sect).1, (dirSdi v i s dp 32).dp, (moveWindow v (dirSdi v i s dp 32).st (dirSdi v i s dp 32).dp.sect).2⟩
  else dirSdi v i s dp 32

/-- Find the entry that links to the child directory `ccl`, fatfs/fatfs.c:4133-4140; the number bounds the rounds. -/
def findChild (v : Vol) (i : Info) (ccl : Nat) : Nat → St → Dp → List Nat → Got
  | 0, s, dp, buf => ⟨s, dp, HANG, none, buf⟩
  | k + 1, s, dp, buf =>
    if (dirRead v i s dp buf).res = FR_OK then
      match (dirEnt v (dirRead v i s dp buf).st (dirRead v i s dp buf).dp).bind fun e => ldClust v e 0 with
      | none => ⟨(dirRead v i s dp buf).st, (dirRead v i s dp buf).dp, UB, none, (dirRead v i s dp buf).buf⟩
      | some cl =>
        if ccl = cl then dirRead v i s dp buf
        else if (dirNext v i false (dirRead v i s dp buf).st (dirRead v i s dp buf).dp).res = FR_OK then
          findChild v i ccl k (dirNext v i false (dirRead v i s dp buf).st (dirRead v i s dp buf).dp).st (dirNext v i false (dirRead v i s dp buf).st (dirRead v i s dp buf).dp).dp (dirRead v i s dp buf).buf
        else ⟨(dirNext v i false (dirRead v i s dp buf).st (dirRead v i s dp buf).dp).st, (dirNext v i false (dirRead v i s dp buf).st (dirRead v i s dp buf).dp).dp,
          (dirNext v i false (dirRead v i s dp buf).st (dirRead v i s dp buf).dp).res, none, (dirRead v i s dp buf).buf⟩
    else dirRead v i s dp buf

/-- `buff[--i] = c` for these characters, fatfs/fatfs.c:4153-4155, 4160; `none`: outside of the buffer. -/
def pushDown : List Nat → List Nat → Nat → Option (List Nat × Nat)
  | [], out, i => some (out, i)
  | _ :: _, _, 0 => none
  | c :: cs, out, i + 1 => if i < out.length then pushDown cs (out.set i c) i else none

/-- Name of the entry, from `get_fileinfo`, fatfs/fatfs.c:4145.  The names have no zero byte, so their length is that of `fno.fname`. -/
def childName (v : Vol) (g : Got) : Option (List Nat) := (dirEnt v g.st g.dp).bind fun e => listName (if g.blk = none then none else some g.buf) e

/-- Outcome of the loop: state, result, the buffer (`none`: access outside of it), and the index of the path in it. -/
structure Climbed where
  st : St
  res : Nat
  out : Option (List Nat)
  pos : Nat

/-- The loop over the directories on the way up, fatfs/fatfs.c:4119-4156, with the buffer `out` filled from index `j` on; the number bounds the rounds. -/
def climb (v : Vol) (i : Info) : Nat → St → Dp → List Nat → List Nat → Nat → Climbed
  | 0, s, _, _, out, j => ⟨s, HANG, some out, j⟩
  | k + 1, s, dp, buf, out, j =>
    if dp.sclust = 0 then ⟨s, FR_OK, some out, j⟩
    else if (parentDir v i s dp).res = FR_OK then
      if (findChild v i dp.sclust ROUNDS (parentDir v i s dp).st (parentDir v i s dp).dp buf).res = FR_OK then
        match childName v (findChild v i dp.sclust ROUNDS (parentDir v i s dp).st (parentDir v i s dp).dp buf) with
        | none => ⟨(findChild v i dp.sclust ROUNDS (parentDir v i s dp).st (parentDir v i s dp).dp buf).st, UB, some out, j⟩
        | some name =>
          if j < name.length + 1 then ⟨(findChild v i dp.sclust ROUNDS (parentDir v i s dp).st (parentDir v i s dp).dp buf).st, FR_NOT_ENOUGH_CORE, some out, j⟩
          else
            match pushDown (name.reverse ++ [47]) out j with
            | none => ⟨(findChild v i dp.sclust ROUNDS (parentDir v i s dp).st (parentDir v i s dp).dp buf).st, UB, none, j⟩
            | some (out, j) =>
              climb v i k (findChild v i dp.sclust ROUNDS (parentDir v i s dp).st (parentDir v i s dp).dp buf).st (findChild v i dp.sclust ROUNDS (parentDir v i s dp).st (parentDir v i s dp).dp buf).dp
                (findChild v i dp.sclust ROUNDS (parentDir v i s dp).st (parentDir v i s dp).dp buf).buf out j
      else ⟨(findChild v i dp.sclust ROUNDS (parentDir v i s dp).st (parentDir v i s dp).dp buf).st,
        if (findChild v i dp.sclust ROUNDS (parentDir v i s dp).st (parentDir v i s dp).dp buf).res = FR_NO_FILE then FR_INT_ERR else (findChild v i dp.sclust ROUNDS (parentDir v i s dp).st (parentDir v i s dp).dp buf).res, some out, j⟩
    else ⟨(parentDir v i s dp).st, (parentDir v i s dp).res, some out, j⟩

/-- `*tp++ = c` for these characters, fatfs/fatfs.c:4172-4175, 4195; `none`: outside of the buffer. -/
def putUp : List Nat → List Nat → Nat → Option (List Nat)
  | [], out, _ => some out
  | c :: cs, out, tp => if tp < out.length then putUp cs (out.set tp c) (tp + 1) else none

/-- `*tp++ = buff[i++]` so many times, fatfs/fatfs.c:4188-4190. -/
def copyUp : Nat → List Nat → Nat → Nat → Option (List Nat)
  | 0, out, _, _ => some out
  | k + 1, out, tp, i =>
    match out[i]? with
    | none => none
    | some c => if tp < out.length then copyUp k (out.set tp c) (tp + 1) (i + 1) else none

/-- The drive prefix, the path, which is at index `j`, and the final zero, fatfs/fatfs.c:4162-4195: result and buffer.  `vp` is the name of the disk.  The loop that copies makes one round at least. -/
def cwdPut (vp out : List Nat) (j : Nat) : Nat × Option (List Nat) :=
  if j ≥ vp.length + 2 then
    (FR_OK, (putUp (vp ++ [58]) out 0).bind fun out => (copyUp (max 1 (out.length - j)) out (vp.length + 1) j).bind fun out => putUp [0] out (vp.length + 1 + max 1 (out.length - j)))
  else (FR_NOT_ENOUGH_CORE, putUp [0] out 0)

/-- After the loop, fatfs/fatfs.c:4158-4195. -/
def cwdEnd (vp : List Nat) (c : Climbed) : St × Nat × Option (List Nat) :=
  match c.out with
  | none => (c.st, c.res, none)
  | some out =>
    if c.res = FR_OK then
      if c.pos = out.length then
        match pushDown [47] out c.pos with
        | none => (c.st, c.res, none)
        | some (out, j) => (c.st, cwdPut vp out j)
      else (c.st, cwdPut vp out c.pos)
    else (c.st, c.res, putUp [0] out 0)

/-- `f_getcwd`, fatfs/fatfs.c:4082-4195, from `buff[0] = 0` on; `cdir` is `fs->cdir`, `vp` the name of the disk, `buf` the buffer for long names, and `out` the buffer of `len` bytes.  Result: state, result code, and the buffer
afterwards; `none`: an access outside of it.  Every round of the outer loop takes at least one byte of the buffer, so the bound on the rounds is not one of the code. -/
def fGetcwd (v : Vol) (i : Info) (cdir : Nat) (vp : List Nat) (s : St) (dp : Dp) (buf out : List Nat) : St × Nat × Option (List Nat) :=
  match putUp [0] out 0 with
  | none => (s, FR_OK, none)
  | some out => cwdEnd vp (climb v i (out.length + 1) s { dp with sclust := cdir } buf out out.length)

end Fpm.Tree
