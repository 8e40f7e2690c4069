/-!
# Copying and moving files

Model of `kernel/cmd/cmd_copy.c` and of the destination paths of `kernel/cmd/cmd_rename.c`.
-/
namespace Fpm.Copy

/-- How file operations turn out, by number of the call in the loop. -/
structure Env where
  /-- `f_read`: `none` is an error, otherwise an upper bound on what this call delivers -/
  read : Nat → Option Nat
  /-- `f_write`: result code OK?, and an upper bound on what this call stores -/
  write : Nat → Bool × Nat
  /-- results of the two `f_close` calls -/
  closeSrcOk : Bool
  closeDstOk : Bool
  /-- what is on the disk if closing the destination fails to flush it -/
  lost : List Nat

/-- Messages. -/
inductive Msg where
  | readError
  | writeError
  | noSpace
  /-- "source -> destination", option -v -/
  | copied
deriving DecidableEq, Repr

/-- Number of bytes delivered by `f_read` for a request of `size` with `rest` bytes left in the
file: at least one unless at the end. -/
def readCount (size rest bound : Nat) : Nat := min (min size rest) (max 1 bound)

/-- Loop of `copy_file`, kernel/cmd/cmd_copy.c:63-89, with a buffer of `size` bytes: `rest` is what
is left of the source, `out` the destination so far.  Result: destination and error message.
`none`: not finished within the fuel. -/
def copyLoop (e : Env) (size : Nat) : Nat → Nat → List Nat → List Nat →
    Option (List Nat × Option Msg)
  | 0, _, _, _ => none
  | fuel + 1, i, rest, out =>
    match e.read i with
    | none => some (out, some .readError)
    | some k =>
      if readCount size rest.length k = 0 then some (out, none)
      else if (e.write i).1 = false then
        some (out ++ (rest.take (readCount size rest.length k)).take (e.write i).2, some .writeError)
      else if min (readCount size rest.length k) (e.write i).2 ≠ readCount size rest.length k then
        some (out ++ (rest.take (readCount size rest.length k)).take (e.write i).2, some .noSpace)
      else
        copyLoop e size fuel (i + 1) (rest.drop (readCount size rest.length k))
          (out ++ rest.take (readCount size rest.length k))

/-- `copy_file`, kernel/cmd/cmd_copy.c:61-96, after both files are open: what is on the disk
afterwards, and the messages.  The results of both `f_close` calls are ignored. -/
def copyFile (e : Env) (verbose : Bool) (fuel : Nat) (src : List Nat) :
    Option (List Nat × List Msg) :=
  (copyLoop e 4096 fuel 0 src []).map fun r =>
    ((if e.closeDstOk then r.1 else e.lost),
      match r.2 with
      | some m => [m]
      | none => if verbose then [.copied] else [])

/-! ## Destination paths -/

/-- First loop over trailing slashes, kernel/cmd/cmd_copy.c:230-231, cmd_rename.c:84-85: index `p`
counts down from `n`. -/
def skipSlashes (s : List Nat) : Nat → Nat
  | 0 => 0
  | n + 1 => if s[n]? = some 47 then skipSlashes s n else n + 1

/-- Second loop, kernel/cmd/cmd_copy.c:232-233, cmd_rename.c:86-87. -/
def skipName (s : List Nat) : Nat → Nat
  | 0 => 0
  | n + 1 => if s[n]? ≠ some 47 then skipName s n else n + 1

/-- The string at the final `p`. -/
def lastPart (s : List Nat) : List Nat := s.drop (skipName s (skipSlashes s s.length))

/-- `FF_LFN_BUF`, include/fpm/fs.h:60. -/
def lfnBuf : Nat := 255

/-- Path of the directory with a slash, kernel/cmd/cmd_copy.c:214-220. -/
def base (dir : List Nat) : List Nat :=
  if dir.getLast? = some 47 then dir else dir ++ [47]

/-- Loop of `copy_to_directory`, kernel/cmd/cmd_copy.c:221-237.  `cap` is the size of the array,
`cur` the string behind the slash (`none`: not terminated, the bytes are uninitialised).  Result:
pairs of source and destination handed to `copy_object`; `none`: undefined behaviour (read before
an empty source, overrun of the array, or uninitialised bytes used). -/
def copyDests (cap : Nat) (b : List Nat) : Option (List Nat) → List (List Nat) →
    Option (List (List Nat × List Nat))
  | _, [] => some []
  | cur, s :: ss =>
    if s.length = 0 then none
    else if s.getLast? ≠ some 47 then
      if b.length + (lastPart s).length + 1 > cap then none
      else (copyDests cap b (some (lastPart s)) ss).map ((s, b ++ lastPart s) :: ·)
    else
      match cur with
      | none => none
      | some c => (copyDests cap b cur ss).map ((s, b ++ c) :: ·)

/-- `copy_to_directory`, kernel/cmd/cmd_copy.c:208-238. -/
def copyToDirectory (dir : List Nat) (sources : List (List Nat)) :
    Option (List (List Nat × List Nat)) :=
  copyDests (dir.length + lfnBuf + 2) (base dir)
    (if dir.getLast? = some 47 then some [] else none) sources

/-- Loop of `move_files_to_directory`, kernel/cmd/cmd_rename.c:78-91. -/
def moveDests (cap : Nat) (b : List Nat) : List (List Nat) → Option (List (List Nat × List Nat))
  | [] => some []
  | s :: ss =>
    if b.length + (lastPart s).length + 1 > cap then none
    else (moveDests cap b ss).map ((s, b ++ lastPart s) :: ·)

/-- `move_files_to_directory`, kernel/cmd/cmd_rename.c:65-92. -/
def moveToDirectory (dir : List Nat) (sources : List (List Nat)) :
    Option (List (List Nat × List Nat)) :=
  moveDests (dir.length + lfnBuf + 2) (base dir) sources

end Fpm.Copy
