/-!
# What the commands open and close

kernel/cmd/cmd_cat.c, cmd_copy.c, cmd_remove.c, cmd_dir.c and cmd_vol.c, reduced to the calls that open and
close files and directories.  Whatever else a command asks the file system or the user is answered by an
environment in any way, so all contents of disks and all failures are included.
-/

namespace Fpm.Handles

/-- A file or directory object comes to life by `f_open` or `f_opendir`, and is given to `f_close` or
`f_closedir`, which succeed or fail, fatfs/fatfs.c:3966-3993, 4461-4484.  Objects are numbered in the order
in which they are opened; the variables of the code that hold them are not modelled. -/
inductive Ev where
  | opened (h : Nat)
  | closed (h : Nat) (ok : Bool)
  deriving DecidableEq, Repr

/-- Answers to the n-th question: results of file system functions (`ans`, 0 is `FR_OK`), whether ^C is
typed at a prompt (`int`; unix/fpm_unix.c:25-29 then leaves the command by `longjmp`, on the Pico that
is disabled, pico/fpm_pico.c:31-37), and whether closing succeeds (`closes`). -/
structure Env where
  ans : Nat → Nat
  int : Nat → Bool
  closes : Nat → Bool

/-- Number of questions asked, number of objects opened so far, and what happened. -/
structure St where
  asked : Nat
  next : Nat
  log : List Ev
  deriving DecidableEq, Repr

/-- Result of a piece of code: it comes to its end, it is left by `longjmp`
(kernel/fpm_shell.c:62), or it needs more than the given number of steps. -/
inductive Out (α : Type) where
  | ok (a : α) (s : St)
  | left (s : St)
  | more
  deriving DecidableEq, Repr

/-- Code in an environment (no counterpart in /repo). -/
def M (α : Type) := Env → St → Out α

/-- Code one after the other (no counterpart in /repo). -/
instance : Monad M where
  pure a := fun _ s => .ok a s
  bind m k := fun e s =>
    match m e s with
    | .ok a s' => k a e s'
    | .left s' => .left s'
    | .more => .more

/-- Call of a function that opens nothing, such as `f_stat`, `f_read`, `f_unlink`. -/
def ask : M Nat := fun e s => .ok (e.ans s.asked) { s with asked := s.asked + 1 }

/-- Prompt with `fpm_editline`; the answer is 0 for y or Y (kernel/cmd/cmd_copy.c:33-37). -/
def prompt : M Nat := fun e s =>
  if e.int s.asked then .left s else .ok (e.ans s.asked) { s with asked := s.asked + 1 }

/-- `f_open` or `f_opendir`: an object if the result is `FR_OK`. -/
def openObj : M (Option Nat) := fun e s =>
  if e.ans s.asked = 0 then
    .ok (some s.next) ⟨s.asked + 1, s.next + 1, s.log ++ [.opened s.next]⟩
  else .ok none { s with asked := s.asked + 1 }

/-- `f_close` or `f_closedir`; no command looks at the result. -/
def closeObj (h : Nat) : M Unit := fun e s =>
  .ok () ⟨s.asked + 1, s.next, s.log ++ [.closed h (e.closes s.asked)]⟩

/-- Out of steps (no counterpart in /repo). -/
def outOfSteps {α : Type} : M α := fun _ _ => .more

/-- `for (;;)`: the body is repeated until it gives a value. -/
def loop {α : Type} : Nat → M (Option α) → M α
  | 0, _ => outOfSteps
  | n + 1, body => do
    match ← body with
    | some a => pure a
    | none => loop n body

/-- A loop over arguments. -/
def each {α : Type} : List α → (α → M Unit) → M Unit
  | [], _ => pure ()
  | a :: l, f => do f a; each l f

/-- `display_file`, kernel/cmd/cmd_cat.c:38-60. -/
def displayFile (n : Nat) : M Unit := do
  match ← openObj with
  | none => pure ()
  | some fp =>
    loop n do
      let r ← ask -- f_gets, 0: end of file
      pure (if r = 0 then some () else none)
    closeObj fp

/-- `fpm_cmd_cat`, kernel/cmd/cmd_cat.c:62-98: `args` are the file names in front of a wrong option or -h. -/
def cat (n : Nat) (args : Nat) : M Unit := each (List.replicate args ()) fun _ => displayFile n

/-- `copy_file`, kernel/cmd/cmd_copy.c:22-96. -/
def copyFile (n : Nat) (force : Bool) : M Unit := do
  let go ← (if force then pure true else do
    let r ← ask -- f_stat
    if r = 0 then
      let reply ← prompt
      pure (reply = 0)
    else pure true)
  if go then
    match ← openObj with
    | none => pure ()
    | some fsrc =>
      match ← openObj with
      | none => closeObj fsrc
      | some fdest =>
        loop n do
          let r ← ask -- f_read: 0 is an error, 1 is end of file
          if r = 0 then pure (some ())
          else if r = 1 then pure (some ())
          else do
            let w ← ask -- f_write: 0 is all written
            pure (if w = 0 then none else some ())
        closeObj fsrc
        closeObj fdest
  else pure ()

/-- `copy_recursive`, kernel/cmd/cmd_copy.c:101-162. -/
def copyRecursive (force : Bool) : Nat → M Unit
  | 0 => outOfSteps
  | n + 1 => do
    let st ← ask -- f_stat: 0 is a directory, 1 is something else
    let made ← (if st = 0 then pure true
      else if st = 1 then pure false
      else do
        let r ← ask -- f_mkdir
        pure (decide (r = 0)))
    if made = false then pure ()
    else
      match ← openObj with
      | none => pure ()
      | some dir =>
        loop n do
          let d ← ask -- f_readdir: 0 is error or end, 1 is a directory
          if d = 0 then pure (some ())
          else if d = 1 then do copyRecursive force n; pure none
          else do copyFile n force; pure none
        closeObj dir

/-- `copy_object`, kernel/cmd/cmd_copy.c:167-187. -/
def copyObject (n : Nat) (force recursive : Bool) : M Unit := do
  let st ← ask -- f_stat
  if st ≠ 0 then pure ()
  else do
    let d ← ask -- 0 is a directory
    if d = 0 then
      if recursive then copyRecursive force n else pure ()
    else copyFile n force

/-- `fpm_cmd_copy` behind the options, kernel/cmd/cmd_copy.c:296-315, and the loop of `copy_to_directory`,
kernel/cmd/cmd_copy.c:221-237. -/
def cp (n : Nat) (force recursive : Bool) (sources : Nat) : M Unit := do
  let d ← ask -- f_stat, 0 is a directory
  if d ≠ 0 then
    if sources ≠ 1 then pure () else copyObject n force recursive
  else each (List.replicate sources ()) fun _ => copyObject n force recursive

/-- `remove_file`, kernel/cmd/cmd_remove.c:22-47. -/
def removeFile (force : Bool) : M Unit := do
  let go ← (if force then pure true else do
    let reply ← prompt
    pure (reply = 0))
  if go then do
    let _ ← ask -- f_unlink
    pure ()
  else pure ()

/-- `remove_recursive`, kernel/cmd/cmd_remove.c:52-117; the value is whether the result is `FR_OK`. -/
def removeRecursive : Nat → M Bool
  | 0 => outOfSteps
  | n + 1 => do
    let u ← ask -- f_unlink
    if u = 0 then pure true
    else
      match ← openObj with
      | none => pure false
      | some dir => do
        let result ← loop n do
          let d ← ask -- f_readdir: 0 is an error, 1 is the end, 2 is a directory
          if d = 0 then pure (some false)
          else if d = 1 then pure (some true)
          else if d = 2 then do
            let r ← removeRecursive n
            pure (if r then none else some false)
          else do
            let r ← ask -- f_unlink
            pure (if r = 0 then none else some false)
        closeObj dir
        if result then do
          let r ← ask -- f_unlink
          pure (r = 0)
        else pure false

/-- `remove_directory`, kernel/cmd/cmd_remove.c:122-146. -/
def removeDirectory (n : Nat) (recursive : Bool) : M Unit := do
  if recursive then do
    let reply ← prompt
    if reply = 0 then do
      let _ ← removeRecursive n
      pure ()
    else pure ()
  else pure ()

/-- `remove`, kernel/cmd/cmd_remove.c:151-169. -/
def removeObject (n : Nat) (force recursive : Bool) : M Unit := do
  let st ← ask -- f_stat
  if st ≠ 0 then pure ()
  else do
    let d ← ask -- 0 is a directory
    if d = 0 then removeDirectory n recursive else removeFile force

/-- `fpm_cmd_remove`, kernel/cmd/cmd_remove.c:171-225: the arguments with the options given in front of
each. -/
def rm (n : Nat) (args : List (Bool × Bool)) : M Unit := each args fun a => removeObject n a.1 a.2

/-- `scan_directory`, kernel/cmd/cmd_dir.c:559-579: for each entry, whether it is a directory. -/
def scanDirectory (n : Nat) : M (List Bool) := do
  match ← openObj with
  | none => pure []
  | some dir => do
    let l ← scanLoop n []
    closeObj dir
    pure l
where
  /-- The loop, kernel/cmd/cmd_dir.c:569-577; answer 1 of `f_readdir` is a directory, 2 is an entry for
  which there is no memory. -/
  scanLoop : Nat → List Bool → M (List Bool)
    | 0, _ => outOfSteps
    | n + 1, l => do
      let d ← ask -- f_readdir: 0 is error or end
      if d = 0 then pure l
      else if d = 2 then scanLoop n l
      else scanLoop n (l ++ [decide (d = 1)])

/-- `show_dir` with `show_directories`, kernel/cmd/cmd_dir.c:584-597, 522-554; sorting and printing open
nothing. -/
def showDir (recursive : Bool) : Nat → M Unit
  | 0 => outOfSteps
  | n + 1 => do
    let l ← scanDirectory n
    if recursive then each (l.filter id) fun _ => showDir recursive n else pure ()

/-- `fpm_cmd_dir`, kernel/cmd/cmd_dir.c:599-690: `f_stat` of the arguments, then the directories among
them. -/
def ls (n : Nat) (recursive : Bool) (args : Nat) : M Unit :=
  each (List.replicate args ()) fun _ => do
    let d ← ask -- f_stat, 0 is a directory
    if d = 0 then showDir recursive n else pure ()

/-- Loops of `test_speed`, kernel/cmd/cmd_vol.c:151-158, 171-178: `f_write` or `f_read` of so many
blocks; the value is whether all succeeded. -/
def blocks : Nat → M Bool
  | 0 => pure true
  | n + 1 => do
    let r ← ask
    if r = 0 then blocks n else pure false

/-- `test_speed`, kernel/cmd/cmd_vol.c:87-189. -/
def testSpeed : M Unit := do
  let d ← ask -- f_getdrive
  if d ≠ 0 then pure ()
  else do
    let r ← ask -- f_statfs
    if r ≠ 0 then pure ()
    else do
      let free ← ask -- free megabytes
      if free < 1 then pure ()
      else do
        let nblocks := min free 8 * 1024 / 4
        match ← openObj with
        | none => pure ()
        | some fd => do
          let w ← blocks nblocks
          if w then do
            let r ← ask -- f_rewind
            if r ≠ 0 then pure ()
            else do
              let rd ← blocks nblocks
              if rd then do
                closeObj fd
                let _ ← ask -- f_unlink
                pure ()
              else pure ()
          else pure ()

/-- The commands that open files or directories, with what they are given; the others open none (`rz` is
an application, see C47). -/
inductive Command where
  | cat (args : Nat)
  | cp (force recursive : Bool) (sources : Nat)
  | rm (args : List (Bool × Bool))
  | ls (recursive : Bool) (args : Nat)
  | vol (test : Bool)

/-- A command. -/
def run (n : Nat) : Command → M Unit
  | .cat args => cat n args
  | .cp force recursive sources => cp n force recursive sources
  | .rm args => rm n args
  | .ls recursive args => ls n recursive args
  | .vol test => if test then testSpeed else pure ()

/-- Start of a command. -/
def start : St := ⟨0, 0, []⟩

end Fpm.Handles
