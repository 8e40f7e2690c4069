/-!
# Running an external command, and the shell prompt

Model of `kernel/fpm_exec.c`, `unix/loader_unix.c` and `build_prompt` of `kernel/fpm_shell.c`.
Strings are lists of byte codes without the terminator.  What the system calls return is given by
an `Env`; what happens is the trace of resource events.
-/
namespace Fpm.Exec

/-- `strcpy`/`strcat` into a buffer of `size` bytes: `none` if text and terminator do not fit. -/
def fit (size : Nat) (s : List Nat) : Option (List Nat) :=
  if s.length + 1 ≤ size then some s else none

/-- ".exe" -/
def dotExe : List Nat := [46, 101, 120, 101]
/-- "flash:/bin/" -/
def binDir : List Nat := [102, 108, 97, 115, 104, 58, 47, 98, 105, 110, 47]

/-- `find_exe`, kernel/fpm_exec.c:18-53, with a buffer of `size` bytes; `exist` is `f_stat`.  Outer
`none`: the buffer is overrun; inner `none`: not found.  The intermediate contents of the buffer
are prefixes of the strings checked here. -/
def findExe (exist : List Nat → Bool) (size : Nat) (cmd : List Nat) : Option (Option (List Nat)) :=
  if 47 ∈ cmd then some (some cmd)
  else if 46 ∈ cmd then some (some cmd)
  else
    match fit size (cmd ++ dotExe) with
    | none => none
    | some b =>
      if exist b then some (some b)
      else
        match fit size (binDir ++ cmd ++ dotExe) with
        | none => none
        | some b => if exist b then some (some b) else some none

/-- Size of the path buffer, kernel/fpm_exec.c:128: `sizeof` counts the terminators. -/
def bufSize (cmd : List Nat) : Nat := cmd.length + 5 + 11

/-- Path lookup of `fpm_exec`, kernel/fpm_exec.c:126-135. -/
def lookupPath (exist : List Nat → Bool) (cmd : List Nat) : Option (Option (List Nat)) :=
  findExe exist (bufSize cmd) cmd

/-- Test of `fpm_exec` for a drive name, kernel/fpm_exec.c:107: the last character is a colon.
`none`: reads before the start of an empty string. -/
def isDrive (cmd : List Nat) : Option Bool :=
  if cmd.length = 0 then none else (cmd[cmd.length - 1]?).map (· == 58)

/-- Resource events. -/
inductive Ev where
  | opened (fd : Nat)
  | closed (fd : Nat)
  | mapped (a : Nat)
  | unmapped (a : Nat)
  | pushed
  | popped
deriving DecidableEq, Repr

/-- How `fpm_invoke` ends: symbols missing, program returned, or the user typed ^C and
`fpm_getchar` jumped back into the shell (unix/fpm_unix.c:26-29). -/
inductive Run where
  | unbound
  | returned
  | interrupted
deriving DecidableEq, Repr

/-- Results of the calls made on behalf of `fpm_exec`. -/
structure Env where
  /-- result of `open`; `none` is an error -/
  fd : Option Nat
  fstatOk : Bool
  /-- result of `mmap`; `none` is `MAP_FAILED` -/
  map : Option Nat
  /-- the checks of `fpm_load` after mapping succeed -/
  formatOk : Bool
  stackOk : Bool
  pushOk : Bool
  run : Run
deriving DecidableEq, Repr

/-- The fields of `fpm_context_t` used by the loader: `base` (0 is NULL) and `fd`. -/
structure Ctx where
  base : Nat
  fd : Int
deriving DecidableEq, Repr

/-- The pointer `MAP_FAILED`. -/
def mapFailed : Nat := 2 ^ 64 - 1

/-- `fpm_load_arch`, unix/loader_unix.c:14-39, on a cleared context.  Note the label `err`: the
descriptor is closed but stays in the context. -/
def loadArch (e : Env) : Bool × Ctx × List Ev :=
  match e.fd with
  | none => (false, ⟨0, -1⟩, [])
  | some fd =>
    if e.fstatOk then
      match e.map with
      | none => (false, ⟨mapFailed, fd⟩, [.opened fd, .closed fd])
      | some a => (true, ⟨a, fd⟩, [.opened fd, .mapped a])
    else (false, ⟨0, fd⟩, [.opened fd, .closed fd])

/-- `fpm_unload_arch`, unix/loader_unix.c:44-58. -/
def unloadArch (c : Ctx) : List Ev :=
  (if c.base ≠ 0 then [.unmapped c.base] else []) ++
    (if c.fd > 0 then [.closed c.fd.toNat] else [])

/-- `fpm_load`, kernel/fpm_loader.c:65-146; the contents of the file only matter through
`formatOk`. -/
def load (e : Env) : Bool × Ctx × List Ev :=
  match loadArch e with
  | (false, c, t) => (false, c, t ++ unloadArch c)
  | (true, c, t) => if e.formatOk then (true, c, t) else (false, c, t ++ unloadArch c)

/-- The part of `fpm_exec` after the path is found, kernel/fpm_exec.c:137-170: trace of events. -/
def exec (e : Env) : List Ev :=
  match load e with
  | (false, _, t) => t
  | (true, c, t) =>
    if !e.stackOk then t
    else if !e.pushOk then t
    else
      match e.run with
      | .interrupted => t ++ [.pushed]
      | _ => t ++ [.pushed] ++ unloadArch c ++ [.popped]

/-! ## Prompt -/

/-- `strrchr(path, '/')`: index of the last slash. -/
def lastSlash : List Nat → Option Nat
  | [] => none
  | c :: s =>
    match lastSlash s with
    | some i => some (i + 1)
    | none => if c = 47 then some 0 else none

/-- The directory part of the prompt, kernel/fpm_shell.c:30-37.  `none`: `basename[-1]` is read in
front of the string. -/
def promptDir (path : List Nat) : Option (List Nat) :=
  match lastSlash path with
  | none => some [63]
  | some 0 => none
  | some (i + 1) =>
    if path[i]? ≠ some 58 then some (path.drop (i + 2)) else some (path.drop (i + 1))

/-- "\033[0;31m" -/
def red : List Nat := [27, 91, 48, 59, 51, 49, 109]
/-- "\033[1;32m >\033[m " -/
def tail : List Nat := [27, 91, 49, 59, 51, 50, 109, 32, 62, 27, 91, 109, 32]

/-- `build_prompt`, kernel/fpm_shell.c:19-44, into a buffer of `size` bytes; `disk` is the name of
the drive and `cwd` the result of `f_getcwd`.  Outer `none`: overrun, or read outside the path.
All intermediate strings are prefixes of the final one, so only the latter is checked. -/
def prompt (size : Nat) (disk : List Nat) (cwd : Option (List Nat)) : Option (List Nat) :=
  match cwd with
  | none => fit size (red ++ disk ++ tail)
  | some path =>
    match promptDir path with
    | none => none
    | some d => fit size (red ++ disk ++ [58] ++ d ++ tail)

/-- `FPM_CMDLINE_SIZE`, include/fpm/api.h:20. -/
def cmdlineSize : Nat := 128

end Fpm.Exec
