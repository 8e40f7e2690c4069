import Verif.Strlcpy.Model
import Verif.Tokenize.Model
import Verif.Getopt.Model
import Verif.Exec.Model
/-!
# The command loop of the shell, the choice of the command, and `echo`

Model of the main loop of `kernel/fpm_shell.c`, of the first part of `kernel/fpm_exec.c` and of
`kernel/cmd/cmd_echo.c`, on top of the models of the string functions, the splitter, the option
parser and the search for programs.  `none` is undefined behaviour.  Console output is the list of
bytes sent.  The line editor is replaced by the contents of `buf_unicode` after the call; prompt
and echo of the keys are not part of the output here.
-/
namespace Fpm.Shell

/-- The functions called for internal commands, include/fpm/internal.h:39-58 (`pwd` is declared
there but has no entry in the table). -/
inductive Cmd where
  | cat | cd | clear | copy | date | dir | echo | eject | format | help | mkdir | mount
  | reboot | remove | rename | rmdir | time | ver | vol
deriving Repr, DecidableEq

/-- Bytes of a text in 7-bit characters. -/
def txt (s : String) : List Nat := s.toList.map Char.toNat

/-- `cmd_tab`, kernel/fpm_exec.c:65-93, without the final empty entry. -/
def table : List (List Nat × Cmd) :=
  [(txt "?", .help), (txt "cat", .cat), (txt "cd", .cd), (txt "clear", .clear), (txt "cls", .clear),
   (txt "copy", .copy), (txt "cp", .copy), (txt "date", .date), (txt "dir", .dir), (txt "echo", .echo),
   (txt "eject", .eject), (txt "erase", .remove), (txt "format", .format), (txt "help", .help),
   (txt "ls", .dir), (txt "mkdir", .mkdir), (txt "mount", .mount), (txt "mv", .rename),
   (txt "reboot", .reboot), (txt "rename", .rename), (txt "rm", .remove), (txt "rmdir", .rmdir),
   (txt "time", .time), (txt "type", .cat), (txt "ver", .ver), (txt "vol", .vol)]

/-- `tolower` of the C library in the "C" locale. -/
def lower (c : Nat) : Nat := if 65 ≤ c ∧ c ≤ 90 then c + 32 else c

/-- `strcasecmp(a, b) == 0` of the C library; strings without terminator. -/
def caseEq : List Nat → List Nat → Bool
  | [], [] => true
  | x :: a, y :: b => lower x == lower y && caseEq a b
  | _, _ => false

/-- The search in the table, kernel/fpm_exec.c:118-124: the first entry that matches. -/
def findCmd (name : List Nat) : List (List Nat × Cmd) → Option Cmd
  | [] => none
  | (n, c) :: t => if caseEq n name then some c else findCmd name t

/-- What `fpm_exec` decides to do. -/
inductive Act where
  | drive (name : List Nat)
  | internal (c : Cmd) (argv : List (List Nat))
  | external (path : List Nat) (argv : List (List Nat))
  | notFound (name : List Nat)
deriving Repr, DecidableEq

/-- `fpm_exec`, kernel/fpm_exec.c:106-135, up to the point where something is started; `exist` is
`f_stat`.  `none`: `argv[0]` is missing or empty, or the path buffer is overrun. -/
def dispatch (exist : List Nat → Bool) (argv : List (List Nat)) : Option Act :=
  match argv with
  | [] => none
  | name :: _ =>
    match Exec.isDrive name with
    | none => none
    | some true => some (.drive name)
    | some false =>
      match findCmd name table with
      | some c => some (.internal c argv)
      | none =>
        match Exec.lookupPath exist name with
        | none => none
        | some none => some (.notFound name)
        | some (some path) => some (.external path argv)

/-- "\r\n" -/
def crlf : List Nat := [13, 10]

/-- Texts of the splitter's errors, kernel/fpm_tokenize.c:27,30,55. -/
def message : Tok.Err → List Nat
  | .apostrophe => txt "Unterminated apostrophe"
  | .quote => txt "Unterminated quote"
  | .backslash => txt "Incomplete backslash"

/-- How an iteration of the main loop goes on. -/
inductive Next where
  | again
  | quit
  | run (argv : List (List Nat))
deriving Repr, DecidableEq

/-- One iteration of the main loop, kernel/fpm_shell.c:77-108, after the line editor: `hist` is the
object `fpm_history`, `cmd` the previous contents of the object `cmd_line`, `buf` the object
`buf_unicode`.  Result: new history, output, how it goes on.  The newline of line 75 is left out. -/
def iteration (hist cmd buf : List Nat) : Option (List Nat × List Nat × Next) :=
  match strlcpyToUtf8 cmd buf 384 with
  | none => none
  | some (line, _) =>
    match Tok.tokenize 42 line with
    | .ub => none
    | .error e =>
      match strlcpy hist buf 128 with
      | none => none
      | some (hist, _) => some (hist, message e ++ crlf, .again)
    | .ok b offs =>
      match offs.map (Tok.cstr b) with
      | [] => some (hist, [], .again)
      | name :: args =>
        match strlcpy hist buf 128 with
        | none => none
        | some (hist, _) =>
          if name = txt "exit" then
            if args.length + 1 > 1 then some (hist, txt "Usage: exit" ++ crlf ++ crlf, .again)
            else some (hist, [], .quit)
          else some (hist, [], .run (name :: args))

/-- The main loop, kernel/fpm_shell.c:67-112, for the lines returned by successive calls of the
line editor; each comes with the previous contents of the object `cmd_line`, which is not
initialised.  Result: final history, what was started, and whether the shell has returned. -/
def session (exist : List Nat → Bool) (hist : List Nat) : List (List Nat × List Nat) → Option (List Nat × List Act × Bool)
  | [] => some (hist, [], false)
  | (cmd, buf) :: rest =>
    match iteration hist cmd buf with
    | none => none
    | some (hist, _, .again) => session exist hist rest
    | some (hist, _, .quit) => some (hist, [], true)
    | some (hist, _, .run argv) =>
      match dispatch exist argv with
      | none => none
      | some a =>
        match session exist hist rest with
        | none => none
        | some (hist, as, e) => some (hist, a :: as, e)

/-- Options of `echo`, kernel/cmd/cmd_echo.c:10-13, 18. -/
def echoLong : List Getopt.LongOpt := [⟨txt "help", 0, none, 104⟩]

/-- The help text, kernel/cmd/cmd_echo.c:37-41. -/
def echoHelp : List Nat :=
  txt "Usage:\r\n    echo [-n] [string ...]\r\n\n    -n            Do not output the trailing newline\r\n\n"

/-- The loop of `fpm_cmd_echo` and what follows, kernel/cmd/cmd_echo.c:18-48.  The first argument
bounds the number of calls; running out of it is reported as `none`.  The messages of
`fpm_getopt` about unknown options are left out. -/
def echoLoop (argv : List (List Nat)) : Nat → Getopt.St → Bool → Nat → Option (List Nat)
  | 0, _, _, _ => none
  | k + 1, s, noNewline, count =>
    match Getopt.getopt argv (some (txt "hn")) (some echoLong) s with
    | none => none
    | some s =>
      if s.ret < 0 then some (if noNewline then [] else crlf)
      else if s.ret = 1 then
        match s.arg with
        | none => none
        | some a =>
          match puts (a ++ [0]) with
          | none => none
          | some o =>
            (echoLoop argv k s noNewline (count + 1)).map ((if count > 0 then [32] else []) ++ o ++ ·)
      else if s.ret = 63 then echoLoop argv k s noNewline count
      else if s.ret = 110 then echoLoop argv k s true count
      else if s.ret = 104 then some echoHelp
      else echoLoop argv k s noNewline count

/-- `fpm_cmd_echo`, kernel/cmd/cmd_echo.c:8-49.  Every call of the option parser consumes a
character or an argument, so their total number bounds the calls. -/
def cmdEcho (argv : List (List Nat)) : Option (List Nat) :=
  echoLoop argv ((argv.map (·.length + 2)).sum + 2) {} false 0

end Fpm.Shell
