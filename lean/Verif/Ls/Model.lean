import Verif.Dir.Model
/-!
# The commands `ls` and `dir`, kernel/cmd/cmd_dir.c

Sorting and printing of one list is that of Verif/Dir/Model.lean.  Here are the arguments, the directories and the recursion.  The file system is an environment that answers `f_stat`, `f_opendir` and `f_readdir`; it does not change meanwhile.
Simplified: options are parsed already (C22 - C25), memory and stack do not run out, and the depth of the recursion is limited by any number, with an outcome of its own.  What is opened and closed is in C114.
-/
namespace Fpm.Ls
open Fpm.Dir

/-- Results `FR_OK` and `FR_INVALID_NAME`, include/fpm/fs.h:20-26. -/
def FR_OK := 0
@[inherit_doc FR_OK] def FR_INVALID_NAME := 6

/-- What the file system says: `f_stat` (result and item made of the information, kernel/cmd/cmd_dir.c:76-104), `f_opendir` with all calls of `f_readdir` up to the end or an error (a result that is not `FR_OK`, or the items), and `f_strerror`. -/
structure Env where
  stat : List Nat → Nat × Item
  scan : List Nat → Except Nat (List Item)
  strerror : Nat → List Nat

/-- State: fields `toplevel` and `any_output` of `options_t`, kernel/cmd/cmd_dir.c:23-24, and the text printed; `log` (not in the code) has the directories that were scanned, with what was found. -/
structure St where
  top : Bool
  any : Bool
  out : List Nat
  log : List (List Nat × Except Nat (List Item))

/-- Outcomes that are no result: undefined behaviour; the recursion is deeper than allowed. -/
inductive Err where
  | ub
  | deep
deriving DecidableEq

/-- `fpm_printf("%s: %s\r\n", ...)`, kernel/cmd/cmd_dir.c:120 and 561. -/
def message (e : Env) (path : List Nat) (r : Nat) : List Nat := path ++ [58, 32] ++ e.strerror r ++ crlf

/-- `list_append_name`, kernel/cmd/cmd_dir.c:110-125.  The name is copied to `fname` of 256 bytes (include/fpm/fs.h:60-69) if the result is `FR_INVALID_NAME`. -/
def appendName (e : Env) (name : List Nat) (s : St) : Except Err (List Item × St) :=
  if (e.stat name).1 = FR_INVALID_NAME then
    if name.length + 1 > 256 then .error .ub
    else .ok ([⟨name, 0, 0, AM_DIR, false⟩], s)
  else if (e.stat name).1 ≠ FR_OK then .ok ([], { s with out := s.out ++ message e name (e.stat name).1 })
  else .ok ([(e.stat name).2], s)

/-- The arguments, kernel/cmd/cmd_dir.c:620-624: `list_append_name` for each. -/
def appendNames (e : Env) : List (List Nat) → St → Except Err (List Item × St)
  | [], s => .ok ([], s)
  | a :: l, s =>
    match appendName e a s with
    | .error x => .error x
    | .ok (x, s) =>
      match appendNames e l s with
      | .error x => .error x
      | .ok (y, s) => .ok (x ++ y, s)

/-- `show_files`, kernel/cmd/cmd_dir.c:465-518: the list is sorted then; `any_output` is set if something was to be printed. -/
def showList (o : Opts) (l : List Item) (s : St) : Except Err (List Item × St) :=
  if l = [] then .ok ([], s)
  else
    match sort { o with toplevel := s.top } l, showFiles { o with toplevel := s.top } l with
    | some l', some t => .ok (l', { s with out := s.out ++ t, any := s.any || l.any fun x => !hidden { o with toplevel := s.top } x })
    | _, _ => .error .ub

/-- Path of a directory, kernel/cmd/cmd_dir.c:530-539. -/
def join (parent name : List Nat) : List Nat := if parent = [] then name else parent ++ 47 :: name

/-- The line with the path, kernel/cmd/cmd_dir.c:541-549; `multi`: the list has more than one item. -/
def header (multi : Bool) (path : List Nat) (s : St) : St :=
  if s.any then { s with out := s.out ++ crlf ++ path ++ [58] ++ crlf }
  else if s.top = false ∨ multi then { s with out := s.out ++ path ++ [58] ++ crlf, any := true }
  else s

/-- Loop of `show_directories`, kernel/cmd/cmd_dir.c:536-553; `show` is `show_dir`. -/
def showDirs (show' : List Nat → St → Except Err St) (multi : Bool) (parent : List Nat) : List Item → St → Except Err St
  | [], s => .ok s
  | x :: l, s =>
    if x.has AM_DIR then
      match show' (join parent x.name) (header multi (join parent x.name) s) with
      | .error e => .error e
      | .ok s => showDirs show' multi parent l s
    else showDirs show' multi parent l s

/-- `scan_directory`, kernel/cmd/cmd_dir.c:556-580: items, and a message if the directory cannot be opened. -/
def scanDir (e : Env) (path : List Nat) (s : St) : List Item × St :=
  match e.scan path with
  | .error r => ([], { s with out := s.out ++ message e path r, log := s.log ++ [(path, .error r)] })
  | .ok l => (l, { s with log := s.log ++ [(path, .ok l)] })

/-- `show_dir`, kernel/cmd/cmd_dir.c:585-599; `rec` is option `-R`.  Recursion is `depth` deep at most. -/
def showDir (e : Env) (o : Opts) (rec : Bool) : (depth : Nat) → List Nat → St → Except Err St
  | 0, _, _ => .error .deep
  | n + 1, path, s =>
    match showList o (scanDir e path s).1 { (scanDir e path s).2 with top := false } with
    | .error x => .error x
    | .ok (l, s) => if rec then showDirs (showDir e o rec n) (1 < l.length) path l s else .ok s

/-- `fpm_cmd_dir` behind the options, kernel/cmd/cmd_dir.c:601-686. -/
def cmdDir (e : Env) (o : Opts) (rec : Bool) (depth : Nat) (args : List (List Nat)) : Except Err St :=
  match appendNames e (if args = [] then [[46]] else args) ⟨false, false, [], []⟩ with
  | .error x => .error x
  | .ok (l, s) =>
    if args ≠ [] ∧ l = [] then .ok s
    else
      match showList o l { s with top := true } with
      | .error x => .error x
      | .ok (l, s) =>
        match showDirs (showDir e o rec depth) (1 < l.length) [] l s with
        | .error x => .error x
        | .ok s => .ok (if s.any then { s with out := s.out ++ crlf } else s)

end Fpm.Ls
