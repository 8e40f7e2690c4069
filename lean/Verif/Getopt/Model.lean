/-!
# Command-line options, kernel/fpm_getopt.c

A string is the list of its bytes without the terminating NUL (all bytes nonzero); reading the
byte after the last gives 0 and reading further is undefined behaviour (`none`).  `argv` is a list
of `argc` strings followed by a NULL entry.  Pointers into strings that the code returns
(`opt->arg`) are represented by the text they point to.  Not modelled: the text of the error
messages (`fpm_puts` calls), the sign extension of option characters above 127, NULL for `opt` and `argv`, negative values of `opt->ind`.
-/
namespace Fpm.Getopt

/-- C string without terminator. -/
abbrev Str := List Nat

/-- `struct fpm_option`, include/fpm/getopt.h:17-26; `flag` names the variable. -/
structure LongOpt where
  name : Str
  hasArg : Int
  flag : Option Nat
  val : Int
deriving Repr, DecidableEq

/-- `struct fpm_opt`, include/fpm/getopt.h:28-36, and the variables written through `flag`
(latest first). -/
structure St where
  ret : Int := 0
  opt : Int := 0
  arg : Option Str := none
  longIndex : Nat := 0
  ind : Nat := 0
  silent : Bool := false
  whr : Nat := 0
  writes : List (Nat × Int) := []
deriving Repr, DecidableEq

/-- `s[i]` for a C string. -/
def chr (s : Str) (i : Nat) : Option Nat := if i = s.length then some 0 else s[i]?

/-- `strchr(s, c)`: the rest of the string from the first `c` on; the terminator is found too. -/
def strchr (c : Nat) : Str → Option Str
  | [] => if c = 0 then some [] else none
  | x :: s => if x = c then some (x :: s) else strchr c s

/-- `memcmp(a, b, n) == 0` on C strings, reading up to the first difference only (the C standard
would let `memcmp` read on; simplification). Undefined if the end of both is passed. -/
def same : Nat → Str → Str → Option Bool
  | 0, _, _ => some true
  | _ + 1, [], [] => none
  | _ + 1, [], _ :: _ => some false
  | _ + 1, _ :: _, [] => some false
  | n + 1, x :: a, y :: b => if x = y then same n a b else some false

/-- Result of the search in the table of long options. -/
inductive Find where
  | none
  | found (i : Nat)
  | ambiguous
deriving Repr, DecidableEq

/-- The search loop, kernel/fpm_getopt.c:117-144: `text` is `argv[ind] + where`, `n` is
`match_chars`, `i` is `optindex`, `m` is `longopt_match` (`none` for -1). -/
def findLong (text : Str) (n : Nat) : List LongOpt → Nat → Option Nat → Option Find
  | [], _, m => some (match m with | some j => .found j | none => .none)
  | o :: os, i, m =>
    match same n text o.name with
    | none => none
    | some false => findLong text n os (i + 1) m
    | some true =>
      if n = o.name.length then some (.found i)
      else match m with
        | some _ => some .ambiguous
        | none => findLong text n os (i + 1) (some i)

/-- The end of the function, kernel/fpm_getopt.c:247-264; `lm` is `longopt_match` with its
table entry. -/
def finish (s : St) (lm : Option (Nat × LongOpt)) (argNext : Nat) : St :=
  let s := if s.whr = 1 then { s with ind := s.ind + 1 + argNext } else s
  match lm with
  | some (i, o) =>
    let s := { s with longIndex := i }
    match o.flag with
    | some v => { s with writes := (v, o.val) :: s.writes, ret := 0 }
    | none => { s with ret := o.val }
  | none => { s with ret := s.opt }

/-- Argument handling, kernel/fpm_getopt.c:193-245; `possible` is the text at `possible_arg`,
`cp` the character `*cp`. -/
def getArg (argv : List Str) (cur : Str) (s : St) (hasArg : Int) (possible : Str)
    (lm : Option (Nat × LongOpt)) (cp : Nat) (initialColon : Bool) : Option St :=
  if hasArg = 2 then
    let possible := if possible.head? = some 61 then possible.tail else possible
    some (finish { s with arg := if possible = [] then none else some possible, whr := 1 } lm 0)
  else if hasArg = 1 then
    let possible := if possible.head? = some 61 then possible.tail else possible
    if possible ≠ [] then some (finish { s with arg := some possible, whr := 1 } lm 0)
    else if s.ind + 1 ≥ argv.length then
      let s := if s.silent then s
        else { s with opt := if lm.isSome then (if initialColon then 58 else 63) else cp }
      some { s with ind := s.ind + 1, ret := if initialColon then 58 else 63 }
    else match argv[s.ind + 1]? with
      | none => none
      | some a => some (finish { s with arg := some a, whr := 1 } lm 1)
  else
    match lm with
    | none =>
      match chr cur (s.whr + 1) with
      | none => none
      | some c => some (finish { s with whr := if c = 0 then 1 else s.whr + 1, arg := none } lm 0)
    | some _ => some (finish { s with whr := 1, arg := none } lm 0)

/-- Short option, kernel/fpm_getopt.c:160-191, then the rest. -/
def shortOpt (argv : List Str) (cur : Str) (shortopts : Option Str) (initialColon : Bool) (s : St) : Option St :=
  match shortopts with
  | none => getArg argv cur s (-1) [] none 0 initialColon
  | some so =>
    match chr cur s.whr with
    | none => none
    | some c =>
      match strchr c so with
      | none =>
        match chr cur (s.whr + 1) with
        | none => none
        | some c2 =>
          let s := { s with whr := s.whr + 1 }
          let s := if c2 = 0 then { s with ind := s.ind + 1, whr := 1 } else s
          some { s with ret := 63, opt := 63 }
      | some cp =>
        match chr cp 1 with
        | none => none
        | some c1 =>
          if c1 = 58 then
            match chr cp 2 with
            | none => none
            | some c2 =>
              getArg argv cur { s with opt := c } (if c2 = 58 then 2 else 1) (cur.drop (s.whr + 1)) none c initialColon
          else getArg argv cur { s with opt := c } 0 (cur.drop (s.whr + 1)) none c initialColon

/-- `match_chars` and the text at `possible_arg`, kernel/fpm_getopt.c:107-115. -/
def splitEq (text : Str) : Nat × Str :=
  match strchr 61 text with
  | none => (text.length, [])
  | some r => (text.length - r.length, r)

/-- Long option, kernel/fpm_getopt.c:96-158: entered with `where == 1` and an argument that
starts with `--`. -/
def longOpt (argv : List Str) (cur : Str) (table : List LongOpt) (initialColon : Bool) (s : St) : Option St :=
  let s := { s with whr := 2 }
  let text := cur.drop 2
  match findLong text (splitEq text).1 table 0 none with
  | none => none
  | some .ambiguous => some { s with ret := 63, opt := 63 }
  | some .none => some { s with ind := s.ind + 1, ret := 63, opt := 63 }
  | some (.found i) =>
    match table[i]? with
    | none => none
    | some o => getArg argv cur s o.hasArg (splitEq text).2 (some (i, o)) 0 initialColon

/-- Initial colon, kernel/fpm_getopt.c:70. -/
def hasColon : Option Str → Bool
  | some so => so.head? == some 58
  | none => false

/-- The part of `fpm_getopt` after the first-call adjustment and the removal of ordering character
and colon, kernel/fpm_getopt.c:76-265.  The tests of lines 77-84 and 87-91 are merged into one
`match` on the argument pointer. -/
def parseArg (argv : List Str) (shortopts : Option Str) (longopts : Option (List LongOpt)) (initialColon : Bool) (s : St) :
    Option St :=
  match argv[s.ind]? with
  | none => some { s with opt := 0, arg := none, ret := -1 }
  | some cur =>
    if s.whr = 1 ∧ (cur.head? ≠ some 45 ∨ cur.tail = []) then
      some { s with arg := some cur, ind := s.ind + 1, opt := 1, ret := 1 }
    else
      match longopts, same 2 cur [45, 45] with
      | some _, none => none
      | some table, some true => if s.whr = 1 then longOpt argv cur table initialColon s
          else shortOpt argv cur shortopts initialColon s
      | _, _ => shortOpt argv cur shortopts initialColon s

/-- Skip an ordering character, kernel/fpm_getopt.c:65-67. -/
def skipOrder (so : Str) : Str := if so.head? = some 45 ∨ so.head? = some 43 then so.tail else so

/-- Skip an initial colon, kernel/fpm_getopt.c:70-73. -/
def skipColon (so : Str) : Str := if so.head? = some 58 then so.tail else so

/-- `fpm_getopt`, kernel/fpm_getopt.c:32-265.  `argc` is the length of `argv`. -/
def getopt (argv : List Str) (shortopts : Option Str) (longopts : Option (List LongOpt)) (s : St) : Option St :=
  if argv.length = 0 ∨ (shortopts = none ∧ longopts = none) ∨ s.ind > argv.length then some { s with ret := -1 }
  else if argv[s.ind]? = some [45, 45] then some { s with ind := s.ind + 1, opt := 0, arg := none, ret := -1 }
  else
    parseArg argv ((shortopts.map skipOrder).map skipColon) longopts (hasColon (shortopts.map skipOrder))
      (if s.ind = 0 then { s with ind := 1, whr := 1 } else s)

end Fpm.Getopt
