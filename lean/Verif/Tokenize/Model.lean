/-!
# Command-line splitting in place, kernel/fpm_tokenize.c

The command line is the list `buf` of the bytes of the object that `cmd_line` points to; `src`
and `dest` are indices into it.  The argument vector has room for `cap` pointers; an argument
pointer is represented by its index into `buf`.  A read or write outside an object is undefined
behaviour (`ub`).
-/
namespace Fpm.Tok

/-- Messages returned on error, kernel/fpm_tokenize.c:27,30,55. -/
inductive Err where
  | apostrophe   -- "Unterminated apostrophe"
  | quote        -- "Unterminated quote"
  | backslash    -- "Incomplete backslash"
deriving Repr, DecidableEq

/-- Outcome of a call. -/
inductive Out where
  | ub
  | error (e : Err)
  | ok (buf : List Nat) (argv : List Nat)
deriving Repr, DecidableEq

/-- Local variables of `fpm_tokenize`, kernel/fpm_tokenize.c:11-15; `argv` holds the `*argc`
pointers stored so far. -/
structure St where
  buf : List Nat
  src : Nat
  dest : Nat
  space : Bool
  apos : Bool
  quote : Bool
  argv : List Nat
deriving Repr, DecidableEq

/-- `*dest++ = ch`, kernel/fpm_tokenize.c:33,46,82. -/
def St.put (s : St) (ch : Nat) : Option St :=
  if s.dest < s.buf.length then some { s with buf := s.buf.set s.dest ch, dest := s.dest + 1 } else none

/-- The `consume` label, kernel/fpm_tokenize.c:76-83, followed by `src++` of line 20. -/
def St.consume (cap : Nat) (s : St) (ch : Nat) : Option St := do
  let s ← if s.space then
      if s.argv.length < cap then some { s with argv := s.argv ++ [s.dest], space := false } else none
    else some s
  let s ← s.put ch
  return { s with src := s.src + 1 }

/-- End of line, kernel/fpm_tokenize.c:24-38. -/
def St.finish (cap : Nat) (s : St) : Out :=
  if s.apos then .error .apostrophe
  else if s.quote then .error .quote
  else
    match (if s.space then some s else s.put 0) with
    | none => .ub
    | some s =>
      if s.dest < s.buf.length then               -- append extra NUL, line 36
        if s.argv.length < cap then               -- argv[*argc] = 0, line 37
          .ok (s.buf.set s.dest 0) s.argv
        else .ub
      else .ub

/-- The loop of lines 20-85.  The first argument bounds the number of iterations: each one
advances `src`, and reading beyond the object ends the run, so `buf.length + 1` iterations are
never exceeded; running out of it is reported as `ub`. -/
def loop (cap : Nat) : Nat → St → Out
  | 0, _ => .ub
  | k + 1, s =>
    match s.buf[s.src]? with
    | none => .ub
    | some ch =>
      if ch = 0 then s.finish cap
      else if ch = 32 then                        -- ' '
        if s.apos || s.quote then
          match s.consume cap ch with
          | none => .ub
          | some s => loop cap k s
        else if s.space then loop cap k { s with src := s.src + 1 }
        else match s.put 0 with
          | none => .ub
          | some s => loop cap k { s with space := true, src := s.src + 1 }
      else if ch = 92 then                        -- '\\'
        let s := { s with src := s.src + 1 }
        match s.buf[s.src]? with
        | none => .ub
        | some ch =>
          if ch = 0 then .error .backslash
          else match s.consume cap ch with
            | none => .ub
            | some s => loop cap k s
      else if ch = 39 then                        -- '\''
        if s.quote then
          match s.consume cap ch with
          | none => .ub
          | some s => loop cap k s
        else loop cap k { s with apos := !s.apos, src := s.src + 1 }
      else if ch = 34 then                        -- '"'
        if s.apos then
          match s.consume cap ch with
          | none => .ub
          | some s => loop cap k s
        else loop cap k { s with quote := !s.quote, src := s.src + 1 }
      else
        match s.consume cap ch with
        | none => .ub
        | some s => loop cap k s

/-- `fpm_tokenize`, kernel/fpm_tokenize.c:9-86. -/
def tokenize (cap : Nat) (buf : List Nat) : Out :=
  loop cap (buf.length + 1) ⟨buf, 0, 0, true, false, false, []⟩

/-- The C string at index `off` of an object (up to the first NUL). -/
def cstr (buf : List Nat) (off : Nat) : List Nat := (buf.drop off).takeWhile (· ≠ 0)

end Fpm.Tok
