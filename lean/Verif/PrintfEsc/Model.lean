/-!
# Escape processing of the printf application

Model of `escape` in `apps/printf/printf.c`.  The array the string lives in is a list of bytes;
`fmt` and `store` are indices into it.  An access outside the array is the outcome `none`.
-/
namespace Fpm.PrintfEsc

/-- Octal constant, apps/printf/printf.c:119-122, from index `i`; at most `k` digits.
Result: the value and the index of the first character not taken. -/
def octal (buf : List Nat) : Nat → Nat → Nat → Option (Nat × Nat)
  | 0, value, i => some (value, i)
  | k + 1, value, i =>
    match buf[i]? with
    | none => none
    | some ch =>
      if 48 ≤ ch ∧ ch ≤ 55 then octal buf k (value <<< 3 + (ch - 48)) (i + 1)
      else some (value, i)

/-- Byte stored for a simple escape character, apps/printf/printf.c:87-109 and 126-128. -/
def simple (d : Nat) : Nat :=
  if d = 97 then 7 else if d = 98 then 8 else if d = 102 then 12 else if d = 110 then 10
  else if d = 114 then 13 else if d = 116 then 9 else if d = 118 then 11 else d

/-- Assignment `*store = v`; the stored `char` keeps the low 8 bits. -/
def store (buf : List Nat) (j v : Nat) : Option (List Nat) :=
  if j < buf.length then some (buf.set j (v % 256)) else none

/-- Loop of `escape`, apps/printf/printf.c:73-132.  `fuel` bounds the number of passes, running out
of it is `none`. -/
def escLoop : Nat → List Nat → Nat → Nat → Option (List Nat)
  | 0, _, _, _ => none
  | fuel + 1, buf, i, j =>
    match buf[i]? with
    | none => none
    | some c =>
      if c = 0 then store buf j 0
      else if c ≠ 92 then (store buf j c).bind (escLoop fuel · (i + 1) (j + 1))
      else match buf[i + 1]? with
        | none => none
        | some d =>
          if d = 0 then (store buf j 92).bind (store · (j + 1) 0)
          else if 48 ≤ d ∧ d ≤ 55 then
            match octal buf 3 0 (i + 1) with
            | none => none
            | some (value, i') => (store buf j value).bind (escLoop fuel · i' (j + 1))
          else (store buf j (simple d)).bind (escLoop fuel · (i + 2) (j + 1))

/-- `escape`, apps/printf/printf.c:73-132.  Every pass advances `fmt`, so the array length bounds
the number of passes. -/
def escape (buf : List Nat) : Option (List Nat) := escLoop (buf.length + 1) buf 0 0

end Fpm.PrintfEsc
