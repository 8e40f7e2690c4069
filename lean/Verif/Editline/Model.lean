import Verif.Strlcpy.Model
/-!
# The line editor, kernel/fpm_editline.c

Memory objects are lists of 16-bit items; an access outside is undefined behaviour (`none`).
The output is recorded as the sequence of 16-bit characters sent to the console, before their
UTF-8 encoding by `fpm_putwch` (which is modelled in `Verif.Utf8`).  The prompt is given by its
characters.  Keys are the values returned by `fpm_getkey`.
-/
namespace Fpm.Editline

/-- Local state of `fpm_editline`, kernel/fpm_editline.c:60-74: the caller's buffer, the variable
`insert_pos`, the caller's history buffer (`prev_line`, may be NULL), the local array `next_line`,
the flag `on_prev_line`; `out` is the output so far. -/
structure Ed where
  buf : List Nat
  pos : Nat
  prev : Option (List Nat)
  next : List Nat
  onPrev : Bool
  out : List Nat
deriving Repr, DecidableEq

/-- `memmove(&buf[dst], &buf[src], n * sizeof(uint16_t))` within one object. -/
def memmove (buf : List Nat) (dst src n : Nat) : Option (List Nat) :=
  if dst + n ≤ buf.length ∧ src + n ≤ buf.length then
    some (buf.take dst ++ (buf.drop src).take n ++ buf.drop (dst + n))
  else none

/-- `fpm_wputs` without the encoding, kernel/fpm_wputs.c:6-11. -/
def wchars : List Nat → Option (List Nat)
  | [] => none
  | c :: r => if c = 0 then some [] else (wchars r).map (c :: ·)

/-- `erase_line`, kernel/fpm_editline.c:37-47. -/
def eraseLine (e : Ed) : Option Ed :=
  match e.buf with
  | [] => none
  | c :: r =>
    let e' := { e with pos := 0, out := e.out ++ List.replicate e.pos 8 }
    some (if c ≠ 0 then { e' with buf := 0 :: r, out := e'.out ++ [27, 91, 75] } else e')

/-- The labels of the switch, kernel/fpm_editline.c:79-203. -/
inductive Case where
  | dflt | ret | backspace | delete | left | right | home | «end» | erase | refresh | prev | next
deriving Repr, DecidableEq

/-- Selection of the label, kernel/fpm_editline.c:79-203; `CTRL(c)` is `c & 037`, the other
constants are in include/fpm/api.h:25-31. -/
def select (key : Nat) : Case :=
  if key = 13 then .ret
  else if key = 8 ∨ key = 0x7f then .backspace
  else if key = 4 ∨ key = 0x2421 then .delete
  else if key = 2 ∨ key = 0x2190 then .left
  else if key = 6 ∨ key = 0x2192 then .right
  else if key = 1 ∨ key = 0x21e4 then .home
  else if key = 5 ∨ key = 0x21e5 then .end
  else if key = 21 then .erase
  else if key = 12 then .refresh
  else if key = 16 ∨ key = 0x2191 then .prev
  else if key = 14 ∨ key = 0x2193 then .next
  else .dflt

/-- Insertion, kernel/fpm_editline.c:80-93.  `buffer_length - 1` is computed in `unsigned`. -/
def insertKey (bl key : Nat) (e : Ed) : Option Ed :=
  if key ≥ 32 then do
    let len ← strwlen e.buf
    if len < (bl + 2 ^ 32 - 1) % 2 ^ 32 then
      let out := e.out ++ (if len > e.pos then [27, 91, 64] else []) ++ [key]
      let buf ← memmove e.buf (e.pos + 1) e.pos (len - e.pos + 1)
      let buf ← store buf e.pos key
      some { e with buf := buf, pos := e.pos + 1, out := out }
    else some e
  else some e

/-- Return, kernel/fpm_editline.c:95-103. -/
def finishLine (e : Ed) : Option Ed := do
  let rest ← wchars (e.buf.drop e.pos)
  some { e with pos := e.pos + rest.length, out := e.out ++ rest }

/-- Backspace, kernel/fpm_editline.c:105-118. -/
def backspace (e : Ed) : Option Ed :=
  if e.pos > 0 then do
    let len ← strwlen e.buf
    let out := e.out ++ (if e.pos < len then [8, 27, 91, 80] else [8, 32, 8])
    let pos := e.pos - 1
    let buf ← memmove e.buf pos (pos + 1) (len - pos)
    some { e with buf := buf, pos := pos, out := out }
  else some e

/-- Delete, kernel/fpm_editline.c:120-128. -/
def deleteKey (e : Ed) : Option Ed := do
  let len ← strwlen e.buf
  if e.pos < len then
    let buf ← memmove e.buf e.pos (e.pos + 1) (len - e.pos)
    some { e with buf := buf, out := e.out ++ [27, 91, 80] }
  else some e

/-- Cursor left, kernel/fpm_editline.c:129-135. -/
def cursorLeft (e : Ed) : Ed :=
  if e.pos > 0 then { e with pos := e.pos - 1, out := e.out ++ [8] } else e

/-- Cursor right, kernel/fpm_editline.c:137-145. -/
def cursorRight (e : Ed) : Option Ed := do
  let len ← strwlen e.buf
  if e.pos < len then
    let c ← e.buf[e.pos]?
    some { e with pos := e.pos + 1, out := e.out ++ [c] }
  else some e

/-- Beginning of line, kernel/fpm_editline.c:146-152. -/
def home (e : Ed) : Ed := { e with pos := 0, out := e.out ++ List.replicate e.pos 8 }

/-- End of line, kernel/fpm_editline.c:154-162.  The loop prints the items from `pos` up to
`len`. -/
def endKey (e : Ed) : Option Ed := do
  let len ← strwlen e.buf
  some { e with pos := max e.pos len, out := e.out ++ (e.buf.take len).drop e.pos }

/-- Refresh, kernel/fpm_editline.c:167-174. -/
def refresh (prompt : List Nat) (e : Ed) : Option Ed := do
  let w ← wchars e.buf
  let len ← strwlen e.buf
  some { e with out := e.out ++ [13, 10] ++ prompt ++ w ++ List.replicate (len - e.pos) 8 }

/-- Previous line, kernel/fpm_editline.c:176-189. -/
def prevKey (e : Ed) : Option Ed :=
  match e.prev with
  | none => some e
  | some prev =>
    if e.onPrev then some e
    else do
      let next ← strlcpy e.next e.buf 128
      let e ← eraseLine { e with next := next.1 }
      let buf ← strlcpy e.buf prev 128
      let w ← wchars buf.1
      let len ← strwlen buf.1
      some { e with buf := buf.1, pos := len, onPrev := true, out := e.out ++ w }

/-- Next line, kernel/fpm_editline.c:191-203. -/
def nextKey (e : Ed) : Option Ed :=
  match e.prev with
  | none => some e
  | some prev =>
    if e.onPrev then do
      let prev ← strlcpy prev e.buf 128
      let e ← eraseLine { e with prev := some prev.1 }
      let buf ← strlcpy e.buf e.next 128
      let w ← wchars buf.1
      let len ← strwlen buf.1
      some { e with buf := buf.1, pos := len, onPrev := false, out := e.out ++ w }
    else some e

/-- One iteration of the loop, kernel/fpm_editline.c:75-205; the flag tells whether the function
returns. -/
def step (bl : Nat) (prompt : List Nat) (key : Nat) (e : Ed) : Option (Ed × Bool) :=
  match select key with
  | .dflt => (insertKey bl key e).map (·, false)
  | .ret => (finishLine e).map (·, true)
  | .backspace => (backspace e).map (·, false)
  | .delete => (deleteKey e).map (·, false)
  | .left => some (cursorLeft e, false)
  | .right => (cursorRight e).map (·, false)
  | .home => some (home e, false)
  | .end => (endKey e).map (·, false)
  | .erase => (eraseLine e).map (·, false)
  | .refresh => (refresh prompt e).map (·, false)
  | .prev => (prevKey e).map (·, false)
  | .next => (nextKey e).map (·, false)

/-- The loop over the keys typed so far: the state and whether the function has returned. -/
def run (bl : Nat) (prompt : List Nat) : List Nat → Ed → Option (Ed × Bool)
  | [], e => some (e, false)
  | k :: ks, e => do
    let (e, fin) ← step bl prompt k e
    if fin then some (e, true) else run bl prompt ks e

/-- `fpm_editline`, kernel/fpm_editline.c:60-206, with the keys typed so far; `next` is the initial
(indeterminate) content of the array `next_line` of 128 items. -/
def editline (buf : List Nat) (bl : Nat) (clear : Bool) (prompt : List Nat) (prev : Option (List Nat)) (next : List Nat) (keys : List Nat) :
    Option (Ed × Bool) := do
  let buf ← if clear then store buf 0 0 else some buf
  let shown ← if clear then some [] else wchars buf
  let len ← strwlen buf
  run bl prompt keys { buf := buf, pos := len, prev := prev, next := next, onPrev := false, out := prompt ++ shown }

end Fpm.Editline
