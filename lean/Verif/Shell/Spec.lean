import Verif.Shell.Model
import Verif.Utf8.Spec
import Verif.Strlcpy.Spec
import Verif.Tokenize.Spec
/-!
# What a typed line means

Lines and words are lists of 16-bit characters; the splitting into words is the one of
`Tok.Spec`, applied to characters.
-/
namespace Fpm.Shell.Spec
open Fpm.Spec (enc encs Chars)
open Fpm.Tok.Spec (lex words)

/-- Meaning of a line. -/
inductive Line where
  | bad (e : Tok.Err)                      -- unbalanced quote or dangling backslash
  | blank
  | leave
  | misused                                -- `exit` with arguments
  | command (ws : List (List Nat))
deriving Repr, DecidableEq

/-- The letters of `exit`. -/
def exitName : List Nat := [101, 120, 105, 116]

/-- Meaning of a list of words. -/
def ofWords (ws : List (List Nat)) : Line :=
  if ws = [] then .blank
  else if ws = [exitName] then .leave
  else if ws.head? = some exitName then .misused
  else .command ws

/-- Meaning of a typed line. -/
def meaning (s : List Nat) : Line :=
  match lex .plain s with
  | .error e => .bad e
  | .ok us => ofWords (words us)

/-- What the shell itself says to a line. -/
def said : Line → String
  | .bad .apostrophe => "Unterminated apostrophe\r\n"
  | .bad .quote => "Unterminated quote\r\n"
  | .bad .backslash => "Incomplete backslash\r\n"
  | .misused => "Usage: exit\r\n\r\n"
  | _ => ""

/-- How the shell goes on. -/
def goesOn : Line → Next
  | .leave => .quit
  | .command ws => .run (ws.map encs)
  | _ => .again

/-- The lines that the shell gets to see: up to the first `exit`. -/
def seen : List (List Nat) → List (List Nat)
  | [] => []
  | s :: ss => if meaning s = .leave then [s] else s :: seen ss

/-- The last line worth remembering, if there is one. -/
def lastLine (ss : List (List Nat)) : Option (List Nat) := (ss.filter (fun s => meaning s ≠ .blank)).getLast?

/-- The words of a line that is a command. -/
def wordsOf (s : List Nat) : Option (List (List Nat)) :=
  match meaning s with
  | .command ws => some ws
  | _ => none

/-- The text in an object: the characters before the first NUL. -/
def textIn (obj : List Nat) : List Nat := obj.takeWhile (· ≠ 0)

/-- `w` is a spelling of the lower-case name `n` in lower and upper case. -/
inductive Spelling : List Nat → List Nat → Prop
  | nil : Spelling [] []
  | same (c : Nat) {n w : List Nat} : Spelling n w → Spelling (c :: n) (c :: w)
  | upper (c : Nat) {n w : List Nat} : 97 ≤ c → c ≤ 122 → Spelling n w → Spelling (c :: n) ((c - 32) :: w)

/-- The list shown by `help`, kernel/cmd/cmd_help.c:34-52: names and command; `exit` follows
there. -/
def documented : List (List String × Cmd) :=
  [(["cat", "type"], .cat), (["cd"], .cd), (["clear", "cls"], .clear), (["cp", "copy"], .copy),
   (["date"], .date), (["echo"], .echo), (["eject"], .eject), (["format"], .format),
   (["help", "?"], .help), (["ls", "dir"], .dir), (["mkdir"], .mkdir), (["mount"], .mount),
   (["mv", "rename"], .rename), (["reboot"], .reboot), (["rm", "erase"], .remove), (["rmdir"], .rmdir),
   (["time"], .time), (["ver"], .ver), (["vol"], .vol)]

/-- `n` is a documented name of the command `c`. -/
def Documented (n : List Nat) (c : Cmd) : Prop :=
  ∃ e ∈ documented, e.2 = c ∧ ∃ s ∈ e.1, n = s.toList.map Char.toNat

/-- The program that a name stands for, if there is one: a name with a slash or a dot is a path, any
other is looked for with the extension `.exe` in the current directory, then in `flash:/bin`. -/
def program (exist : List Nat → Bool) (name : List Nat) : Option (List Nat) :=
  if 47 ∈ name ∨ 46 ∈ name then some name
  else [name ++ txt ".exe", txt "flash:/bin/" ++ name ++ txt ".exe"].find? exist

/-- Words separated by single blanks. -/
def spaced : List (List Nat) → List Nat
  | [] => []
  | [w] => w
  | w :: ws => w ++ 32 :: spaced ws

/-- The option `-n`. -/
def dashN : List Nat := [45, 110]

/-- A word that is no option: it does not begin with a hyphen, or is just a hyphen. -/
def Plain (w : List Nat) : Prop := w = [45] ∨ w.head? ≠ some 45

/-- What `echo` has to print for its arguments when they are plain words and `-n`, followed by
`--` and arbitrary words if `rest` is given. -/
def echoed (args : List (List Nat)) (rest : Option (List (List Nat))) : List Nat :=
  encs (spaced (args.filter (· ≠ dashN) ++ rest.getD [])) ++ if dashN ∈ args then [] else [13, 10]

end Fpm.Shell.Spec
