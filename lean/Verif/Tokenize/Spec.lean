import Verif.Tokenize.Model
/-!
# Specification of command-line words

Phase one removes quoting from the immutable text, turning it into separators and literal
characters; phase two cuts at separators and drops empty pieces.
-/
namespace Fpm.Tok.Spec
open Fpm.Tok (Err)

/-- A lexical unit: an unquoted space, or a literal character. -/
inductive Unit' where
  | sep
  | ch (c : Nat)
deriving Repr, DecidableEq

/-- Quoting context. -/
inductive Mode where
  | plain | apos | quote
deriving Repr, DecidableEq

/-- Phase one. A backslash makes the next character literal in every mode. -/
def lex : Mode → List Nat → Except Err (List Unit')
  | .plain, [] => .ok []
  | .apos, [] => .error .apostrophe
  | .quote, [] => .error .quote
  | _, 92 :: [] => .error .backslash
  | m, 92 :: c :: t => (lex m t).map (.ch c :: ·)
  | .plain, 39 :: t => lex .apos t
  | .plain, 34 :: t => lex .quote t
  | .plain, 32 :: t => (lex .plain t).map (.sep :: ·)
  | .apos, 39 :: t => lex .plain t
  | .quote, 34 :: t => lex .plain t
  | m, c :: t => (lex m t).map (.ch c :: ·)

/-- Cut at separators. -/
def cut : List Unit' → List (List Nat)
  | [] => [[]]
  | .sep :: t => [] :: cut t
  | .ch c :: t => match cut t with
    | w :: ws => (c :: w) :: ws
    | [] => [[c]]

/-- Phase two: the words. -/
def words (us : List Unit') : List (List Nat) := (cut us).filter (· ≠ [])

/-- How an argument may be written on the command line. -/
inductive Style where
  | bare | single | double
deriving Repr, DecidableEq

/-- Put a backslash before every character for which `p` holds. -/
def escape (p : Nat → Bool) (w : List Nat) : List Nat := w.flatMap fun c => if p c then [92, c] else [c]

/-- One argument in the given style. -/
def quoteArg : Style → List Nat → List Nat
  | .bare, w => escape (fun c => c = 32 || c = 92 || c = 39 || c = 34) w
  | .single, w => 39 :: escape (fun c => c = 92 || c = 39) w ++ [39]
  | .double, w => 34 :: escape (fun c => c = 92 || c = 34) w ++ [34]

/-- A whole command line: arguments joined by single spaces. -/
def quoteLine : List (Style × List Nat) → List Nat
  | [] => []
  | [(st, w)] => quoteArg st w
  | (st, w) :: rest => quoteArg st w ++ 32 :: quoteLine rest

end Fpm.Tok.Spec
