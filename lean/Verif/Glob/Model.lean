import Verif.TextIo.Model
import Verif.Upcase.Model
/-!
# Model of `pattern_match`, fatfs/fatfs.c:2498-2564

A C string is the list of bytes from the pointer to the end of its object; reading beyond it is undefined behaviour,
modelled by the outcome `none`.
-/
namespace Fpm.Glob
open Fpm.TextIo Fpm.Upcase

/-- `get_achar`, fatfs/fatfs.c:2498-2510: character and advanced pointer. -/
def getAchar (s : List Nat) : Option (Nat × List Nat) :=
  match tchar2uni s with
  | none => none
  | some none => some (0, s)
  | some (some (c, r)) => (wtoupper c).map fun u => (u, r)

/-- Pre-skip, fatfs/fatfs.c:2525-2529; the inner `none` is `return 0`. -/
def skipChars : Nat → List Nat → Option (Option (List Nat))
  | 0, nam => some (some nam)
  | n + 1, nam =>
    match getAchar nam with
    | none => none
    | some (c, r) => if c = 0 then some none else skipChars n r

/-- Analysis of a wildcard term, fatfs/fatfs.c:2540-2547: `sk` and the pattern behind the term. -/
def term : List Nat → Nat → Option (Nat × List Nat)
  | [], _ => none
  | b :: r, sk => if b = 63 then term r (sk + 1) else if b = 42 then term r (sk ||| 0x100) else some (sk, b :: r)

/-- How the inner loop ends. -/
inductive Seg where
  | ret (r : Bool)
  | brk (nchr : Nat)
  | ub
deriving DecidableEq, Repr

/-- A wildcard term in the pattern, fatfs/fatfs.c:2537-2551; `rec` is the recursive call, absent if the recursion
count is zero. -/
def wild (rec : Option (List Nat → List Nat → Nat → Option Bool)) (pptr nptr : List Nat) : Seg :=
  match rec with
  | none => .ret false
  | some f =>
    match term pptr 0 with
    | none => .ub
    | some (sk, p) =>
      match f p nptr sk with
      | none => .ub
      | some true => .ret true
      | some false =>
        match nptr with
        | [] => .ub
        | b :: _ => .brk b

/-- Inner loop, fatfs/fatfs.c:2536-2560; the number bounds the rounds. -/
def seg (rec : Option (List Nat → List Nat → Nat → Option Bool)) : Nat → List Nat → List Nat → Seg
  | 0, _, _ => .ub
  | _ + 1, [], _ => .ub
  | k + 1, b :: p, nptr =>
    if b = 63 ∨ b = 42 then wild rec (b :: p) nptr
    else
      match getAchar (b :: p), getAchar nptr with
      | some (pchr, pptr), some (nchr, nptr) =>
        if pchr ≠ nchr then .brk nchr
        else if pchr = 0 then .ret true
        else seg rec k pptr nptr
      | _, _ => .ub

/-- Outer loop, fatfs/fatfs.c:2533-2562; the number bounds the rounds. -/
def tries (rec : Option (List Nat → List Nat → Nat → Option Bool)) (pat : List Nat) (skip : Nat) : Nat → List Nat → Option Bool
  | 0, _ => none
  | k + 1, nam =>
    match seg rec (pat.length + 1) pat nam with
    | .ub => none
    | .ret b => some b
    | .brk nchr =>
      match getAchar nam with
      | none => none
      | some (_, nam) => if skip ≠ 0 ∧ nchr ≠ 0 then tries rec pat skip k nam else some false

/-- Body of `pattern_match`, fatfs/fatfs.c:2524-2564. -/
def body (rec : Option (List Nat → List Nat → Nat → Option Bool)) (pat nam : List Nat) (skip : Nat) : Option Bool :=
  match skipChars (skip % 256) nam with
  | none => none
  | some none => some false
  | some (some nam) =>
    match pat with
    | [] => none
    | b :: p =>
      if b = 0 ∧ skip - skip % 256 ≠ 0 then some true
      else tries rec (b :: p) (skip - skip % 256) (nam.length + 1) nam

/-- `pattern_match`, fatfs/fatfs.c:2513-2564, by the recursion count. -/
def patternMatch : Nat → List Nat → List Nat → Nat → Option Bool
  | 0 => body none
  | n + 1 => body (some (patternMatch n))

/-- The test in `f_findnext`, fatfs/fatfs.c:4531, with `FIND_RECURS` of fatfs/fatfs.c:2495. -/
def findMatch (pat nam : List Nat) : Option Bool := patternMatch 4 pat nam 0

end Fpm.Glob
