import Verif.Upcase.Model
/-!
# Long file names in directory entries

Model of `cmp_lfn`, `pick_lfn`, `put_lfn` and `sum_sfn` of `fatfs/fatfs.c`.  A directory entry is a list of 32 bytes; it is
accessed at constant offsets below 32 only, so no outcome is needed for accesses outside of it.  The working buffer `lfnbuf`
is a list of `FF_MAX_LFN + 1` = 256 units; an access outside of it is the outcome `none`.
-/
namespace Fpm.Lfn
open Fpm.Upcase

/-- `dir[o]`, a byte of an entry. -/
def byte (e : List Nat) (o : Nat) : Nat := e.getD o 0

/-- `ld_word` in an entry, fatfs/fatfs.c:426-433 (see the FatBytes area). -/
def word (e : List Nat) (o : Nat) : Nat := byte e o + 256 * byte e (o + 1)

/-- `st_word` in an entry, fatfs/fatfs.c:462-467 (see the FatBytes area). -/
def setWord (e : List Nat) (o v : Nat) : List Nat := (e.set o (v % 256)).set (o + 1) (v / 256 % 256)

/-- `LfnOfs`, fatfs/fatfs.c:352. -/
def lfnOfs : List Nat := [1, 3, 5, 7, 9, 14, 16, 18, 20, 22, 24, 28, 30]

/-- Offset in the buffer of the part with number `n`, fatfs/fatfs.c:1644, 1681: `(n - 1) * 13` as `unsigned`. -/
def partOfs (n : Nat) : Nat := if n = 0 then 2 ^ 32 - 13 else (n - 1) * 13

/-- Comparison of two units up to case, fatfs/fatfs.c:1650. -/
def unitEq (a b : Nat) : Option Bool :=
  match wtoupper a, wtoupper b with
  | some x, some y => some (x == y)
  | _, _ => none

/-- Loop of `cmp_lfn`, fatfs/fatfs.c:1646-1658, over the rest of `LfnOfs`; the inner `none` is `return 0`, else `i` and `wc`. -/
def cmpLoop (buf e : List Nat) : List Nat → Nat → Nat → Option (Option (Nat × Nat))
  | [], i, wc => some (some (i, wc))
  | o :: os, i, wc =>
    if wc ≠ 0 then
      if i ≥ 256 then some none
      else
        match buf[i]? with
        | none => none
        | some c =>
          match unitEq (word e o) c with
          | none => none
          | some false => some none
          | some true => cmpLoop buf e os (i + 1) (word e o)
    else if word e o ≠ 0xFFFF then some none
    else cmpLoop buf e os i wc

/-- Check of the length in `cmp_lfn`, fatfs/fatfs.c:1660-1663. -/
def cmpEnd (buf e : List Nat) (i wc : Nat) : Option Bool :=
  if byte e 0 &&& 0x40 ≠ 0 ∧ wc ≠ 0 then
    match buf[i]? with
    | none => none
    | some c => some (c == 0)
  else some true

/-- `cmp_lfn`, fatfs/fatfs.c:1633-1664. -/
def cmpLfn (buf e : List Nat) : Option Bool :=
  if word e 26 ≠ 0 then some false
  else
    match cmpLoop buf e lfnOfs (partOfs (byte e 0 &&& 0x3F)) 1 with
    | none => none
    | some none => some false
    | some (some (i, wc)) => cmpEnd buf e i wc

/-- Loop of `pick_lfn`, fatfs/fatfs.c:1683-1693; the inner `none` is `return 0`, else the buffer, `i` and `wc`. -/
def pickLoop (e : List Nat) : List Nat → List Nat → Nat → Nat → Option (Option (List Nat × Nat × Nat))
  | [], buf, i, wc => some (some (buf, i, wc))
  | o :: os, buf, i, wc =>
    if wc ≠ 0 then
      if i ≥ 256 then some none
      else if i < buf.length then pickLoop e os (buf.set i (word e o)) (i + 1) (word e o)
      else none
    else if word e o ≠ 0xFFFF then some none
    else pickLoop e os buf i wc

/-- Terminator in `pick_lfn`, fatfs/fatfs.c:1695-1701. -/
def pickEnd (e buf : List Nat) (i wc : Nat) : Option (Option (List Nat)) :=
  if byte e 0 &&& 0x40 ≠ 0 ∧ wc ≠ 0 then
    if i ≥ 256 then some none
    else if i < buf.length then some (some (buf.set i 0)) else none
  else some (some buf)

/-- `pick_lfn`, fatfs/fatfs.c:1671-1702: the buffer if it returns 1, the inner `none` if it returns 0.  (The contents of the
buffer after a failure are dropped: the caller then does not use it.) -/
def pickLfn (buf e : List Nat) : Option (Option (List Nat)) :=
  if word e 26 ≠ 0 then some none
  else
    match pickLoop e lfnOfs buf (partOfs (byte e 0 &&& 0xBF)) 1 with
    | none => none
    | some none => some none
    | some (some (buf, i, wc)) => pickEnd e buf i wc

/-- Loop of `put_lfn`, fatfs/fatfs.c:1723-1730: entry, `i` and `wc`. -/
def putLoop (lfn : List Nat) : List Nat → List Nat → Nat → Nat → Option (List Nat × Nat × Nat)
  | [], e, i, wc => some (e, i, wc)
  | o :: os, e, i, wc =>
    if wc ≠ 0xFFFF then
      match lfn[i]? with
      | none => none
      | some c => putLoop lfn os (setWord e o c) (i + 1) (if c = 0 then 0xFFFF else c)
    else putLoop lfn os (setWord e o wc) i wc

/-- Order of the entry, fatfs/fatfs.c:1731-1733. -/
def putOrd (lfn e : List Nat) (i wc ord : Nat) : Option (List Nat) :=
  if wc = 0xFFFF then some (e.set 0 (ord ||| 0x40))
  else
    match lfn[i]? with
    | none => none
    | some c => some (e.set 0 (if c = 0 then ord ||| 0x40 else ord))

/-- `put_lfn`, fatfs/fatfs.c:1709-1734; `ord` from 1 to 20. -/
def putLfn (lfn e : List Nat) (ord sum : Nat) : Option (List Nat) :=
  match putLoop lfn lfnOfs (setWord (((e.set 13 sum).set 11 0x0F).set 12 0) 26 0) (partOfs ord) 0 with
  | none => none
  | some (e, i, wc) => putOrd lfn e i wc ord

/-- Entries of a name stored by `dir_register`, fatfs/fatfs.c:2263-2273, over the old contents of the entries.  (The moves from
entry to entry are left out here.) -/
def putAll (lfn : List Nat) (sum : Nat) : Nat → List (List Nat) → Option (List (List Nat))
  | 0, _ => some []
  | _ + 1, [] => none
  | k + 1, e :: es =>
    match putLfn lfn e (k + 1) sum, putAll lfn sum k es with
    | some e, some es => some (e :: es)
    | _, _ => none

/-- `pick_lfn` on one entry after the other as `dir_read` does, fatfs/fatfs.c:2083-2085; the inner `none`: an entry is refused. -/
def pickAll : List (List Nat) → List Nat → Option (Option (List Nat))
  | [], buf => some (some buf)
  | e :: es, buf =>
    match pickLfn buf e with
    | none => none
    | some none => some none
    | some (some buf) => pickAll es buf

/-- `cmp_lfn` on one entry after the other as `dir_find` does, fatfs/fatfs.c:2169-2171. -/
def cmpAll (buf : List Nat) : List (List Nat) → Option Bool
  | [] => some true
  | e :: es =>
    match cmpLfn buf e with
    | none => none
    | some false => some false
    | some true => cmpAll buf es

/-- `sum_sfn`, fatfs/fatfs.c:1799-1808, over the bytes of the name. -/
def sumLoop : List Nat → Nat → Nat
  | [], s => s
  | b :: bs, s => sumLoop bs ((s / 2 + s * 128 + b) % 256)

/-- `sum_sfn`, fatfs/fatfs.c:1799-1808. -/
def sumSfn (e : List Nat) : Nat := sumLoop (e.take 11) 0

end Fpm.Lfn
