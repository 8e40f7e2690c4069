import Verif.TextIo.Model
import Verif.Lfn.Model
/-!
# File names: from a path to directory form and from an entry to a listing

Model of `create_name` and of the names in `get_fileinfo` of `fatfs/fatfs.c` (FAT volumes; `FF_FS_RPATH` 2, code page 0, in which
`dbc_1st` is always false and `ff_oem2uni` the identity).  A path is the list of bytes from the pointer to the end of its object.
The working buffer has 256 units.  An access outside of an object is the outcome `none` or `ub`.
-/
namespace Fpm.Names
open Fpm.TextIo Fpm.Lfn

/-- `IsSeparator`, fatfs/fatfs.c:51. -/
def isSep (c : Nat) : Bool := c = 47 || c = 92

/-- The characters `*:<>|"?` and DEL, fatfs/fatfs.c:2597. -/
def illegal : List Nat := [42, 58, 60, 62, 124, 34, 63, 127]

/-- The characters `+,;=[]`, fatfs/fatfs.c:2671. -/
def illegalShort : List Nat := [43, 44, 59, 61, 91, 93]

/-- `lfn[di] = c`. -/
def store (buf : List Nat) (di c : Nat) : Option (List Nat) := if di < buf.length then some (buf.set di c) else none

/-- High surrogate, fatfs/fatfs.c:2592-2593: buffer and `di`. -/
def high (buf : List Nat) (di uc : Nat) : Option (List Nat × Nat) :=
  if uc ≥ 0x10000 then (store buf di (uc / 65536)).map fun b => (b, di + 1) else some (buf, di)

/-- How the first loop ends. -/
inductive Scan where
  | bad
  | ub
  | done (buf : List Nat) (di wc : Nat) (rest : List Nat)

/-- First loop, fatfs/fatfs.c:2588-2602; the number bounds the rounds. -/
def scan : Nat → List Nat → List Nat → Nat → Scan
  | 0, _, _, _ => .ub
  | k + 1, p, buf, di =>
    match tchar2uni p with
    | none => .ub
    | some none => .bad
    | some (some (uc, p)) =>
      match high buf di uc with
      | none => .ub
      | some (buf, di) =>
        if uc % 65536 < 32 ∨ isSep (uc % 65536) then .done buf di (uc % 65536) p
        else if uc % 65536 ∈ illegal then .bad
        else if di ≥ 255 then .bad
        else
          match store buf di (uc % 65536) with
          | none => .ub
          | some buf => scan k p buf (di + 1)

/-- Duplicated separators, fatfs/fatfs.c:2606-2607. -/
def skipSep : List Nat → Option (List Nat)
  | [] => none
  | b :: p => if isSep b then skipSep p else some (b :: p)

/-- End of the segment, fatfs/fatfs.c:2603-2612: flags and pointer. -/
def segEnd (wc : Nat) (p : List Nat) : Option (Nat × List Nat) :=
  if wc < 32 then some (4, p)
  else
    match skipSep p with
    | none | some [] => none
    | some (b :: p) => some (if b < 32 then 4 else 0, b :: p)

/-- Test for `.` and `..`, fatfs/fatfs.c:2615-2616. -/
def isDot (buf : List Nat) (di : Nat) : Bool :=
  (di == 1 && buf[0]? == some 46) || (di == 2 && buf[1]? == some 46 && buf[0]? == some 46)

/-- Trailing spaces and dots, fatfs/fatfs.c:2625-2630: the new `di`. -/
def trim (buf : List Nat) : Nat → Option Nat
  | 0 => some 0
  | di + 1 =>
    match buf[di]? with
    | none => none
    | some wc => if wc ≠ 32 ∧ wc ≠ 46 then some (di + 1) else trim buf di

/-- Leading spaces, fatfs/fatfs.c:2636-2637; the first number bounds the rounds. -/
def leading (buf : List Nat) : Nat → Nat → Option Nat
  | 0, _ => none
  | k + 1, si =>
    match buf[si]? with
    | none => none
    | some wc => if wc = 32 then leading buf k (si + 1) else some si

/-- Last dot, fatfs/fatfs.c:2640-2641. -/
def lastDot (buf : List Nat) : Nat → Option Nat
  | 0 => some 0
  | di + 1 =>
    match buf[di]? with
    | none => none
    | some wc => if wc ≠ 46 then lastDot buf di else some (di + 1)

/-- `IsUpper`, fatfs/fatfs.c:48. -/
def isUpper (c : Nat) : Bool := 65 ≤ c && c ≤ 90

/-- `IsLower`, fatfs/fatfs.c:49. -/
def isLower (c : Nat) : Bool := 97 ≤ c && c ≤ 122

/-- A character of the short name, fatfs/fatfs.c:2671-2682: flags `b`, `cf`, and the character. -/
def shortChar (wc b cf : Nat) : Nat × Nat × Nat :=
  if wc > 126 ∨ wc ∈ illegalShort then (b, cf ||| 3, 95)
  else (if isLower wc then b ||| 1 else if isUpper wc then b ||| 2 else b, cf, if isLower wc then wc - 32 else wc)

/-- State of the loop that makes the short name. -/
structure Short where
  ni : Nat
  b : Nat
  cf : Nat
  fn : List Nat
deriving DecidableEq, Repr

/-- End of a field, fatfs/fatfs.c:2656-2668: the state if the loop is left, or the state of the extension.  `si` has been advanced. -/
def field (di si : Nat) (s : Short) : Short ⊕ Short :=
  if s.ni = 11 then .inl { s with cf := s.cf ||| 3 }
  else if si > di then .inl { s with cf := if si ≠ di then s.cf ||| 3 else s.cf }
  else .inr { s with cf := if si ≠ di then s.cf ||| 3 else s.cf, ni := 11, b := s.b * 4 % 256 }

/-- Loop that makes the short name, fatfs/fatfs.c:2646-2685; the first number bounds the rounds. -/
def shortLoop (buf : List Nat) (di : Nat) : Nat → Nat → Nat → Short → Option Short
  | 0, _, _, _ => none
  | k + 1, si, i, s =>
    match buf[si]? with
    | none => none
    | some wc =>
      if wc = 0 then some s
      else if wc = 32 ∨ (wc = 46 ∧ si + 1 ≠ di) then shortLoop buf di k (si + 1) i { s with cf := s.cf ||| 3 }
      else if i ≥ s.ni ∨ si + 1 = di then
        match field di (si + 1) s with
        | .inl s => some s
        | .inr s => shortLoop buf di k di 8 s
      else if i < s.fn.length then
        shortLoop buf di k (si + 1) (i + 1)
          { s with b := (shortChar wc s.b s.cf).1, cf := (shortChar wc s.b s.cf).2.1, fn := s.fn.set i (shortChar wc s.b s.cf).2.2 }
      else none

/-- Replacement of the mark for deleted entries, fatfs/fatfs.c:2687-2688. -/
def noDdem (fn : List Nat) : List Nat := if fn.getD 0 0 = 0xE5 then fn.set 0 5 else fn

/-- Case flags, fatfs/fatfs.c:2691-2692. -/
def caseBits (s : Short) : Nat := if s.ni = 8 then s.b * 4 % 256 else s.b

/-- Flag `NS_LFN`, fatfs/fatfs.c:2693-2694; `b` are the case flags. -/
def lfnFlag (b cf : Nat) : Nat := if b &&& 0x0C = 0x0C ∨ b &&& 3 = 3 then cf ||| 2 else cf

/-- Flag `NS_EXT`, fatfs/fatfs.c:2697-2699. -/
def extFlag (b cf : Nat) : Nat := if b &&& 1 ≠ 0 then cf ||| 0x10 else cf

/-- Flag `NS_BODY`, fatfs/fatfs.c:2700-2701. -/
def bodyFlag (b cf : Nat) : Nat := if b &&& 4 ≠ 0 then cf ||| 8 else cf

/-- Flags of the name, fatfs/fatfs.c:2693-2702. -/
def nameFlags (b cf : Nat) : Nat := if lfnFlag b cf &&& 2 = 0 then bodyFlag b (extFlag b (lfnFlag b cf)) else lfnFlag b cf

/-- Outcome of `create_name`. -/
inductive Created where
  | bad
  | ub
  | ok (buf fn : List Nat) (flags : Nat) (rest : List Nat)
deriving DecidableEq

/-- Short name and its flags, fatfs/fatfs.c:2636-2704. -/
def mkShort (buf : List Nat) (di cf : Nat) (rest : List Nat) : Created :=
  match leading buf 256 0, lastDot buf di with
  | some si, some dot =>
    match buf[si]? with
    | none => .ub
    | some wc =>
      match shortLoop buf dot 257 si 0 { ni := 8, b := 0, cf := if si > 0 ∨ wc = 46 then cf ||| 3 else cf, fn := List.replicate 11 32 } with
      | none => .ub
      | some s => .ok buf (noDdem s.fn) (nameFlags (caseBits s) s.cf) rest
  | _, _ => .ub

/-- Dot entry, fatfs/fatfs.c:2617-2622. -/
def dotName (buf : List Nat) (di cf : Nat) (rest : List Nat) : Created :=
  match store buf di 0 with
  | none => .ub
  | some buf => .ok buf (List.replicate di 46 ++ List.replicate (11 - di) 32) (cf ||| 0x20) rest

/-- The name itself, fatfs/fatfs.c:2625-2634 and on. -/
def plainName (buf : List Nat) (di cf : Nat) (rest : List Nat) : Created :=
  match trim buf di with
  | none => .ub
  | some di =>
    match store buf di 0 with
    | none => .ub
    | some buf => if di = 0 then .bad else mkShort buf di cf rest

/-- `create_name`, fatfs/fatfs.c:2573-2707; `buf` is the old content of the working buffer.  The eleven bytes of `fn` and its flags
`fn[NSFLAG]` are given separately. -/
def createName (path buf : List Nat) : Created :=
  match scan (path.length + 1) path buf 0 with
  | .bad => .bad
  | .ub => .ub
  | .done buf di wc p =>
    match segEnd wc p with
    | none => .ub
    | some (cf, rest) => if isDot buf di then dotName buf di cf rest else plainName buf di cf rest

/-! ## Names in listings -/

/-- Long name, fatfs/fatfs.c:2404-2423: the bytes of `fname` (none of them if the name is invalid).  The first number bounds the rounds. -/
def longLoop (buf : List Nat) : Nat → Nat → Nat → List Nat → Option (List Nat)
  | 0, _, _, _ => none
  | k + 1, si, hs, out =>
    match buf[si]? with
    | none => none
    | some wc =>
      if wc = 0 then some (if hs ≠ 0 then [] else out)
      else if hs = 0 ∧ isSurrogate wc then longLoop buf k (si + 1) wc out
      else if putUtf (hs * 65536 + wc) (255 - out.length) = [] then some []
      else longLoop buf k (si + 1) 0 (out ++ putUtf (hs * 65536 + wc) (255 - out.length))

/-- Dot in front of the extension, fatfs/fatfs.c:2434-2435; `si` is the index of the character. -/
def altDot (si : Nat) (out : List Nat) : List Nat := if si = 8 ∧ out.length < 12 then out ++ [46] else out

/-- Short name, fatfs/fatfs.c:2427-2454, over the rest of the eleven bytes: the bytes of `altname` (none if it is invalid). -/
def altLoop : List Nat → Nat → List Nat → List Nat
  | [], _, out => out
  | wc :: cs, si, out =>
    if wc = 32 then altLoop cs (si + 1) out
    else if (if wc = 5 then 0xE5 else wc) = 0 then []
    else if putUtf (if wc = 5 then 0xE5 else wc) (12 - (altDot si out).length) = [] then []
    else altLoop cs (si + 1) (altDot si out ++ putUtf (if wc = 5 then 0xE5 else wc) (12 - (altDot si out).length))

/-- Copy with case information, fatfs/fatfs.c:2461-2469.  (Bytes above 127 are copied as they are: `wc` is then not in the range of letters,
whatever the signedness of `char`.) -/
def caseLoop (nt : Nat) : List Nat → Nat → List Nat
  | [], _ => []
  | c :: cs, lcf =>
    if c = 46 then c :: caseLoop nt cs 0x10
    else (if isUpper c ∧ nt &&& lcf ≠ 0 then c + 32 else c) :: caseLoop nt cs lcf

/-- `fname` without a valid long name, fatfs/fatfs.c:2457-2470. -/
def shortName (e : List Nat) : List Nat :=
  if altLoop (e.take 11) 0 [] = [] then [63] else caseLoop (byte e 12) (altLoop (e.take 11) 0 []) 8

/-- `fname` of `get_fileinfo`, fatfs/fatfs.c:2403-2471, for the short entry `e` and, if there is a valid long name, the working buffer. -/
def listName (long : Option (List Nat)) (e : List Nat) : Option (List Nat) :=
  match long with
  | none => some (shortName e)
  | some buf =>
    match longLoop buf 257 0 0 [] with
    | none => none
    | some [] => some (shortName e)
    | some (b :: out) => some (b :: out)

end Fpm.Names
