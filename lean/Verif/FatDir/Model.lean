import Verif.Names.Model
/-!
# Directory tables

Model of `dir_read`, `dir_find`, `dir_alloc`, `gen_numname`, `dir_register` and `dir_remove` of `fatfs/fatfs.c` for FAT volumes.  A
directory is the list of its entries of 32 bytes; offsets are indices into it.  That `dir_sdi` and `dir_next` lead to the entries one
after the other is assumed here (simplification: no device errors; the way over sectors and clusters is left out).  Stretching a table is given by a
function from its number of entries to the number of cleared entries added, zero if the table cannot be stretched.  An access
outside of the working buffer is the outcome `ub`.
-/
namespace Fpm.FatDir
open Fpm.Lfn Fpm.Names

/-- `dir[DIR_Attr] & AM_MASK`, fatfs/fatfs.c:2067, 2154. -/
def attr (e : List Nat) : Nat := byte e 11 &&& 0x3F

/-- Outcome of `dir_read` and `dir_find`: index of the entry, start of its long name (`blk_ofs`; `none` is 0xFFFFFFFF), and buffer. -/
inductive Found where
  | ub
  | noFile
  | found (i : Nat) (blk : Option Nat) (buf : List Nat)
deriving DecidableEq

/-- Order and sum of a sequence of long name entries, and where it starts. -/
structure Seq where
  ord : Nat
  sum : Nat
  blk : Option Nat
deriving DecidableEq

/-- Start of a sequence, fatfs/fatfs.c:2073-2078, 2160-2165. -/
def seqStart (i : Nat) (e : List Nat) (q : Seq) : Seq :=
  if byte e 0 &&& 0x40 ≠ 0 then ⟨byte e 0 &&& 0xBF, byte e 13, some i⟩ else q

/-- `b` after line 2075: the order without the mark of the last entry. -/
def seqOrd (e : List Nat) : Nat := if byte e 0 &&& 0x40 ≠ 0 then byte e 0 &&& 0xBF else byte e 0

/-- Long name entry in `dir_read`, fatfs/fatfs.c:2080-2082.  If the entry is not picked up the buffer is kept (simplification: its parts may have changed). -/
def readLfn (i : Nat) (e : List Nat) (q : Seq) (buf : List Nat) : Option (Seq × List Nat) :=
  if seqOrd e = (seqStart i e q).ord ∧ (seqStart i e q).sum = byte e 13 then
    match pickLfn buf e with
    | none => none
    | some none => some ({ seqStart i e q with ord := 0xFF }, buf)
    | some (some buf) => some ({ seqStart i e q with ord := (seqStart i e q).ord - 1 }, buf)
  else some ({ seqStart i e q with ord := 0xFF }, buf)

/-- Loop of `dir_read(dp, 0)`, fatfs/fatfs.c:2045-2096, over the entries from index `i` on. -/
def readLoop : List (List Nat) → Nat → Seq → List Nat → Found
  | [], _, _, _ => .noFile
  | e :: t, i, q, buf =>
    if byte e 0 = 0 then .noFile
    else if byte e 0 = 0xE5 ∨ byte e 0 = 46 ∨ attr e &&& 0x1F = 8 then readLoop t (i + 1) { q with ord := 0xFF } buf
    else if attr e = 0x0F then
      match readLfn i e q buf with
      | none => .ub
      | some (q, buf) => readLoop t (i + 1) q buf
    else .found i (if q.ord ≠ 0 ∨ q.sum ≠ sumSfn e then none else q.blk) buf

/-- `dir_read(dp, 0)`, fatfs/fatfs.c:2036-2101, from index `i` on. -/
def dirRead (t : List (List Nat)) (i : Nat) (buf : List Nat) : Found := readLoop (t.drop i) i ⟨0xFF, 0xFF, none⟩ buf

/-- Long name entry in `dir_find`, fatfs/fatfs.c:2158-2171. -/
def findLfn (i : Nat) (e : List Nat) (fl : Nat) (q : Seq) (buf : List Nat) : Option Seq :=
  if fl &&& 0x40 = 0 then
    if seqOrd e = (seqStart i e q).ord ∧ (seqStart i e q).sum = byte e 13 then
      match cmpLfn buf e with
      | none => none
      | some r => some { seqStart i e q with ord := if r then (seqStart i e q).ord - 1 else 0xFF }
    else some { seqStart i e q with ord := 0xFF }
  else some q

/-- Loop of `dir_find`, fatfs/fatfs.c:2143-2186; `fn` and `fl` are the name and its flags, `buf` holds the long name. -/
def findLoop (fn : List Nat) (fl : Nat) (buf : List Nat) : List (List Nat) → Nat → Seq → Found
  | [], _, _ => .noFile
  | e :: t, i, q =>
    if byte e 0 = 0 then .noFile
    else if byte e 0 = 0xE5 ∨ (attr e &&& 8 ≠ 0 ∧ attr e ≠ 0x0F) then findLoop fn fl buf t (i + 1) ⟨0xFF, q.sum, none⟩
    else if attr e = 0x0F then
      match findLfn i e fl q buf with
      | none => .ub
      | some q => findLoop fn fl buf t (i + 1) q
    else if q.ord = 0 ∧ q.sum = sumSfn e then .found i q.blk buf
    else if fl &&& 1 = 0 ∧ e.take 11 = fn then .found i q.blk buf
    else findLoop fn fl buf t (i + 1) ⟨0xFF, q.sum, none⟩

/-- `dir_find`, fatfs/fatfs.c:2108-2189. -/
def dirFind (t : List (List Nat)) (fn : List Nat) (fl : Nat) (buf : List Nat) : Found := findLoop fn fl buf t 0 ⟨0xFF, 0xFF, none⟩

/-! ## Allocating entries -/

/-- A cleared entry, as `dir_clear` makes them, fatfs/fatfs.c:1401-1434. -/
def blank : List Nat := List.replicate 32 0

/-- The entry is free, fatfs/fatfs.c:1578-1579. -/
def isFree (e : List Nat) : Bool := byte e 0 = 0xE5 || byte e 0 = 0

/-- Loop of `dir_alloc`, fatfs/fatfs.c:1568-1588: the table (it may have been stretched) and the index of the last of `n` free entries.  The
first number bounds the rounds; `k` counts the free entries.  `none`: no entries. -/
def allocLoop (grow : Nat → Nat) (n : Nat) : Nat → List (List Nat) → Nat → Nat → List (List Nat) × Option Nat
  | 0, t, _, _ => (t, none)
  | r + 1, t, i, k =>
    match t[i]? with
    | none => if grow t.length = 0 then (t, none) else allocLoop grow n r (t ++ List.replicate (grow t.length) blank) i k
    | some e =>
      if isFree e then
        if k + 1 = n then (t, some i) else allocLoop grow n r t (i + 1) (k + 1)
      else allocLoop grow n r t (i + 1) 0

/-- `dir_alloc`, fatfs/fatfs.c:1557-1594. -/
def dirAlloc (grow : Nat → Nat) (t : List (List Nat)) (n : Nat) : List (List Nat) × Option Nat := allocLoop grow n (t.length + 2 * n + 1) t 0 0

/-! ## Numbered names -/

/-- A bit of the hash, fatfs/fatfs.c:1761-1764. -/
def hashBit (s w : Nat) : Nat := if (2 * s + w % 2) &&& 0x10000 ≠ 0 then (2 * s + w % 2) ^^^ 0x11021 else 2 * s + w % 2

/-- The 16 bits of a unit, fatfs/fatfs.c:1760-1765. -/
def hashUnit : Nat → Nat → Nat → Nat
  | 0, s, _ => s
  | k + 1, s, w => hashUnit k (hashBit s w) (w / 2)

/-- Hash of the long name, fatfs/fatfs.c:1758-1766; `none`: no end in the buffer. -/
def hash : List Nat → Nat → Option Nat
  | [], _ => none
  | w :: buf, s => if w = 0 then some s else hash buf (hashUnit 16 s w)

/-- A hexadecimal digit, fatfs/fatfs.c:1773-1776. -/
def hexDigit (d : Nat) : Nat := if d % 16 + 48 > 57 then d % 16 + 55 else d % 16 + 48

/-- Digits of the suffix, fatfs/fatfs.c:1771-1778; the first number is `i`. -/
def digits : Nat → Nat → List Nat → List Nat
  | 0, _, acc => acc
  | i + 1, seq, acc => if i ≠ 0 ∧ seq / 16 ≠ 0 then digits i (seq / 16) (hexDigit seq :: acc) else hexDigit seq :: acc

/-- Offset of the suffix, fatfs/fatfs.c:1782-1788: index of the first space, or `i`. -/
def sfxOfs : List Nat → Nat → Nat
  | _, 0 => 0
  | [], _ + 1 => 0
  | c :: cs, i + 1 => if c = 32 then 0 else sfxOfs cs i + 1

/-- Name with suffix, fatfs/fatfs.c:1782-1791.  `dbc_1st` is always zero for the code page in use, fatfs/fatfs.c:505-510. -/
def withSuffix (fn sfx : List Nat) : List Nat :=
  fn.take (sfxOfs fn (8 - sfx.length)) ++ sfx ++ List.replicate (8 - sfxOfs fn (8 - sfx.length) - sfx.length) 32 ++ fn.drop 8

/-- `gen_numname`, fatfs/fatfs.c:1743-1792. -/
def genNumname (fn buf : List Nat) (seq : Nat) : Option (List Nat) :=
  match (if seq > 5 then hash buf seq else some seq) with
  | none => none
  | some seq => some (withSuffix fn (126 :: digits 7 seq []))

/-- Loop for a numbered name, fatfs/fatfs.c:2245-2258: from `n`, the rest of the rounds; inner `none`: too many collisions. -/
def numLoop (t : List (List Nat)) (fn buf : List Nat) : Nat → Nat → Option (Option (List Nat))
  | 0, _ => some none
  | k + 1, n =>
    match genNumname fn buf n with
    | none => none
    | some fn' =>
      match dirFind t fn' 0x40 buf with
      | .ub => none
      | .noFile => some (some fn')
      | .found .. => numLoop t fn buf k (n + 1)

/-! ## Adding and removing objects -/

/-- Length of the long name, fatfs/fatfs.c:2206-2207. -/
def lfnLen : List Nat → Nat → Option Nat
  | [], _ => none
  | w :: buf, k => if w = 0 then some k else lfnLen buf (k + 1)

/-- Entry of the short name, fatfs/fatfs.c:2281-2285. -/
def sfnEntry (fn : List Nat) (fl : Nat) : List Nat := fn ++ [0, fl &&& 0x18] ++ List.replicate 19 0

/-- Writes of the long name entries, fatfs/fatfs.c:2262-2274: index and contents, with `k` of them left, the next at index `i`. -/
def lfnWrites (t : List (List Nat)) (buf : List Nat) (sum : Nat) : Nat → Nat → Option (List (Nat × List Nat))
  | 0, _ => some []
  | k + 1, i =>
    match t[i]? with
    | none => none
    | some e =>
      match putLfn buf e (k + 1) sum, lfnWrites t buf sum k (i + 1) with
      | some e, some ws => some ((i, e) :: ws)
      | _, _ => none

/-- Writes one after the other. -/
def writeAll (t : List (List Nat)) : List (Nat × List Nat) → List (List Nat)
  | [] => t
  | w :: ws => writeAll (t.set w.1 w.2) ws

/-- Outcome of `dir_register`: table before the writes, the writes, and index of the short entry. -/
inductive Reg where
  | ub
  | invalid
  | denied (t : List (List Nat))
  | done (t : List (List Nat)) (ws : List (Nat × List Nat)) (i : Nat)

/-- Number of entries, fatfs/fatfs.c:2261. -/
def numEntries (fl len : Nat) : Nat := if fl &&& 2 ≠ 0 then (len + 12) / 13 + 1 else 1

/-- `dir_register` once the short name is known, fatfs/fatfs.c:2260-2291. -/
def store (grow : Nat → Nat) (t : List (List Nat)) (fn : List Nat) (fl : Nat) (buf : List Nat) (len : Nat) : Reg :=
  match dirAlloc grow t (numEntries fl len) with
  | (t, none) => .denied t
  | (t, some i) =>
    match lfnWrites t buf (sumSfn fn) (numEntries fl len - 1) (i - (numEntries fl len - 1)) with
    | none => .ub
    | some ws => .done t (ws ++ [(i, sfnEntry fn fl)]) i

/-- `dir_register`, fatfs/fatfs.c:2197-2296. -/
def dirRegister (grow : Nat → Nat) (t : List (List Nat)) (fn : List Nat) (fl : Nat) (buf : List Nat) : Reg :=
  if fl &&& 0xA0 ≠ 0 then .invalid
  else
    match lfnLen buf 0 with
    | none => .ub
    | some len =>
      if fl &&& 1 ≠ 0 then
        match numLoop t fn buf 99 1 with
        | none => .ub
        | some none => .denied t
        | some (some fn') => store grow t fn' fl buf len
      else store grow t fn fl buf len

/-- Marking entries from index `i` on as deleted, fatfs/fatfs.c:2317-2334: the writes, `k + 1` of them. -/
def markWrites (t : List (List Nat)) (i : Nat) : Nat → List (Nat × List Nat)
  | 0 => [(i, (t.getD i []).set 0 0xE5)]
  | k + 1 => (i, (t.getD i []).set 0 0xE5) :: markWrites t (i + 1) k

/-- `dir_remove`, fatfs/fatfs.c:2306-2337: the writes, for the entry `i` with its long name from `blk`. -/
def removeWrites (t : List (List Nat)) (i : Nat) (blk : Option Nat) : List (Nat × List Nat) :=
  markWrites t (blk.getD i) (i - blk.getD i)

/-! ## Listing -/

/-- `f_readdir`, fatfs/fatfs.c:4488-4515, without checks of the object: name and entry of the next object, index for the next call. -/
def readDir (t : List (List Nat)) (i : Nat) (buf : List Nat) : Option (Option (List Nat × List Nat × Nat × List Nat)) :=
  match dirRead t i buf with
  | .ub => none
  | .noFile => some none
  | .found j blk buf =>
    match listName (if blk = none then none else some buf) (t.getD j []) with
    | none => none
    | some name => some (some (name, t.getD j [], j + 1, buf))

/-- Reading a directory to its end as the `dir` command does; the number bounds the rounds. -/
def listAll (t : List (List Nat)) : Nat → Nat → List Nat → Option (List (List Nat × List Nat))
  | 0, _, _ => none
  | k + 1, i, buf =>
    match readDir t i buf with
    | none => none
    | some none => some []
    | some (some (name, e, j, buf)) => (listAll t k j buf).map ((name, e) :: ·)

end Fpm.FatDir
