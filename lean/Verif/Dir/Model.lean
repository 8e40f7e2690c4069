import Verif.Utf8.Model
/-!
# Directory listing, kernel/cmd/cmd_dir.c

Names are lists of bytes without the terminator; the linked list of items is a `List` (the pointers
themselves are not modelled).  Output is the list of bytes sent to the console; `fpm_puts` is taken
to send the bytes of a string unchanged, which C12 proves for well-formed text.  `printf` is the
library's; its conversions used here are written out.  `none` is undefined behaviour.
-/
namespace Fpm.Dir

/-- `list_item_t`, kernel/cmd/cmd_dir.c:30-38; `namelen` is computed from `name` (line 90). -/
structure Item where
  name : List Nat
  nbytes : Nat
  mtime : Nat
  attrib : Nat
  noPrint : Bool := false
deriving DecidableEq, Repr

/-- `file->namelen = fpm_utf8len(file_name)`, kernel/cmd/cmd_dir.c:90. -/
def Item.namelen (x : Item) : Nat := (utf8len (x.name ++ [0])).getD 0

/-- `options_t`, kernel/cmd/cmd_dir.c:13-25, without `columnated` (never read), `recursive` and
`any_output` (not used by the functions modelled). -/
structure Opts where
  termwidth : Nat := 80
  showhidden : Bool := false
  longform : Bool := false
  reversesort : Bool := false
  singlecol : Bool := false
  timesort : Bool := false
  type : Bool := true
  toplevel : Bool := false
deriving Repr

/-- `AM_HID`, `AM_DIR` and the other attributes, include/fpm/fs.h. -/
def AM_RDO := 1
@[inherit_doc AM_RDO] def AM_HID := 2
@[inherit_doc AM_RDO] def AM_SYS := 4
@[inherit_doc AM_RDO] def AM_DIR := 16
@[inherit_doc AM_RDO] def AM_ARC := 32

/-- `attrib & AM_...` as a condition. -/
def Item.has (x : Item) (a : Nat) : Bool := x.attrib &&& a != 0

/-- `list_append_file_info`, kernel/cmd/cmd_dir.c:76-104, for the entries (long name, short name,
size, date, time, attributes) delivered by `scan_directory`, kernel/cmd/cmd_dir.c:556-578.
Simplified: memory does not run out (an entry that cannot be allocated is reported and left out).  The block
returned by `fpm_alloc` is zero-filled (C02), so `no_print` starts as 0. -/
def scan (entries : List (List Nat × List Nat × Nat × Nat × Nat × Nat)) : List Item :=
  entries.map fun (fname, altname, fsize, fdate, ftime, fattrib) =>
    { name := if fname ≠ [] then fname else altname, nbytes := fsize, mtime := fdate <<< 16 ||| ftime, attrib := fattrib }

/-- `strcmp`: sign of the comparison of the bytes as `unsigned char`. -/
def strcmp : List Nat → List Nat → Int
  | [], [] => 0
  | [], _ :: _ => -1
  | _ :: _, [] => 1
  | a :: as, b :: bs => if a = b then strcmp as bs else if a < b then -1 else 1

/-- `(int)x` of a 32-bit unsigned value. -/
def toInt (x : Nat) : Int := if x < 2 ^ 31 then x else (x : Int) - 2 ^ 32

/-- A value of type `int`; `none`: signed overflow. -/
def int32 (x : Int) : Option Int := if -2 ^ 31 ≤ x ∧ x < 2 ^ 31 then some x else none

/-- `compare_list_items`, kernel/cmd/cmd_dir.c:133-148. -/
def compare (o : Opts) (a b : Item) : Option Int :=
  if o.reversesort = false then
    if o.timesort = true ∧ a.mtime ≠ b.mtime then int32 (toInt b.mtime - toInt a.mtime)
    else some (strcmp a.name b.name)
  else
    if o.timesort = true ∧ a.mtime ≠ b.mtime then int32 (toInt a.mtime - toInt b.mtime)
    else some (strcmp b.name a.name)

/-- `chain_merge`, kernel/cmd/cmd_dir.c:153-168. -/
def merge (o : Opts) : List Item → List Item → Option (List Item)
  | [], bs => some bs
  | as, [] => some as
  | a :: as, b :: bs =>
    match compare o a b with
    | none => none
    | some c =>
      if c < 0 then (merge o as (b :: bs)).map (a :: ·)
      else (merge o (a :: as) bs).map (b :: ·)
termination_by as bs => as.length + bs.length

/-- Loop of `chain_mid_point`, kernel/cmd/cmd_dir.c:180-187: `fast` is the list from the fast pointer
on, `slow` the position of the slow pointer. -/
def midLoop : List Item → Nat → Nat
  | _ :: _ :: c :: r, slow => midLoop (c :: r) (slow + 1)
  | _, slow => slow

/-- `chain_mid_point`, kernel/cmd/cmd_dir.c:173-189: position of the middle. -/
def midPoint (l : List Item) : Nat := midLoop l 0

theorem midLoop_lt (l : List Item) (slow : Nat) : 2 ≤ l.length → midLoop l slow + 1 < slow + l.length := by
  induction l, slow using midLoop.induct with
  | case1 a b c r slow ih =>
    intro _
    rw [midLoop]
    by_cases h : 2 ≤ (c :: r).length
    · have := ih h; simp at *; omega
    · cases r with
      | nil => simp [midLoop]
      | cons => simp at h
  | case2 l slow h =>
    intro h2
    rw [midLoop]
    · omega
    · exact h

/-- `chain_sort`, kernel/cmd/cmd_dir.c:194-212. -/
def sort (o : Opts) (l : List Item) : Option (List Item) :=
  if _h : l.length < 2 then some l
  else
    match sort o (l.take (midPoint l + 1)), sort o (l.drop (midPoint l + 1)) with
    | some a, some b => merge o a b
    | _, _ => none
termination_by l.length
decreasing_by
  · have := midLoop_lt l 0 (by omega); simp only [midPoint, List.length_take]; omega
  · simp only [midPoint, List.length_drop]; omega

/-- `print_type`, kernel/cmd/cmd_dir.c:241-252 (`is_link` is always false), and `print_filename`,
kernel/cmd/cmd_dir.c:258-265: text printed. -/
def filename (o : Opts) (x : Item) : List Nat := x.name ++ (if o.type && x.has AM_DIR then [47] else [])

/-- Value returned by `print_filename`, kernel/cmd/cmd_dir.c:258-265. -/
def filenameLen (o : Opts) (x : Item) : Nat := x.namelen + (if o.type && x.has AM_DIR then 1 else 0)

/-- Line end. -/
def crlf : List Nat := [13, 10]

/-- `print_single_column`, kernel/cmd/cmd_dir.c:316-326. -/
def singleColumn (o : Opts) (l : List Item) : List Nat :=
  l.flatMap fun x => if x.noPrint then [] else filename o x ++ crlf

/-- Decimal digits (printf `%u`). -/
def dec (n : Nat) : List Nat := if n < 10 then [48 + n] else dec (n / 10) ++ [48 + n % 10]

/-- printf `%03u` of a number below 1000. -/
def dec3 (n : Nat) : List Nat := [48 + n / 100, 48 + n / 10 % 10, 48 + n % 10]

/-- printf `%*u` and `%*s`: the width is an `int`, a negative one aligns to the left. -/
def padStar (width : Nat) (s : List Nat) : List Nat :=
  if width < 2 ^ 31 then List.replicate (width - s.length) 32 ++ s
  else s ++ List.replicate (2 ^ 32 - width - s.length) 32

/-- First loop of `print_size`, kernel/cmd/cmd_dir.c:335-340: `n`, `n2`, `scale` (64 bits), `width`
(32 bits). -/
def sizeLoop1 (n n2 scale width : Nat) : Nat × Nat × Nat × Nat :=
  if n < 1000 then (n, n2, scale, width)
  else sizeLoop1 (n / 1000) ((n2 + scale * (n % 1000)) % 2 ^ 64) (scale * 1000 % 2 ^ 64) ((width + 2 ^ 32 - 4) % 2 ^ 32)
termination_by n

/-- Second loop of `print_size`, kernel/cmd/cmd_dir.c:342-347.  `none`: division by zero.
Simplified: `%03u` is written for numbers below 1000 only. -/
def sizeLoop2 (n2 scale : Nat) : Option (List Nat) :=
  if scale = 1 then some []
  else if _h : scale / 1000 = 0 then none
  else (sizeLoop2 (n2 % (scale / 1000)) (scale / 1000)).map ((44 :: dec3 (n2 / (scale / 1000))) ++ ·)
termination_by scale
decreasing_by omega

/-- `print_size`, kernel/cmd/cmd_dir.c:331-348. -/
def printSize (n width : Nat) : Option (List Nat) :=
  let s := sizeLoop1 n 0 1 width
  (sizeLoop2 s.2.1 s.2.2.1).map (padStar s.2.2.2 (dec (s.1 % 2 ^ 32)) ++ ·)

/-- `size_len`, kernel/cmd/cmd_dir.c:353-362. -/
def sizeLen (n : Nat) : Nat :=
  if n < 1000 then (if n ≥ 100 then 3 else if n ≥ 10 then 2 else 1)
  else sizeLen (n / 1000) + 4
termination_by n

/-- `print_attrib`, kernel/cmd/cmd_dir.c:270-277. -/
def printAttrib (x : Item) : List Nat :=
  [if x.has AM_ARC then 97 else 45, if x.has AM_DIR then 100 else 45, if x.has AM_SYS then 115 else 45,
   if x.has AM_HID then 104 else 45, if x.has AM_RDO then 114 else 45]

/-- printf `%2u`. -/
def dec2 (n : Nat) : List Nat := padStar 2 (dec n)

/-- `print_time`, kernel/cmd/cmd_dir.c:282-303. -/
def printTime (m : Nat) : List Nat :=
  padStar 4 (dec (m / 2 ^ 25 % 128 + 1980)) ++ [47] ++ dec (m / 2 ^ 21 % 16) ++ [47] ++ dec (m / 2 ^ 16 % 32) ++ [32] ++
    (if m / 2 ^ 21 % 16 < 10 then [32] else []) ++ (if m / 2 ^ 16 % 32 < 10 then [32] else []) ++
    dec2 (m / 2 ^ 11 % 32) ++ [58] ++ [48 + m / 2 ^ 5 % 64 / 10, 48 + m / 2 ^ 5 % 64 % 10] ++ [32, 32]

/-- The line "Total ... kbytes", kernel/cmd/cmd_dir.c:370-371 and 434-435. -/
def totalLine (o : Opts) (kbytes : Nat) : List Nat :=
  if o.toplevel = false ∧ o.longform = true then
    [84, 111, 116, 97, 108, 32] ++ dec kbytes ++ [32, 107, 98, 121, 116, 101, 115] ++ crlf
  else []

/-- One line of the long format, kernel/cmd/cmd_dir.c:376-395. -/
def longLine (o : Opts) (width : Nat) (x : Item) : Option (List Nat) :=
  (if x.has AM_DIR then some (padStar width [45]) else printSize x.nbytes width).map fun sz =>
    printAttrib x ++ [32, 32] ++ sz ++ [32, 32] ++ printTime x.mtime ++ filename o x ++ crlf

/-- `print_long`, kernel/cmd/cmd_dir.c:367-397. -/
def longLines (o : Opts) (width : Nat) : List Item → Option (List Nat)
  | [] => some []
  | x :: l =>
    if x.noPrint then longLines o width l
    else match longLine o width x, longLines o width l with
      | some a, some b => some (a ++ b)
      | _, _ => none

/-- Rest of a row of `print_columnized` from position `base` on, kernel/cmd/cmd_dir.c:444-456:
`cols` columns may still be printed.  `none`: `array[base]` outside the array. -/
def printRow (o : Opts) (arr : List Item) (numrows colwidth : Nat) : (cols base count endcol : Nat) → Option (List Nat)
  | 0, _, _, _ => some []
  | cols + 1, base, count, endcol =>
    match arr[base]? with
    | none => none
    | some x =>
      let count := count + filenameLen o x
      if base + numrows ≥ arr.length then some (filename o x)
      else (printRow o arr numrows colwidth cols (base + numrows) (max count endcol) (endcol + colwidth)).map
        (filename o x ++ List.replicate (endcol - count) 32 ++ ·)

/-- The rows, kernel/cmd/cmd_dir.c:437-459, `rows` of them from `row` on. -/
def printRows (o : Opts) (arr : List Item) (numcols numrows colwidth : Nat) : (rows row : Nat) → Option (List Nat)
  | 0, _ => some []
  | rows + 1, row =>
    match printRow o arr numrows colwidth numcols row 0 colwidth, printRows o arr numcols numrows colwidth rows (row + 1) with
    | some a, some b => some (a ++ crlf ++ b)
    | _, _ => none

/-- Column width, kernel/cmd/cmd_dir.c:417-421. -/
def colWidth (o : Opts) (maxlen : Nat) : Nat := maxlen + (if o.type then 1 else 0) + 2

/-- `print_columnized`, kernel/cmd/cmd_dir.c:402-460.  `none` also if the array allocated for
`printable` entries overflows. -/
def columnized (o : Opts) (l : List Item) (printable maxlen kbytes : Nat) : Option (List Nat) :=
  let arr := l.filter (! ·.noPrint)
  if arr.length > printable then none
  else
    let colwidth := colWidth o maxlen
    if o.termwidth < 2 * colwidth % 2 ^ 32 then some (singleColumn o l)
    else
      let numcols := o.termwidth / colwidth
      let numrows := arr.length / numcols + (if arr.length % numcols ≠ 0 then 1 else 0)
      (printRows o arr numcols numrows colwidth numrows 0).map (totalLine o kbytes ++ ·)

/-- State of the loop of `show_files`, kernel/cmd/cmd_dir.c:474-499. -/
structure Totals where
  kbytes : Nat := 0
  maxsize : Nat := 0
  maxlen : Nat := 0
  printable : Nat := 0
deriving Repr

/-- Is the item left out?  kernel/cmd/cmd_dir.c:480-493. -/
def hidden (o : Opts) (x : Item) : Bool :=
  (x.has AM_HID && !o.showhidden) || (x.has AM_DIR && o.toplevel)

/-- Loop of `show_files`, kernel/cmd/cmd_dir.c:479-505: marks the items left out and computes the
totals. -/
def tally (o : Opts) : List Item → Totals → List Item × Totals
  | [], t => ([], t)
  | x :: l, t =>
    if hidden o x then
      let r := tally o l t
      ({ x with noPrint := true } :: r.1, r.2)
    else
      let r := tally o l { kbytes := (t.kbytes + (x.nbytes + 1023) % 2 ^ 64 / 1024) % 2 ^ 64, maxsize := max t.maxsize x.nbytes,
                           maxlen := max t.maxlen x.namelen, printable := t.printable + 1 }
      (x :: r.1, r.2)

/-- `show_files`, kernel/cmd/cmd_dir.c:465-518: output for a list of items. -/
def showFiles (o : Opts) (l : List Item) : Option (List Nat) :=
  match sort o l with
  | none => none
  | some l =>
    let r := tally o l {}
    if r.2.printable = 0 then some []
    else if o.singlecol then some (singleColumn o r.1)
    else if o.longform then (longLines o (sizeLen r.2.maxsize) r.1).map (totalLine o r.2.kbytes ++ ·)
    else columnized o r.1 r.2.printable r.2.maxlen r.2.kbytes

end Fpm.Dir
