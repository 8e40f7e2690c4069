/-!
# FatFs text functions: UTF-8 conversion, f_gets, f_puts

Model of `fatfs/fatfs.c`: `tchar2uni`, `put_utf`, `f_gets`, `putc_bfd`,
`putc_flush`, `f_puts`.  Configuration as in `fatfs/ffconf.h`: UTF-8 API,
`FF_USE_STRFUNC` 1 (no CR conversion).  A byte is a natural number below 256.

A C string is the list of bytes from the pointer to the end of its object;
reading beyond it is undefined behaviour, modelled by the outcome `none`.
-/
namespace Fpm.TextIo

/-- `IsSurrogate`, fatfs/fatfs.c:53. -/
def isSurrogate (c : Nat) : Bool := 0xD800 ≤ c && c ≤ 0xDFFF

/-- Lead byte analysis of `tchar2uni`, fatfs/fatfs.c:536-548: payload bits and number of
trailing bytes; `none`: wrong lead byte. -/
def leadByte (uc : Nat) : Option (Nat × Nat) :=
  if uc &&& 0xE0 = 0xC0 then some (uc &&& 0x1F, 1)
  else if uc &&& 0xF0 = 0xE0 then some (uc &&& 0x0F, 2)
  else if uc &&& 0xF8 = 0xF0 then some (uc &&& 0x07, 3)
  else none

/-- Trailing bytes in `tchar2uni`, fatfs/fatfs.c:549-554.  Outer `none`: read beyond the object;
inner `none`: not a trailing byte. -/
def trailBytes : Nat → Nat → List Nat → Option (Option (Nat × List Nat))
  | 0, uc, p => some (some (uc, p))
  | _ + 1, _, [] => none
  | nf + 1, uc, b :: p =>
    if b &&& 0xC0 ≠ 0x80 then some none
    else trailBytes nf (uc <<< 6 ||| (b &&& 0x3F)) p

/-- Range check and surrogate pair in `tchar2uni`, fatfs/fatfs.c:555-559. -/
def packUni (uc : Nat) : Option Nat :=
  if uc < 0x80 ∨ isSurrogate uc ∨ uc ≥ 0x110000 then none
  else if uc ≥ 0x010000 then
    some (0xD800DC00 ||| ((uc - 0x10000) <<< 6 &&& 0x3FF0000) ||| (uc &&& 0x3FF))
  else some uc

/-- `tchar2uni`, fatfs/fatfs.c:525-564.  Outer `none`: read beyond the object; inner `none`: the
result 0xFFFFFFFF; otherwise the character and the advanced pointer. -/
def tchar2uni : List Nat → Option (Option (Nat × List Nat))
  | [] => none
  | uc :: p =>
    if uc &&& 0x80 = 0 then some (some (uc, p))
    else match leadByte uc with
      | none => some none
      | some (bits, nf) =>
        match trailBytes nf bits p with
        | none => none
        | some none => some none
        | some (some (v, p')) => some ((packUni v).map (·, p'))

/-- Subtraction of `uint32_t` values, wrapping below zero. -/
def sub32 (a b : Nat) : Nat := (a + 2 ^ 32 - b) % 2 ^ 32

/-- `put_utf`, fatfs/fatfs.c:571-612: the bytes stored (the returned count is their number,
zero for failure). -/
def putUtf (chr szb : Nat) : List Nat :=
  if chr < 0x80 then
    if szb < 1 then [] else [chr]
  else if chr < 0x800 then
    if szb < 2 then [] else [0xC0 ||| (chr >>> 6 &&& 0x1F), 0x80 ||| (chr &&& 0x3F)]
  else if chr < 0x10000 then
    if szb < 3 ∨ isSurrogate chr then []
    else [0xE0 ||| (chr >>> 12 &&& 0x0F), 0x80 ||| (chr >>> 6 &&& 0x3F), 0x80 ||| (chr &&& 0x3F)]
  else if szb < 4 then []
  else
    let hc := sub32 (chr &&& 0xFFFF0000) 0xD8000000 >>> 6
    let lo := sub32 (chr &&& 0xFFFF) 0xDC00
    if hc ≥ 0x100000 ∨ lo ≥ 0x400 then []
    else
      let c := (hc ||| lo) + 0x10000
      [0xF0 ||| (c >>> 18 &&& 0x07), 0x80 ||| (c >>> 12 &&& 0x3F), 0x80 ||| (c >>> 6 &&& 0x3F),
        0x80 ||| (c &&& 0x3F)]

/-- Outcome of reading one character in `f_gets`. -/
inductive Got where
  /-- the loop is left -/
  | stop (rest : List Nat)
  /-- the bytes read are dropped -/
  | skip (rest : List Nat)
  /-- a character -/
  | chr (dc : Nat) (rest : List Nat)

/-- Lead byte analysis of `f_gets`, fatfs/fatfs.c:6201-6213 (three successive tests on the
variable `dc` that the tests themselves modify). -/
def getsLead (b : Nat) : Nat × Nat :=
  let (dc, ct) := if b &&& 0xE0 = 0xC0 then (b &&& 0x1F, 1) else (b, 0)
  let (dc, ct) := if dc &&& 0xF0 = 0xE0 then (dc &&& 0x0F, 2) else (dc, ct)
  if dc &&& 0xF8 = 0xF0 then (dc &&& 0x07, 3) else (dc, ct)

/-- Merging loop of `f_gets`, fatfs/fatfs.c:6219-6224, over the trailing bytes read: the value if
all of them are trailing bytes. -/
def merge : Nat → List Nat → Option Nat
  | dc, [] => some dc
  | dc, b :: s => if b &&& 0xC0 ≠ 0x80 then none else merge (dc <<< 6 ||| (b &&& 0x3F)) s

/-- Trailing bytes in `f_gets`, fatfs/fatfs.c:6214-6227: `dc` and `ct` come from the lead byte. -/
def getTrail (dc ct : Nat) (p : List Nat) : Got :=
  if ct = 0 then .skip p
  else if p.length < ct then .stop []
  else match merge dc (p.take ct) with
    | none => .skip (p.drop ct)
    | some v =>
      if v < 0x80 ∨ isSurrogate v ∨ v ≥ 0x110000 then .skip (p.drop ct)
      else .chr v (p.drop ct)

/-- Reading one character in `f_gets`, fatfs/fatfs.c:6195-6227.  `f_read` of `n` bytes takes `n`
bytes of the remaining file, or all of it if it is shorter; no read errors. -/
def getChar (b : Nat) (p : List Nat) : Got :=
  if b ≥ 0x80 then getTrail (getsLead b).1 (getsLead b).2 p
  else .chr b p

/-- Storing one character in `f_gets`, fatfs/fatfs.c:6233-6252. -/
def getsPut (dc : Nat) : List Nat :=
  if dc < 0x80 then [dc]
  else if dc < 0x800 then [0xC0 ||| (dc >>> 6 &&& 0x1F), 0x80 ||| (dc &&& 0x3F)]
  else if dc < 0x10000 then
    [0xE0 ||| (dc >>> 12 &&& 0x0F), 0x80 ||| (dc >>> 6 &&& 0x3F), 0x80 ||| (dc &&& 0x3F)]
  else
    [0xF0 ||| (dc >>> 18 &&& 0x07), 0x80 ||| (dc >>> 12 &&& 0x3F), 0x80 ||| (dc >>> 6 &&& 0x3F),
      0x80 ||| (dc &&& 0x3F)]

/-- What is left of the file after reading one character. -/
def Got.rest : Got → List Nat
  | .stop r | .skip r | .chr _ r => r

theorem getTrail_rest (dc ct : Nat) (p : List Nat) :
    (getTrail dc ct p).rest.length ≤ p.length := by
  unfold getTrail
  split
  · exact Nat.le_refl _
  · split
    · simp [Got.rest]
    · split
      · simp [Got.rest]
      · split <;> simp [Got.rest]

theorem getChar_rest (b : Nat) (p : List Nat) : (getChar b p).rest.length ≤ p.length := by
  unfold getChar
  split
  · exact getTrail_rest _ _ _
  · exact Nat.le_refl _

/-- Loop of `f_gets`, fatfs/fatfs.c:6193-6253; `acc` are the bytes stored so far (their number is
`nc`), `lim` is `len - 4`.  Result: the string and the remaining file. -/
def getsLoop (lim : Nat) (acc : List Nat) (file : List Nat) : List Nat × List Nat :=
  if acc.length < lim then
    match file with
    | [] => (acc, [])
    | b :: p =>
      match _h : getChar b p with
      | .stop r => (acc, r)
      | .skip r => getsLoop lim acc r
      | .chr dc r =>
        if dc = 10 then (acc ++ [10], r)
        else getsLoop lim (acc ++ getsPut dc) r
  else (acc, file)
  termination_by file.length
  decreasing_by
    all_goals
      have := getChar_rest b p
      rw [_h] at this
      simp only [Got.rest] at this
      simp only [List.length_cons]
      omega

/-- `f_gets`, fatfs/fatfs.c:6178-6259, with a buffer of `len` bytes.  `none`: the null result.  The
buffer then holds the string and a terminator. -/
def fgets (len : Nat) (file : List Nat) : Option (List Nat) × List Nat :=
  let r := getsLoop (len - 4) [] file
  (if r.1.length = 0 then none else some r.1, r.2)

/-- A file being written: its contents and the number of bytes the disk still takes. -/
structure WFile where
  data : List Nat
  room : Nat

/-- `f_write` as used by the string functions (contract, fatfs/fatfs.c:3750-3879): it appends what
fits and returns the number of bytes written; a full disk is not an error. -/
def fwrite (f : WFile) (s : List Nat) : Nat × WFile :=
  let n := min s.length f.room
  (n, { data := f.data ++ s.take n, room := f.room - n })

/-- `putbuff`, fatfs/fatfs.c:6271-6278.  `buf` holds the first `idx` bytes of the array of 64;
`none` is `idx = -1`. -/
structure PutBuff where
  file : WFile
  buf : Option (List Nat)
  nchr : Nat
  bs : List Nat
  wi : Nat
  ct : Nat

/-- Collecting a multi-byte sequence in `putc_bfd`, fatfs/fatfs.c:6300-6323.  The flag tells that
a sequence is complete.  The `continue` after a broken sequence is one more test with `ct = 0`. -/
def putFirst (pb : PutBuff) (c : Nat) : Bool × PutBuff :=
  let pb := { pb with bs := pb.bs.set 0 c, wi := 0 }
  if c < 0x80 then (true, pb)
  else
    let ct := if c &&& 0xE0 = 0xC0 then 1 else pb.ct
    let ct := if c &&& 0xF0 = 0xE0 then 2 else ct
    let ct := if c &&& 0xF8 = 0xF0 then 3 else ct
    (false, { pb with ct := ct })

/-- As `putFirst`: the whole loop, fatfs/fatfs.c:6300-6323. -/
def putCollect (pb : PutBuff) (c : Nat) : Bool × PutBuff :=
  if pb.ct = 0 then putFirst pb c
  else if c &&& 0xC0 ≠ 0x80 then putFirst { pb with ct := 0 } c
  else
    let pb := { pb with wi := pb.wi + 1, bs := pb.bs.set (pb.wi + 1) c, ct := pb.ct - 1 }
    (pb.ct = 0, pb)

/-- Bytes stored for a UTF-16 character in `putc_bfd`, fatfs/fatfs.c:6328-6353. -/
def putBytes (dc : Nat) : List Nat :=
  let hs := dc >>> 16 &&& 0xFFFF
  let wc := dc &&& 0xFFFF
  if hs ≠ 0 then
    let h := (hs &&& 0x3FF) + 0x40
    [(0xF0 ||| h >>> 8) % 256, 0x80 ||| (h >>> 2 &&& 0x3F),
      0x80 ||| (h &&& 3) <<< 4 ||| (wc >>> 6 &&& 0x0F), 0x80 ||| (wc &&& 0x3F)]
  else if wc < 0x80 then [wc]
  else if wc < 0x800 then [0xC0 ||| wc >>> 6, 0x80 ||| (wc &&& 0x3F)]
  else [0xE0 ||| wc >>> 12, 0x80 ||| (wc >>> 6 &&& 0x3F), 0x80 ||| (wc &&& 0x3F)]

/-- Flushing a nearly full buffer in `putc_bfd`, fatfs/fatfs.c:6356-6361; `buf` already holds the
new character of `n` bytes. -/
def putStore (pb : PutBuff) (buf : List Nat) (n : Nat) : PutBuff :=
  if buf.length ≥ 64 - 4 then
    let (w, f) := fwrite pb.file buf
    { pb with file := f, buf := if w = buf.length then some [] else none, nchr := pb.nchr + n }
  else { pb with buf := some buf, nchr := pb.nchr + n }

/-- `putc_bfd`, fatfs/fatfs.c:6282-6362.  `none`: an access outside `buf` or `bs`. -/
def putcBfd (pb : PutBuff) (c : Nat) : Option PutBuff :=
  match pb.buf with
  | none => some pb
  | some buf =>
    match putCollect pb c with
    | (false, pb) => if pb.wi < 4 then some pb else none
    | (true, pb) =>
      if pb.wi < 4 then
        match tchar2uni pb.bs with
        | none => none
        | some none => some pb
        | some (some (dc, _)) =>
          let b := buf ++ putBytes dc
          if b.length ≤ 64 then some (putStore pb b (putBytes dc).length) else none
      else none

/-- `putc_flush`, fatfs/fatfs.c:6366-6374: `none` for -1. -/
def putcFlush (pb : PutBuff) : Option Nat × WFile :=
  match pb.buf with
  | none => (none, pb.file)
  | some buf =>
    let (w, f) := fwrite pb.file buf
    (if w = buf.length then some pb.nchr else none, f)

/-- `putc_init`, fatfs/fatfs.c:6378-6382. -/
def putcInit (f : WFile) : PutBuff :=
  { file := f, buf := some [], nchr := 0, bs := [0, 0, 0, 0], wi := 0, ct := 0 }

/-- The loop of `f_puts`, fatfs/fatfs.c:6404-6405.  `none`: undefined behaviour. -/
def putsLoop : PutBuff → List Nat → Option PutBuff
  | _, [] => none
  | pb, c :: s => if c = 0 then some pb else (putcBfd pb c).bind (putsLoop · s)

/-- `f_puts`, fatfs/fatfs.c:6398-6407.  Outer `none`: undefined behaviour. -/
def fputs (s : List Nat) (f : WFile) : Option (Option Nat × WFile) :=
  (putsLoop (putcInit f) s).map putcFlush

/-- `f_putc`, fatfs/fatfs.c:6384-6392. -/
def fputc (c : Nat) (f : WFile) : Option (Option Nat × WFile) :=
  (putcBfd (putcInit f) c).map putcFlush

end Fpm.TextIo
