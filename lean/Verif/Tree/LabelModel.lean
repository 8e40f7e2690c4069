import Verif.Tree.Model
import Verif.Upcase.Model
/-!
# Volume labels: f_getlabel and f_setlabel

Simplified: without `mount_volume`; `f_setlabel` is for FAT volumes only, of `f_getlabel` there is also the code that extracts the label of an exFAT volume.
-/
namespace Fpm.Tree
open Fpm.Fat Fpm.DirDev Fpm.FatBytes Fpm.Lfn Fpm.FatDir Fpm.FatSync Fpm.Names Fpm.Mount Fpm.TextIo Fpm.Upcase

/-- A round of `dir_read(dp, 1)`, fatfs/fatfs.c:2049-2092: stops with `none` at the end of the directory.  The attribute of long names is not that of labels, and `blk_ofs` is not used. -/
def labelStep (_ofs : Nat) (e : List Nat) (_q : Unit) : Step Unit (Option Unit) :=
  if byte e 0 = 0 then .stop none
  else if byte e 0 = 0xE5 ∨ byte e 0 = 46 ∨ attr e &&& 0x1F ≠ 8 then .go ()
  else .stop (some ())

/-- End of `dir_read`, fatfs/fatfs.c:2098-2100. -/
def labelEnd (w : Walked (Option Unit)) : Ret :=
  match w.val with
  | some (some ()) => ⟨w.st, w.dp, w.res⟩
  | some none => ⟨w.st, { w.dp with sect := 0 }, FR_NO_FILE⟩
  | none => ⟨w.st, { w.dp with sect := 0 }, w.res⟩

/-- `DIR_READ_LABEL`, that is `dir_read(dp, 1)`, fatfs/fatfs.c:2036-2101. -/
def readLabel (v : Vol) (i : Info) (s : St) (dp : Dp) : Ret :=
  if dp.sect = 0 then ⟨s, dp, FR_NO_FILE⟩ else labelEnd (walk v i false labelStep ROUNDS s dp ())

/-- `dir_sdi` and `dir_read` for the root directory, fatfs/fatfs.c:5155-5159 and 5302-5306. -/
def rootLabel (v : Vol) (i : Info) (s : St) (dp : Dp) : Ret :=
  if (dirSdi v i s { dp with sclust := 0 } 0).res = FR_OK then readLabel v i (dirSdi v i s { dp with sclust := 0 } 0).st (dirSdi v i s { dp with sclust := 0 } 0).dp
  else dirSdi v i s { dp with sclust := 0 } 0

/-! ## f_getlabel -/

/-- Bytes stored at `di` in an array. -/
def putAt (buf : List Nat) (di : Nat) (bs : List Nat) : Option (List Nat) :=
  if di + bs.length ≤ buf.length then some (buf.take di ++ bs ++ buf.drop (di + bs.length)) else none

/-- Loop over the name in the entry, fatfs/fatfs.c:5185-5197: array and `di`; `ff_oem2uni` is the identity and `dbc_1st` always false. -/
def textLoop : List Nat → List Nat → Nat → Option (List Nat × Nat)
  | [], buf, di => some (buf, di)
  | wc :: r, buf, di =>
    if wc = 0 then some (buf, 0)
    else
      match putAt buf di (putUtf wc 4) with
      | none => none
      | some buf => textLoop r buf (di + (putUtf wc 4).length)

/-- Trailing spaces, fatfs/fatfs.c:5198-5202. -/
def cutLoop (buf : List Nat) : Nat → Option (List Nat)
  | 0 => putAt buf 0 [0]
  | di + 1 =>
    match putAt buf (di + 1) [0] with
    | none => none
    | some buf' =>
      match buf'[di]? with
      | none => none
      | some c => if c = 32 then cutLoop buf' di else some buf'

/-- The label of a FAT volume, fatfs/fatfs.c:5184-5202: `name` is the name in the entry, `buf` the array; `none` is an access outside of it. -/
def labelText (name buf : List Nat) : Option (List Nat) := (textLoop name buf 0).bind fun p => cutLoop p.1 p.2

/-- Loop over the label of an exFAT volume, fatfs/fatfs.c:5165-5179: the units, the array, `di` and `hs`. -/
def unitLoop : List Nat → List Nat → Nat → Nat → Option (List Nat × Nat × Nat)
  | [], buf, di, hs => some (buf, di, hs)
  | wc :: r, buf, di, hs =>
    if hs = 0 ∧ isSurrogate wc = true then unitLoop r buf di wc
    else if (putUtf (hs * 65536 + wc) 4).length = 0 then some (buf, 0, hs)
    else
      match putAt buf di (putUtf (hs * 65536 + wc) 4) with
      | none => none
      | some buf => unitLoop r buf (di + (putUtf (hs * 65536 + wc) 4).length) 0

/-- The label of an exFAT volume, fatfs/fatfs.c:5161-5182; `us` are the units in the entry, as many as it says. -/
def unitText (us buf : List Nat) : Option (List Nat) :=
  (unitLoop us buf 0 0).bind fun p => putAt p.1 (if p.2.2 ≠ 0 then 0 else p.2.1) [0]

/-- Outcome of `f_getlabel`: the array with the label, and the serial number. -/
structure Lab where
  st : St
  res : Nat
  label : List Nat
  vsn : Option Nat

/-- The serial number, fatfs/fatfs.c:5213-5231: `BS_VolID32` is 67, `BS_VolID` is 39. -/
def serial (v : Vol) (i : Info) (s : St) (label : List Nat) : Lab :=
  if (moveWindow v s i.volbase).2 = FR_OK then
    match ldDword (moveWindow v s i.volbase).1.win (if v.fsType = 3 then 67 else 39) with
    | none => ⟨(moveWindow v s i.volbase).1, UB, label, none⟩
    | some n => ⟨(moveWindow v s i.volbase).1, FR_OK, label, some n⟩
  else ⟨(moveWindow v s i.volbase).1, (moveWindow v s i.volbase).2, label, none⟩

/-- After `dir_read`, fatfs/fatfs.c:5160-5231; `label` is the array of the caller. -/
def getAt (v : Vol) (i : Info) (label : List Nat) (r : Ret) : Lab :=
  if r.res = FR_OK then
    match (dirEnt v r.st r.dp).bind fun e => labelText (e.take 11) label with
    | none => ⟨r.st, UB, label, none⟩
    | some label => serial v i r.st label
  else if r.res = FR_NO_FILE then
    match putAt label 0 [0] with
    | none => ⟨r.st, UB, label, none⟩
    | some label => serial v i r.st label
  else ⟨r.st, r.res, label, none⟩

/-- `f_getlabel`, fatfs/fatfs.c:5139-5234, for both pointers not null. -/
def fGetlabel (v : Vol) (i : Info) (label : List Nat) (s : St) (dp : Dp) : Lab := getAt v i label (rootLabel v i s dp)

/-! ## f_setlabel -/

/-- `ff_uni2oem`, fatfs/unicode.c:23-31. -/
def uni2oem (u : Nat) : Nat := if u < 32 then 63 else if u > 126 then 63 else u

/-- The characters that are refused, fatfs/fatfs.c:5249-5251. -/
def badLabel : List Nat := [43, 46, 44, 59, 61, 91, 93, 47, 42, 58, 60, 62, 124, 92, 34, 63, 127]

/-- What is made of a label. -/
inductive Made2 where
  | bad
  | ub
  | done (dirvn : List Nat) (di : Nat)

/-- A character of the label, fatfs/fatfs.c:5284-5285: `none` is an access outside of a table.  `tchar2uni` gives 0xFFFFFFFF for what is no character. -/
def oemChar : Option (Nat × List Nat) → Option (Nat × List Nat)
  | none => some (0, [])
  | some (dc, p) => if dc < 0x10000 then (wtoupper dc).map fun u => (uni2oem u, p) else some (0, p)

/-- Loop over the label, fatfs/fatfs.c:5283-5295; the number bounds the rounds.  `ff_uni2oem` gives no code of two bytes. -/
def labelLoop : Nat → List Nat → List Nat → Nat → Made2
  | 0, _, _, _ => .ub
  | _ + 1, [], _, _ => .ub
  | k + 1, b :: p, dirvn, di =>
    if b < 32 then .done dirvn di
    else
      match (tchar2uni (b :: p)).bind oemChar with
      | none => .ub
      | some (wc, p) =>
        if wc = 0 ∨ wc ∈ badLabel ∨ di ≥ 11 then .bad
        else
          match store dirvn di (wc % 256) with
          | none => .ub
          | some dirvn => labelLoop k p dirvn (di + 1)

/-- Trailing spaces, fatfs/fatfs.c:5298-5299: the new `di`. -/
def snip (dirvn : List Nat) : Nat → Option Nat
  | 0 => some 0
  | di + 1 =>
    match dirvn[di]? with
    | none => none
    | some c => if c = 32 then snip dirvn di else some (di + 1)

/-- End of the conversion, fatfs/fatfs.c:5296-5299. -/
def labelDone : Made2 → Made2
  | .done dirvn di =>
    if dirvn.getD 0 0 = 0xE5 then .bad
    else
      match snip dirvn di with
      | none => .ub
      | some di => .done dirvn di
  | r => r

/-- The label in directory form, fatfs/fatfs.c:5281-5299; `dirvn` is what is in the array before. -/
def makeLabel (label : List Nat) (dirvn : List Nat) : Made2 := labelDone (labelLoop (label.length + 1) label (List.replicate 11 32 ++ dirvn.drop 11) 0)

/-- Changed label entry, fatfs/fatfs.c:5311-5315: `memcpy` of 11 bytes, or the mark for deleted entries. -/
def changeLabel (dirvn : List Nat) (di : Nat) (e : List Nat) : List Nat := if di ≠ 0 then dirvn.take 11 ++ e.drop 11 else e.set 0 0xE5

/-- New label entry, fatfs/fatfs.c:5326-5334. -/
def newLabel (dirvn : List Nat) : List Nat := dirvn.take 11 ++ ((List.replicate 32 0).set 11 8).drop 11

/-- Creating a label entry, fatfs/fatfs.c:5324-5338. -/
def createLabel (v : Vol) (i : Info) (dirvn : List Nat) (r : Ret) : St × Nat :=
  if r.res = FR_OK then
    match dirEnt v r.st r.dp with
    | none => (r.st, UB)
    | some _ => syncFs v i.fsi (setEnt v r.st r.dp (newLabel dirvn))
  else (r.st, r.res)

/-- After `dir_read`, fatfs/fatfs.c:5306-5342. -/
def setAt (v : Vol) (i : Info) (dirvn : List Nat) (di : Nat) (r : Ret) : St × Nat :=
  if r.res = FR_OK then
    match dirEnt v r.st r.dp with
    | none => (r.st, UB)
    | some e => syncFs v i.fsi (setEnt v r.st r.dp (changeLabel dirvn di e))
  else if r.res = FR_NO_FILE then
    if di ≠ 0 then createLabel v i dirvn (dirAlloc v i r.st r.dp 1) else (r.st, FR_OK)
  else (r.st, r.res)

/-- `f_setlabel`, fatfs/fatfs.c:5240-5345, for FAT volumes; `label` is the text behind the name of the disk, `old` what is in the array `dirvn` before. -/
def fSetlabel (v : Vol) (i : Info) (label old : List Nat) (s : St) (dp : Dp) : St × Nat :=
  match makeLabel label old with
  | .bad => (s, FR_INVALID_NAME)
  | .ub => (s, UB)
  | .done dirvn di => setAt v i dirvn di (rootLabel v i s dp)

end Fpm.Tree
