/-!
# Names of drives in paths: get_ldnumber, f_chdrive, f_getdrive

Characters are natural numbers.  A path or name is what is in memory from its first character on; `none` is an access behind that.  `FF_STR_VOLUME_ID` is 1, so Unix style names are not there.
-/
namespace Fpm.Drive

def FR_OK := 0
def FR_INVALID_DRIVE := 11

/-- `IsTerminator`, fatfs/fatfs.c:52; characters are not negative. -/
def isTerm (c : Nat) : Bool := c < 32

/-- `IsDigit`, fatfs/fatfs.c:50. -/
def isDigit (c : Nat) : Bool := 48 ≤ c ∧ c ≤ 57

/-- Upper case as in fatfs/fatfs.c:2841-2844, with `IsLower` of line 49. -/
def big (c : Nat) : Nat := if 97 ≤ c ∧ c ≤ 122 then c - 0x20 else c

/-- Loop that looks for a colon, fatfs/fatfs.c:2823-2825: `tc`, and what is at `tt`. -/
def findColon : List Nat → Option (Nat × List Nat)
  | [] => none
  | tc :: tt => if isTerm tc = false ∧ tc ≠ 58 then findColon tt else some (tc, tt)

/-- Loop that compares a name with the path, fatfs/fatfs.c:2838-2845: `c`, and what is at `tp`. -/
def compare : List Nat → List Nat → Option (Nat × List Nat)
  | c :: sp, tc :: tp => if big c ≠ 0 ∧ big c = big tc then compare sp tp else some (big c, tp)
  | _, _ => none

/-- Loop over the names, fatfs/fatfs.c:2834-2847; pointers into the path are compared by what is left of it.  There is at least one name, so looking before the first round makes no difference. -/
def tryNames (path tt : List Nat) : List (List Nat) → Nat → Option Nat
  | [], i => some i
  | sp :: names, i =>
    match compare sp path with
    | none => none
    | some (c, tp) => if c ≠ 0 ∨ tp.length ≠ tt.length then tryNames path tt names (i + 1) else some i

/-- Number of the drive, or that of drives if there is none, fatfs/fatfs.c:2828-2848. -/
def driveOf (names : List (List Nat)) (path tt : List Nat) : Option Nat :=
  match path with
  | [] => none
  | c :: _ => if isDigit c = true ∧ path.length = tt.length + 2 then some (c - 48) else tryNames path tt names 0

/-- Fields after the loop for the colon, fatfs/fatfs.c:2827-2856 and 2885-2888. -/
def take (names : List (List Nat)) (curr : Nat) (path : List Nat) (p : Nat × List Nat) : Option (Option Nat × List Nat) :=
  if p.1 = 58 then (driveOf names path p.2).map fun i => if i < names.length then (some i, p.2) else (none, path)
  else some (some curr, path)

/-- `get_ldnumber`, fatfs/fatfs.c:2808-2890, for a path that is not null: the number, `none` for -1, and the path behind the name.  `names` is `disk_name`, with the final zeros, `curr` is `CurrVol`. -/
def getLdnumber (names : List (List Nat)) (curr : Nat) (path : List Nat) : Option (Option Nat × List Nat) := (findColon path).bind (take names curr path)

/-- `f_chdrive`, fatfs/fatfs.c:3999-4010: the new `CurrVol` and the result.  The number of the drive fits into 8 bits. -/
def fChdrive (names : List (List Nat)) (curr : Nat) (path : List Nat) : Option (Nat × Nat) :=
  (getLdnumber names curr path).map fun p =>
    match p.1 with
    | none => (curr, FR_INVALID_DRIVE)
    | some vol => (vol % 256, FR_OK)

/-- `f_getdrive`, fatfs/fatfs.c:4015-4022: the number, or -1; `none` as path is a null pointer. -/
def fGetdrive (names : List (List Nat)) (curr : Nat) : Option (List Nat) → Option (Option Nat)
  | none => some (some curr)
  | some path => (getLdnumber names curr path).map Prod.fst

/-- `disk_name` of the Pico, pico/diskio.c:38. -/
def picoNames : List (List Nat) := [[102, 108, 97, 115, 104, 0], [115, 100, 0]]

end Fpm.Drive
