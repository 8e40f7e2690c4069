import Verif.Drive.Model
import Verif.Editline.Model
import Verif.Getopt.Model
import Verif.Shell.Model
/-!
# The command `format`

Model of kernel/cmd/cmd_format.c.  The argument is a list of bytes without zeros.  The drives, what `disk_identify` tells about them, and the results of `f_mkfs` are parameters; of `f_mkfs` (whose work is modelled in
`Verif.Mkfs`) the choice of the drive is modelled here, and the call is recorded.  Outcome `none` is undefined behaviour.  What the line editor shows is left out (see `Verif.Editline`).
-/
namespace Fpm.Format
open Fpm.Shell (txt crlf)
open Fpm.Drive (getLdnumber)

/-- Surroundings: `disk_name` with the final zeros, `CurrVol`, product and size of drives as told by `disk_identify` (`none` if it fails), the result of `f_mkfs` for drive and format, `f_strerror`. -/
structure Env where
  names : List (List Nat)
  curr : Nat
  identify : Nat → Option (List Nat × Nat)
  mkfs : Nat → Nat → Nat
  strerror : Nat → List Nat

/-- Text before the reply and after it, drives and formats for which `f_mkfs` got to work, and whether the command has ended (or waits for keys). -/
structure Res where
  before : List Nat
  after : List Nat
  made : List (Nat × Nat)
  done : Bool
deriving Repr, DecidableEq

/-- Decimal digits, for `%u`. -/
def dec (n : Nat) : List Nat := (Nat.toDigits 10 n).map Char.toNat

/-- `find_drive_unit`, kernel/cmd/cmd_format.c:13-22: the number of the drive, `some none` if it is refused.  `f_getdrive` is in fatfs/fatfs.c:4015-4022. -/
def findDriveUnit (v : Env) (name : List Nat) : Option (Option Nat) :=
  match getLdnumber v.names v.curr (name ++ [0]) with
  | none => none
  | some (none, _) => some none
  | some (some _, []) => none
  | some (some k, c :: _) => if c ≠ 0 then some none else some (some k)

/-- The question, kernel/cmd/cmd_format.c:46-50; numbers of bytes are of 64 bits, numbers printed of 32 bits. -/
def question (v : Env) (k : Nat) (product : List Nat) (bytes : Nat) : List Nat :=
  txt "Do you really want to format drive " ++ (v.names.getD k []).takeWhile (· ≠ 0) ++ txt "?\r\n" ++
  txt "Disk '" ++ product ++ txt "', size " ++ dec (bytes / 1024 / 1024 % 2 ^ 32) ++ txt "." ++ dec (bytes * 10 % 2 ^ 64 / 1024 / 1024 % 10 % 2 ^ 32) ++ txt " Mbytes.\r\n" ++
  txt "All data on the disk will be lost.\r\n"

/-- `disk_fmt`, kernel/cmd/cmd_format.c:26-29, with `FM_FAT` 1, `FM_FAT32` 2, `FM_SFD` 8 (include/fpm/fs.h:96-100); further items are 0. -/
def diskFmt (k : Nat) : Nat := [1 ||| 8, 2].getD k 0

/-- The call of `f_mkfs` and what follows, kernel/cmd/cmd_format.c:58-66; `f_mkfs` finds its drive itself, fatfs/fatfs.c:5635-5641, and the error is `FR_INVALID_DRIVE` (11) if there is none. -/
def make (v : Env) (name : List Nat) (k : Nat) (q : List Nat) : Option Res :=
  match getLdnumber v.names v.curr (name ++ [0]) with
  | none => none
  | some (none, _) => some ⟨q, crlf ++ (name ++ txt ": " ++ v.strerror 11 ++ crlf), [], true⟩
  | some (some vol, _) =>
    if v.mkfs vol (diskFmt k) ≠ 0 then some ⟨q, crlf ++ (name ++ txt ": " ++ v.strerror (v.mkfs vol (diskFmt k)) ++ crlf), [(vol, diskFmt k)], true⟩
    else some ⟨q, crlf ++ (txt "Disk " ++ (v.names.getD k []).takeWhile (· ≠ 0) ++ txt " formatted.\r\n"), [(vol, diskFmt k)], true⟩

/-- Reading the reply, kernel/cmd/cmd_format.c:51-56; `reply` is the array of 32 items, `sizeof` of which is 64. -/
def ask (v : Env) (name : List Nat) (k : Nat) (reply next keys q : List Nat) : Option Res :=
  match Editline.editline reply 64 true (txt "Confirm? y/n [n] ") none next keys with
  | none => none
  | some (_, false) => some ⟨q, [], [], false⟩
  | some (e, true) =>
    match e.buf with
    | [] => none
    | c :: _ => if c ≠ 121 ∧ c ≠ 89 then some ⟨q, crlf ++ txt "Not formatted.\r\n", [], true⟩ else make v name k q

/-- `format_drive`, kernel/cmd/cmd_format.c:24-67; `reply` and `next` are the previous contents of local arrays (here, and in the editor), `keys` are the keys typed so far. -/
def formatDrive (v : Env) (reply next keys name : List Nat) : Option Res :=
  match findDriveUnit v name with
  | none => none
  | some none => some ⟨name ++ txt ": Invalid drive name\r\n", [], [], true⟩
  | some (some k) =>
    match v.identify k with
    | none => some ⟨[], [], [], true⟩
    | some (product, bytes) => ask v name k reply next keys (question v k product bytes)

/-- Options, kernel/cmd/cmd_format.c:71-74. -/
def long : List Getopt.LongOpt := [⟨txt "help", 0, none, 104⟩]

/-- Usage, kernel/cmd/cmd_format.c:94-98. -/
def usage : Res := ⟨txt "Usage:\r\n    format sd:\r\n    format flash:\r\n\n", [], [], true⟩

/-- The loop over arguments and what follows, kernel/cmd/cmd_format.c:78-107.  The first argument bounds the number of calls; running out of it is reported as `none`.  The messages of `fpm_getopt` about unknown options are
left out. -/
def formatLoop (v : Env) (reply next keys : List Nat) (argv : List (List Nat)) : Nat → Getopt.St → Option (List Nat) → Option Res
  | 0, _, _ => none
  | k + 1, s, drive =>
    match Getopt.getopt argv (some (txt "h")) (some long) s with
    | none => none
    | some s =>
      if s.ret < 0 then
        match drive with
        | none => some usage
        | some name => (formatDrive v reply next keys name).map fun r => if r.done then { r with after := r.after ++ crlf } else r
      else if s.ret = 1 then if drive ≠ none then some usage else formatLoop v reply next keys argv k s s.arg
      else if s.ret = 63 then some ⟨crlf, [], [], true⟩
      else if s.ret = 104 then some usage
      else formatLoop v reply next keys argv k s drive

/-- `fpm_cmd_format`, kernel/cmd/cmd_format.c:69-108.  Every call of the option parser consumes a character or an argument, so their total number bounds the calls. -/
def cmdFormat (v : Env) (reply next keys : List Nat) (argv : List (List Nat)) : Option Res :=
  formatLoop v reply next keys argv ((argv.map (·.length + 2)).sum + 2) {} none

end Fpm.Format
