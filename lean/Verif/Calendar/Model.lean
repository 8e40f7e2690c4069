/-!
# Date and time: kernel/fpm_get_dotw.c, kernel/cmd/cmd_time.c, kernel/cmd/cmd_date.c,
# time stamps of files (fatfs/fatfs.c get_fattime, kernel/cmd/cmd_dir.c print_time)

`int` arithmetic is modelled by `Int`; `none` is undefined behaviour (signed overflow, index outside
the table).
-/
namespace Fpm.Calendar

/-- A value that fits an `int` (32 bits on all targets); `none`: signed overflow. -/
def int32 (x : Int) : Option Int := if -2 ^ 31 ≤ x ∧ x < 2 ^ 31 then some x else none

/-- `offset[]`, kernel/fpm_get_dotw.c:10. -/
def offset : List Int := [0, 3, 2, 5, 0, 3, 5, 1, 4, 6, 2, 4]

/-- `offset[month - 1]`, kernel/fpm_get_dotw.c:13. -/
def offsetOf (month : Int) : Option Int := if 1 ≤ month ∧ month ≤ 12 then offset[(month - 1).toNat]? else none

/-- `fpm_get_dotw`, kernel/fpm_get_dotw.c:7-14.  `Int.tdiv`, `Int.tmod`: division of C, truncating. -/
def dotw (year month day : Int) : Option Int := do
  let year ← int32 (if month < 3 then year - 1 else year)
  let a ← int32 (year + year.tdiv 4)
  let a ← int32 (a - year.tdiv 100)
  let a ← int32 (a + year.tdiv 400)
  let o ← offsetOf month
  let a ← int32 (a + o)
  let a ← int32 (a + day)
  return a.tmod 7

/-- Conversion to the 12-hour clock, kernel/cmd/cmd_time.c:69-75: hour printed, and whether PM. -/
def clock12 (hour : Nat) : Nat × Bool :=
  (if hour = 0 then hour + 12 else if hour > 12 then hour - 12 else hour, ¬ hour ≤ 11)

/-- The test of `set_date`, kernel/cmd/cmd_date.c:13-16, after the three numbers have been read. -/
def acceptDate (year month day : Int) : Bool :=
  ¬ (month < 1 ∨ month > 12 ∨ day < 1 ∨ day > 31 ∨ year < 2000 ∨ year > 9999)

/-- `fpm_set_datetime`, pico/rtc_pico.c:31-47: the day of the week stored in the clock for the
date set by the command, kernel/cmd/cmd_date.c:8-25; `none`: date refused or undefined behaviour. -/
def setDate (year month day : Int) : Option (Int × Int × Int × Int) :=
  if acceptDate year month day then (dotw year month day).map fun w => (year, month, day, w) else none

/-- `get_fattime`, fatfs/fatfs.c:3396-3427: `uint8_t` values masked and shifted into fields.  The
fields do not overlap, so `|=` is written as addition. -/
def fattime (year month day hour min sec : Nat) : Nat :=
  ((year + (2 ^ 32 - 1980)) % 256 % 128) * 2 ^ 25 + (month % 256 % 16) * 2 ^ 21 + (day % 256 % 32) * 2 ^ 16 +
    (hour % 256 % 32) * 2 ^ 11 + (min % 256 % 64) * 2 ^ 5 + (sec / 2) % 256 % 32

/-- Storing the time stamp in a directory entry and reading it back: the low half is the time, the
high half the date (`st_32(dir + DIR_ModTime, tm)`, fatfs/fatfs.c:3515 and 3948; get_fileinfo
fatfs/fatfs.c:2479-2480; list_append_file_info, kernel/cmd/cmd_dir.c:92). -/
def storeStamp (t : Nat) : Nat × Nat := (t / 2 ^ 16 % 2 ^ 16, t % 2 ^ 16)

/-- `file->mtime = (uint32_t)info->fdate << 16 | info->ftime`, kernel/cmd/cmd_dir.c:92. -/
def mtime (s : Nat × Nat) : Nat := s.1 * 2 ^ 16 % 2 ^ 32 + s.2

/-- Fields of `mtime` shown by `print_time`, kernel/cmd/cmd_dir.c:282-303 (bit fields from the least
significant bit, as on all targets): year, month, day, hour, minute. -/
def shown (m : Nat) : Nat × Nat × Nat × Nat × Nat :=
  (m / 2 ^ 25 % 128 + 1980, m / 2 ^ 21 % 16, m / 2 ^ 16 % 32, m / 2 ^ 11 % 32, m / 2 ^ 5 % 64)

end Fpm.Calendar
