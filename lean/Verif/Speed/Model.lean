/-!
# The command vol: sizes, and the test of speed

Model of the numbers that `kernel/cmd/cmd_vol.c` shows, and of `test_speed`.  The file system is replaced by its replies, which are arbitrary; of the disk only the file `diskspeed.data` is followed, by its length.  Output is left out but for
the message at the end.  `unsigned` has 32 bits.
-/
namespace Fpm.Speed

/-- Size of the disk, kernel/cmd/cmd_vol.c:52-54: megabytes, and the digit behind the point. -/
def sizeShown (bytes : Nat) : Nat × Nat := (bytes / 1024 / 1024 % 2 ^ 32, bytes * 10 % 2 ^ 64 / 1024 / 1024 % 10)

/-- `elapsed_usec`, kernel/cmd/cmd_vol.c:70-76, for clocks `t0` and `t` of 64 bits. -/
def elapsed (t0 t : Nat) : Nat := if (t + 2 ^ 64 - t0) % 2 ^ 64 < 1 then 1 else (t + 2 ^ 64 - t0) % 2 ^ 64

/-- `print_speed`, kernel/cmd/cmd_vol.c:78-83: seconds, the three digits behind the point, kilobytes per second. -/
def speedShown (mbytes usec : Nat) : Nat × Nat × Nat := (usec / 1000000 % 2 ^ 32, usec / 1000 % 1000 % 2 ^ 32, mbytes * 1024000000 % 2 ^ 64 / usec % 2 ^ 32)

/-- `free_mbytes`, kernel/cmd/cmd_vol.c:109. -/
def freeMbytes (bavail bsize : Nat) : Nat := bavail * bsize % 2 ^ 64 / 1024 / 1024 % 2 ^ 32

/-- `datasize_mbytes`, kernel/cmd/cmd_vol.c:116-119. -/
def dataMbytes (free : Nat) : Nat := if free < 8 then free else 8

/-- `nblocks`, kernel/cmd/cmd_vol.c:122-124. -/
def blocks (mbytes : Nat) : Nat := mbytes * 1024 % 2 ^ 32 / 4

/-- Reply of the file system to a call: success or not, and the number of bytes moved by `f_write` or `f_read`. -/
structure Reply where
  ok : Bool
  n : Nat

/-- Length of the file `diskspeed.data` if there is one, is it open, number of calls so far, bytes written and read so far. -/
structure Run where
  file : Option Nat
  isOpen : Bool
  k : Nat
  wrote : Nat
  got : Nat
deriving DecidableEq

/-- How it ends, kernel/cmd/cmd_vol.c:111, 136, 155, 164, 175, 185, 188. -/
inductive End where
  | noSpace | cannotCreate | writeError (n : Nat) | rewindError | readError (n : Nat) | removeError | done
deriving DecidableEq

/-- `f_open` with FA_CREATE_ALWAYS, kernel/cmd/cmd_vol.c:134: the file is empty then.  Simplified: if it fails, nothing changes, which holds on a device that does not fail (C84). -/
def doOpen (r : Reply) (s : Run) : Run := if r.ok then { s with file := some 0, isOpen := true, k := s.k + 1 } else { s with k := s.k + 1 }

/-- `f_write` of 4096 bytes at the end of the file, kernel/cmd/cmd_vol.c:153; when it fails some bytes may have been written. -/
def doWrite (r : Reply) (s : Run) : Run := { s with file := s.file.map (· + min r.n 4096), k := s.k + 1, wrote := s.wrote + min r.n 4096 }

/-- `f_read` of 4096 bytes, kernel/cmd/cmd_vol.c:173. -/
def doRead (r : Reply) (s : Run) : Run := { s with k := s.k + 1, got := s.got + min r.n 4096 }

/-- The first loop, kernel/cmd/cmd_vol.c:151-158: `m` rounds are left, `n` is the number of the block.  `none`: all blocks have been written. -/
def writeAll (reply : Nat → Reply) : Nat → Nat → Run → Run × Option End
  | 0, _, s => (s, none)
  | m + 1, n, s =>
    if (reply s.k).ok = false ∨ min (reply s.k).n 4096 ≠ 4096 then (doWrite (reply s.k) s, some (.writeError n))
    else writeAll reply m (n + 1) (doWrite (reply s.k) s)

/-- The second loop, kernel/cmd/cmd_vol.c:171-178. -/
def readAll (reply : Nat → Reply) : Nat → Nat → Run → Run × Option End
  | 0, _, s => (s, none)
  | m + 1, n, s =>
    if (reply s.k).ok = false ∨ min (reply s.k).n 4096 ≠ 4096 then (doRead (reply s.k) s, some (.readError n))
    else readAll reply m (n + 1) (doRead (reply s.k) s)

/-- `f_close`, the result of which is not looked at, and `f_unlink`, kernel/cmd/cmd_vol.c:182-188.  If `f_close` fails the file stays open, and then `f_unlink` refuses to remove it. -/
def finish (reply : Nat → Reply) (s : Run) : Run × End :=
  if (reply s.k).ok ∧ (reply (s.k + 1)).ok then ({ s with file := none, isOpen := false, k := s.k + 2 }, .done) else ({ s with isOpen := s.isOpen && !(reply s.k).ok, k := s.k + 2 }, .removeError)

/-- kernel/cmd/cmd_vol.c:168-188: after rewinding. -/
def readBack (reply : Nat → Reply) (nb : Nat) (s : Run) : Run × End :=
  match readAll reply nb 0 s with
  | (s, some e) => (s, e)
  | (s, none) => finish reply s

/-- kernel/cmd/cmd_vol.c:148-188: after opening. -/
def fillUp (reply : Nat → Reply) (nb : Nat) (s : Run) : Run × End :=
  match writeAll reply nb 0 s with
  | (s, some e) => (s, e)
  | (s, none) => if (reply s.k).ok then readBack reply nb { s with k := s.k + 1 } else ({ s with k := s.k + 1 }, .rewindError)

/-- `test_speed` after `f_statfs`, kernel/cmd/cmd_vol.c:108-189. -/
def testSpeed (bavail bsize : Nat) (reply : Nat → Reply) (file : Option Nat) : Run × End :=
  if freeMbytes bavail bsize < 1 then (⟨file, false, 0, 0, 0⟩, .noSpace)
  else if (reply 0).ok then fillUp reply (blocks (dataMbytes (freeMbytes bavail bsize))) (doOpen (reply 0) ⟨file, false, 0, 0, 0⟩)
  else (doOpen (reply 0) ⟨file, false, 0, 0, 0⟩, .cannotCreate)

end Fpm.Speed
