import Verif.Eject.Model
import Verif.Drive.Model
/-!
# The commands eject and mount

Model of `kernel/cmd/cmd_eject.c`, and of `kernel/cmd/cmd_mount.c` as far as it mounts.  What `fpm_getopt` makes of the arguments (C22) is a list.  Paths are strings without their final zero.  `none` is an access behind a string.
-/
namespace Fpm.Eject
open Fpm.Drive (getLdnumber)

/-- `disk_name` with the final zeros, pico/diskio.c:38: flash, sd. -/
def diskName : List (List Nat) := [[102, 108, 97, 115, 104, 0], [115, 100, 0]]

/-- What `fpm_getopt` gives for an argument, kernel/cmd/cmd_eject.c:33-46, kernel/cmd/cmd_mount.c:109-123. -/
inductive Arg where
  | path (p : List Nat)
  | unknown
  | help
deriving DecidableEq

/-- What is shown. -/
inductive Out where
  /-- nothing but line ends -/
  | silent
  /-- kernel/cmd/cmd_eject.c:13, kernel/cmd/cmd_mount.c:29: FR_INVALID_DRIVE -/
  | badDrive
  /-- kernel/cmd/cmd_mount.c:29: the volume could not be mounted -/
  | notMounted
  /-- kernel/cmd/cmd_mount.c:34-54: about the medium -/
  | media
  /-- kernel/cmd/cmd_eject.c:28, kernel/cmd/cmd_mount.c:103 -/
  | usage
  /-- kernel/cmd/cmd_mount.c:128-132 (C89) -/
  | volumes
deriving DecidableEq

/-- `eject`, kernel/cmd/cmd_eject.c:9-16, with the beginning of `f_unmount`, fatfs/fatfs.c:3369-3374; `curr` is the current drive. -/
def ejectPath (curr : Nat) (p : List Nat) (s : Sys) : Option (Sys × Out) :=
  match getLdnumber diskName curr (p ++ [0]) with
  | none => none
  | some (none, _) => some (s, .badDrive)
  | some (some v, _) => some (fUnmount v s, .silent)

/-- `fpm_cmd_eject`, kernel/cmd/cmd_eject.c:18-51; each of the cases returns. -/
def ejectCmd (curr argc : Nat) (as : List Arg) (s : Sys) : Option (Sys × Out) :=
  if argc > 2 then some (s, .usage)
  else
    match as with
    | .path p :: _ => ejectPath curr p s
    | .unknown :: _ => some (s, .silent)
    | .help :: _ => some (s, .usage)
    | [] => ejectPath curr [115, 100, 58] s

/-- `mount`, kernel/cmd/cmd_mount.c:25-55, with the beginning of `f_mount`, fatfs/fatfs.c:3329-3334; `r` is what the drives reply. -/
def mountPath (curr : Nat) (r : Nat → Found) (p : List Nat) (s : Sys) : Option (Sys × Out) :=
  match getLdnumber diskName curr (p ++ [0]) with
  | none => none
  | some (none, _) => some (s, .badDrive)
  | some (some v, _) => some ((fMount v (r v) s).1, if (fMount v (r v) s).2 then .media else .notMounted)

/-- `fpm_cmd_mount`, kernel/cmd/cmd_mount.c:92-134; what `f_statfs` may do in `show` is left out. -/
def mountCmd (curr argc : Nat) (r : Nat → Found) (as : List Arg) (s : Sys) : Option (Sys × Out) :=
  if argc > 2 then some (s, .usage)
  else
    match as with
    | .path p :: _ => mountPath curr r p s
    | .unknown :: _ => some (s, .silent)
    | .help :: _ => some (s, .usage)
    | [] => some (s, .volumes)

end Fpm.Eject
