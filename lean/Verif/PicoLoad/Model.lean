import Verif.Tree.StatModel
import Verif.Statfs.Model
/-!
# Loading a program on the Pico

Model of `fpm_load_arch` of `pico/flash.c`, which takes programs where they are in flash memory.  The path is what `mount_volume` leaves of it; messages are left out.
-/
namespace Fpm.PicoLoad
open Fpm.Fat Fpm.DirDev Fpm.Mount Fpm.Tree Fpm.Statfs

/-- Outcome of `fpm_load_arch`: one of three messages, or `ctx->base` as offset in `flash_disk_image`. -/
inductive Load where
  | cannotOpen
  | noStatus
  | fragmented
  | base (off : Nat)
deriving DecidableEq

/-- After `f_statfs`, pico/flash.c:220-232: `start` is `file_info.fstartblk`.  Both factors and the product have 32 bits, include/fpm/fs.h:62,77. -/
def loadAt (start : Nat) (p : St × Nat × Option FsInfo) : St × Load :=
  if p.2.1 = FR_OK then
    match p.2.2 with
    | none => (p.1, .noStatus)
    | some f => if start = 0 then (p.1, .fragmented) else (p.1, .base (start * f.bsize % 2 ^ 32))
  else (p.1, .noStatus)

/-- After `f_stat`, pico/flash.c:212-232. -/
def loadInfo (v : Vol) (i : Info) (old : FInfo) (p : St × Nat × Option FInfo) : St × Load :=
  if p.2.1 = FR_OK then loadAt (p.2.2.getD old).startblk (statFs v i.totsec p.1) else (p.1, .cannotOpen)

/-- `fpm_load_arch`, pico/flash.c:207-233; `old` is what `file_info` holds before: it is not initialised.  Only for files on the flash volume, though the function does not look at the volume. -/
def loadArch (v : Vol) (i : Info) (cdir : Nat) (path : List Nat) (s : St) (dp : Dp) (buf : List Nat) (old : FInfo) : St × Load := loadInfo v i old (fStat v i cdir path s dp buf old)

end Fpm.PicoLoad
