import Verif.FatLock.Model
/-!
# Mounting and ejecting volumes

Model of `f_mount`, `f_unmount`, `validate`, and of what `mount_volume` does to the state of the volumes.  What is found on a medium is a parameter (it is modelled in Mount).  Volume `v` has the number `v + 1` in the table of open objects, where 0
stands for no volume.
-/
namespace Fpm.Eject
open Fpm.FatLock (Sem clearShare)

/-- Of `filesystem_t`, the members `fs_type` and `id`. -/
structure Fs where
  ty : Nat
  id : Nat

/-- `FatFs`, `Fsid` and `Files`, fatfs/fatfs.c:323-331, and the flag MEDIA_NOINIT of each drive. -/
structure Sys where
  vols : Nat → Fs
  fsid : Nat
  files : List Sem
  noinit : Nat → Bool

/-- What the drive replies while a volume is being mounted: is it protected; after `disk_initialize`, is MEDIA_NOINIT set and is it protected; the kind of the file system that is found, 0 if there is none or if reading fails. -/
structure Found where
  prot0 : Bool
  noinit : Bool
  prot : Bool
  fmt : Nat

/-- One volume changes. -/
def put {α : Type} (f : Nat → α) (v : Nat) (x : α) : Nat → α := fun w => if w = v then x else f w

/-- The end of `mount_volume`, fatfs/fatfs.c:3266-3278. -/
def mounted (v fmt : Nat) (s : Sys) : Sys := { s with vols := put s.vols v ⟨fmt, (s.fsid + 1) % 2 ^ 16⟩, fsid := (s.fsid + 1) % 2 ^ 16, files := clearShare s.files (v + 1) }

/-- `mount_volume` from line 3035 on, after `disk_initialize`, fatfs/fatfs.c:3036-3278; `wr` is set if the volume is to be written. -/
def mountNew (v : Nat) (wr : Bool) (r : Found) (s : Sys) : Sys × Bool :=
  if r.noinit then (s, false) else if wr && r.prot then (s, false) else if r.fmt = 0 then (s, false) else (mounted v r.fmt s, true)

/-- `mount_volume`, fatfs/fatfs.c:2992-3279, for a path with a valid drive: state, and success. -/
def mountVolume (v : Nat) (wr : Bool) (r : Found) (s : Sys) : Sys × Bool :=
  if (s.vols v).ty ≠ 0 ∧ s.noinit v = false then (s, !(wr && r.prot0))
  else mountNew v wr r { s with vols := put s.vols v { s.vols v with ty := 0 }, noinit := put s.noinit v r.noinit }

/-- `f_mount`, fatfs/fatfs.c:3327-3365. -/
def fMount (v : Nat) (r : Found) (s : Sys) : Sys × Bool := if (s.vols v).ty ≠ 0 then (s, true) else mountVolume v false r s

/-- `f_unmount`, fatfs/fatfs.c:3367-3390. -/
def fUnmount (v : Nat) (s : Sys) : Sys := if (s.vols v).ty ≠ 0 then { s with vols := put s.vols v { s.vols v with ty := 0 }, files := clearShare s.files (v + 1) } else s

/-- Of an open file or directory, `obj.fs` and `obj.id`, fatfs/fatfs.c:3581-3582 and 4434. -/
structure Obj where
  vol : Nat
  id : Nat

/-- The object that `f_open` or `f_opendir` fills in, fatfs/fatfs.c:3581-3582, 4434. -/
def objOf (v : Nat) (s : Sys) : Obj := ⟨v, (s.vols v).id⟩

/-- `validate`, fatfs/fatfs.c:3286-3315: true for FR_OK. -/
def validate (o : Obj) (s : Sys) : Bool := (s.vols o.vol).ty ≠ 0 ∧ o.id = (s.vols o.vol).id ∧ s.noinit o.vol = false

/-- Static data is zero; no drive has been initialized. -/
def start : Sys := ⟨fun _ => ⟨0, 0⟩, 0, Fpm.FatLock.initial, fun _ => true⟩

end Fpm.Eject
