import Verif.Eject.Model
/-!
# Sessions of volumes

A session of a volume ends when it is ejected, or its medium is taken out.  Objects belong to the session in which they were opened.
-/
namespace Fpm.Eject.Spec

/-- An open object, with the session in which it was opened, and the number of the mount that began this session. -/
structure Handle where
  obj : Obj
  sess : Nat
  born : Nat

/-- State of the program; number of sessions of each volume that have ended; number of mounts so far; the number of the last mount of each volume; open objects. -/
structure World where
  sys : Sys
  sess : Nat → Nat
  mounts : Nat
  last : Nat → Nat
  handles : List Handle

/-- A volume can be used. -/
def Usable (s : Sys) (v : Nat) : Prop := (s.vols v).ty ≠ 0 ∧ s.noinit v = false

instance (s : Sys) (v : Nat) : Decidable (Usable s v) := by unfold Usable; infer_instance

/-- The program goes from `w.sys` to `s` in a call for volume `v`: this is a mount if the volume could not be used before and can be used after. -/
def World.goes (w : World) (v : Nat) (s : Sys) : World :=
  if ¬ Usable w.sys v ∧ Usable s v then { w with sys := s, mounts := w.mounts + 1, last := fun u => if u = v then w.mounts + 1 else w.last u } else { w with sys := s }

/-- One session of the volume has ended. -/
def ended (f : Nat → Nat) (v : Nat) : Nat → Nat := fun w => if w = v then f w + 1 else f w

/-- What can happen. -/
inductive Step : World → World → Prop
  /-- the command `mount` -/
  | mount (w : World) (v : Nat) (r : Found) : Step w (w.goes v (fMount v r w.sys).1)
  /-- any function with a path, whether it succeeds or not -/
  | access (w : World) (v : Nat) (wr : Bool) (r : Found) : Step w (w.goes v (mountVolume v wr r w.sys).1)
  /-- a file or directory is opened, after `access` -/
  | opens (w : World) (v : Nat) : Usable w.sys v → Step w { w with handles := ⟨objOf v w.sys, w.sess v, w.last v⟩ :: w.handles }
  /-- the command `eject` -/
  | eject (w : World) (v : Nat) : Step w { w with sys := fUnmount v w.sys, sess := ended w.sess v }
  /-- the medium is taken out, and the drive takes note of it -/
  | remove (w : World) (v : Nat) : Step w { w with sys := { w.sys with noinit := fun u => if u = v then true else w.sys.noinit u }, sess := ended w.sess v }
  /-- an object is forgotten -/
  | close (w : World) (pre post : List Handle) (h : Handle) : w.handles = pre ++ h :: post → Step w { w with handles := pre ++ post }

/-- All histories. -/
inductive Reach : World → Prop
  | start : Reach ⟨Fpm.Eject.start, fun _ => 0, 0, fun _ => 0, []⟩
  | step (w w' : World) : Reach w → Step w w' → Reach w'

end Fpm.Eject.Spec
