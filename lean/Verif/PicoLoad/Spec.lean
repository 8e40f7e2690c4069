import Verif.PicoLoad.Model
import Verif.Tree.LifeSpec
/-!
# What loading a program should give
-/
namespace Fpm.PicoLoad.Spec
open Fpm.Fat Fpm.Tree.Spec Fpm.PicoLoad

/-- The byte of flash memory at an offset from the beginning of the disk: sectors of 4096 bytes, one after another. -/
def image (d : Disk) (off : Nat) : Option Nat := (d (off / 4096))[off % 4096]?

/-- The bytes are in flash memory, from this offset on. -/
def LiesAt (d : Disk) (off : Nat) (data : List Nat) : Prop := ∀ k < data.length, image d (off + k) = data[k]?

/-- One cluster after another. -/
def Consecutive (m : List Nat) : Prop := ∀ j < m.length, m[j]? = some (m.headD 0 + j)

/-- What becomes of a path that leads to no directory object: without a file there is nothing to load, neither is there with an empty one; else the first sector of the file, times the bytes of a *cluster*, is taken for its place. -/
def Taken (v : Vol) (l : Load) : Goal → Prop
  | .object _ _ o => ¬ IsDir o → l = if first v o = 0 then .fragmented else .base ((v.database + v.csize * (first v o - 2)) * (v.ss * v.csize) % 2 ^ 32)
  | _ => l = .cannotOpen

end Fpm.PicoLoad.Spec
