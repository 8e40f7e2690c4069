import Verif.Tree.OpenSpec
/-!
# What is left of the work with an open file
-/
namespace Fpm.Tree.Spec
open Fpm.Fat Fpm.DirDev Fpm.FatDir Fpm.Names Fpm.Fat.Spec Fpm.FatFile.Spec Fpm.Lfn Fpm.Names.Spec Fpm.TextIo.Spec Fpm.FatDir.Spec Fpm.Mount Fpm.Mount.Spec Fpm.DirDev.Spec

/-- The object of a file that has been changed: same place, same names, same attributes but for the archive attribute, same time of creation, a new time of the last change. -/
structure Saved (tm : Nat) (o o' : Obj) : Prop where
  pos : o'.pos = o.pos
  long : o'.long = o.long
  fn : o'.fn = o.fn
  attr : byte o'.entry 11 = byte o.entry 11 ||| 0x20
  made : FatSync.Spec.field o'.entry 14 4 = FatSync.Spec.field o.entry 14 4
  time : stamp o' = tm % 2 ^ 32

/-- The bytes of a file, as far as the volume tells: the object has the size, its clusters have the bytes. -/
def bytesOf (v : Vol) (s : St) (m : List Nat) (o : Obj) : List Nat := ((secs v m).flatMap (view s)).take (size o)

/-- A file is open, and the volume is in order: `o` is its object, one of directory `d`, which has others before and after; `R` are the other directories, `F` the chains of other files; `m` are the clusters of the file, `A` its
bytes and the position of the caller.  What the volume tells about the file is right, or the file object is marked as changed. -/
structure Session (v : Vol) (i : Info) (d : Dir) (R : List Dir) (F : List (List Nat)) (x : List Obj) (o : Obj) (y : List Obj) (m : List Nat) (s : St) (fp : FatFile.File) (A : Arr) (pl : FatSync.Place) : Prop where
  tree : Tree v i (d :: R) (withRest [] m F) s
  os : d.os = x ++ o :: y
  file : ¬ IsDir o
  first : first v o = m.headD 0
  place : EntryAt v i d o pl
  repr : FatFile.Spec.Repr v (dirChains (d :: R) ++ F) [] m s fp A
  kept : fp.modified = true ∨ fp.dirty = false ∧ bytesOf v s m o = A.data

end Fpm.Tree.Spec
