import Verif.FatLock.Model
/-!
# Open objects, without a lock table
-/
namespace Fpm.FatLock.Spec

/-- An open object: the lock index it was given, what it is, and whether it may be written. -/
structure Handle where
  id : Nat
  key : Key
  write : Bool
deriving DecidableEq, Repr

/-- Program state: lock table, open objects, and the files that exist. -/
structure World where
  files : List Sem
  handles : List Handle
  exist : List Key

/-- Where a file can be: a directory other than the root begins with the entry `.`. -/
def FileKey (k : Key) : Prop := k.fs ≠ 0 ∧ (k.clu = 0 ∨ k.ofs ≠ 0)

/-- Number of handles for an object. -/
def uses (w : World) (k : Key) : Nat := (w.handles.filter (·.key = k)).length

/-- What can happen, if no object is opened more than `max` times at once.  Calls that fail are not listed. -/
inductive Step (max : Nat) : World → World → Prop
  /-- `f_open` of an existing file -/
  | openOld (w : World) (k : Key) (write : Bool) (files : List Sem) (id : Nat) : k ∈ w.exist → uses w k < max →
      Fpm.FatLock.openOld w.files k (if write then 1 else 0) = (files, id, 0) → Step max w ⟨files, ⟨id, k, write⟩ :: w.handles, w.exist⟩
  /-- `f_open` of a new file -/
  | openNew (w : World) (k : Key) (files : List Sem) (id : Nat) : FileKey k → k ∉ w.exist → Fpm.FatLock.openNew w.files k = (files, id, 0) →
      Step max w ⟨files, ⟨id, k, true⟩ :: w.handles, k :: w.exist⟩
  /-- `f_opendir` of a directory other than the root -/
  | openDir (w : World) (fs clu : Nat) (files : List Sem) (id : Nat) : fs ≠ 0 → clu ≠ 0 → uses w ⟨fs, clu, 0⟩ < max →
      Fpm.FatLock.openDir w.files fs clu = (files, id, 0) → Step max w ⟨files, ⟨id, ⟨fs, clu, 0⟩, false⟩ :: w.handles, w.exist⟩
  /-- `f_close`, `f_closedir` -/
  | close (w : World) (pre post : List Handle) (h : Handle) : w.handles = pre ++ h :: post →
      Step max w ⟨(decShare w.files h.id).1, pre ++ post, w.exist⟩
  /-- `f_unlink` -/
  | unlink (w : World) (k : Key) : k ∈ w.exist → mayRemove w.files k = true → Step max w ⟨w.files, w.handles, w.exist.filter (· ≠ k)⟩
  /-- `f_rename`, `f_mkdir` and the like make a new entry without opening it -/
  | make (w : World) (k : Key) : FileKey k → k ∉ w.exist → Step max w ⟨w.files, w.handles, k :: w.exist⟩
  /-- `f_mount`, `f_unmount`: objects of the volume become invalid; it may hold other files afterwards -/
  | mount (w : World) (fs : Nat) (files : List Key) : fs ≠ 0 → (∀ k ∈ files, k.fs = fs ∧ FileKey k) →
      Step max w ⟨clearShare w.files fs, w.handles.filter (·.key.fs ≠ fs), files ++ w.exist.filter (·.fs ≠ fs)⟩

/-- All histories. -/
inductive Reach (max : Nat) : World → Prop
  | start : Reach max ⟨initial, [], []⟩
  | step (w w' : World) : Reach max w → Step max w w' → Reach max w'

/-- One writer or any number of readers: of two handles for the same object neither may write. -/
def Exclusive (hs : List Handle) : Prop :=
  ∀ a b c h h', hs = a ++ h :: b ++ h' :: c → h.key = h'.key → h.write = false ∧ h'.write = false

end Fpm.FatLock.Spec
