import Verif.FatFile.Model
import Verif.Fat.ChainSpec
/-!
# A file is an array of bytes with a position
-/
namespace Fpm.FatFile.Spec
open Fpm.Fat Fpm.Fat.Spec

/-- An array of bytes and a position in it. -/
structure Arr where
  data : List Nat
  pos : Nat

/-- Bytes from a position on replaced by others. -/
def overwrite (l : List Nat) (p : Nat) (b : List Nat) : List Nat := l.take p ++ b ++ l.drop (p + b.length)

/-- What can be done with an open file. -/
inductive Op where
  | read (n : Nat)
  | write (b : List Nat)
  | seek (o : Nat)
  | truncate

/-- The largest size of a file with `K` bytes of room: FAT keeps sizes in 32 bits. -/
def limit (K : Nat) : Nat := min K 0xFFFFFFFF

/-- The array before, the operation, result code, bytes transferred, the array after.  `rd` and `wr` tell what the file is open for. -/
inductive Ran (K : Nat) (rd wr : Bool) : Arr → Op → Nat → List Nat → Arr → Prop where
  | read (A n) (h : rd = true) : Ran K rd wr A (.read n) 0 ((A.data.drop A.pos).take n) ⟨A.data, A.pos + ((A.data.drop A.pos).take n).length⟩
  | write (A b k) (h : wr = true) (hk : k = min b.length (limit K - A.pos)) :
      Ran K rd wr A (.write b) 0 (b.take k) ⟨overwrite A.data A.pos (b.take k), A.pos + k⟩
  | back (A o) (h : o ≤ A.data.length) : Ran K rd wr A (.seek o) 0 [] ⟨A.data, o⟩
  | toEnd (A o) (hw : wr = false) (h : A.data.length < o) : Ran K rd wr A (.seek o) 0 [] ⟨A.data, A.data.length⟩
  | beyond (A o junk) (hw : wr = true) (h : A.data.length < o) (hj : A.data.length + junk.length = min o (limit K)) :
      Ran K rd wr A (.seek o) 0 [] ⟨A.data ++ junk, A.data.length + junk.length⟩
  | truncate (A) (h : wr = true) : Ran K rd wr A .truncate 0 [] ⟨A.data.take A.pos, A.pos⟩
  | denyRead (A n) (h : rd = false) : Ran K rd wr A (.read n) 7 [] A
  | denyWrite (A b) (h : wr = false) : Ran K rd wr A (.write b) 7 [] A
  | denyTruncate (A) (h : wr = false) : Ran K rd wr A .truncate 7 [] A

/-- Sectors of a cluster. -/
def sectors (v : Vol) (c : Nat) : List Nat := (List.range v.csize).map fun j => v.database + v.csize * (c - 2) + j

/-- Sectors of a chain. -/
def secs (v : Vol) (m : List Nat) : List Nat := m.flatMap (sectors v)

/-- Contents of the data area as the program sees it: the buffer of the file hides the sector in it if it has been changed. -/
def overlay (s : St) (fp : File) : Disk := fun n => if fp.dirty = true ∧ n = fp.sect then fp.buf else s.disk n

/-- The bytes of a file with chain `m`. -/
def contents (v : Vol) (m : List Nat) (s : St) (fp : File) : List Nat := ((secs v m).flatMap (overlay s fp)).take fp.objsize

/-- Clusters that belong to no other chain. -/
def Own (v : Vol) (o : List Nat) (c : Nat) : Prop := 2 ≤ c ∧ c < v.nFatent ∧ c ∉ o

/-- Sectors that belong to no other chain. -/
def OwnSect (v : Vol) (o : List Nat) (n : Nat) : Prop := ∃ c, Own v o c ∧ n ∈ sectors v c

/-- What `mount` has checked about the data area, fatfs/fatfs.c:3160-3240: it is behind the FATs, and the number of sectors in a cluster is
a power of two. -/
structure DataGeo (v : Vol) : Prop where
  pow : ∃ k, v.csize = 2 ^ k
  base : v.fatbase + v.nFats * v.fsize ≤ v.database
  pos : 0 < v.database

/-- Room for a file: clusters that belong to no other chain. -/
def capacity (v : Vol) (o : List Nat) : Nat := (v.nFatent - 2 - o.length) * (v.csize * v.ss)

/-- The volume: `m` is the chain of the file (none if empty), `a` and `b` are the other chains. -/
structure VolOk (v : Vol) (a b : List (List Nat)) (m : List Nat) (s : St) : Prop where
  inv : Inv v s
  chains : Chains v.nFatent (tab v s) (withRest a m b)
  count : CountOk v s
  /-- the window shows another part of the volume -/
  window : ∀ n, s.winsect = some n → ¬ OwnSect v (a ++ b).flatten n

/-- Volume and file object without the position. -/
structure Base (v : Vol) (a b : List (List Nat)) (m : List Nat) (s : St) (fp : File) : Prop extends VolOk v a b m s where
  sclust : fp.sclust = m.headD 0
  buf : Sec v fp.buf
  own : fp.dirty = true → OwnSect v (a ++ b).flatten fp.sect
  clean : fp.dirty = false → OwnSect v (a ++ b).flatten fp.sect → fp.buf = s.disk fp.sect
  size : fp.objsize ≤ m.length * (v.csize * v.ss)
  small : fp.objsize < 2 ^ 32

/-- An open file and the array it is. -/
structure Repr (v : Vol) (a b : List (List Nat)) (m : List Nat) (s : St) (fp : File) (A : Arr) : Prop extends Base v a b m s fp where
  pos : fp.fptr ≤ fp.objsize
  clust : 0 < fp.fptr → m[(fp.fptr - 1) / (v.csize * v.ss)]? = some fp.clust
  sect : fp.fptr % v.ss ≠ 0 → (secs v m)[fp.fptr / v.ss]? = some fp.sect
  noErr : fp.err = 0
  data : A.data = contents v m s fp
  at_ : A.pos = fp.fptr

/-- What belongs to others is on the second device as it is on the first: each of the other chains that is there, and all sectors besides
the FATs and clusters that belong to no other chain. -/
def Spare (v : Vol) (a b : List (List Nat)) (d0 d : Disk) : Prop :=
  (∀ l ∈ a ++ b, Links v.nFatent (fat v d0) l → Links v.nFatent (fat v d) l) ∧
  ∀ n, ¬ Fat1 v n → ¬ Fat2 v n → ¬ OwnSect v (a ++ b).flatten n → d n = d0 n

/-- A device on which others find what the device of `s` holds, or what it is to hold. -/
def After (v : Vol) (a b : List (List Nat)) (s : St) (d : Disk) : Prop := Spare v a b s.disk d ∨ Spare v a b (view s) d

/-- Everything that does not belong to the file is the same afterwards: other chains, and all sectors besides the FATs and clusters that
belong to no other chain. -/
def Beside (v : Vol) (a b : List (List Nat)) (s s' : St) : Prop :=
  (∀ l ∈ a ++ b, Links v.nFatent (tab v s') l) ∧
  ∀ n, ¬ Fat1 v n → ¬ Fat2 v n → ¬ OwnSect v (a ++ b).flatten n → view s' n = view s n

/-- Everything that does not belong to the file stays as it is: afterwards as `Beside` has it, and if no access to the device fails, on the
device at all times. -/
def Others (v : Vol) (a b : List (List Nat)) (s s' : St) : Prop :=
  (∀ l ∈ a ++ b, Links v.nFatent (tab v s') l) ∧
  (∀ n, ¬ Fat1 v n → ¬ Fat2 v n → ¬ OwnSect v (a ++ b).flatten n → view s' n = view s n) ∧
  (Sound v → (∀ d ∈ s'.disk :: s'.past, d ∈ s.disk :: s.past ∨ After v a b s d) ∧ After v a b s s'.disk)

/-- An operation as carried out by the code. -/
def call (v : Vol) (s : St) (fp : File) : Op → Out
  | .read n => fRead v s fp n
  | .write b => fWrite v s fp b
  | .seek o => fLseek v s fp o
  | .truncate => fTruncate v s fp

/-- Arguments that C can pass: bytes, and a length of 32 bits. -/
def Arg : Op → Prop
  | .write b => (∀ x ∈ b, x < 256) ∧ b.length < 2 ^ 32
  | _ => True

/-- What the caller sees of an operation: result code, bytes, position and size after it. -/
structure Seen where
  res : Nat
  got : List Nat
  pos : Nat
  size : Nat

/-- The caller's view of a history of operations on an array. -/
inductive Runs (K : Nat) (rd wr : Bool) : Arr → List Op → List Seen → Arr → Prop where
  | nil (A) : Runs K rd wr A [] [] A
  | cons {A B C op ops r l t} (h : Ran K rd wr A op r l B) (hs : Runs K rd wr B ops t C) : Runs K rd wr A (op :: ops) (⟨r, l, B.pos, B.data.length⟩ :: t) C

/-- A history as carried out by the code. -/
def calls (v : Vol) : St → File → List Op → St × File × List Seen
  | s, fp, [] => (s, fp, [])
  | s, fp, op :: ops =>
    ((calls v (call v s fp op).st (call v s fp op).fp ops).1, (calls v (call v s fp op).st (call v s fp op).fp ops).2.1,
      ⟨(call v s fp op).res, (call v s fp op).got, (call v s fp op).fp.fptr, (call v s fp op).fp.objsize⟩ :: (calls v (call v s fp op).st (call v s fp op).fp ops).2.2)

end Fpm.FatFile.Spec
