import Verif.FatFile.Spec
/-!
# Several open files of a volume

Programs may have several files open at once, and use them in any order.
-/
namespace Fpm.FatFile.Spec
open Fpm.Fat Fpm.Fat.Spec

/-- An open file as its user sees it: an array of bytes, what the file is open for, and the number of clusters it has. -/
structure Sheet where
  arr : Arr
  rd : Bool
  wr : Bool
  held : Nat

/-- Clusters that files have. -/
def taken (L : List Sheet) : Nat := (L.map Sheet.held).sum

/-- What users see of a history of operations on several files: number of the file and operation.  The files share `N` clusters with `u` bytes
each; apart from that none of them is affected by what is done with the others. -/
inductive Shared (N u : Nat) : List Sheet → List (Nat × Op) → List Seen → List Sheet → Prop where
  | nil (L) : Shared N u L [] [] L
  | cons {L M x k op ops r g B n t} (hk : L[k]? = some x) (h : Ran ((N - taken (L.eraseIdx k)) * u) x.rd x.wr x.arr op r g B) (hn : B.data.length ≤ n * u)
      (hN : taken (L.eraseIdx k) + n ≤ N) (hs : Shared N u (L.set k { x with arr := B, held := n }) ops t M) :
      Shared N u L ((k, op) :: ops) (⟨r, g, B.pos, B.data.length⟩ :: t) M

/-- A history as carried out by the code. -/
def turns (v : Vol) : St → List File → List (Nat × Op) → St × List File × List Seen
  | s, fs, [] => (s, fs, [])
  | s, fs, (k, op) :: ops =>
    match fs[k]? with
    | none => (s, fs, [])
    | some fp =>
      ((turns v (call v s fp op).st (fs.set k (call v s fp op).fp) ops).1, (turns v (call v s fp op).st (fs.set k (call v s fp op).fp) ops).2.1,
        ⟨(call v s fp op).res, (call v s fp op).got, (call v s fp op).fp.fptr, (call v s fp op).fp.objsize⟩ ::
          (turns v (call v s fp op).st (fs.set k (call v s fp op).fp) ops).2.2)

/-- A file is not cut at a multiple of the sector size before its end. -/
def smooth (v : Vol) (fp : File) : Op → Bool
  | .truncate => decide (fp.fptr % v.ss ≠ 0 ∨ fp.objsize ≤ fp.fptr)
  | _ => true

/-- No file is cut at a multiple of the sector size before its end. -/
def calm (v : Vol) : St → List File → List (Nat × Op) → Bool
  | _, _, [] => true
  | s, fs, (k, op) :: ops =>
    match fs[k]? with
    | none => true
    | some fp => smooth v fp op && calm v (call v s fp op).st (fs.set k (call v s fp op).fp) ops

/-- An open file: its chain, the file object, and the array it is. -/
structure Opened where
  chain : List Nat
  fp : File
  arr : Arr

/-- Chains of open files; files without clusters have none. -/
def chainsOf (L : List Opened) : List (List Nat) := (L.map Opened.chain).filter fun m => m ≠ []

/-- What an open file is on the device. -/
structure FileOk (v : Vol) (s : St) (x : Opened) : Prop where
  sclust : x.fp.sclust = x.chain.headD 0
  buf : Sec v x.fp.buf
  /-- the buffer shows one of its sectors, or none of the data area (0 after opening) -/
  held : x.fp.sect ∈ secs v x.chain ∨ x.fp.dirty = false ∧ ¬ OwnSect v [] x.fp.sect
  clean : x.fp.dirty = false → x.fp.sect ∈ secs v x.chain → x.fp.buf = s.disk x.fp.sect
  size : x.fp.objsize ≤ x.chain.length * (v.csize * v.ss)
  small : x.fp.objsize < 2 ^ 32
  pos : x.fp.fptr ≤ x.fp.objsize
  clust : 0 < x.fp.fptr → x.chain[(x.fp.fptr - 1) / (v.csize * v.ss)]? = some x.fp.clust
  sect : x.fp.fptr % v.ss ≠ 0 → (secs v x.chain)[x.fp.fptr / v.ss]? = some x.fp.sect
  noErr : x.fp.err = 0
  data : x.arr.data = contents v x.chain s x.fp
  at_ : x.arr.pos = x.fp.fptr

/-- A volume with open files; `C` are all other chains. -/
structure Desk (v : Vol) (C : List (List Nat)) (s : St) (L : List Opened) : Prop where
  inv : Inv v s
  chains : Chains v.nFatent (tab v s) (C ++ chainsOf L)
  count : CountOk v s
  window : ∀ n, s.winsect = some n → ¬ OwnSect v C.flatten n
  files : ∀ x ∈ L, FileOk v s x

/-- What its user sees of an open file. -/
def sheet (x : Opened) : Sheet := ⟨x.arr, x.fp.canRead, x.fp.canWrite, x.chain.length⟩

end Fpm.FatFile.Spec
