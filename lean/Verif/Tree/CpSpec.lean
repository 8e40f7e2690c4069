import Verif.Tree.CpModel
import Verif.Tree.RmSpec
import Verif.Tree.LifeSpec
import Verif.FatFile.ManySpec
/-!
# What copying a file should do
-/
namespace Fpm.Tree.Spec
open Fpm.Fat Fpm.DirDev Fpm.FatDir Fpm.Names Fpm.Fat.Spec Fpm.FatFile.Spec Fpm.Lfn Fpm.Names.Spec Fpm.TextIo.Spec Fpm.FatDir.Spec Fpm.Mount Fpm.Mount.Spec Fpm.DirDev.Spec
open Fpm.FatLock (Sem)

/-- Entries of the table that are in use have users, and not as many readers as make the counter look like that of a writer with one more. -/
def Counted (files : List Sem) : Prop := ∀ x ∈ files, x.key.fs ≠ 0 → x.ctr ≠ 0 ∧ x.ctr ≠ 0xFF

/-- The modes of `f_open` in `copy_file`: `FA_READ`, and `FA_WRITE | FA_CREATE_ALWAYS`, include/fpm/fs.h:46-54. -/
def fromMode : Nat := 1
@[inherit_doc fromMode] def toMode : Nat := 0x0A

/-- Directories, chains and device before and after `data` has been written to the file where a path leads (`G`): a file that has been there is first emptied, else a new one has been made, as by `f_open`.  Of `data` there is as much as has room,
`full` tells that this is not all of it.  Other objects, directories and files are as before.  `d'` is the directory where the file is now, `o'` its object. -/
def Copied (v : Vol) (tm tm' : Nat) (G : Goal) (data : List Nat) (T : List Dir) (F : List (List Nat)) (s : St) (T' : List Dir) (F' : List (List Nat)) (s' : St) (d' : Dir) (o' : Obj) (full : Bool) : Prop :=
  ∃ T1 F1 d R F2 o x y m, T.Perm T1 ∧ F.Perm F1 ∧ Opened v tm toMode G T1 F1 d R F2 o [] ∧ d.os = x ++ o :: y ∧ d' = { d with os := x ++ o' :: y } ∧ T' = d' :: R ∧ F' = withRest [] m F2 ∧
    Saved tm' o o' ∧ first v o' = m.headD 0 ∧ bytesOf v s' m o' = data.take (capacity v (dirChains (d :: R) ++ F2).flatten) ∧ size o' = (data.take (capacity v (dirChains (d :: R) ++ F2).flatten)).length ∧
    (full = true ↔ capacity v (dirChains (d :: R) ++ F2).flatten < data.length) ∧ ∀ l ∈ F2, ∀ n ∈ secs v l, view s' n = view s n

/-- Is the copy to be made?  If something is there, it takes an option or the answer yes. -/
def Asked (force yes : Bool) (G : Goal) : Prop := force = true ∨ yes = true ∨ ∀ d cs o, G ≠ .object d cs o

/-- The data of all files is the same. -/
def SameData (v : Vol) (F : List (List Nat)) (s s' : St) : Prop := ∀ l ∈ F, ∀ n ∈ secs v l, view s' n = view s n

/-- The file where the source path leads, with its chain; the table counts it. -/
structure Source (v : Vol) (fs : Nat) (F : List (List Nat)) (files : List Sem) (G : Goal) (d : Dir) (o : Obj) (m : List Nat) (files' : List Sem) : Prop where
  goal : ∃ cs, G = .object d cs o
  file : ¬ IsDir o
  chain : m = [] ∨ m ∈ F
  first : first v o = m.headD 0
  table : ∃ j, Taken files ⟨fs, d.sclust, 32 * o.pos⟩ 0 files' j

/-- Outcome of copying a file: message, directories, chains and device afterwards.  `G1` and `G2` are where the paths lead. -/
inductive CopyEnd (g : Env) (tm tm' : Nat) (force yes : Bool) (G1 G2 : Goal) (abs : Bool) (l : List (List Nat)) (files : List Sem) (T : List Dir) (F : List (List Nat)) (s : St) : Option CpMsg → List Dir → List (List Nat) → St → Prop where
  | kept {s' : St} : ¬ Asked force yes G2 → SameData g.v F s s' → CopyEnd g tm tm' force yes G1 G2 abs l files T F s (some .kept) T F s'
  | noSource {s' : St} {e : Nat} : Asked force yes G2 → OpenRefused files g.fs fromMode e G1 → SameData g.v F s s' → CopyEnd g tm tm' force yes G1 G2 abs l files T F s (some (.source e)) T F s'
  | noDest {s' : St} {e : Nat} {d : Dir} {o : Obj} {m : List Nat} {files' : List Sem} : Asked force yes G2 → Source g.v g.fs F files G1 d o m files' → OpenRefused files' g.fs toMode e G2 → SameData g.v F s s' →
      CopyEnd g tm tm' force yes G1 G2 abs l files T F s (some (.dest e)) T F s'
  | noEntry {s' : St} {d : Dir} {cs : List Nat} {R : List Dir} {loc : Loc} : Asked force yes G2 → G2 = .free d cs → T.Perm (d :: R) → Longer d.loc loc → NoEntry g.v g.i ({ d with loc := loc } :: R) F (view s') { d with loc := loc } cs → SameData g.v F s s' →
      CopyEnd g tm tm' force yes G1 G2 abs l files T F s (some (.dest DirDev.FR_DENIED)) ({ d with loc := loc } :: R) F s'
  /-- an object that has gone is still in the table: there is an empty file -/
  | stale {s' : St} {T1 R : List Dir} {F1 F2 : List (List Nat)} {d0 d : Dir} {cs : List Nat} {o : Obj} {k : Sem} : Asked force yes G2 → G2 = .free d0 cs → T.Perm T1 → F.Perm F1 → Opened g.v tm toMode G2 T1 F1 d R F2 o [] → k ∈ files → k.key = ⟨g.fs, d.sclust, 32 * o.pos⟩ → SameData g.v F2 s s' →
      CopyEnd g tm tm' force yes G1 G2 abs l files T F s (some (.dest FR_INT_ERR)) (d :: R) F2 s'
  | copied {s' : St} {T' : List Dir} {F' : List (List Nat)} {d1 e1 d' : Dir} {o1 o' : Obj} {m1 : List Nat} {files' : List Sem} {cs : List Nat} {full : Bool} : Asked force yes G2 → Source g.v g.fs F files G1 d1 o1 m1 files' → (∀ cs, G2 ≠ .object d1 cs o1) →
      Copied g.v tm tm' G2 (bytesOf g.v s m1 o1) T F s T' F' s' d' o' full →
      Resolves g.v T' g.cdir abs l (.object d' cs o') → ¬ IsDir o' →
      e1 ∈ T' → e1.sclust = d1.sclust → o1 ∈ e1.os → (m1 = [] ∨ m1 ∈ F') → bytesOf g.v s' m1 o1 = bytesOf g.v s m1 o1 →
      CopyEnd g tm tm' force yes G1 G2 abs l files T F s (if full then some .noSpace else none) T' F' s'

end Fpm.Tree.Spec
