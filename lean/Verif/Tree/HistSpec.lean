import Verif.Tree.HistModel
import Verif.Tree.RenameSpec
import Verif.Tree.LifeSpec
/-!
# What series of calls should do
-/
namespace Fpm.Tree.Spec
open Fpm.Fat Fpm.DirDev Fpm.FatDir Fpm.Names Fpm.Fat.Spec Fpm.FatFile.Spec Fpm.Lfn Fpm.Names.Spec Fpm.TextIo.Spec Fpm.FatDir.Spec Fpm.Mount Fpm.Mount.Spec Fpm.DirDev.Spec

/-- A volume in order, with its directories and the chains of its files; the current directory is one of them; all sub-directories have the entry `..` in second place. -/
structure InOrder (v : Vol) (i : Info) (T : List Dir) (F : List (List Nat)) (w : World) : Prop where
  tree : Tree v i T F w.st
  here : ∃ d ∈ T, d.sclust = w.cdir
  dots : ∀ q ∈ T, q.sclust ≠ 0 → DotsSecond q

/-- Names that may be used: the unit 0xFFFF is none of them (C75). -/
def Clean (l : List (List Nat)) : Prop := ∀ cs ∈ l, 0xFFFF ∉ cs

/-- The bytes are a path with usable names. -/
def IsPath (path : List Nat) : Prop := ∃ abs l, PathOf path abs l ∧ Clean l

/-- Calls with paths; the name buffer has its size. -/
def Valid (c : Call) : Prop := c.buf.length = 256 ∧
  match c.cmd with
  | .mkdir _ path => IsPath path
  | .unlink path => IsPath path
  | .rename old new => IsPath old ∧ IsPath new
  | .chdir path => IsPath path
  | .edit _ _ _ path ops _ => IsPath path ∧ ∀ op ∈ ops, Arg op

/-- Paths without `.` and `..`. -/
def Plain (l : List (List Nat)) : Prop := ∀ cs ∈ l, ¬ DotName cs

/-- The path from the root directory leads to a file with these bytes. -/
def FileAt (v : Vol) (T : List Dir) (F : List (List Nat)) (s : St) (l : List (List Nat)) (data : List Nat) : Prop :=
  ∃ d cs o m, Resolves v T 0 true l (.object d cs o) ∧ ¬ IsDir o ∧ (m = [] ∨ m ∈ F) ∧ first v o = m.headD 0 ∧ bytesOf v s m o = data

/-- The path of a call, and the path `l` from the root directory, lead to the same object. -/
def Meets (v : Vol) (T : List Dir) (cdir : Nat) (path : List Nat) (l : List (List Nat)) : Prop :=
  ∃ abs l0 d cs o cs', PathOf path abs l0 ∧ Resolves v T cdir abs l0 (.object d cs o) ∧ Resolves v T 0 true l (.object d cs' o)

/-- Is the call about the object that the path leads to?  Renaming is also about all objects in a directory, and below it. -/
def Touches (v : Vol) (T : List Dir) (cdir : Nat) (c : Call) (l : List (List Nat)) : Prop :=
  match c.cmd with
  | .mkdir _ _ => False
  | .unlink path => Meets v T cdir path l
  | .rename old _ => ∃ l1, l1 <+: l ∧ Meets v T cdir old l1
  | .chdir _ => False
  | .edit _ _ _ path _ _ => Meets v T cdir path l

/-- The path `l` from the root directory leads, afterwards, to an object of the directory and with the name that the path of a call has meant. -/
def Lands (v : Vol) (T T' : List Dir) (cdir : Nat) (path : List Nat) (l : List (List Nat)) : Prop :=
  ∃ abs l0 G d cs d' cs' o', PathOf path abs l0 ∧ Resolves v T cdir abs l0 G ∧ (G = .free d cs ∨ ∃ o, G = .object d cs o) ∧ Resolves v T' 0 true l (.object d' cs' o') ∧ d'.sclust = d.sclust ∧ Calls cs o'

/-- Has the call made or changed the object that the path leads to afterwards?  Renaming also brings all objects in a directory, and below it. -/
def Emerges (v : Vol) (T T' : List Dir) (cdir : Nat) (c : Call) (l : List (List Nat)) : Prop :=
  match c.cmd with
  | .mkdir _ _ => False
  | .unlink _ => False
  | .rename _ new => ∃ l1, l1 <+: l ∧ Lands v T T' cdir new l1
  | .chdir _ => False
  | .edit _ _ _ path _ _ => Lands v T T' cdir path l

/-- Result `r` of `f_chdir`, and the current directory `c` then. -/
def ChdirTo (v : Vol) (cdir r c : Nat) : Goal → Prop
  | .badName => r = FR_INVALID_NAME ∧ c = cdir
  | .noPath => r = FR_NO_PATH ∧ c = cdir
  | .free _ _ => r = FR_NO_PATH ∧ c = cdir
  | .self d => r = FR_OK ∧ c = d.sclust
  | .object _ _ o => IsDir o ∧ r = FR_OK ∧ c = first v o ∨ ¬ IsDir o ∧ r = FR_NO_PATH ∧ c = cdir

/-- None of the calls is about the object that the path leads to. -/
def Spared (v : Vol) (i : Info) (fs : Nat) (l : List (List Nat)) : List Call → World → Prop
  | [], _ => True
  | c :: cs, w => (∀ T F, InOrder v i T F w → ¬ Touches v T w.cdir c l) ∧ Spared v i fs l cs (exec v i fs c w)

/-- None of the calls has made or changed what the path leads to. -/
def Unmade (v : Vol) (i : Info) (fs : Nat) (l : List (List Nat)) : List Call → World → Prop
  | [], _ => True
  | c :: cs, w => (∀ T F T' F', InOrder v i T F w → InOrder v i T' F' (exec v i fs c w) → ¬ Emerges v T T' w.cdir c l) ∧ Unmade v i fs l cs (exec v i fs c w)

end Fpm.Tree.Spec
