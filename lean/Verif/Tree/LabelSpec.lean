import Verif.Tree.Spec
/-!
# What volume labels are
-/
namespace Fpm.Tree.Spec
open Fpm.Fat Fpm.DirDev Fpm.FatDir Fpm.Names Fpm.Fat.Spec Fpm.FatFile.Spec Fpm.Lfn Fpm.Names.Spec Fpm.TextIo.Spec Fpm.FatDir.Spec Fpm.Mount Fpm.Mount.Spec Fpm.DirDev.Spec

/-- Names of the label entries of a directory, in order, up to its end: attribute 8 of the lower five, neither deleted nor beginning with a dot. -/
def labels : List (List Nat) → List (List Nat)
  | [] => []
  | e :: t =>
    if byte e 0 = 0 then []
    else if byte e 0 ≠ 0xE5 ∧ byte e 0 ≠ 46 ∧ byte e 11 % 32 = 8 then e.take 11 :: labels t
    else labels t

/-- Without spaces at the end. -/
def unspaced (l : List Nat) : List Nat := (l.reverse.dropWhile (· = 32)).reverse

/-- The label that is shown for the names: that of the first, each byte as a character in UTF-8; nothing if there is a zero in it. -/
def shown : List (List Nat) → List Nat
  | [] => []
  | n :: _ => if 0 ∈ n then [] else unspaced (text n)

/-- Characters allowed in labels: printable ASCII without some. -/
def LabelChar (c : Nat) : Prop := 32 ≤ c ∧ c ≤ 126 ∧ c ∉ [34, 42, 43, 44, 46, 47, 58, 59, 60, 61, 62, 63, 91, 92, 93, 124]

instance (c : Nat) : Decidable (LabelChar c) := by unfold LabelChar; infer_instance

/-- Labels: up to 11 allowed characters. -/
def GoodLabel (p : List Nat) : Prop := p.length ≤ 11 ∧ ∀ c ∈ p, LabelChar c

instance (p : List Nat) : Decidable (GoodLabel p) := by unfold GoodLabel; infer_instance

/-- Labels of nothing but spaces, and the empty one. -/
def Void (p : List Nat) : Prop := ∀ c ∈ p, c = 32

instance (p : List Nat) : Decidable (Void p) := by unfold Void; infer_instance

/-- The names after setting label `p`: the first one is replaced, or there is one; setting a void label removes the first one. -/
def relabelled (p : List Nat) (ls : List (List Nat)) : List (List Nat) := if Void p then ls.tail else pad 11 (p.map up) :: ls.tail

/-- The root directory before and after, maybe with more clusters, all else the same. -/
def Stretched (d : Dir) (T : List Dir) (d' : Dir) (T' : List Dir) : Prop := ∃ loc R, Longer d.loc loc ∧ d' = { d with loc := loc } ∧ T.Perm (d :: R) ∧ T' = d' :: R

/-- No entry of the directory is free. -/
def AllUsed (t : List (List Nat)) : Prop := ∀ e ∈ t, byte e 0 ≠ 0 ∧ byte e 0 ≠ 0xE5

/-- Serial number in the boot sector. -/
def serialOf (v : Vol) (i : Info) (disk : Disk) : Nat := FatSync.Spec.field (disk i.volbase) (if v.fsType = 3 then 67 else 39) 4

/-- The array holds the text as a string with a final zero. -/
def Has (buf txt : List Nat) : Prop := 0 ∉ txt ∧ ∃ rest, buf = txt ++ 0 :: rest

/-- Directory `d` of tree `T` cannot get another entry: it is the fixed root directory, or has as many entries as there can be, or there is no cluster left. -/
def NoRoom (v : Vol) (i : Info) (T : List Dir) (F : List (List Nat)) (disk : Disk) (d : Dir) : Prop :=
  d.loc = .root ∨ (entries v i disk d.loc).length = 65536 ∨ (dirChains T ++ F).flatten.length = v.nFatent - 2

/-- Outcome of setting the label `p`: state after it and result. -/
def Labelled (v : Vol) (i : Info) (T : List Dir) (F : List (List Nat)) (s : St) (d : Dir) (p : List Nat) (r : St × Nat) : Prop :=
  ∃ d' T', Stretched d T d' T' ∧ Tree v i T' F r.1 ∧ (∀ l ∈ F, ∀ n ∈ secs v l, view r.1 n = view s n) ∧
    (r.2 = FR_OK ∧ labels (entries v i (view r.1) d'.loc) = relabelled p (labels (entries v i (view s) d.loc)) ∧ (r.1.wflag = false ∨ Void p ∧ labels (entries v i (view s) d.loc) = []) ∨
     r.2 = DirDev.FR_DENIED ∧ ¬ Void p ∧ labels (entries v i (view s) d.loc) = [] ∧ labels (entries v i (view r.1) d'.loc) = [] ∧ AllUsed (entries v i (view r.1) d'.loc) ∧ NoRoom v i T' F (view r.1) d')

end Fpm.Tree.Spec
