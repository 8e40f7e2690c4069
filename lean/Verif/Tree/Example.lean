import Verif.Tree.PathLemmas
/-!
# A small tree

A FAT12 volume with sectors of 64 bytes.  The root directory has a directory `A` and a file `X.C` with 100 bytes; `A` has a directory `B`, which is empty.
-/
namespace Fpm.Tree
open Fpm.Fat Fpm.Fat.Spec Fpm.FatFile.Spec Fpm.Lfn Fpm.Names Fpm.Names.Spec Fpm.TextIo.Spec Fpm.FatDir Fpm.FatDir.Spec Fpm.Mount Fpm.Mount.Spec Fpm.DirDev Fpm.DirDev.Spec Fpm.Tree.Spec Fpm.FatSync

/-- Objects of a table without long names. -/
def plain (i : Nat) (es : List (List Nat)) : List Obj := (es.zipIdx i).map fun p => ⟨p.2, none, p.1⟩

theorem plain_rep {n : Nat} : ∀ {es : List (List Nat)} {i : Nat}, (∀ e ∈ es, Sfn e) → Rep true i (es ++ List.replicate n blank) (plain i es)
  | [], i, _ => by
    cases n with
    | zero => exact .nil (junk_nil _)
    | succ n => exact .fin (j := []) (junk_nil _) rfl
  | e :: es, i, h => .obj (i := i) (j := []) (es := []) (s := e) (long := none) (junk_nil _) (long_nil _) (h e (by simp)) (plain_rep fun x hx => h x (by simp [hx]))

theorem plain_dir {n : Nat} {es : List (List Nat)} (h : ∀ e ∈ es, Sfn e) (hb : FatDir.Spec.Table es) : Directory true (es ++ List.replicate n blank) (plain 0 es) := by
  refine ⟨fun e he => ?_, plain_rep h, fun x e y hx he z hz => ?_⟩
  · rcases List.mem_append.mp he with he | he
    · exact hb e he
    · rw [(List.mem_replicate.mp he).2]; decide
  · rcases List.append_eq_append_iff.mp hx with ⟨a, h1, h2⟩ | ⟨a, h1, h2⟩
    · have : z ∈ List.replicate n blank := by rw [h2]; simp [hz]
      rw [(List.mem_replicate.mp this).2]; decide
    · cases a with
      | nil =>
        have : z ∈ List.replicate n blank := by
          rw [List.nil_append] at h2
          rw [← h2]; simp [hz]
        rw [(List.mem_replicate.mp this).2]; decide
      | cons b a =>
        obtain ⟨rfl, -⟩ := List.cons.inj h2
        exact absurd he (h e (by rw [h1]; simp)).used.1

theorem plain_names {os : List Obj} (h : ∀ o ∈ os, o.long = none) (hd : os.Pairwise fun o o' => o.fn ≠ o'.fn) : Names os := by
  refine ⟨fun o ho n body ext hl => ?_, ?_⟩
  · rw [h o ho] at hl; cases hl
  · have : ∀ {l : List Obj}, (∀ o ∈ l, o.long = none) → l.Pairwise (fun o o' => o.fn ≠ o'.fn) → l.Pairwise Distinct := by
      intro l
      induction l with
      | nil => intro _ _; exact .nil
      | cons o l ih =>
        intro h1 h2
        obtain ⟨h3, h4⟩ := List.pairwise_cons.mp h2
        refine List.pairwise_cons.mpr ⟨fun o' ho' => ⟨h3 o' ho', fun n n' hl => ?_, fun n m body ext hl => ?_, fun n m body ext hl => ?_⟩, ih (fun x hx => h1 x (by simp [hx])) h4⟩
        · rw [h1 o (by simp)] at hl; cases hl
        · rw [h1 o (by simp)] at hl; cases hl
        · rw [h1 o' (by simp [ho'])] at hl; cases hl
    exact this h hd

def trV : Vol := { ss := 64, csize := 1, fatbase := 1, fsize := 1, nFats := 1, nFatent := 8, fsType := 1, database := 4, io := fun _ => .ok }
def trI : Info := { volbase := 0, totsec := 10, nRoot := 4, dirbase := 2, fsi := none }

def trEnt (fn : List Nat) (att cl size : Nat) : List Nat := fn ++ [att] ++ List.replicate 14 0 ++ [cl, 0] ++ [size, 0, 0, 0]
def trA : List Nat := trEnt (pad 11 [65]) 0x10 2 0
def trX : List Nat := trEnt [88, 32, 32, 32, 32, 32, 32, 32, 67, 32, 32] 0x20 4 100
def trB : List Nat := trEnt (pad 11 [66]) 0x10 5 0
def trDot (c : Nat) : List Nat := trEnt (pad 11 [46]) 0x10 c 0
def trDots (c : Nat) : List Nat := trEnt (pad 11 [46, 46]) 0x10 c 0

def trDisk : Disk := fun n =>
  if n = 1 then [0xF8, 0xFF, 0xFF, 3, 0xF0, 0xFF, 6, 0xF0, 0xFF, 0xFF, 0x0F, 0] ++ List.replicate 52 0
  else if n = 2 then trA ++ trX else if n = 4 then trDot 2 ++ trDots 0 else if n = 5 then trB ++ blank else if n = 7 then trDot 5 ++ trDots 2
  else if n = 6 then List.replicate 64 49 else if n = 8 then List.replicate 64 50 else List.replicate 64 0

def trS : St := { disk := trDisk, past := [], cnt := 0, win := List.replicate 64 0, winsect := none, wflag := false, lastClst := 2, freeClst := 1, fsiFlag := false }
def trDp : Dp := ⟨0, 0, 0, 0⟩

def trRoot : Dir := ⟨0, .root, plain 0 [trA, trX]⟩
def trDirA : Dir := ⟨2, .chain [2, 3], plain 0 [trDot 2, trDots 0, trB]⟩
def trDirB : Dir := ⟨5, .chain [5], plain 0 [trDot 5, trDots 2]⟩
def trT : List Dir := [trRoot, trDirA, trDirB]
def trF : List (List Nat) := [[4, 6]]

theorem tr_ready : Ready trV trI where
  geo := { ss := by decide, nFats := by decide, kind := by decide, size := by decide, pos := by decide, junk := fun _ _ h => by cases h }
  data := { pow := ⟨0, rfl⟩, base := by decide, pos := by decide }
  reserved := by decide
  root := by decide
  root32 := by decide
  inside := by decide
  rest := by decide
  limit := by decide
  kind := by decide
  fsi := fun _ h => by cases h
  whole := by decide

theorem tr_sound : Sound trV := fun _ => rfl

theorem tr_inv : Fat.Spec.Inv trV trS := by
  refine ⟨fun n => ?_, ⟨List.length_replicate, fun b hb => by rw [(List.mem_replicate.mp hb).2]; decide⟩, (fun _ n h => by cases h), (fun h => by cases h), fun n h => by cases h⟩
  show Sec trV (trDisk n)
  unfold trDisk
  split
  · exact ⟨by decide, by decide⟩
  · split
    · exact ⟨by decide, by decide⟩
    · split
      · exact ⟨by decide, by decide⟩
      · split
        · exact ⟨by decide, by decide⟩
        · split
          · exact ⟨by decide, by decide⟩
          · split
            · exact ⟨List.length_replicate, fun b hb => by rw [(List.mem_replicate.mp hb).2]; decide⟩
            · split <;> exact ⟨List.length_replicate, fun b hb => by rw [(List.mem_replicate.mp hb).2]; decide⟩

instance (e : List Nat) : Decidable (Sfn e) := decidable_of_iff ((byte e 0 ≠ 0 ∧ byte e 0 ≠ 0xE5) ∧ byte e 11 &&& 8 = 0) ⟨fun h => ⟨h.1, h.2⟩, fun h => ⟨h.used, h.attr⟩⟩

theorem tr_dirok {sclust : Nat} {loc : Loc} {es : List (List Nat)} (n : Nat) (h1 : Starts trV trI sclust loc) (h2 : entries trV trI (view trS) loc = es ++ List.replicate n blank) (h3 : ∀ e ∈ es, Sfn e)
    (h4 : FatDir.Spec.Table es) (h5 : (plain 0 es).Pairwise fun o o' => o.fn ≠ o'.fn) : DirOk trV trI trS ⟨sclust, loc, plain 0 es⟩ := by
  have hl : ∀ o ∈ plain 0 es, o.long = none := by
    intro o ho
    obtain ⟨p, -, rfl⟩ := List.mem_map.mp ho
    rfl
  exact ⟨h1, by simp only; rw [h2]; exact plain_dir h3 h4, plain_names hl h5, fun o ho => by rw [hl o ho]; exact ⟨(fun h => by cases h), (fun h => by cases h)⟩⟩

theorem tr_tree : Tree trV trI trT trF trS where
  inv := tr_inv
  count := fun _ => by decide +kernel
  chains := by
    have key : ∀ c < 8, 2 ≤ c → tab trV trS c ≠ 0 → c ∈ [2, 3, 5, 4, 6] := by decide +kernel
    refine ⟨fun l hl => ?_, by decide, fun c h2 hc h => key c hc h2 h⟩
    have hl : l ∈ [[2, 3], [5], [4, 6]] := hl
    simp only [List.mem_cons, List.not_mem_nil, or_false] at hl
    rcases hl with rfl | rfl | rfl
    · show 2 ≤ 2 ∧ 2 < 8 ∧ tab trV trS 2 = 3 ∧ 2 ≤ 3 ∧ 3 < 8 ∧ 8 ≤ tab trV trS 3
      decide +kernel
    · show 2 ≤ 5 ∧ 5 < 8 ∧ 8 ≤ tab trV trS 5
      decide +kernel
    · show 2 ≤ 4 ∧ 4 < 8 ∧ tab trV trS 4 = 6 ∧ 2 ≤ 6 ∧ 6 < 8 ∧ 8 ≤ tab trV trS 6
      decide +kernel
  root := ⟨trRoot, by simp [trT], rfl⟩
  once := by decide
  dirs := by
    intro d hd
    simp only [trT, List.mem_cons, List.not_mem_nil, or_false] at hd
    rcases hd with rfl | rfl | rfl
    · exact tr_dirok (loc := .root) 2 ⟨rfl, by decide⟩ (by decide +kernel) (by decide) (by unfold FatDir.Spec.Table; decide) (by decide)
    · exact tr_dirok (loc := .chain [2, 3]) 1 ⟨rfl, by decide⟩ (by decide +kernel) (by decide) (by unfold FatDir.Spec.Table; decide) (by decide)
    · exact tr_dirok (loc := .chain [5]) 0 ⟨rfl, by decide⟩ (by decide +kernel) (by decide) (by unfold FatDir.Spec.Table; decide) (by decide)
  refs := by decide +kernel
  files := by
    intro d hd o ho h1 h2
    simp only [trT, List.mem_cons, List.not_mem_nil, or_false] at hd
    rcases hd with rfl | rfl | rfl <;> simp only [trRoot, trDirA, trDirB, plain, List.zipIdx_cons, List.zipIdx_nil, List.map_cons, List.map_nil, List.mem_cons, List.not_mem_nil, or_false] at ho
    · rcases ho with rfl | rfl
      · exact absurd (by decide) h2
      · exact ⟨[4, 6], .inr (by decide), by decide, by decide⟩
    · rcases ho with rfl | rfl | rfl <;> exact absurd (by decide) h2
    · rcases ho with rfl | rfl <;> exact absurd (by decide) h2
  subs := by
    intro d hd o ho h1 h2
    simp only [trT, List.mem_cons, List.not_mem_nil, or_false] at hd
    rcases hd with rfl | rfl | rfl <;> simp only [trRoot, trDirA, trDirB, plain, List.zipIdx_cons, List.zipIdx_nil, List.map_cons, List.map_nil, List.mem_cons, List.not_mem_nil, or_false] at ho
    · rcases ho with rfl | rfl
      · exact ⟨by decide, trDirA, by simp [trT], by decide⟩
      · exact absurd h2 (by decide)
    · rcases ho with rfl | rfl | rfl
      · exact absurd (by decide) h1
      · exact absurd (by decide) h1
      · exact ⟨by decide, trDirB, by simp [trT], by decide⟩
    · rcases ho with rfl | rfl <;> exact absurd (by decide) h1
  dots := by
    intro d hd o ho h1
    simp only [trT, List.mem_cons, List.not_mem_nil, or_false] at hd
    rcases hd with rfl | rfl | rfl <;> simp only [trRoot, trDirA, trDirB, plain, List.zipIdx_cons, List.zipIdx_nil, List.map_cons, List.map_nil, List.mem_cons, List.not_mem_nil, or_false] at ho
    · rcases ho with rfl | rfl <;> exact absurd h1 (by decide)
    · rcases ho with rfl | rfl | rfl
      · exact ⟨by decide, rfl, .inl ⟨rfl, by decide⟩⟩
      · exact ⟨by decide, rfl, .inr ⟨rfl, trRoot, by simp [trT], by decide, ⟨0, none, trA⟩, by decide, by decide, by decide, by decide⟩⟩
      · exact absurd h1 (by decide)
    · rcases ho with rfl | rfl
      · exact ⟨by decide, rfl, .inl ⟨rfl, by decide⟩⟩
      · exact ⟨by decide, rfl, .inr ⟨rfl, trDirA, by simp [trT], by decide, ⟨2, none, trB⟩, by decide, by decide, by decide, by decide⟩⟩

end Fpm.Tree
