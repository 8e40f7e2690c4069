import Verif.PicoLoad.Props
import Verif.Tree.HistProps
/-!
# A small volume in flash memory

A FAT12 volume with sectors of 4096 bytes, and clusters of one sector.  The root directory has files `X` and `Y` of 4100 bytes and an empty directory `A`.  `X` has clusters 2 and 4, `Y` has 5 and 6.
-/
namespace Fpm.PicoLoad
open Fpm.Fat Fpm.Fat.Spec Fpm.FatFile.Spec Fpm.Lfn Fpm.Names Fpm.Names.Spec Fpm.TextIo.Spec Fpm.FatDir Fpm.FatDir.Spec Fpm.Mount Fpm.Mount.Spec Fpm.DirDev Fpm.DirDev.Spec Fpm.Tree Fpm.Tree.Spec Fpm.Statfs Fpm.Statfs.Spec Fpm.PicoLoad.Spec

def plV : Vol := { ss := 4096, csize := 1, fatbase := 1, fsize := 1, nFats := 1, nFatent := 8, fsType := 1, database := 3, io := fun _ => .ok }
def plI : Info := { volbase := 0, totsec := 9, nRoot := 128, dirbase := 2, fsi := none }

def plEnt (c att cl : Nat) (size : List Nat) : List Nat := pad 11 [c] ++ [att] ++ List.replicate 14 0 ++ [cl, 0] ++ size
def plX : List Nat := plEnt 88 0x20 2 [4, 16, 0, 0]
def plY : List Nat := plEnt 89 0x20 5 [4, 16, 0, 0]
def plA : List Nat := plEnt 65 0x10 3 [0, 0, 0, 0]

def plFat : List Nat := [0xF8, 0xFF, 0xFF, 4, 0xF0, 0xFF, 0xFF, 0x6F, 0, 0xFF, 0x0F, 0]

def plDisk : Disk := fun n =>
  if n = 1 then plFat ++ List.replicate 4084 0 else if n = 2 then plX ++ plY ++ plA ++ List.replicate 4000 0 else if n = 4 then trDot 3 ++ trDots 0 ++ List.replicate 4032 0
  else List.replicate 4096 (n + 46)

def plDisk' : Disk := fun n => if n < 9 then plDisk n else List.replicate 4096 0

def plS : St := { disk := plDisk', past := [], cnt := 0, win := List.replicate 4096 0, winsect := none, wflag := false, lastClst := 2, freeClst := 1, fsiFlag := false }

def plRoot : Dir := ⟨0, .root, plain 0 [plX, plY, plA]⟩
def plDirA : Dir := ⟨3, .chain [3], plain 0 [trDot 3, trDots 0]⟩
def plT : List Dir := [plRoot, plDirA]
def plF : List (List Nat) := [[2, 4], [5, 6]]

theorem pl_ready : Ready plV plI where
  geo := { ss := by decide, nFats := by decide, kind := by decide, size := by decide, pos := by decide, junk := fun _ _ h => by cases h }
  data := { pow := ⟨0, rfl⟩, base := by decide, pos := by decide }
  reserved := by decide
  root := by decide
  root32 := by decide
  inside := by decide
  rest := by decide
  limit := by decide
  kind := by decide
  fsi := fun _ h => by cases h
  whole := by decide

theorem pl_sound : Sound plV := fun _ => rfl

theorem pl_sec {a : List Nat} {n b : Nat} (h : a.length + n = 4096) (ha : ∀ x ∈ a, x < 256) (hb : b < 256) : Sec plV (a ++ List.replicate n b) := by
  refine ⟨by rw [List.length_append, List.length_replicate]; exact h, fun x hx => ?_⟩
  rcases List.mem_append.mp hx with hx | hx
  · exact ha x hx
  · rw [(List.mem_replicate.mp hx).2]; exact hb

theorem pl_fill {b : Nat} (hb : b < 256) : Sec plV (List.replicate 4096 b) := ⟨List.length_replicate, fun x hx => by rw [(List.mem_replicate.mp hx).2]; exact hb⟩

theorem pl_inv : Fat.Spec.Inv plV plS := by
  refine ⟨fun n => ?_, pl_fill (by decide), (fun _ n h => by cases h), (fun h => by cases h), fun n h => by cases h⟩
  show Sec plV (plDisk' n)
  unfold plDisk' plDisk
  split
  · split
    · exact pl_sec (by decide) (by decide) (by decide)
    · split
      · exact pl_sec (by decide) (by decide) (by decide)
      · split
        · exact pl_sec (by decide) (by decide) (by decide)
        · exact pl_fill (by omega)
  · exact pl_fill (by decide)

theorem pl_dirok {sclust : Nat} {loc : Loc} {es : List (List Nat)} (n : Nat) (h1 : Starts plV plI sclust loc) (h2 : entries plV plI (view plS) loc = es ++ List.replicate n blank) (h3 : ∀ e ∈ es, Sfn e)
    (h4 : FatDir.Spec.Table es) (h5 : (plain 0 es).Pairwise fun o o' => o.fn ≠ o'.fn) : DirOk plV plI plS ⟨sclust, loc, plain 0 es⟩ := by
  have hl : ∀ o ∈ plain 0 es, o.long = none := by
    intro o ho
    obtain ⟨p, -, rfl⟩ := List.mem_map.mp ho
    rfl
  exact ⟨h1, by simp only; rw [h2]; exact plain_dir h3 h4, plain_names hl h5, fun o ho => by rw [hl o ho]; exact ⟨(fun h => by cases h), (fun h => by cases h)⟩⟩

theorem pl_tree : Tree plV plI plT plF plS where
  inv := pl_inv
  count := fun _ => by decide +kernel
  chains := by
    have key : ∀ c < 8, 2 ≤ c → tab plV plS c ≠ 0 → c ∈ [3, 2, 4, 5, 6] := by decide +kernel
    refine ⟨fun l hl => ?_, by decide, fun c h2 hc h => key c hc h2 h⟩
    have hl : l ∈ [[3], [2, 4], [5, 6]] := hl
    simp only [List.mem_cons, List.not_mem_nil, or_false] at hl
    rcases hl with rfl | rfl | rfl
    · show 2 ≤ 3 ∧ 3 < 8 ∧ 8 ≤ tab plV plS 3
      decide +kernel
    · show 2 ≤ 2 ∧ 2 < 8 ∧ tab plV plS 2 = 4 ∧ 2 ≤ 4 ∧ 4 < 8 ∧ 8 ≤ tab plV plS 4
      decide +kernel
    · show 2 ≤ 5 ∧ 5 < 8 ∧ tab plV plS 5 = 6 ∧ 2 ≤ 6 ∧ 6 < 8 ∧ 8 ≤ tab plV plS 6
      decide +kernel
  root := ⟨plRoot, by simp [plT], rfl⟩
  once := by decide
  dirs := by
    intro d hd
    simp only [plT, List.mem_cons, List.not_mem_nil, or_false] at hd
    rcases hd with rfl | rfl
    · exact pl_dirok (loc := .root) 125 ⟨rfl, by decide⟩ (by decide +kernel) (by decide) (by unfold FatDir.Spec.Table; decide) (by decide)
    · exact pl_dirok (loc := .chain [3]) 126 ⟨rfl, by decide⟩ (by decide +kernel) (by decide) (by unfold FatDir.Spec.Table; decide) (by decide)
  refs := by decide +kernel
  files := by
    intro d hd o ho h1 h2
    simp only [plT, List.mem_cons, List.not_mem_nil, or_false] at hd
    rcases hd with rfl | rfl <;> simp only [plRoot, plDirA, Tree.plain, List.zipIdx_cons, List.zipIdx_nil, List.map_cons, List.map_nil, List.mem_cons, List.not_mem_nil, or_false] at ho
    · rcases ho with rfl | rfl | rfl
      · exact ⟨[2, 4], .inr (by decide), by decide, by decide⟩
      · exact ⟨[5, 6], .inr (by decide), by decide, by decide⟩
      · exact absurd (by decide) h2
    · rcases ho with rfl | rfl <;> exact absurd (by decide) h2
  subs := by
    intro d hd o ho h1 h2
    simp only [plT, List.mem_cons, List.not_mem_nil, or_false] at hd
    rcases hd with rfl | rfl <;> simp only [plRoot, plDirA, Tree.plain, List.zipIdx_cons, List.zipIdx_nil, List.map_cons, List.map_nil, List.mem_cons, List.not_mem_nil, or_false] at ho
    · rcases ho with rfl | rfl | rfl
      · exact absurd h2 (by decide)
      · exact absurd h2 (by decide)
      · exact ⟨by decide, plDirA, by simp [plT], by decide⟩
    · rcases ho with rfl | rfl <;> exact absurd (by decide) h1
  dots := by
    intro d hd o ho h1
    simp only [plT, List.mem_cons, List.not_mem_nil, or_false] at hd
    rcases hd with rfl | rfl <;> simp only [plRoot, plDirA, Tree.plain, List.zipIdx_cons, List.zipIdx_nil, List.map_cons, List.map_nil, List.mem_cons, List.not_mem_nil, or_false] at ho
    · rcases ho with rfl | rfl | rfl <;> exact absurd h1 (by decide)
    · rcases ho with rfl | rfl
      · exact ⟨by decide, rfl, .inl ⟨rfl, by decide⟩⟩
      · exact ⟨by decide, rfl, .inr ⟨rfl, plRoot, by simp [plT], by decide, ⟨2, none, plA⟩, by decide, by decide, by decide, by decide⟩⟩

theorem pl_path (c : Nat) (hc : c = 120 ∨ c = 121 ∨ c = 97) : PathOf [47, c, 0] true [[c]] := by
  rcases hc with rfl | rfl | rfl
  · exact .segs (z := [47]) (p := [120, 0]) (by decide) (.last (cs := [120]) (t := [0]) (rest := []) (by decide) (by decide) (.fin (by decide)))
  · exact .segs (z := [47]) (p := [121, 0]) (by decide) (.last (cs := [121]) (t := [0]) (rest := []) (by decide) (by decide) (.fin (by decide)))
  · exact .segs (z := [47]) (p := [97, 0]) (by decide) (.last (cs := [97]) (t := [0]) (rest := []) (by decide) (by decide) (.fin (by decide)))

theorem pl_leads_x : Resolves plV plT 0 true [[120]] (.object plRoot [120] ⟨0, none, plX⟩) := by
  refine ⟨plRoot, by simp [plT], rfl, .inr (.object (by decide) (by decide) ?_)⟩
  unfold Calls
  rw [if_neg (by decide)]
  exact .inr ⟨[120], [], ⟨by decide, by decide, by decide, by decide, by decide, by decide⟩, by decide⟩

theorem pl_leads_y : Resolves plV plT 0 true [[121]] (.object plRoot [121] ⟨1, none, plY⟩) := by
  refine ⟨plRoot, by simp [plT], rfl, .inr (.object (by decide) (by decide) ?_)⟩
  unfold Calls
  rw [if_neg (by decide)]
  exact .inr ⟨[121], [], ⟨by decide, by decide, by decide, by decide, by decide, by decide⟩, by decide⟩

theorem pl_leads_a : Resolves plV plT 0 true [[97]] (.object plRoot [97] ⟨2, none, plA⟩) := by
  refine ⟨plRoot, by simp [plT], rfl, .inr (.object (by decide) (by decide) ?_)⟩
  unfold Calls
  rw [if_neg (by decide)]
  exact .inr ⟨[97], [], ⟨by decide, by decide, by decide, by decide, by decide, by decide⟩, by decide⟩

def plOld : FInfo := ⟨[], 0, 0, 0, 0, 7⟩

/-- File `X` is taken from the place of its first cluster, where other bytes than its own follow. -/
theorem C90_violated : ¬ C90_full := by
  intro hx
  have hroot : ∃ d ∈ plT, d.sclust = 0 := ⟨plRoot, by simp [plT], rfl⟩
  obtain ⟨-, -, h1, h2⟩ := C90_outcome plV plI pl_ready pl_sound (by decide) plT plF plS pl_tree (fun h => absurd rfl h) 0 hroot [47, 120, 0] true [[120]] (pl_path 120 (by decide)) trDp (List.replicate 256 7) List.length_replicate plOld _ pl_leads_x _ rfl
  have h2 := h2 (by decide)
  rw [if_neg (by decide)] at h2
  obtain ⟨d, cs, o, m, h3, -, h4, h5, h6⟩ := hx plV plI pl_ready pl_sound rfl (by decide) plT plF plS pl_tree (fun h => absurd rfl h) rfl 0 hroot [47, 120, 0] true [[120]] (pl_path 120 (by decide)) trDp (List.replicate 256 7)
    List.length_replicate plOld _ h2
  obtain ⟨G, -, hun⟩ := C81_place plV plI plT plF plS pl_tree 0 hroot true [[120]]
  cases (hun _ h3).trans (hun _ pl_leads_x).symm
  have hm : m = [2, 4] := by
    rcases h4 with rfl | h4
    · exact absurd h5 (by decide)
    · simp only [plF, List.mem_cons, List.not_mem_nil, or_false] at h4
      rcases h4 with rfl | rfl
      · rfl
      · exact absurd h5 (by decide)
  subst hm
  have h7 := h6 4096 (by decide +kernel)
  unfold image at h7
  have e : ((plV.database + plV.csize * (first plV ⟨0, none, plX⟩ - 2)) * (plV.ss * plV.csize) % 2 ^ 32 + 4096) / 4096 = 4 := by decide +kernel
  rw [e, h1 rfl 4 (by intro h; exact absurd h.1 (by decide))] at h7
  exact absurd h7 (by decide +kernel)

/-- The statement: directories are not taken for programs. -/
def C90_kind_full : Prop := ∀ (v : Vol) (i : Info), Ready v i → Sound v → v.ss = 4096 → (i.volbase + i.totsec) * 4096 < 2 ^ 32 → ∀ (T : List Dir) (F : List (List Nat)) (s : St), Tree v i T F s →
  ∀ cdir, (∃ d ∈ T, d.sclust = cdir) → ∀ (path : List Nat) (abs : Bool) (l : List (List Nat)), PathOf path abs l → ∀ (dp : Dp) (buf : List Nat), buf.length = 256 → ∀ (old : FInfo) (d : Dir) (cs : List Nat) (o : Obj),
  Resolves v T cdir abs l (.object d cs o) → IsDir o → ∀ off, (loadArch v i cdir path s dp buf old).2 ≠ .base off

/-- A directory is taken for a program, at a place that depends on what happens to be in memory. -/
theorem C90_kind_violated : ¬ C90_kind_full := by
  intro hx
  refine hx plV plI pl_ready pl_sound rfl (by decide) plT plF plS pl_tree 0 ⟨plRoot, by simp [plT], rfl⟩ [47, 97, 0] true [[97]] (pl_path 97 (by decide)) trDp (List.replicate 256 7) List.length_replicate plOld _ _ _ pl_leads_a (by decide) 28672 ?_
  decide +kernel

/-- The hypotheses of `C90_place_partial`. -/
example : Ready plV plI ∧ Sound plV ∧ plV.ss = 4096 ∧ plV.csize = 1 ∧ (plI.volbase + plI.totsec) * 4096 < 2 ^ 32 ∧ Tree plV plI plT plF plS ∧ plS.wflag = false ∧ (∃ d ∈ plT, d.sclust = 0) ∧ PathOf [47, 121, 0] true [[121]] ∧
    Resolves plV plT 0 true [[121]] (.object plRoot [121] ⟨1, none, plY⟩) ∧ ¬ IsDir ⟨1, none, plY⟩ ∧ [5, 6] ∈ plF ∧ first plV ⟨1, none, plY⟩ = 5 ∧ Consecutive [5, 6] ∧ (bytesOf plV plS [5, 6] ⟨1, none, plY⟩).length = 4100 :=
  ⟨pl_ready, pl_sound, rfl, rfl, by decide, pl_tree, rfl, ⟨plRoot, by simp [plT], rfl⟩, pl_path 121 (by decide), pl_leads_y, by decide, by decide, by decide, by unfold Consecutive; decide, by decide +kernel⟩

example : (loadArch plV plI 0 [47, 121, 0] plS trDp (List.replicate 256 7) plOld).2 = .base (6 * 4096) := by decide +kernel

end Fpm.PicoLoad
