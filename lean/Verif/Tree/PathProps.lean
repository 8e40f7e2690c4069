import Verif.Tree.Example
/-!
# C81: paths
-/
namespace Fpm.Tree
open Fpm.Fat Fpm.Fat.Spec Fpm.FatFile.Spec Fpm.Lfn Fpm.Names Fpm.Names.Spec Fpm.TextIo.Spec Fpm.FatDir Fpm.FatDir.Spec Fpm.Mount Fpm.Mount.Spec Fpm.DirDev Fpm.DirDev.Spec Fpm.Tree.Spec Fpm.FatSync

/-- On a volume with a tree of directories each path leads to exactly one place. -/
theorem C81_place (v : Vol) (i : Info) (T : List Dir) (F : List (List Nat)) (s : St) (h : Tree v i T F s) (cdir : Nat) (hc : ∃ d ∈ T, d.sclust = cdir) (abs : Bool) (l : List (List Nat)) :
    ∃ G, Resolves v T cdir abs l G ∧ ∀ G', Resolves v T cdir abs l G' → G' = G := by
  obtain ⟨d, hd, hdz⟩ : ∃ d ∈ T, d.sclust = (if abs then 0 else cdir) := by
    split
    · exact h.root
    · exact hc
  by_cases hl : l = []
  · subst hl
    refine ⟨.self d, ⟨d, hd, hdz, .inl ⟨rfl, rfl⟩⟩, fun G' ⟨d', hd', hdz', h'⟩ => ?_⟩
    cases dir_unique h.once hd' hd (hdz'.trans hdz.symm)
    rcases h' with ⟨-, h'⟩ | h'
    · exact h'
    · cases h'
  · obtain ⟨G, hG⟩ := leads_exists h hd hl
    refine ⟨G, ⟨d, hd, hdz, .inr hG⟩, fun G' ⟨d', hd', hdz', h'⟩ => ?_⟩
    cases dir_unique h.once hd' hd (hdz'.trans hdz.symm)
    rcases h' with ⟨h', -⟩ | h'
    · exact absurd h' hl
    · exact leads_unique h hd h' hG

/-- Following a path changes nothing, and ends where the path leads: at the entry of the object, at the directory itself, at the directory where the name is free with the name ready to be registered, or with the
error for a bad name or a missing directory.  Only a failing device can prevent it. -/
theorem C81_follow (v : Vol) (i : Info) (hr : Ready v i) (T : List Dir) (F : List (List Nat)) (s : St) (h : Tree v i T F s) (cdir : Nat) (hc : ∃ d ∈ T, d.sclust = cdir) (path : List Nat) (abs : Bool)
    (l : List (List Nat)) (hp : PathOf path abs l) (dp : Dp) (buf : List Nat) (hb : buf.length = 256) (G : Goal) (hG : Resolves v T cdir abs l G) :
    Tree v i T F (followPath v i cdir path s dp buf).st ∧ (∀ n, ¬ Fat2 v n → view (followPath v i cdir path s dp buf).st n = view s n) ∧
    ((followPath v i cdir path s dp buf).res = FR_DISK_ERR ∧ ¬ Sound v ∨ Arrived v i (followPath v i cdir path s dp buf) G) := by
  obtain ⟨q, h1⟩ := follow_spec hr h hc hp dp hb
  generalize followPath v i cdir path s dp buf = f at q h1
  refine ⟨tree_quiet hr q h, q.same, ?_⟩
  rcases h1 with h1 | ⟨G', h1, h2⟩
  · exact .inl h1
  · right
    obtain ⟨G0, -, hu⟩ := C81_place v i T F s h cdir hc abs l
    cases (hu G' h1).trans (hu G hG).symm
    cases G with
    | badName => exact h2
    | noPath => exact h2
    | free d cs => exact ⟨h2.1, h2.2.2.1, h2.2.2.2.1⟩
    | self d => exact ⟨h2.1, h2.2.2.1, by rw [h2.2.2.2]; decide⟩
    | object d cs o =>
      obtain ⟨c1, -, c2, -, c3, -, -, -, c4, -, c5, -⟩ := h2
      obtain ⟨-, b1, b2⟩ := named_bits c3
      exact ⟨c1, c2, b2, b1, c4, c5⟩

/-! `/A/b` leads to the object `B`, `..\..\x.c/` from the directory `B` to `X.C`; there is no directory `c` for `c/d`. -/

theorem tr_calls_a : Calls [65] ⟨0, none, trA⟩ := by
  unfold Calls
  rw [if_neg (by decide)]
  exact .inr ⟨[65], [], ⟨by decide, by decide, by decide, by decide, by decide, by decide⟩, by decide⟩

theorem tr_calls_b : Calls [98] ⟨2, none, trB⟩ := by
  unfold Calls
  rw [if_neg (by decide)]
  exact .inr ⟨[98], [], ⟨by decide, by decide, by decide, by decide, by decide, by decide⟩, by decide⟩

theorem tr_path : PathOf [47, 65, 47, 98, 0] true [[65], [98]] :=
  .segs (z := [47]) (p := [65, 47, 98, 0]) (by decide) (.cons (cs := [65]) (t := [47, 98, 0]) (rest := [98, 0]) (by decide) (by decide)
    (.sep (s := [47]) (b := 98) (z := [0]) (by decide) (by decide) (by decide) (by decide)) (.last (cs := [98]) (t := [0]) (rest := []) (by decide) (by decide) (.fin (by decide))))

theorem tr_resolves : Resolves trV trT 5 true [[65], [98]] (.object trDirA [98] ⟨2, none, trB⟩) :=
  ⟨trRoot, by simp [trT], rfl, .inr (.enter (o := ⟨0, none, trA⟩) (d' := trDirA) (by decide) (by decide) tr_calls_a (by decide) (by simp [trT]) (by decide) (.object (by decide) (by decide) tr_calls_b))⟩

example : Ready trV trI ∧ Tree trV trI trT trF trS ∧ (∃ d ∈ trT, d.sclust = 5) ∧ PathOf [47, 65, 47, 98, 0] true [[65], [98]] ∧ (List.replicate 256 7).length = 256 ∧
    Resolves trV trT 5 true [[65], [98]] (.object trDirA [98] ⟨2, none, trB⟩) := ⟨tr_ready, tr_tree, ⟨trDirB, by simp [trT], rfl⟩, tr_path, List.length_replicate, tr_resolves⟩

example : (followPath trV trI 5 [47, 65, 47, 98, 0] trS trDp (List.replicate 256 7)).res = FR_OK ∧ (followPath trV trI 5 [47, 65, 47, 98, 0] trS trDp (List.replicate 256 7)).dp = ⟨2, 64, 3, 5⟩ ∧
    (followPath trV trI 5 [46, 46, 92, 46, 46, 92, 120, 46, 99, 47, 0] trS trDp (List.replicate 256 7)).dp.dptr = 32 ∧ (followPath trV trI 2 [99, 47, 100, 0] trS trDp (List.replicate 256 7)).res = FR_NO_PATH := by decide +kernel

/-- Whatever bytes a path has, it is followed without undefined behaviour and without end, nothing changes, and the result is one of five. -/
theorem C81_bytes (v : Vol) (i : Info) (hr : Ready v i) (T : List Dir) (F : List (List Nat)) (s : St) (h : Tree v i T F s) (cdir : Nat) (hc : ∃ d ∈ T, d.sclust = cdir) (path : List Nat) (h0 : 0 ∈ path)
    (hp : ∀ b ∈ path, b < 256) (dp : Dp) (buf : List Nat) (hb : buf.length = 256) :
    Tree v i T F (followPath v i cdir path s dp buf).st ∧ (∀ n, ¬ Fat2 v n → view (followPath v i cdir path s dp buf).st n = view s n) ∧
    ((followPath v i cdir path s dp buf).res = FR_DISK_ERR ∧ ¬ Sound v ∨ (followPath v i cdir path s dp buf).res ∈ [FR_OK, FR_NO_FILE, FR_NO_PATH, FR_INVALID_NAME]) := by
  obtain ⟨q, h1⟩ := follow_bytes hr h hc h0 hp dp hb
  refine ⟨tree_quiet hr q h, q.same, ?_⟩
  generalize followPath v i cdir path s dp buf = f at q h1
  rcases h1 with h1 | ⟨G, h1⟩
  · exact .inl h1
  · right
    cases G with
    | badName => have h1 : f.res = FR_INVALID_NAME := h1; rw [h1]; decide
    | noPath => have h1 : f.res = FR_NO_PATH := h1; rw [h1]; decide
    | free d cs => rw [h1.1]; decide
    | self d => rw [h1.1]; decide
    | object d cs o => rw [h1.1]; decide

example : Ready trV trI ∧ Tree trV trI trT trF trS ∧ (∃ d ∈ trT, d.sclust = 5) ∧ (0 : Nat) ∈ [47, 0xC3, 0x28, 92, 0] ∧ (∀ b ∈ [47, 0xC3, 0x28, 92, 0], b < 256) := ⟨tr_ready, tr_tree, ⟨trDirB, by simp [trT], rfl⟩, by decide, by decide⟩

end Fpm.Tree
