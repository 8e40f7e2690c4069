import Verif.Tree.CwdLemmas
import Verif.Tree.HistProps
/-!
# C91: the current directory as a path
-/
namespace Fpm.Tree
open Fpm.Fat Fpm.Fat.Spec Fpm.FatFile.Spec Fpm.Lfn Fpm.Names Fpm.Names.Spec Fpm.TextIo.Spec Fpm.FatDir Fpm.FatDir.Spec Fpm.Mount Fpm.Mount.Spec Fpm.DirDev Fpm.DirDev.Spec Fpm.Tree.Spec Fpm.FatSync

/-- `f_getcwd` does not access bytes outside of its buffer, whatever is on the device, if the buffer has at least one byte. -/
theorem C91_safe (v : Vol) (i : Info) (cdir : Nat) (vp : List Nat) (s : St) (dp : Dp) (buf out : List Nat) (h : 1 ≤ out.length) :
    ∃ out', (fGetcwd v i cdir vp s dp buf out).2.2 = some out' ∧ out'.length = out.length := by
  unfold fGetcwd
  obtain ⟨o1, e1, hl1, -⟩ := putZero_spec h
  rw [e1]
  simp only
  obtain ⟨o2, e2, hl2, hp⟩ := climb_safe v i (o1.length + 1) s { dp with sclust := cdir } buf o1 o1.length (Nat.le_refl _)
  obtain ⟨o3, e3, hl3⟩ := end_safe vp e2 (by omega) (by omega)
  exact ⟨o3, e3, by omega⟩

example : ∀ (v : Vol) (i : Info) (s : St) (dp : Dp), (fGetcwd v i 2 [115, 100] s dp [] []).2.2 = none := fun _ _ _ _ => rfl

/-- `f_getcwd` changes nothing.  It gives the name of the disk and the path from the root directory to the current directory, by the names that listings show, or says that the buffer is too small; with that error, or
an error of the device, the string is empty. -/
theorem C91_getcwd (v : Vol) (i : Info) (hr : Ready v i) (T : List Dir) (F : List (List Nat)) (s : St) (cdir : Nat) (h : InOrder v i T F ⟨s, cdir⟩) (vp : List Nat) (dp : Dp) (buf out : List Nat) (hb : buf.length = 256)
    (h1 : 1 ≤ out.length) (r : St × Nat × Option (List Nat)) (he : r = fGetcwd v i cdir vp s dp buf out) :
    InOrder v i T F ⟨r.1, cdir⟩ ∧ (∀ n, ¬ Fat2 v n → view r.1 n = view s n) ∧ ∃ out', r.2.2 = some out' ∧
      (r.2.1 = FR_DISK_ERR ∧ ¬ Sound v ∧ NoText out.length out' ∨
       r.2.1 = FR_OK ∧ (∃ names, Trail v T cdir names ∧ Fits vp out.length names ∧ Tells vp out.length names out') ∨
       r.2.1 = FR_NOT_ENOUGH_CORE ∧ NoText out.length out' ∧ ∀ l, PathTo v T cdir l → ¬ Fits vp out.length (l.map text)) := by
  subst he
  unfold fGetcwd
  obtain ⟨o1, e1, hl1, -⟩ := putZero_spec h1
  rw [e1]
  simp only
  obtain ⟨q, o2, e2, hl2, h2⟩ := climb_spec hr h.dots (o1.length + 1) (dp := { dp with sclust := cdir }) (buf := buf) (out := o1) (j := o1.length) h.tree h.here hb (Nat.le_refl _) (by omega)
  generalize climb v i (o1.length + 1) s { dp with sclust := cdir } buf o1 o1.length = c at q e2 h2
  have hst : (cwdEnd vp c).1 = c.st := by
    unfold cwdEnd
    split
    · rfl
    · split
      · split
        · split <;> rfl
        · rfl
      · rfl
  have herr : c.res ≠ FR_OK → ∃ out', (cwdEnd vp c).2 = (c.res, some out') ∧ NoText out.length out' := by
    intro hne
    obtain ⟨o3, e3, hl3, hz⟩ := putZero_spec (out := o2) (by omega)
    refine ⟨o3, ?_, by omega, hz⟩
    unfold cwdEnd
    rw [e2]
    simp only
    rw [if_neg hne, e3]
  rw [hst]
  refine ⟨⟨tree_quiet hr q h.tree, h.here, h.dots⟩, q.same, ?_⟩
  rcases h2 with ⟨h2, hns⟩ | ⟨h2, names, htr, hn, hd⟩ | ⟨h2, h3⟩
  · obtain ⟨o3, e3, hz⟩ := herr (by rw [h2]; decide)
    rw [e3]
    exact ⟨o3, rfl, .inl ⟨h2, hns, hz⟩⟩
  · rw [List.drop_length, List.append_nil] at hd
    obtain ⟨o3, e3, h4⟩ := end_spec vp e2 h2 (by omega) (by rw [hn, hl2]) hd
    rw [hl2, hl1] at h4
    refine ⟨o3, e3, .inr ?_⟩
    rcases h4 with ⟨h4, h5, h6⟩ | ⟨h4, h5, h6⟩
    · exact .inl ⟨h5, names, htr, h4, h6⟩
    · refine .inr ⟨h5, h6, fun l hl => ?_⟩
      rw [← trail_path h.tree htr hl]
      exact h4
  · obtain ⟨o3, e3, hz⟩ := herr (by rw [h2]; decide)
    rw [e3]
    refine ⟨o3, rfl, .inr (.inr ⟨h2, hz, fun l hl hf => ?_⟩)⟩
    have := h3 l hl
    unfold Fits slashed at hf
    split at hf
    · rename_i hx
      rw [hx] at this
      simp at this
    · omega

/-- If all directories on the way have names that can be listed, the path consists of these names; there is an error just if there is no room for it. -/
theorem C91_path (v : Vol) (i : Info) (hr : Ready v i) (hs : Sound v) (T : List Dir) (F : List (List Nat)) (s : St) (cdir : Nat) (h : InOrder v i T F ⟨s, cdir⟩) (l : List (List Nat)) (hl : PathTo v T cdir l) (vp : List Nat) (dp : Dp)
    (buf out : List Nat) (hb : buf.length = 256) (h1 : 1 ≤ out.length) :
    ∃ out', (fGetcwd v i cdir vp s dp buf out).2.2 = some out' ∧
      (Fits vp out.length (l.map text) → (fGetcwd v i cdir vp s dp buf out).2.1 = FR_OK ∧ Tells vp out.length (l.map text) out') ∧
      (¬ Fits vp out.length (l.map text) → (fGetcwd v i cdir vp s dp buf out).2.1 = FR_NOT_ENOUGH_CORE ∧ NoText out.length out') := by
  obtain ⟨-, -, out', e, h2⟩ := C91_getcwd v i hr T F s cdir h vp dp buf out hb h1 _ rfl
  refine ⟨out', e, ?_⟩
  rcases h2 with ⟨-, hx, -⟩ | ⟨h2, names, h3, h4, h5⟩ | ⟨h2, h3, h4⟩
  · exact absurd hs hx
  · rw [trail_path h.tree h3 hl] at h4 h5
    exact ⟨fun _ => ⟨h2, h5⟩, fun hx => absurd h4 hx⟩
  · exact ⟨fun hx => absurd hx (h4 l hl), fun _ => ⟨h2, h3⟩⟩

/-- Changing to that path from any directory, `f_chdir` comes to the same directory. -/
theorem C91_back (v : Vol) (i : Info) (hr : Ready v i) (hs : Sound v) (T : List Dir) (F : List (List Nat)) (s : St) (h : Tree v i T F s) (n : Nat) (l : List (List Nat)) (hl : PathTo v T n l) (cdir : Nat) (hc : ∃ d ∈ T, d.sclust = cdir)
    (z : List Nat) (dp : Dp) (buf : List Nat) (hb : buf.length = 256) : (fChdir v i cdir (slashed (l.map text) ++ 0 :: z) s dp buf).2 = (n, FR_OK) := by
  obtain ⟨hp, hres⟩ := path_back h hl z
  obtain ⟨G, hG, hto⟩ := hres cdir
  obtain ⟨-, -, h1, -⟩ := C87_chdir v i hr hs T F s h cdir hc _ true l hp dp buf hb G hG _ rfl
  obtain ⟨h2, h3⟩ := hto _ _ h1
  exact Prod.ext h3 h2

/-- In a directory that cannot be reached from the root, because it has been moved into itself (C86), the path has no end: there is the error of a small buffer. -/
theorem C91_lost (v : Vol) (i : Info) (hr : Ready v i) (hs : Sound v) (T : List Dir) (F : List (List Nat)) (s : St) (cdir : Nat) (h : InOrder v i T F ⟨s, cdir⟩) (hw : ¬ Within v T 0 cdir) (vp : List Nat) (dp : Dp) (buf out : List Nat)
    (hb : buf.length = 256) (h1 : 1 ≤ out.length) : (fGetcwd v i cdir vp s dp buf out).2.1 = FR_NOT_ENOUGH_CORE := by
  obtain ⟨-, -, out', e, h2⟩ := C91_getcwd v i hr T F s cdir h vp dp buf out hb h1 _ rfl
  rcases h2 with ⟨-, hx, -⟩ | ⟨-, names, h3, -⟩ | ⟨h2, -⟩
  · exact absurd hs hx
  · exact absurd (trail_within h3) hw
  · exact h2

/-! ## Example -/

/-- The directory `/A/B` of the example. -/
theorem tr_path_to : PathTo trV trT 5 [[65], [66]] := by
  have ha : PathTo trV trT 2 [[65]] := .sub (d := trRoot) (o := ⟨0, none, trA⟩) (l := []) .root (by simp [trT]) (by decide) (by decide) (by decide)
    ⟨by decide, by decide, .inr ⟨.inl rfl, [65], [], ⟨by decide, by decide, by decide, by decide, by decide, by decide⟩, by decide, by decide, by decide, by decide, by decide⟩⟩
  exact .sub (d := trDirA) (o := ⟨2, none, trB⟩) (l := [[65]]) ha (by simp [trT]) (by decide) (by decide) (by decide)
    ⟨by decide, by decide, .inr ⟨.inl rfl, [66], [], ⟨by decide, by decide, by decide, by decide, by decide, by decide⟩, by decide, by decide, by decide, by decide, by decide⟩⟩

theorem tr_in_b : InOrder trV trI trT trF ⟨trS, 5⟩ := ⟨tr_tree, ⟨trDirB, by simp [trT], rfl⟩, tr_order.dots⟩

/-- `f_getcwd` on disk `sd` in the example, with a buffer of so many bytes. -/
def trCwd (cdir : Nat) (s : St) (len : Nat) : Nat × Option (List Nat) := (fGetcwd trV trI cdir [115, 100] s trDp (List.replicate 256 7) (List.replicate len 9)).2

/-- `sd:/A/B`, with no room for it, and `sd:/` -/
example : trCwd 5 trS 10 = (FR_OK, some [115, 100, 58, 47, 65, 47, 66, 0, 47, 66]) ∧ trCwd 5 trS 8 = (FR_OK, some [115, 100, 58, 47, 65, 47, 66, 0]) ∧ trCwd 5 trS 7 = (FR_NOT_ENOUGH_CORE, some [0, 9, 9, 47, 65, 47, 66]) ∧
    trCwd 5 trS 3 = (FR_NOT_ENOUGH_CORE, some [0, 47, 66]) ∧ trCwd 0 trS 5 = (FR_OK, some [115, 100, 58, 47, 0]) ∧ trCwd 0 trS 1 = (FR_NOT_ENOUGH_CORE, some [0]) := by decide +kernel

/-- Hypotheses of the theorems hold for it. -/
example : Ready trV trI ∧ Sound trV ∧ InOrder trV trI trT trF ⟨trS, 5⟩ ∧ PathTo trV trT 5 [[65], [66]] ∧ Fits [115, 100] 8 ([[65], [66]].map text) ∧ ¬ Fits [115, 100] 7 ([[65], [66]].map text) :=
  ⟨tr_ready, tr_sound, tr_in_b, tr_path_to, by unfold Fits; decide, by unfold Fits; decide⟩

/-- The example after directory `A` has been moved to `/A/c`. -/
def trLoop : St := (fRename trV trI 0 (fun _ => 0) [97, 0] [47, 65, 47, 99, 0] trS trDp (List.replicate 256 7)).1

/-- Hypotheses of `C91_lost` hold then, in directory `A`. -/
example : ∃ T', InOrder trV trI T' trF ⟨trLoop, 2⟩ ∧ ¬ Within trV T' 0 2 := by
  obtain ⟨T', h1, h2⟩ := tr_moved
  rw [show (fRename trV trI 0 (fun _ => 0) [97, 0] [47, 65, 47, 99, 0] trS trDp (List.replicate 256 7)).1 = trLoop by unfold trLoop; rfl] at h2
  generalize trLoop = s at h2
  obtain ⟨k1, k2⟩ := dots_renamed (by decide) h1
  exact ⟨T', ⟨h2, here_perm k2 ⟨trDirA, by simp [trT], rfl⟩, second_next h2.once k1 k2 tr_order.dots⟩,
    C86_lost trV trI trT T' trF trF trS s tr_tree h2 trRoot trDirA [99] ⟨0, none, trA⟩ (by simp [trT]) (by decide) (by decide) (by decide) h1 .self 2 .self⟩

/-- The path `/c/c/c...` has no end. -/
example : trCwd 2 trLoop 20 = (FR_NOT_ENOUGH_CORE, some (0 :: 99 :: (List.replicate 9 [47, 99]).flatten)) := by decide +kernel

end Fpm.Tree
