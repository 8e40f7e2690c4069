import Verif.Tree.UnlinkLemmas
import Verif.Tree.PathProps
/-!
# C82: removing objects
-/
namespace Fpm.Tree
open Fpm.Fat Fpm.Fat.Spec Fpm.FatFile Fpm.FatFile.Spec Fpm.Lfn Fpm.Names Fpm.Names.Spec Fpm.TextIo.Spec Fpm.FatDir Fpm.FatDir.Spec Fpm.Mount Fpm.Mount.Spec Fpm.DirDev Fpm.DirDev.Spec Fpm.Tree.Spec Fpm.FatSync

/-- Removing what a path leads to either changes nothing, for one of the reasons of the specification, or the object is one that can be removed, and it is gone: with its clusters, and with the (empty) directory it
leads to; nothing else has changed, the current directory is still there, and all is on the device. -/
theorem C82_unlink (v : Vol) (i : Info) (hr : Ready v i) (hbig : i.fsi ≠ none → 512 ≤ v.ss) (hs : Sound v) (T : List Dir) (F : List (List Nat)) (s : St) (h : Tree v i T F s) (cdir : Nat) (hc : ∃ d ∈ T, d.sclust = cdir)
    (share : Dp → Nat) (path : List Nat) (abs : Bool) (l : List (List Nat)) (hp : PathOf path abs l) (dp : Dp) (buf : List Nat) (hb : buf.length = 256) (G : Goal) (hG : Resolves v T cdir abs l G) (p : St × Nat)
    (hu : p = fUnlink v i cdir share path s dp buf) :
    Refused v i T cdir share p.2 G ∧ Tree v i T F p.1 ∧ (∀ n, ¬ Fat2 v n → view p.1 n = view s n) ∨
    ∃ d cs o, G = .object d cs o ∧ ¬ DotName cs ∧ ¬ Protected v T cdir o ∧ (∃ dp' : Dp, dp'.sclust = d.sclust ∧ At v i d.loc o.pos dp' ∧ share dp' = FR_OK) ∧ p.2 = FR_OK ∧ p.1.wflag = false ∧
      ∃ T1 F1 T2 F2, T.Perm T1 ∧ F.Perm F1 ∧ Unlinked v d o T1 F1 T2 F2 ∧ Tree v i T2 F2 p.1 ∧ (∃ d ∈ T2, d.sclust = cdir) ∧ ∀ l ∈ F2, ∀ n ∈ secs v l, view p.1 n = view s n := by
  rcases unlink_cases hr h hc share hp dp hb hG hu with ⟨q, h1⟩ | ⟨d, cs, o, s1, dp1, buf1, fn1, fl1, blk, rfl, q, hri, hu⟩
  · exact .inl ⟨h1.resolve_left fun hx => hx.2 hs, tree_quiet hr q h, q.same⟩
  obtain ⟨R, hT, hdir⟩ := ripe_perm hri
  have ht := tree_perm hT (.refl _) hri.tree
  obtain ⟨h1, h2, h3⟩ := remove_tree hr ht hri.start hri.obj hri.place hri.name hri.means hri.find
  generalize dirRemove v i s1 dp1 (blk.map (32 * ·)) = r at h1 h2 h3 hu
  rcases h3 with ⟨-, h3⟩ | ⟨h3, x, y, hos, h4, -⟩
  · exact absurd hs h3
  obtain ⟨m, R', F', hm, hmid, hno, -, F1, hF, hun, hsub, -⟩ := mid_tree ht hri.nodots hos h1 h4 fun hx => ⟨(hdir hx).1, (hdir hx).2.2⟩
  obtain ⟨k1, k2, k3, k4⟩ := chain_tree hr hbig hs h3 hmid hno
  rw [← hm, ← hu] at k1 k2 k3 k4
  refine .inr ⟨d, cs, o, rfl, hri.nodot, hri.free, ⟨dp1, hri.start, hri.place, hri.share⟩, k1, k3, _, F1, _, F', hT, hF, hun, k2, ?_, fun l hl n hn => ?_⟩
  · obtain ⟨d2, hd2, e2⟩ := hc
    exact unlinked_cdir hun (fun hx => (hdir hx).2.1) ⟨d2, hT.mem_iff.mp hd2, e2⟩
  · exact (k4 l hl n hn).trans (((apart_dirs hr ht h2).2 l (hsub l hl) n hn).trans (q.same n (chain_secs hr (h.chains.chain l (by simp [hsub l hl])) hn).2.1))

/-- Whatever the device does: if anything is written at all, it is an object that can be removed; success means that it is gone, failure that the device has failed.  All other directories, the data of all files, and the
links of all chains but that of the object stay as they are. -/
theorem C82_others (v : Vol) (i : Info) (hr : Ready v i) (hbig : i.fsi ≠ none → 512 ≤ v.ss) (T : List Dir) (F : List (List Nat)) (s : St) (h : Tree v i T F s) (cdir : Nat) (hc : ∃ d ∈ T, d.sclust = cdir)
    (share : Dp → Nat) (path : List Nat) (abs : Bool) (l : List (List Nat)) (hp : PathOf path abs l) (dp : Dp) (buf : List Nat) (hb : buf.length = 256) (G : Goal) (hG : Resolves v T cdir abs l G) (p : St × Nat)
    (hu : p = fUnlink v i cdir share path s dp buf) :
    (p.2 = FR_DISK_ERR ∧ ¬ Sound v ∨ Refused v i T cdir share p.2 G) ∧ Tree v i T F p.1 ∧ (∀ n, ¬ Fat2 v n → view p.1 n = view s n) ∨
    ∃ d cs o, G = .object d cs o ∧ ¬ DotName cs ∧ ¬ Protected v T cdir o ∧ (p.2 = FR_OK ∨ p.2 = FR_DISK_ERR ∧ ¬ Sound v) ∧ (p.2 = FR_OK → ∃ x y, d.os = x ++ o :: y ∧ DirOk v i p.1 { d with os := x ++ y }) ∧
      (∀ d' ∈ T, d' ≠ d → DirOk v i p.1 d') ∧ (∀ l ∈ F, ∀ n ∈ secs v l, view p.1 n = view s n) ∧ ∀ l ∈ dirChains T ++ F, l.headD 0 ≠ first v o → Links v.nFatent (tab v p.1) l := by
  rcases unlink_cases hr h hc share hp dp hb hG hu with ⟨q, h1⟩ | ⟨d, cs, o, s1, dp1, buf1, fn1, fl1, blk, rfl, q, hri, hu⟩
  · exact .inl ⟨h1, tree_quiet hr q h, q.same⟩
  obtain ⟨R, hT, hdir⟩ := ripe_perm hri
  have ht := tree_perm hT (.refl _) hri.tree
  obtain ⟨h1, h2, h3⟩ := remove_tree hr ht hri.start hri.obj hri.place hri.name hri.means hri.find
  generalize dirRemove v i s1 dp1 (blk.map (32 * ·)) = r at h1 h2 h3 hu
  obtain ⟨a1, a2⟩ := apart_dirs hr ht h2
  refine .inr ⟨d, cs, o, rfl, hri.nodot, hri.free, ?_⟩
  have hmemR : ∀ d' ∈ T, d' ≠ d → d' ∈ R := fun d' hd' hne => (List.mem_cons.mp (hT.mem_iff.mp hd')).resolve_left hne
  have hfile : ∀ l ∈ F, ∀ n ∈ secs v l, ¬ Fat1 v n ∧ ¬ Fat2 v n ∧ v.database ≤ n := fun l hl n hn => chain_secs hr (h.chains.chain l (by simp [hl])) hn
  have hmem : ∀ l, l ∈ dirChains T ++ F ↔ l ∈ dirChains (d :: R) ++ F := fun l => by
    simp only [List.mem_append]
    rw [show l ∈ dirChains T ↔ l ∈ dirChains (d :: R) from (hT.flatMap_right _).mem_iff]
  rcases h3 with ⟨h3, h3'⟩ | ⟨h3, x, y, hos, h4, -⟩
  · unfold unlinkChain at hu
    rw [if_neg (by rw [h3]; decide), h3] at hu
    subst hu
    refine ⟨.inr ⟨rfl, h3'⟩, fun hx => (by cases hx), fun d' hd' hne => a1 d' (hmemR d' hd' hne), fun l hl n hn => (a2 l hl n hn).trans (q.same n (hfile l hl n hn).2.1), fun l hl _ => ?_⟩
    have e := allchains_cons R F d d.loc d.os
    exact h1.chains.chain l (by rw [e]; exact (hmem l).mp hl)
  · obtain ⟨m, R', F', hm, hmid, hno, hl', F1, hF, hun, hsub, -⟩ := mid_tree ht hri.nodots hos h1 h4 fun hx => ⟨(hdir hx).1, (hdir hx).2.2⟩
    rw [hm] at hu
    obtain ⟨k1, k2, k3⟩ := chain_any hr hbig h3 hmid hno hu
    refine ⟨k1, fun _ => ⟨x, y, hos, ?_⟩, fun d' hd' hne => ?_, fun l hl n hn => ?_, fun l hl hne => k3 l (hl' l ((hmem l).mp hl) hne)⟩
    · exact dirok_base hr (d := { d with os := x ++ y }) (show Linked v _ d.loc from tree_linked h hri.mem) k2 (h4 _ List.mem_cons_self)
    · exact dirok_base hr (tree_linked h hd') k2 (a1 d' (hmemR d' hd' hne))
    · obtain ⟨b1, b2, b3⟩ := hfile l hl n hn
      have := hr.data.base
      exact (k2 n (by omega) b1 b2).trans ((a2 l hl n hn).trans (q.same n b2))

/-! The empty directory `/A/b` and the file `X.C` can be removed, the directory `A` cannot. -/

example : Ready trV trI ∧ (trI.fsi ≠ none → 512 ≤ trV.ss) ∧ Sound trV ∧ Tree trV trI trT trF trS ∧ (∃ d ∈ trT, d.sclust = 0) ∧ PathOf [47, 65, 47, 98, 0] true [[65], [98]] ∧
    Resolves trV trT 0 true [[65], [98]] (.object trDirA [98] ⟨2, none, trB⟩) ∧ ¬ Protected trV trT 0 ⟨2, none, trB⟩ := by
  refine ⟨tr_ready, fun h => absurd rfl h, tr_sound, tr_tree, ⟨trRoot, by simp [trT], rfl⟩, tr_path, ?_, ?_⟩
  · exact ⟨trRoot, by simp [trT], rfl, .inr (.enter (o := ⟨0, none, trA⟩) (d' := trDirA) (by decide) (by decide) tr_calls_a (by decide) (by simp [trT]) (by decide) (.object (by decide) (by decide) tr_calls_b))⟩
  · unfold Protected Vacant
    decide

example : (fUnlink trV trI 0 (fun _ => 0) [47, 65, 47, 98, 0] trS trDp (List.replicate 256 7)).2 = FR_OK ∧ (fUnlink trV trI 0 (fun _ => 0) [120, 46, 99, 0] trS trDp (List.replicate 256 7)).2 = FR_OK ∧
    (fUnlink trV trI 0 (fun _ => 0) [97, 0] trS trDp (List.replicate 256 7)).2 = DirDev.FR_DENIED ∧ (fUnlink trV trI 5 (fun _ => 0) [47, 65, 47, 98, 0] trS trDp (List.replicate 256 7)).2 = DirDev.FR_DENIED ∧
    (fUnlink trV trI 0 (fun _ => 0) [120, 46, 99, 0] trS trDp (List.replicate 256 7)).1.freeClst = 3 := by decide +kernel

end Fpm.Tree
