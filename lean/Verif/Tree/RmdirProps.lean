import Verif.Tree.RmdirSpec
import Verif.Tree.MvLemmas
import Verif.Tree.RmProps
/-!
# C129: the command rmdir
-/
namespace Fpm.Tree
open Fpm.Fat Fpm.Fat.Spec Fpm.FatFile.Spec Fpm.Lfn Fpm.Names Fpm.Names.Spec Fpm.TextIo.Spec Fpm.FatDir Fpm.FatDir.Spec Fpm.Mount Fpm.Mount.Spec Fpm.DirDev Fpm.DirDev.Spec Fpm.Tree.Spec Fpm.FatSync
open Fpm.FatLock (Sem Key chkShare)

/-- For one path: the volume stays in order, the data of all files stay, and the end is one that `rmdir` should have. -/
theorem C129_one (g : Env) (hr : Ready g.v g.i) (hbig : g.i.fsi ≠ none → 512 ≤ g.v.ss) (hs : Sound g.v) (hfs : g.fs ≠ 0) (hold : ∀ n, (g.old n).2.length = 256) (T : List Dir) (F : List (List Nat)) (r : Rd) (h : Tree g.v g.i T F r.st)
    (hc : ∃ d ∈ T, d.sclust = g.cdir) (files : List Sem) (info : FInfo) (path : List Nat) (abs : Bool) (l : List (List Nat)) (hp : PathOf (path ++ [0]) abs l) (G : Goal) (hG : Resolves g.v T g.cdir abs l G) (x : Rd) (hx : x = rdOne g files info path r) :
    ∃ T' ms, x.msgs = r.msgs ++ ms ∧ RdEnd g.v files g.fs g.cdir T G ms T' ∧ Tree g.v g.i T' F x.st ∧ (∃ d ∈ T', d.sclust = g.cdir) ∧ SameData g.v F r.st x.st ∧ (ms = [] → x.st.wflag = false) := by
  obtain ⟨h1, h2, h3⟩ := C88_stat g.v g.i hr T F r.st h g.cdir hc _ abs l hp (g.old r.n).1 (g.old r.n).2 (hold r.n) info G hG _ rfl
  have h3 := h3.resolve_left fun hx => hx.2.2 hs
  unfold rdOne at hx
  generalize fStat g.v g.i g.cdir (path ++ [0]) r.st (g.old r.n).1 (g.old r.n).2 info = q at h1 h2 h3 hx
  have hd1 : SameData g.v F r.st q.1 := alike_fat hr h h2
  unfold rdSeen at hx
  by_cases hq : q.2.1 = FR_OK
  · rw [if_neg (fun hn => hn hq)] at hx
    obtain ⟨d, cs, o, rfl⟩ := stated_object h3 hq
    obtain ⟨-, inf, he, htold, -⟩ := h3
    obtain ⟨hd, ho, hcall⟩ := resolves_object hG
    have hat : inf.attr &&& 0x10 = byte o.entry 11 &&& 0x10 := by
      rw [htold.attr, ← (attr_bits _ (byte_lt (obj_ent (h.dirs d hd).dir ho).2 11)).1, show 0x3F = 2 ^ 6 - 1 from rfl, Nat.and_two_pow_sub_one_eq_mod]
    rw [he] at hx
    simp only [hat] at hx
    split at hx
    · rename_i hdir
      subst hx
      exact ⟨T, _, rfl, .file fun hn => hn hdir, h1, hc, hd1, fun hn => by cases hn⟩
    · rename_i hdir
      have hdir : IsDir o := hdir
      have key := C82_unlink g.v g.i hr hbig hs T F q.1 h1 g.cdir hc (fun dp => chkShare files (keyOf g.fs dp) 2) (path ++ [0]) abs l hp (g.old (r.n + 1)).1 (g.old (r.n + 1)).2 (hold _) _ hG _ rfl
      generalize fUnlink g.v g.i g.cdir (fun dp => chkShare files (keyOf g.fs dp) 2) (path ++ [0]) q.1 (g.old (r.n + 1)).1 (g.old (r.n + 1)).2 = p at key hx
      unfold rdSaid at hx
      rcases key with ⟨k1, k2, k3⟩ | ⟨d1, cs1, o1, e, hcs, hpro, ⟨dp, hdp, hpl, hsh⟩, hres, hw, T1, F1, T2, F2, hT, hF, hun, ht, hc2, hv⟩
      · have hd2 : SameData g.v F r.st p.1 := same_trans' hd1 (alike_fat hr h1 k3)
        rcases k1 with ⟨a1, a2⟩ | ⟨a1, dp, a2, a3, a4, a5⟩ | ⟨a1, a2, a3⟩
        · rw [if_pos (by rw [a2]; decide)] at hx
          subst hx
          refine ⟨T, _, rfl, ?_, k2, hc, hd2, fun hn => by cases hn⟩
          rw [a2]
          exact .dots hdir a1
        · rcases chk_remove (k := keyOf g.fs dp) hfs files with ⟨e, -⟩ | ⟨e, y, hy, e'⟩
          · exact absurd e a4
          · have hp2 : p.2 = 16 := a5.trans e
            rw [if_pos (by rw [hp2]; decide)] at hx
            subst hx
            refine ⟨T, _, rfl, ?_, k2, hc, hd2, fun hn => by cases hn⟩
            rw [hp2]
            exact .used hdir a1 ⟨y, hy, by rw [e', keyOf, a2, a3.dptr]⟩
        · rw [if_pos (by rw [a3]; decide)] at hx
          subst hx
          refine ⟨T, _, rfl, ?_, k2, hc, hd2, fun hn => by cases hn⟩
          rw [a3]
          exact .kept hdir a1 (a2.imp id fun hn => hn.2)
      · cases e
        rw [if_neg (fun hn => hn hres)] at hx
        subst hx
        have hu : ¬ InUse files g.fs d o := by
          rintro ⟨y, hy, e⟩
          rcases chk_remove (k := keyOf g.fs dp) hfs files with ⟨-, e'⟩ | ⟨e', -⟩
          · refine e' y hy ?_
            rw [e, keyOf, hdp, hpl.dptr]
          · exact absurd (hsh.symm.trans e') (by decide)
        have hidle : MayGo g.v files g.fs g.cdir T d cs o := by
          refine ⟨hdir, hcs, hu, fun hn => hpro (.inl hn), fun hn => hpro (.inr ⟨hdir, .inl hn⟩), ?_⟩
          by_cases hv : Vacant g.v T o
          · exact hv
          · exact absurd (.inr ⟨hdir, .inr hv⟩) hpro
        cases hun with
        | empty _ hn => exact absurd hdir hn
        | file _ hn => exact absurd hdir hn
        | dir hos _ hsc =>
          refine ⟨_, [], by simp, .gone hidle hT hsc hos, tree_perm (.refl _) hF.symm ht, hc2, ?_, fun _ => hw⟩
          exact same_trans' hd1 fun l hl => hv l (hF.mem_iff.mp hl)
  · rw [if_pos hq] at hx
    subst hx
    exact ⟨T, _, rfl, .missing (stated_absent h3 hq), h1, hc, hd1, fun hn => by cases hn⟩

theorem rd_all {g : Env} (hr : Ready g.v g.i) (hbig : g.i.fsi ≠ none → 512 ≤ g.v.ss) (hs : Sound g.v) (hfs : g.fs ≠ 0) (hold : ∀ n, (g.old n).2.length = 256) {F : List (List Nat)} (files : List Sem) (info : FInfo) (rest : List RdArg) :
    ∀ (ps : List (List Nat)) (k : Nat) (T : List Dir) (r : Rd), Tree g.v g.i T F r.st → (∃ d ∈ T, d.sclust = g.cdir) → (∀ p ∈ ps, ∃ abs l, PathOf (p ++ [0]) abs l) →
    ∃ T' ms y, rdLoop g files info (ps.map .path ++ rest) k r = rdLoop g files info rest (k + ps.length) y ∧ y.msgs = r.msgs ++ ms ∧ RdRun g.v files g.fs g.cdir ps T ms T' ∧ Tree g.v g.i T' F y.st ∧
      (∃ d ∈ T', d.sclust = g.cdir) ∧ SameData g.v F r.st y.st
  | [], k, T, r, h, hc, _ => ⟨T, [], r, rfl, by simp, .nil, h, hc, fun _ _ _ _ => rfl⟩
  | p :: ps, k, T, r, h, hc, hps => by
    obtain ⟨abs, l, hp⟩ := hps p (by simp)
    obtain ⟨G, hG, -⟩ := C81_place g.v g.i T F r.st h g.cdir hc abs l
    obtain ⟨T1, ms, a1, a2, a3, a4, a5, -⟩ := C129_one g hr hbig hs hfs hold T F r h hc files info p abs l hp G hG _ rfl
    obtain ⟨T2, ms', y, b1, b2, b3, b4, b5, b6⟩ := rd_all hr hbig hs hfs hold files info rest ps (k + 1) T1 _ a3 a4 fun p hp => hps p (by simp [hp])
    refine ⟨T2, ms ++ ms', y, ?_, by rw [b2, a1, List.append_assoc], .cons hp hG a2 b3, b4, b5, same_trans' a5 b6⟩
    rw [List.map_cons, List.cons_append, rdLoop, b1, List.length_cons]
    congr 1
    omega

/-- The command: it handles the paths up to the first option one after the other, and each comes to an end that it should have; then it says what it should. -/
theorem C129_command (g : Env) (hr : Ready g.v g.i) (hbig : g.i.fsi ≠ none → 512 ≤ g.v.ss) (hs : Sound g.v) (hfs : g.fs ≠ 0) (hold : ∀ n, (g.old n).2.length = 256) (T : List Dir) (F : List (List Nat)) (r : Rd) (h : Tree g.v g.i T F r.st)
    (hc : ∃ d ∈ T, d.sclust = g.cdir) (files : List Sem) (info : FInfo) (as : List RdArg) (ps : List (List Nat)) (last : List RdMsg) (hl : Line as ps last) (hps : ∀ p ∈ ps, ∃ abs l, PathOf (p ++ [0]) abs l) (x : Rd) (hx : x = rdCmd g files info as r) :
    ∃ T' ms, x.msgs = r.msgs ++ ms ++ last ∧ RdRun g.v files g.fs g.cdir ps T ms T' ∧ Tree g.v g.i T' F x.st ∧ (∃ d ∈ T', d.sclust = g.cdir) ∧ SameData g.v F r.st x.st := by
  subst hx
  unfold rdCmd
  cases hl with
  | bare => exact ⟨T, [], by simp [rdLoop], .nil, h, hc, fun _ _ _ _ => rfl⟩
  | paths hne =>
    obtain ⟨T', ms, y, b1, b2, b3, b4, b5, b6⟩ := rd_all hr hbig hs hfs hold files info [] ps 0 T r h hc hps
    rw [List.append_nil] at b1
    rw [b1, rdLoop, if_neg (by have := List.length_pos_iff.mpr hne; omega)]
    exact ⟨T', ms, by rw [b2, List.append_nil], b3, b4, b5, b6⟩
  | @unknown _ rest =>
    obtain ⟨T', ms, y, b1, b2, b3, b4, b5, b6⟩ := rd_all hr hbig hs hfs hold files info (.unknown :: rest) ps 0 T r h hc hps
    rw [b1, rdLoop]
    exact ⟨T', ms, by rw [b2, List.append_nil], b3, b4, b5, b6⟩
  | @help _ rest =>
    obtain ⟨T', ms, y, b1, b2, b3, b4, b5, b6⟩ := rd_all hr hbig hs hfs hold files info (.help :: rest) ps 0 T r h hc hps
    rw [b1, rdLoop]
    exact ⟨T', ms, by simp [b2], b3, b4, b5, b6⟩

theorem rd_end_files {v : Vol} {files : List Sem} {fs cdir : Nat} {T T' : List Dir} {G : Goal} {ms : List RdMsg} (h : RdEnd v files fs cdir T G ms T') {d : Dir} (hd : d ∈ T) {o : Obj} (ho : o ∈ d.os) (hdo : ¬ Dotted o) (hf : ¬ IsDir o) :
    ∃ d' ∈ T', d'.sclust = d.sclust ∧ d'.loc = d.loc ∧ o ∈ d'.os := by
  cases h with
  | gone hi hT hsc hos =>
    rename_i d1 d2 cs o1 x y R
    rcases List.mem_cons.mp (hT.mem_iff.mp hd) with rfl | hd'
    · refine ⟨_, List.mem_cons_self, rfl, rfl, ?_⟩
      rw [hos] at ho
      rcases List.mem_append.mp ho with h1 | h1
      · exact List.mem_append_left _ h1
      · rcases List.mem_cons.mp h1 with rfl | h1
        · exact absurd hi.dir hf
        · exact List.mem_append_right _ h1
    · rcases List.mem_cons.mp hd' with rfl | hd'
      · exact absurd (hi.vacant _ hd hsc o ho) hdo
      · exact ⟨d, List.mem_cons_of_mem _ hd', rfl, rfl, ho⟩
  | _ => exact ⟨d, hd, rfl, rfl, ho⟩

/-- No file is ever removed, whatever the paths are: each stays in its directory, with the same entry; and the directory stays. -/
theorem C129_files (v : Vol) (files : List Sem) (fs cdir : Nat) (ps : List (List Nat)) (T T' : List Dir) (ms : List RdMsg) (h : RdRun v files fs cdir ps T ms T') (d : Dir) (hd : d ∈ T) (o : Obj) (ho : o ∈ d.os) (hdo : ¬ Dotted o) (hf : ¬ IsDir o) :
    ∃ d' ∈ T', d'.sclust = d.sclust ∧ d'.loc = d.loc ∧ o ∈ d'.os := by
  induction h generalizing d with
  | nil => exact ⟨d, hd, rfl, rfl, ho⟩
  | cons _ _ he _ ih =>
    obtain ⟨d1, h1, h2, h3, h4⟩ := rd_end_files he hd ho hdo hf
    obtain ⟨d2, k1, k2, k3, k4⟩ := ih d1 h1 h4
    exact ⟨d2, k1, k2.trans h2, k3.trans h3, k4⟩

/-- A directory that may go does go, and nothing is said. -/
theorem C129_done (v : Vol) (files : List Sem) (fs cdir : Nat) (T T' : List Dir) (d : Dir) (cs : List Nat) (o : Obj) (ms : List RdMsg) (hi : MayGo v files fs cdir T d cs o) (h : RdEnd v files fs cdir T (.object d cs o) ms T') :
    ms = [] ∧ ∃ d' R x y, T.Perm (d :: d' :: R) ∧ d'.sclust = first v o ∧ d.os = x ++ o :: y ∧ T' = { d with os := x ++ y } :: R := by
  cases h with
  | missing h => exact absurd h id
  | file h => exact absurd hi.dir h
  | dots _ h => exact absurd h hi.nodot
  | used _ _ h => exact absurd h hi.closed
  | kept _ _ h => exact absurd h (by rintro (h | h | h); exacts [hi.write h, hi.away h, h hi.vacant])
  | gone _ h1 h2 h3 => exact ⟨rfl, _, _, _, _, h1, h2, h3, rfl⟩

/-! ## Example -/

/-- In the example `/A/b` may go, and the file `X.C` is open. -/
example : Ready trV trI ∧ Sound trV ∧ (trEnv 0).fs ≠ 0 ∧ Tree trV trI trT trF trS ∧ PathOf ([47, 65, 47, 98] ++ [0]) true [[65], [98]] ∧ Resolves trV trT 0 true [[65], [98]] (.object trDirA [98] ⟨2, none, trB⟩) ∧
    MayGo trV trLocks 1 0 trT trDirA [98] ⟨2, none, trB⟩ ∧ Line [.path [97], .help, .path [98]] [[97]] [.usage] := by
  refine ⟨tr_ready, tr_sound, by decide, tr_tree, tr_path, ?_, ⟨by decide, by decide, ?_, by decide, by decide, ?_⟩, .help (ps := [[97]])⟩
  · exact ⟨trRoot, by simp [trT], rfl, .inr (.enter (o := ⟨0, none, trA⟩) (d' := trDirA) (by decide) (by decide) tr_calls_a (by decide) (by simp [trT]) (by decide) (.object (by decide) (by decide) tr_calls_b))⟩
  · unfold InUse
    decide
  · unfold Vacant
    decide

/-- `rmdir a x.c y /A/b a`: the first is not empty, the second is a file, the third is missing; then the directory in `A` goes, and `A`.  `rmdir -h a` and `rmdir` do nothing. -/
example : (rdCmd (trEnv 0) trLocks trOld [.path [97], .path [120, 46, 99], .path [121], .path [47, 65, 47, 98], .path [97], .path [97]] ⟨trS, 0, []⟩).msgs = [.failed 7, .notDir, .missing 4, .missing 4] ∧
    (rdCmd (trEnv 5) trLocks trOld [.path [47, 65, 47, 98]] ⟨trS, 0, []⟩).msgs = [.failed 7] ∧ (rdCmd (trEnv 0) trLocks trOld [.help, .path [97]] ⟨trS, 0, []⟩).msgs = [.usage] ∧ (rdCmd (trEnv 0) trLocks trOld [] ⟨trS, 0, []⟩).msgs = [.usage] ∧
    (rdCmd (trEnv 0) trLocks trOld [.unknown, .path [97]] ⟨trS, 0, []⟩).msgs = [] := by decide +kernel

end Fpm.Tree
