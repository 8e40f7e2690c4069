import Verif.Tree.CpDoneLemmas
import Verif.Tree.RmProps
/-!
# C94: copying a file with the command cp
-/
namespace Fpm.Tree
open Fpm.Fat Fpm.Fat.Spec Fpm.FatFile Fpm.FatFile.Spec Fpm.FatSync Fpm.DirDev Fpm.Tree.Spec Fpm.Mount Fpm.Mount.Spec Fpm.FatDir Fpm.FatDir.Spec Fpm.DirDev.Spec Fpm.Names.Spec Fpm.TextIo.Spec
open Fpm.FatLock (Sem Key decShare decCtr)

theorem same_trans {v : Vol} {F : List (List Nat)} {s t u : St} (h1 : SameData v F s t) (h2 : SameData v F t u) : SameData v F s u := fun l hl n hn => (h2 l hl n hn).trans (h1 l hl n hn)

theorem taken_mem {files f' : List Sem} {k : Key} {acc j : Nat} (h : Taken files k acc f' j) {x : Sem} (hx : x ∈ f') : x ∈ files ∨ x.key = k := by
  cases h with
  | more => exact (List.mem_or_eq_of_mem_set hx).imp id fun e => by rw [e]
  | first => exact (List.mem_or_eq_of_mem_set hx).imp id fun e => by rw [e]

/-- The part after the question. -/
theorem copy_spec {g : Env} (hr : Ready g.v g.i) (hbig : g.i.fsi ≠ none → 512 ≤ g.v.ss) (hs : Sound g.v) (hfs : g.fs ≠ 0) (hold : ∀ n, (g.old n).2.length = 256) {T : List Dir} {F : List (List Nat)} {r : Cp} (h : Tree g.v g.i T F r.st) (hcnt : Counted r.files)
    (hc : ∃ d ∈ T, d.sclust = g.cdir) {src dst : List Nat} {abs1 abs2 : Bool} {l1 l2 : List (List Nat)} (hp1 : PathOf (src ++ [0]) abs1 l1) (hp2 : PathOf (dst ++ [0]) abs2 l2) (hf1 : ∀ cs ∈ l1, 0xFFFF ∉ cs) (hf2 : ∀ cs ∈ l2, 0xFFFF ∉ cs) {G1 G2 : Goal}
    (hG1 : Resolves g.v T g.cdir abs1 l1 G1) (hG2 : Resolves g.v T g.cdir abs2 l2 G2) {force yes : Bool} (hask : Asked force yes G2) {tm tm' : Nat} {old : Nat × Nat} {x : Cp} (hx : x = cpCopy g tm tm' old src dst r) :
    ∃ T' F', Tree g.v g.i T' F' x.st ∧ CopyEnd g tm tm' force yes G1 G2 abs2 l2 r.files T F r.st x.msg T' F' x.st ∧ SameLocks r.files x.files ∧ ∃ d ∈ T', d.sclust = g.cdir := by
  unfold cpCopy at hx
  generalize hp : Tree.fOpen g.v g.i g.cdir r.files g.fs tm 1 old.1 (src ++ [0]) r.st (g.old r.n).1 (g.old r.n).2 = p at hx
  unfold cpSrc at hx
  rcases src_open hr hs h hc hfs hp1 hf1 (hold r.n) hG1 hp.symm with ⟨e1, e2, e3, e4, e5⟩ | ⟨e1, d1, o1, m1, fp, e2, S⟩
  · rw [if_pos e1] at hx
    subst hx
    exact ⟨T, F, e4, .noSource hask e3 e5, by rw [e2]; exact locks_refl _, hc⟩
  rw [if_neg (fun z => z e1), e2] at hx
  simp only at hx
  generalize hq : Tree.fOpen g.v g.i g.cdir p.files g.fs tm 0x0A old.2 (dst ++ [0]) p.st (g.old (r.n + 1)).1 (g.old (r.n + 1)).2 = q at hx
  have hback : SameLocks r.files (decShare p.files p.lock).1 := taken_fs hcnt hfs S.taken
  unfold cpDst at hx
  rcases C84_open g.v g.i hr hs T F p.st S.tree g.cdir hc p.files g.fs hfs tm toMode old.2 (dst ++ [0]) abs2 l2 hp2 hf2 _ _ (hold (r.n + 1)) G2 hG2 q hq.symm with
    ⟨f1, f2, f3, f4, f5⟩ | ⟨d, cs, R, loc, f1, f2, -, f4, f5, f6, f7, f8, f9, f10⟩ | ⟨T1, F1, d, R, F2, o, m, h1, h2, h3, h4, h5, h6, h7⟩
  · rw [if_pos (refused_res f3), close_fresh S.fresh, f2] at hx
    subst hx
    exact ⟨T, F, f4, .noDest hask S.src f3 (same_trans S.same fun l hl n hn => f5 n (chain_secs hr (h.chains.chain l (by simp [hl])) hn).2.1), hback, hc⟩
  · rw [if_pos (by rw [f4]; decide), close_fresh S.fresh, f6, f4] at hx
    subst hx
    refine ⟨_, F, f9, .noEntry hask f1 f2 f8 f10 (same_trans S.same f7), hback, ?_⟩
    obtain ⟨d0, hd0, hz⟩ := hc
    rcases List.mem_cons.mp (f2.mem_iff.mp hd0) with rfl | hd0
    · exact ⟨_, List.mem_cons_self, hz⟩
    · exact ⟨d0, by simp [hd0], hz⟩
  · obtain ⟨hm, -⟩ := opened_split (by decide) h3
    subst hm
    have h4 : Tree g.v g.i (d :: R) F2 q.st := h4
    have h6 : SameData g.v F2 p.st q.st := h6
    rcases h7 with ⟨k1, k2, k3, ⟨d0, cs, k4⟩, k, k5, k6⟩ | ⟨k1, k2, fq, k3, k4, k5⟩
    · rw [if_pos (by rw [k1]; decide), close_fresh S.fresh, k3, k1] at hx
      subst hx
      subst k4
      obtain ⟨-, x0, y0, hos, hrest⟩ := opened_split (by decide) h3
      have hne : (⟨g.fs, d1.sclust, 32 * o1.pos⟩ : Key) ≠ ⟨g.fs, d.sclust, 32 * o.pos⟩ := by
        intro e
        injection e with _ e1 e2
        rcases hrest d1 (h1.mem_iff.mp S.dmem) o1 S.omem (fun _ hx => by cases hx) with hx | ⟨-, hx⟩
        · have := h4.once
          rw [List.map_cons, List.nodup_cons] at this
          exact this.1 (by rw [← e1]; exact List.mem_map_of_mem hx)
        · exact rep_inj (h4.dirs d (by simp)).dir.rep hos o1 hx (by omega)
      have hk : k ∈ r.files := by
        rcases taken_mem S.taken k5 with hx | hx
        · exact hx
        · exact absurd (hx.symm.trans k6) hne
      refine ⟨d :: R, F2, h4, .stale hask rfl h1 h2 h3 hk k6 (same_trans (fun l hl => S.same l (h2.mem_iff.mpr (opened_sub h3 hl))) h6), hback, ?_⟩
      obtain ⟨e, he, hz⟩ := hc
      have hmem : e.sclust ∈ (d :: R).map Dir.sclust := by
        rw [← opened_sclust h3]
        exact List.mem_map_of_mem (h1.mem_iff.mp he)
      obtain ⟨e', he', hee⟩ := List.mem_map.mp hmem
      exact ⟨e', he', hee.trans hz⟩
    · rw [if_neg (fun z => z k1), k3] at hx
      simp only at hx
      exact copy_done hr hbig hs h.inv hc hfs hcnt S hask hG2 hq.symm h1 h2 h3 h4 h5 h6 k2 k3 k4 (by rw [show secs g.v [] = [] from rfl]; simp) (k5.mpr (.inl (by decide))) hx

theorem same_end {g : Env} {tm tm' : Nat} {force yes : Bool} {G1 G2 : Goal} {abs : Bool} {l : List (List Nat)} {files : List Sem} {T : List Dir} {F : List (List Nat)} {s t : St} (hst : SameData g.v F s t) {msg : Option CpMsg} {T' : List Dir} {F' : List (List Nat)} {s' : St}
    (h : CopyEnd g tm tm' force yes G1 G2 abs l files T F t msg T' F' s') : CopyEnd g tm tm' force yes G1 G2 abs l files T F s msg T' F' s' := by
  have hby : ∀ m o, (m = [] ∨ m ∈ F) → bytesOf g.v t m o = bytesOf g.v s m o := by
    intro m o hm
    unfold bytesOf
    rw [flat_congr fun n hn => hst m (hm.resolve_left fun e => by subst e; cases hn) n hn]
  cases h with
  | kept h1 h2 => exact .kept h1 (same_trans hst h2)
  | noSource h1 h2 h3 => exact .noSource h1 h2 (same_trans hst h3)
  | noDest h1 h2 h3 h4 => exact .noDest h1 h2 h3 (same_trans hst h4)
  | noEntry h1 h2 h3 h4 h5 h6 => exact .noEntry h1 h2 h3 h4 h5 (same_trans hst h6)
  | stale h1 h0 h2 h3 h4 h5 h6 h7 => exact .stale h1 h0 h2 h3 h4 h5 h6 (same_trans (fun l hl => hst l (h3.mem_iff.mpr (opened_sub h4 hl))) h7)
  | copied h1 h2 h3 h4 h5 h6 h7 h8 h9 h10 h11 =>
    rw [hby _ _ h2.chain] at h4 h11
    refine .copied h1 h2 h3 ?_ h5 h6 h7 h8 h9 h10 h11
    obtain ⟨T1, F1, d, R, F2, o, x, y, m, k1, k2, k3, k4, k5, k6, k7, k8, k9, k10, k11, k12, k13⟩ := h4
    exact ⟨T1, F1, d, R, F2, o, x, y, m, k1, k2, k3, k4, k5, k6, k7, k8, k9, k10, k11, k12, same_trans (fun l hl => hst l (k2.mem_iff.mpr (opened_sub k3 hl))) k13⟩

/-- Copying a file with `cp`, on a device that does not fail.  The volume is in order afterwards, with the same current directory, and the table of open objects is as before.  Either there is a message that tells why there is no copy: something is there and the user does not
want to lose it, or the source or the destination cannot be opened, for one of the reasons of `f_open`; all that may have changed then is as in C84 (a longer directory, or an empty file).  Or the path of the destination leads to a file with the bytes of the source, or as many
of them as there is room for, and the message tells if they are not all.  The source is as before, and so are all other files, objects and directories. -/
theorem C94_copy (g : Env) (hr : Ready g.v g.i) (hbig : g.i.fsi ≠ none → 512 ≤ g.v.ss) (hs : Sound g.v) (hfs : g.fs ≠ 0) (hold : ∀ n, (g.old n).2.length = 256) (T : List Dir) (F : List (List Nat)) (r : Cp) (h : Tree g.v g.i T F r.st) (hcnt : Counted r.files)
    (hc : ∃ d ∈ T, d.sclust = g.cdir) (src dst : List Nat) (abs1 abs2 : Bool) (l1 l2 : List (List Nat)) (hp1 : PathOf (src ++ [0]) abs1 l1) (hp2 : PathOf (dst ++ [0]) abs2 l2) (hf1 : ∀ cs ∈ l1, 0xFFFF ∉ cs) (hf2 : ∀ cs ∈ l2, 0xFFFF ∉ cs) (G1 G2 : Goal)
    (hG1 : Resolves g.v T g.cdir abs1 l1 G1) (hG2 : Resolves g.v T g.cdir abs2 l2 G2) (force yes : Bool) (tm tm' : Nat) (old : Nat × Nat) (info : FInfo) (x : Cp) (hx : x = cpFile g force yes tm tm' old info src dst r) :
    ∃ T' F', Tree g.v g.i T' F' x.st ∧ CopyEnd g tm tm' force yes G1 G2 abs2 l2 r.files T F r.st x.msg T' F' x.st ∧ SameLocks r.files x.files ∧ ∃ d ∈ T', d.sclust = g.cdir := by
  unfold cpFile at hx
  split at hx
  · rename_i hfo
    exact copy_spec hr hbig hs hfs hold h hcnt hc hp1 hp2 hf1 hf2 hG1 hG2 (.inl hfo) hx
  · rename_i hfo
    obtain ⟨q1, q2, q3⟩ := C88_stat g.v g.i hr T F r.st h g.cdir hc (dst ++ [0]) abs2 l2 hp2 (g.old r.n).1 (g.old r.n).2 (hold r.n) info G2 hG2 _ rfl
    have q3 := q3.resolve_left fun z => z.2.2 hs
    generalize fStat g.v g.i g.cdir (dst ++ [0]) r.st (g.old r.n).1 (g.old r.n).2 info = u at hx q1 q2 q3
    have hsame : SameData g.v F r.st u.1 := fun l hl n hn => q2 n (chain_secs hr (h.chains.chain l (by simp [hl])) hn).2.1
    unfold cpAsk at hx
    split at hx
    · rename_i hno
      subst hx
      refine ⟨T, F, q1, .kept ?_ hsame, locks_refl _, hc⟩
      rintro (hx | hx | hx)
      · exact hfo hx
      · rw [hno.2] at hx; cases hx
      · rw [hno.1] at q3
        cases G2 with
        | badName => exact absurd q3.1 (by decide)
        | noPath => exact absurd q3.1 (by decide)
        | free d cs => exact absurd q3.1 (by decide)
        | self d => exact absurd q3.1 (by decide)
        | object d cs o => exact hx d cs o rfl
    · rename_i hno
      have hask : Asked force yes G2 := by
        cases hy : yes with
        | true => exact .inr (.inl rfl)
        | false =>
          refine .inr (.inr ?_)
          rintro d cs o rfl
          exact hno ⟨q3.1, hy⟩
      obtain ⟨T', F', k1, k2, k3⟩ := copy_spec (r := { r with st := u.1, n := r.n + 1 }) hr hbig hs hfs hold q1 hcnt hc hp1 hp2 hf1 hf2 hG1 hG2 hask hx
      exact ⟨T', F', k1, same_end hsame k2, k3⟩

/-- A file cannot be copied onto itself, by whatever path: nothing changes, and there is a message. -/
theorem C94_same (g : Env) (hr : Ready g.v g.i) (hbig : g.i.fsi ≠ none → 512 ≤ g.v.ss) (hs : Sound g.v) (hfs : g.fs ≠ 0) (hold : ∀ n, (g.old n).2.length = 256) (T : List Dir) (F : List (List Nat)) (r : Cp) (h : Tree g.v g.i T F r.st) (hcnt : Counted r.files)
    (hc : ∃ d ∈ T, d.sclust = g.cdir) (src dst : List Nat) (abs1 abs2 : Bool) (l1 l2 : List (List Nat)) (hp1 : PathOf (src ++ [0]) abs1 l1) (hp2 : PathOf (dst ++ [0]) abs2 l2) (hf1 : ∀ cs ∈ l1, 0xFFFF ∉ cs) (hf2 : ∀ cs ∈ l2, 0xFFFF ∉ cs) (d : Dir) (cs1 cs2 : List Nat) (o : Obj)
    (hG1 : Resolves g.v T g.cdir abs1 l1 (.object d cs1 o)) (hG2 : Resolves g.v T g.cdir abs2 l2 (.object d cs2 o)) (force yes : Bool) (tm tm' : Nat) (old : Nat × Nat) (info : FInfo) (x : Cp) (hx : x = cpFile g force yes tm tm' old info src dst r) :
    Tree g.v g.i T F x.st ∧ SameData g.v F r.st x.st ∧ SameLocks r.files x.files ∧ x.msg ≠ none := by
  obtain ⟨T', F', k1, k2, k3, -⟩ := C94_copy g hr hbig hs hfs hold T F r h hcnt hc src dst abs1 abs2 l1 l2 hp1 hp2 hf1 hf2 _ _ hG1 hG2 force yes tm tm' old info x hx
  generalize x.msg = msg at k2
  generalize x.st = s' at k1 k2
  cases k2 with
  | kept h1 h2 => exact ⟨k1, h2, k3, by simp⟩
  | noSource h1 h2 h3 => exact ⟨k1, h3, k3, by simp⟩
  | noDest h1 h2 h3 h4 => exact ⟨k1, h4, k3, by simp⟩
  | noEntry h1 h2 => cases h2
  | stale h1 h2 => cases h2
  | copied h1 h2 h3 h4 =>
    obtain ⟨cs, e⟩ := h2.goal
    injection e with e1 e2 e3
    exact absurd (by rw [← e1, ← e3]) (h3 cs2)

/-! In the example there is room for one more cluster, with 64 bytes.  So `cp x.c "/x y"` copies 64 of 100 bytes, and `cp "/x y" x.c` then copies them all. -/

def cpR : Cp := ⟨trS, [⟨⟨0, 0, 0⟩, 0⟩, ⟨⟨1, 2, 64⟩, 1⟩, ⟨⟨0, 9, 9⟩, 3⟩], 0, none⟩
def cpInfo : FInfo := ⟨[], 0, 0, 0, 0, 0⟩
def cpOne : Cp := cpFile (trEnv 0) false false 5 6 (7, 8) cpInfo [120, 46, 99] [47, 120, 32, 121] cpR
def cpTwo : Cp := cpFile (trEnv 0) true false 5 6 (7, 8) cpInfo [47, 120, 32, 121] [120, 46, 99] { cpOne with msg := none }

/-- Hypotheses of `C94_copy` can be met. -/
example : Ready trV trI ∧ (trI.fsi ≠ none → 512 ≤ trV.ss) ∧ Sound trV ∧ (trEnv 0).fs ≠ 0 ∧ (∀ n, ((trEnv 0).old n).2.length = 256) ∧ Tree trV trI trT trF cpR.st ∧ Counted cpR.files ∧ (∃ d ∈ trT, d.sclust = (trEnv 0).cdir) ∧
    PathOf ([120, 46, 99] ++ [0]) false [[120, 46, 99]] ∧ PathOf ([47, 120, 32, 121] ++ [0]) true [[120, 32, 121]] ∧ Resolves trV trT 0 false [[120, 46, 99]] (.object trRoot [120, 46, 99] ⟨1, none, trX⟩) ∧
    Resolves trV trT 0 true [[120, 32, 121]] (.free trRoot [120, 32, 121]) :=
  ⟨tr_ready, by decide, tr_sound, by decide, fun n => List.length_replicate, tr_tree, by unfold Counted; decide, ⟨trRoot, by simp [trT], rfl⟩, tr_path_x, tr_path_xy, ⟨trRoot, by simp [trT], rfl, .inr (.object (by decide) (by decide) tr_calls_x)⟩, tr_leads_xy⟩

/-- The first copy is not complete, the second one is; the table of open objects is as before.  Copying a file onto itself is refused, and without the answer yes nothing is copied over. -/
example : cpOne.msg = some .noSpace ∧ cpOne.files.map (·.key.fs) = [0, 1, 0] ∧ view cpOne.st 9 = view trS 6 ∧ cpTwo.msg = none ∧ cpTwo.files.map (·.key.fs) = [0, 1, 0] ∧ FatSync.Spec.field (((view cpTwo.st 2).drop 32)) 28 4 = 64 ∧
    (cpFile (trEnv 0) true false 5 6 (7, 8) cpInfo [120, 46, 99] [97, 47, 46, 46, 47, 88, 46, 67] cpR).msg = some (.dest 16) ∧ (cpFile (trEnv 0) false false 5 6 (7, 8) cpInfo [120, 46, 99] [97] cpR).msg = some .kept := by decide +kernel

end Fpm.Tree
