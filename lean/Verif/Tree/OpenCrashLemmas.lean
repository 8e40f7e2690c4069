import Verif.Tree.OpenCrashSpec
import Verif.Tree.MkdirCrashProps
import Verif.Tree.OpenProps
/-!
# Contents of the device while a file is opened: lemmas
-/
namespace Fpm.Tree
open Fpm.Fat Fpm.Fat.Spec Fpm.FatFile Fpm.FatFile.Spec Fpm.Lfn Fpm.Names Fpm.Names.Spec Fpm.TextIo.Spec Fpm.FatDir Fpm.FatDir.Spec Fpm.Mount Fpm.Mount.Spec Fpm.DirDev Fpm.DirDev.Spec Fpm.Tree.Spec Fpm.FatSync Fpm.FatBytes Fpm.FatBytes.Spec

theorem withRest_app (a : List (List Nat)) (m : List Nat) (b : List (List Nat)) : withRest a m b = a ++ withRest [] m b := by
  unfold withRest
  split <;> simp

/-- While a file becomes empty, the device shows the file as it was or as empty file; of its clusters there may be a rest. -/
theorem wipe_times {v : Vol} {i : Info} (hr : Ready v i) (hs : Sound v) (hb2 : ∀ c, 2 ≤ c → c < v.nFatent → ¬ TwoSectors v c) {d : Dir} {R : List Dir} {F : List (List Nat)} {m : List Nat} {s : St}
    (h : Tree v i (d :: R) (withRest [] m F) s) {x y : List Obj} {o : Obj} (hos : d.os = x ++ o :: y)
    (hdo : ¬ Dotted o) (hsd : ¬ IsDir o) (hfst : first v o = m.headD 0) {dp : Dp} (hat : At v i d.loc o.pos dp) (hw : s.winsect = some dp.sect) (tm : Nat) {r : Ret} (hp : r = openWipe v tm ⟨s, dp, FR_OK⟩) :
    ∃ e', e'.take 11 = o.entry.take 11 ∧ Blank v tm { o with entry := e' } ∧ (∀ l ∈ withRest [] m F, ∀ n ∈ secs v l, view r.st n = view s n) ∧
      ∀ q ∈ r.st.disk :: r.st.past, q ∈ s.disk :: s.past ∨ (∀ l ∈ withRest [] m F, ∀ n ∈ secs v l, q n = view s n) ∧
        ∃ pre suf, m = pre ++ suf ∧ Shown v i ({ d with os := x ++ { o with entry := e' } :: y } :: R) (withRest [] suf F) q := by
  have ho : o ∈ d.os := by rw [hos]; simp
  have hd := h.dirs d (by simp)
  have hob := hd.dir.table _ (List.mem_of_getElem? (rep_entry hd.dir.rep o ho))
  obtain ⟨e', q1, q2, q3, q4, q5, q6, q7, q8, q9⟩ := blank_entry hr.geo hob.1 hob.2 tm
  have hsf : Sfn e' := ⟨by rw [byte_take q4 (by decide)]; exact (rep_sfn hd.dir.rep o ho).used, by rw [q5]; decide⟩
  obtain ⟨x1, x2, x3⟩ := set_tree hr h hos hat hw q4 hsf ⟨q2, q3⟩
  have a6 := (apart_dirs hr h x2).2
  have hdo' : ¬ Dotted { o with entry := e' } := fun hx => hdo ((byte_take q4 (by decide)).symm.trans hx)
  have hblank : Blank v tm { o with entry := e' } := ⟨q5, q6, q7, q8, q9, hdo'⟩
  have hsd' : ¬ IsDir { o with entry := e' } := by unfold IsDir; rw [show byte _ 11 = _ from q5]; decide
  have ht : Tree v i ({ d with os := x ++ { o with entry := e' } :: y } :: R) (withRest [] m F) (setEnt v s dp e') := by
    refine tree_of x1.inv x1.count ?_ x3 (shape_file_new (d2 := { d with os := x ++ { o with entry := e' } :: y }) (shape_file (tree_shape h) hos hsd) rfl rfl rfl hdo' hsd' q6 q7)
    have := x1.chains
    rw [allchains_cons R (withRest [] m F) d d.loc (x ++ { o with entry := e' } :: y)] at this
    exact this
  have hwin : (setEnt v s dp e').winsect = some dp.sect := hw
  have hdisk : (setEnt v s dp e').disk :: (setEnt v s dp e').past = s.disk :: s.past := rfl
  have hl := ld_clust (v := v) (w := o.entry) (off := 0) hob.2 (by omega)
  rw [show FatSync.Spec.first v o.entry 0 = _ from hfst] at hl
  unfold openWipe at hp
  rw [ent_tree hr h (d := d) (by simp) ho hat hw] at hp
  simp only at hp
  rw [hl, q1] at hp
  simp only at hp
  unfold openCut at hp
  rw [hwin, Option.getD_some] at hp
  generalize hs1 : setEnt v s dp e' = s1 at hp ht a6 hwin hdisk
  cases m with
  | nil =>
    rw [if_neg (by simp)] at hp
    subst hp
    exact ⟨e', q4, hblank, fun l hl n hn => a6 l hl n hn, fun q hq => .inl (by rw [← hdisk]; exact hq)⟩
  | cons c m =>
    have hc : 2 ≤ c := by
      have := h.chains.chain (c :: m) (by simp [rest_nil])
      exact (links_mem this c (by simp)).1
    rw [show (c :: m).headD 0 = c from rfl] at hp hfst
    rw [if_pos (by omega)] at hp
    have hsec : ∀ l ∈ withRest [] (c :: m) F, ∀ n ∈ secs v l, ¬ Fat1 v n ∧ ¬ Fat2 v n := fun l hl n hn =>
      have k := chain_secs hr (h.chains.chain l (List.mem_append_right _ hl)) hn
      ⟨k.1, k.2.1⟩
    rw [rest_nil, if_neg (by simp)] at ht
    obtain ⟨r1, r2⟩ := refs_only h.refs hos hdo (by rw [hfst]; omega)
    rw [hfst] at r1 r2
    obtain ⟨-, y2, -, y4⟩ := tree_freed hr ht (fun q hq o1 ho1 hd1 => by
      rcases List.mem_cons.mp hq with rfl | hq
      · rcases mem_new.mp ho1 with rfl | ho1
        · rw [show first v { o with entry := e' } = 0 from q6]
          omega
        · exact r1 o1 ho1 hd1
      · exact r2 q hq o1 ho1 hd1)
    obtain ⟨y5, y6⟩ := y4.resolve_left fun hx => hx.2 hs
    have g1 := (C53_crash_partial v hr.geo hs hb2).2.2.1 s1 ht.inv (dirChains ({ d with os := x ++ { o with entry := e' } :: y } :: R)) F c m ht.chains
    have g2 := chain_keep hr.geo hs (no_straddle hb2) ht.inv c
    generalize removeChain v s1 c 0 = z at hp y2 y5 y6 g1 g2
    unfold cutWin at hp
    rw [if_pos y5] at hp
    have hlk := tree_linked h (d := d) (by simp)
    have hpl := secs_place hr hlk (List.mem_of_getElem? hat.sect)
    obtain ⟨k1, k2⟩ := move_quiet hr.geo y6.inv (n := dp.sect) hpl.2.1
    obtain ⟨k3, k4⟩ := k2.resolve_right fun hx => hx.2 hs
    subst hp
    refine ⟨e', q4, hblank, fun l hl n hn => ?_, fun q hq => ?_⟩
    · exact (k1.same n (hsec l hl n hn).2).trans ((y2 n (hsec l hl n hn).1 (hsec l hl n hn).2).trans (a6 l hl n hn))
    -- what a device shows that differs from the window's state in FATs only
    have one : ∀ (q : Disk) (pre suf : List Nat), c :: m = pre ++ suf → (∀ n, ¬ Fat1 v n → ¬ Fat2 v n → q n = view s1 n) →
        Chains v.nFatent (fat v q) (withRest (dirChains ({ d with os := x ++ { o with entry := e' } :: y } :: R)) suf F) →
        (∀ l ∈ withRest [] (c :: m) F, ∀ n ∈ secs v l, q n = view s n) ∧ ∃ pre suf, c :: m = pre ++ suf ∧ Shown v i ({ d with os := x ++ { o with entry := e' } :: y } :: R) (withRest [] suf F) q := by
      intro q pre suf e1 e2 e3
      refine ⟨fun l hl n hn => (e2 n (hsec l hl n hn).1 (hsec l hl n hn).2).trans (a6 l hl n hn), pre, suf, e1, fun a ha => ?_, ?_⟩
      · rw [entries_congr fun n hn => e2 n (secs_place hr (tree_linked ht ha) hn).1 (secs_place hr (tree_linked ht ha) hn).2.1]
        exact dir_loose (ht.dirs a ha).dir
      · rw [← withRest_app]
        exact e3
    rcases (k1.trace hs).1 q hq with hq | hq
    · rcases g1.1 q hq with g3 | ⟨pre, suf, g3, g4⟩
      · exact .inl (by rw [← hdisk]; exact g3)
      · rcases g2 q hq with g5 | g5
        · exact .inl (by rw [← hdisk]; exact g5)
        · exact .inr (one q pre suf g3 g5 g4)
    · obtain ⟨pre, suf, g3, g4⟩ := g1.2
      refine .inr (one q pre suf g3 (fun n n1 n2 => (hq n n2).trans (y2 n n1 n2)) ?_)
      rw [fat_area fun n hn => hq n (fat1_not2 hn)]
      exact g4

end Fpm.Tree
