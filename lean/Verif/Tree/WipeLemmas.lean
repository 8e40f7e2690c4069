import Verif.Tree.OpenLemmas
/-!
# Files that become empty: lemmas
-/
namespace Fpm.Tree
open Fpm.Fat Fpm.Fat.Spec Fpm.FatFile Fpm.FatFile.Spec Fpm.Lfn Fpm.Names Fpm.Names.Spec Fpm.TextIo.Spec Fpm.FatDir Fpm.FatDir.Spec Fpm.Mount Fpm.Mount.Spec Fpm.DirDev Fpm.DirDev.Spec Fpm.Tree.Spec Fpm.FatSync Fpm.FatBytes Fpm.FatBytes.Spec

theorem rest_nil (m : List Nat) (F : List (List Nat)) : withRest [] m F = if m = [] then F else m :: F := by
  unfold withRest
  rfl

theorem rest_mem {m : List Nat} {F : List (List Nat)} {l : List Nat} (h : l ∈ F) : l ∈ withRest [] m F := by
  rw [rest_nil]
  split
  · exact h
  · exact List.mem_cons_of_mem _ h

/-- The last cluster that was given out does not matter. -/
theorem tree_last {v : Vol} {i : Info} {T : List Dir} {F : List (List Nat)} {s : St} (h : Tree v i T F s) (c : Nat) : Tree v i T F { s with lastClst := c } :=
  ⟨⟨h.inv.disk, h.inv.win, h.inv.clean, h.inv.dirty, h.inv.fat2⟩, h.count, h.chains, h.root, h.once, fun d hd => ⟨(h.dirs d hd).starts, (h.dirs d hd).dir, (h.dirs d hd).names, (h.dirs d hd).nodot⟩, h.refs, h.files, h.subs, h.dots⟩

/-- The entry that the window shows. -/
theorem ent_tree {v : Vol} {i : Info} (hr : Ready v i) {T : List Dir} {F : List (List Nat)} {s : St} (h : Tree v i T F s) {d : Dir} (hd : d ∈ T) {o : Obj} (ho : o ∈ d.os) {dp : Dp} (hat : At v i d.loc o.pos dp)
    (hw : s.winsect = some dp.sect) : dirEnt v s dp = some o.entry := by
  obtain ⟨e, h1, h2, -⟩ := ent_entry hr h.inv hat hw
  rw [rep_entry (h.dirs d hd).dir.rep o ho] at h2
  cases h2
  exact h1

/-- The file becomes empty, on a sound device. -/
theorem wipe_tree {v : Vol} {i : Info} (hr : Ready v i) (hs : Sound v) {d : Dir} {R : List Dir} {F : List (List Nat)} {m : List Nat} {s : St} (h : Tree v i (d :: R) (withRest [] m F) s) {x y : List Obj} {o : Obj} (hos : d.os = x ++ o :: y)
    (hdo : ¬ Dotted o) (hsd : ¬ IsDir o) (hfst : first v o = m.headD 0) {dp : Dp} (hat : At v i d.loc o.pos dp) (hw : s.winsect = some dp.sect) (tm : Nat) {r : Ret} (hp : r = openWipe v tm ⟨s, dp, FR_OK⟩) :
    ∃ e', r.res = FR_OK ∧ r.dp = dp ∧ r.st.winsect = some dp.sect ∧ e'.take 11 = o.entry.take 11 ∧ Blank v tm { o with entry := e' } ∧ Tree v i ({ d with os := x ++ { o with entry := e' } :: y } :: R) F r.st ∧
      ∀ l ∈ F, ∀ n ∈ secs v l, view r.st n = view s n := by
  have ho : o ∈ d.os := by rw [hos]; simp
  have hd := h.dirs d (by simp)
  have hob := hd.dir.table _ (List.mem_of_getElem? (rep_entry hd.dir.rep o ho))
  obtain ⟨e', q1, q2, q3, q4, q5, q6, q7, q8, q9⟩ := blank_entry hr.geo hob.1 hob.2 tm
  have hsf : Sfn e' := ⟨by rw [byte_take q4 (by decide)]; exact (rep_sfn hd.dir.rep o ho).used, by rw [q5]; decide⟩
  obtain ⟨x1, x2, x3⟩ := set_tree hr h hos hat hw q4 hsf ⟨q2, q3⟩
  have a6 := (apart_dirs hr h x2).2
  have hdo' : ¬ Dotted { o with entry := e' } := fun hx => hdo ((byte_take q4 (by decide)).symm.trans hx)
  have hblank : Blank v tm { o with entry := e' } := ⟨q5, q6, q7, q8, q9, hdo'⟩
  have hsd' : ¬ IsDir { o with entry := e' } := by unfold IsDir; rw [show byte _ 11 = _ from q5]; decide
  have ht : Tree v i ({ d with os := x ++ { o with entry := e' } :: y } :: R) (withRest [] m F) (setEnt v s dp e') := by
    refine tree_of x1.inv x1.count ?_ x3 (shape_file_new (d2 := { d with os := x ++ { o with entry := e' } :: y }) (shape_file (tree_shape h) hos hsd) rfl rfl rfl hdo' hsd' q6 q7)
    have := x1.chains
    rw [allchains_cons R (withRest [] m F) d d.loc (x ++ { o with entry := e' } :: y)] at this
    exact this
  have hwin : (setEnt v s dp e').winsect = some dp.sect := hw
  have hl := ld_clust (v := v) (w := o.entry) (off := 0) hob.2 (by omega)
  rw [show FatSync.Spec.first v o.entry 0 = _ from hfst] at hl
  unfold openWipe at hp
  rw [ent_tree hr h (d := d) (by simp) ho hat hw] at hp
  simp only at hp
  rw [hl, q1] at hp
  simp only at hp
  unfold openCut at hp
  rw [hwin, Option.getD_some] at hp
  generalize hs1 : setEnt v s dp e' = s1 at hp ht a6 hwin
  cases m with
  | nil =>
    rw [if_neg (by simp)] at hp
    subst hp
    exact ⟨e', rfl, rfl, hwin, q4, hblank, ht, fun l hl n hn => a6 l hl n hn⟩
  | cons c m =>
    have hc : 2 ≤ c := by
      have := h.chains.chain (c :: m) (by simp [rest_nil])
      exact (links_mem this c (by simp)).1
    rw [show (c :: m).headD 0 = c from rfl] at hp hfst
    rw [if_pos (by omega)] at hp
    rw [rest_nil, if_neg (by simp)] at ht
    obtain ⟨r1, r2⟩ := refs_only h.refs hos hdo (by rw [hfst]; omega)
    rw [hfst] at r1 r2
    obtain ⟨-, y2, -, y4⟩ := tree_freed hr ht (fun q hq o1 ho1 hd1 => by
      rcases List.mem_cons.mp hq with rfl | hq
      · rcases mem_new.mp ho1 with rfl | ho1
        · rw [show first v { o with entry := e' } = 0 from q6]
          omega
        · exact r1 o1 ho1 hd1
      · exact r2 q hq o1 ho1 hd1)
    obtain ⟨y5, y6⟩ := y4.resolve_left fun hx => hx.2 hs
    generalize removeChain v s1 c 0 = z at hp y2 y5 y6
    unfold cutWin at hp
    rw [if_pos y5] at hp
    have hlk := tree_linked h (d := d) (by simp)
    have hpl := secs_place hr hlk (List.mem_of_getElem? hat.sect)
    obtain ⟨k1, k2⟩ := move_quiet hr.geo y6.inv (n := dp.sect) hpl.2.1
    obtain ⟨k3, k4⟩ := k2.resolve_right fun hx => hx.2 hs
    subst hp
    refine ⟨e', k3, rfl, k4, q4, hblank, tree_last (tree_quiet hr k1 y6) _, fun l hl n hn => ?_⟩
    have hsec := chain_secs hr (h.chains.chain l (List.mem_append_right _ (rest_mem hl))) hn
    exact (k1.same n hsec.2.1).trans ((y2 n hsec.1 hsec.2.1).trans (a6 l (rest_mem hl) n hn))

end Fpm.Tree
