import Verif.Tree.RmTreeLemmas
import Verif.Tree.StepLemmas
/-!
# Lemmas about rm: the loop
-/
namespace Fpm.Tree
open Fpm.Fat Fpm.Fat.Spec Fpm.FatFile.Spec Fpm.Lfn Fpm.Names Fpm.Names.Spec Fpm.TextIo.Spec Fpm.FatDir Fpm.FatDir.Spec Fpm.Mount Fpm.Mount.Spec Fpm.DirDev Fpm.DirDev.Spec Fpm.Tree.Spec Fpm.FatSync
open Fpm.FatLock (Sem chkShare incShare decShare)

/-! ## Reading one object -/

theorem rd_step {v : Vol} {i : Info} (hr : Ready v i) (hs : Sound v) {T : List Dir} {F : List (List Nat)} {s : St} (h : Tree v i T F s) {n : Dir} (hn : n ∈ T) {j : Nat} {dp : Dp} (hpos : Pos v i n.loc j dp) {os : List Obj}
    (hrep : Rep true j ((entries v i (view s) n.loc).drop j) os) {buf : List Nat} (hb : buf.length = 256) :
    Quiet v s (readdir v i s dp buf).st ∧ (readdir v i s dp buf).res = FR_OK ∧ ((readdir v i s dp buf).item = none ∧ (∀ o ∈ os, Dotted o) ∨
      ∃ a o b name, os = a ++ o :: b ∧ (∀ o' ∈ a, Dotted o') ∧ ¬ Dotted o ∧ Shown o name ∧ (readdir v i s dp buf).item = some (name, o.entry) ∧ Pos v i n.loc (o.pos + 1) (readdir v i s dp buf).dp ∧
        Rep true (o.pos + 1) ((entries v i (view s) n.loc).drop (o.pos + 1)) b) := by
  obtain ⟨q, h1⟩ := readdir_dev hr h.inv (tree_linked h hn) hpos buf
  have h1 := h1.resolve_left fun hx => hx.2 hs
  generalize readdir v i s dp buf = r at q h1
  have ht : ∀ e ∈ entries v i (view s) n.loc, e.length = 32 ∧ ∀ b ∈ e, b < 256 := fun e he => entries_table hr (view_sec h.inv) n.loc e he
  refine ⟨q, ?_⟩
  unfold readDir FatDir.dirRead at h1
  rcases read_next hrep ⟨0xFF, 0xFF, none⟩ buf (fun e he => ht e (List.mem_of_mem_drop he)) rfl hb with ⟨h2, h3⟩ | ⟨a, o, b, blk, buf', rfl, h2, h3, h4, h5, h6, h7, pre, post, h8, h9, h10⟩
  · rw [h3] at h1
    exact ⟨h1.1, .inl ⟨h1.2, h2⟩⟩
  · have hget : (entries v i (view s) n.loc).getD o.pos [] = o.entry := by
      rw [List.getD_eq_getElem?_getD, h9, ← List.getElem?_drop, h8, List.getElem?_append_right (by omega), Nat.sub_self]
      rfl
    have hdrop : (entries v i (view s) n.loc).drop (o.pos + 1) = post := by
      rw [h9, Nat.add_assoc, ← List.drop_drop, h8, ← List.drop_drop, List.drop_left]
      rfl
    obtain ⟨name, hname, hsh⟩ := shown_of h6 h7
    rw [h4] at h1
    simp only [hget, hname] at h1
    obtain ⟨c1, c2, c3, -⟩ := h1
    exact ⟨c1, .inr ⟨a, o, b, name, rfl, h2, h3, hsh, c2, c3, by rw [hdrop]; exact h10⟩⟩

/-! ## What has been done -/

/-- Objects have gone, and other directories are as they were. -/
structure Did (v : Vol) (i : Info) (S : Nat → Prop) (T : List Dir) (F : List (List Nat)) (s : St) (T' : List Dir) (F' : List (List Nat)) (s' : St) : Prop where
  pruned : Pruned v S T F s T' F' s'
  ents : ∀ e ∈ T', ¬ S e.sclust → entries v i (view s') e.loc = entries v i (view s) e.loc

theorem did_quiet {v : Vol} {i : Info} (hr : Ready v i) {T : List Dir} {F : List (List Nat)} {s s' : St} (h : Tree v i T F s) (q : Quiet v s s') (S : Nat → Prop) : Did v i S T F s T F s' :=
  ⟨pruned_refl v S T F fun m hm n hn => q.same n (chain_secs hr (h.chains.chain m (by simp [hm])) hn).2.1, fun e he _ => entries_same hr (tree_linked h he) q.same⟩

theorem did_trans {v : Vol} {i : Info} {S : Nat → Prop} {T T1 T2 : List Dir} {F F1 F2 : List (List Nat)} {s s1 s2 : St} (h1 : Did v i S T F s T1 F1 s1) (h2 : Did v i S T1 F1 s1 T2 F2 s2) : Did v i S T F s T2 F2 s2 := by
  refine ⟨pruned_trans h1.pruned h2.pruned, fun e he hn => ?_⟩
  obtain ⟨e1, he1, a1, a2, -⟩ := h2.pruned.dirs e he
  rw [h2.ents e he hn, a2]
  exact h1.ents e1 he1 (by rw [← a1]; exact hn)

theorem did_mono {v : Vol} {i : Info} {S S' : Nat → Prop} (hS : ∀ c, S c → S' c) {T T1 : List Dir} {F F1 : List (List Nat)} {s s1 : St} (h : Did v i S T F s T1 F1 s1) : Did v i S' T F s T1 F1 s1 :=
  ⟨pruned_mono hS h.pruned, fun e he hn => h.ents e he fun hx => hn (hS _ hx)⟩

theorem gone_did {v : Vol} {i : Info} {d : Dir} {o : Obj} {T T' : List Dir} {F F' : List (List Nat)} {s s' : St} (honce : (T.map Dir.sclust).Nodup) (h : Gone v i d o T F s T' F' s') :
    Did v i (fun c => IsDir o ∧ c = first v o ∨ c = d.sclust) T F s T' F' s' := ⟨gone_pruned honce h, fun e he hn => h.ents e he fun hx => hn (.inr hx)⟩

theorem inside_into {v : Vol} {T : List Dir} {G : Goal} {n : Dir} (h : Into v T G (.inl n)) (c : Nat) : Inside v T G c ↔ Within v T n.sclust c := by
  cases h with
  | self => exact Iff.rfl
  | dir h1 _ h3 => rw [h3]; exact ⟨fun h => h.2, fun h => ⟨h1, h⟩⟩

/-- What an attempt to remove leaves behind. -/
def Out (v : Vol) (i : Info) (T : List Dir) (F : List (List Nat)) (s : St) (G : Goal) (T' : List Dir) (F' : List (List Nat)) (s' : St) (res : Nat) : Prop :=
  res ≠ UB ∧ (res ≠ FR_OK ∧ Did v i (Inside v T G) T F s T' F' s' ∨
    res = FR_OK ∧ ∃ d cs o, G = .object d cs o ∧ ¬ DotName cs ∧ d ∈ T ∧ ¬ Dotted o ∧ Did v i (fun c => Inside v T G c ∨ c = d.sclust) T F s T' F' s' ∧ (∃ x y, d.os = x ++ o :: y ∧ { d with os := x ++ y } ∈ T') ∧
      (∀ e ∈ T', ¬ Inside v T G e.sclust) ∧ (∀ m ∈ F', ¬ Owns v o m) ∧ (entries v i (view s') d.loc).drop (o.pos + 1) = (entries v i (view s) d.loc).drop (o.pos + 1))

theorem vacant_within {v : Vol} {T : List Dir} {k c : Nat} (hv : ∀ e ∈ T, e.sclust = k → ∀ o ∈ e.os, Dotted o) (h : Within v T k c) : c = k := by
  induction h with
  | self => rfl
  | @sub d o _ hd ho hdo _ ih => exact absurd (hv d hd ih o ho) hdo

theorem gone_out {v : Vol} {i : Info} {d : Dir} {o : Obj} {T T' : List Dir} {F F' : List (List Nat)} {s s' : St} (honce : (T.map Dir.sclust).Nodup) (h : Gone v i d o T F s T' F' s') {cs : List Nat} (hn : ¬ DotName cs) :
    Out v i T F s (.object d cs o) T' F' s' FR_OK := by
  refine ⟨by decide, .inr ⟨rfl, d, cs, o, rfl, hn, h.mem, h.nodot, did_mono (fun c hc => ?_) (gone_did honce h), h.left, fun e he hin => ?_, h.freed, h.rest⟩⟩
  · rcases hc with ⟨h1, rfl⟩ | hc
    · exact .inl ⟨h1, .self⟩
    · exact .inr hc
  · obtain ⟨h1, h2⟩ := hin
    have h3 := vacant_within (h.vacant h1) h2
    obtain ⟨x, y, hos, -⟩ := h.left
    exact (h.dirs e he fun hx => h.nodot (h.vacant h1 d h.mem (hx.symm.trans h3) o (by rw [hos]; simp))).2 ⟨h1, h3⟩

theorem share_ub (files : List Sem) (k : FatLock.Key) (a : Nat) : chkShare files k a ≠ UB := by
  unfold chkShare
  split
  · split <;> decide
  · split <;> decide

theorem refused_ub {v : Vol} {i : Info} {T : List Dir} {cdir : Nat} {share : Dp → Nat} (hsh : ∀ dp, share dp ≠ UB) {r : Nat} {G : Goal} (h : Refused v i T cdir share r G) : r ≠ UB := by
  cases G with
  | badName => rw [show r = _ from h]; decide
  | noPath => rw [show r = _ from h]; decide
  | free d cs => rw [show r = _ from h]; decide
  | self d =>
    rcases h with h | ⟨dp, -, h1, h2⟩
    · rw [h]; decide
    · rw [h2]; exact hsh dp
  | object d cs o =>
    rcases h with ⟨-, h⟩ | ⟨-, dp, -, -, h1, h2⟩ | ⟨-, -, h⟩
    · rw [h]; decide
    · rw [h2]; exact hsh dp
    · rw [h]; decide

/-- What removing what a path leads to should do, for a function that does it. -/
def Removes (g : Env) (rec : List Nat → Rm → Rm) : Prop := ∀ (path : List Nat) (abs : Bool) (l : List (List Nat)) (r : Rm) (T : List Dir) (F : List (List Nat)) (G : Goal), Tree g.v g.i T F r.st → (∃ d ∈ T, d.sclust = g.cdir) → path ≠ [] →
  (∀ c ∈ path, 32 ≤ c) → PathOf (path ++ [0]) abs l → Resolves g.v T g.cdir abs l G → (∀ n, Into g.v T G (.inl n) → Listable g.v T n.sclust) →
  ∃ T' F', Tree g.v g.i T' F' (rec path r).st ∧ (∃ d ∈ T', d.sclust = g.cdir) ∧ Out g.v g.i T F r.st G T' F' (rec path r).st (rec path r).res

theorem unlink_out {g : Env} (hr : Ready g.v g.i) (hbig : g.i.fsi ≠ none → 512 ≤ g.v.ss) (hs : Sound g.v) (hold : ∀ n, (g.old n).2.length = 256) {path : List Nat} {abs : Bool} {l : List (List Nat)} {r : Rm} {T : List Dir} {F : List (List Nat)} {G : Goal}
    (h : Tree g.v g.i T F r.st) (hc : ∃ d ∈ T, d.sclust = g.cdir) (hp : PathOf (path ++ [0]) abs l) (hG : Resolves g.v T g.cdir abs l G) :
    (rmUnlink g path r).files = r.files ∧ (rmUnlink g path r).n = r.n + 1 ∧
    (Quiet g.v r.st (rmUnlink g path r).st ∧ (rmUnlink g path r).res ≠ FR_OK ∧ (rmUnlink g path r).res ≠ UB ∧ Refused g.v g.i T g.cdir (fun dp => chkShare r.files (keyOf g.fs dp) 2) (rmUnlink g path r).res G ∨
    ∃ T' F' d cs o, G = .object d cs o ∧ ¬ DotName cs ∧ (rmUnlink g path r).res = FR_OK ∧ Tree g.v g.i T' F' (rmUnlink g path r).st ∧ (∃ d ∈ T', d.sclust = g.cdir) ∧ Gone g.v g.i d o T F r.st T' F' (rmUnlink g path r).st) := by
  refine ⟨rfl, rfl, ?_⟩
  rcases unlink_step hr hbig hs h hc (fun dp => chkShare r.files (keyOf g.fs dp) 2) hp (g.old r.n).1 (hold r.n) hG rfl with ⟨q, h1⟩ | ⟨d, cs, o, rfl, hn, hres, T', F', h1, h2, h3⟩
  · exact .inl ⟨q, refused_ne h1, refused_ub (fun dp => share_ub _ _ _) h1, h1⟩
  · exact .inr ⟨T', F', d, cs, o, rfl, hn, hres, h1, h2, h3⟩

theorem unlink_removes {g : Env} (hr : Ready g.v g.i) (hbig : g.i.fsi ≠ none → 512 ≤ g.v.ss) (hs : Sound g.v) (hold : ∀ n, (g.old n).2.length = 256) : Removes g (rmUnlink g) := by
  intro path abs l r T F G h hc _ _ hp hG _
  rcases (unlink_out hr hbig hs hold h hc hp hG).2.2 with ⟨q, h1, h2, -⟩ | ⟨T', F', d, cs, o, rfl, hn, hres, h1, h2, h3⟩
  · exact ⟨T, F, tree_quiet hr q h, hc, h2, .inl ⟨h1, did_quiet hr h q _⟩⟩
  · exact ⟨T', F', h1, h2, by rw [hres]; exact gone_out h.once h3 hn⟩

/-! ## The loop -/

theorem known_len {o : Obj} {cs : List Nat} (h : Known o cs) : (text cs).length ≤ 255 := by
  obtain ⟨hc, -, ⟨-, h2⟩ | ⟨-, body, ext, h8, -⟩⟩ := h
  · exact h2
  · have e := units_et h8
    have h1 : text cs = cs := by
      have := et_units (m := cs) (by rw [e]; exact h8)
      rw [← this, e]
    rw [h1, h8.eq]
    have h1 := h8.body8
    have h2 := h8.ext3
    split <;> simp <;> omega

theorem known_head {o : Obj} {cs : List Nat} (h : Known o cs) (hne : cs ≠ []) : (text cs).headD 0 ≠ 0 := by
  cases cs with
  | nil => exact absurd rfl hne
  | cons c cs =>
    obtain ⟨b, r, e, hb, -⟩ := text_first (h.1 c (by simp)) cs []
    rw [List.append_nil] at e
    rw [e, List.headD_cons]
    omega

theorem still_into {v : Vol} {i : Info} {T T' : List Dir} {F' : List (List Nat)} {s' : St} (h' : Tree v i T' F' s') {G G' : Goal} (hst : Still T' G G') {n : Dir} (hi : Into v T G (.inl n)) {n' : Dir} (hn' : n' ∈ T') (he : n'.sclust = n.sclust) :
    Into v T' G' (.inl n') ∨ G' = .noPath ∨ ∃ d cs, G' = .free d cs := by
  cases hst with
  | noPath => exact .inr (.inl rfl)
  | free => exact .inr (.inr ⟨_, _, rfl⟩)
  | self hd' he' =>
    cases hi
    cases dir_unique h'.once hd' hn' (he'.trans he.symm)
    exact .inl .self
  | object hd' he' ho =>
    cases hi with
    | dir h1 h2 h3 => exact .inl (.dir h1 hn' (he.trans h3))

theorem into_lands {v : Vol} {T : List Dir} {G : Goal} {n : Dir} (h : Into v T G (.inl n)) : Lands G := by
  cases h with
  | self => trivial
  | dir _ _ _ => trivial

theorem listable_did {v : Vol} {i : Info} {S : Nat → Prop} {T T' : List Dir} {F F' : List (List Nat)} {s s' : St} (h : Did v i S T F s T' F' s') {n c : Nat} (hl : Listable v T n) (hw : Within v T n c) : Listable v T' c := by
  intro e he hwe o ho hdo
  obtain ⟨e0, he0, a1, -, a3, -⟩ := h.pruned.dirs e he
  refine hl e0 he0 ?_ o (a3.subset ho) hdo
  rw [← a1]
  exact within_trans hw (pruned_within h.pruned hwe)

theorem loop_spec {g : Env} (hr : Ready g.v g.i) (hs : Sound g.v) (hold : ∀ n, (g.old n).2.length = 256) {rec : List Nat → Rm → Rm} (hrec : Removes g rec) (hun : Removes g (rmUnlink g)) {path : List Nat} {abs : Bool} {l : List (List Nat)} {T0 : List Dir} {F0 : List (List Nat)} {s0 : St} {G : Goal}
    (h0 : Tree g.v g.i T0 F0 s0) (hne : path ≠ []) (hge : ∀ c ∈ path, 32 ≤ c) (hp : PathOf (path ++ [0]) abs l) (hG : Resolves g.v T0 g.cdir abs l G) {n0 : Dir} (hn0 : n0 ∈ T0) (hi : Into g.v T0 G (.inl n0)) (hl : Listable g.v T0 n0.sclust) :
    ∀ (k : Nat) {dp : Dp} {r : Rm} {T : List Dir} {F : List (List Nat)} {n : Dir} {os : List Obj} {j : Nat}, Tree g.v g.i T F r.st → (∃ d ∈ T, d.sclust = g.cdir) → Did g.v g.i (Within g.v T0 n0.sclust) T0 F0 s0 T F r.st → n ∈ T → n.sclust = n0.sclust →
      Pos g.v g.i n.loc j dp → Rep true j ((entries g.v g.i (view r.st) n.loc).drop j) os → (∀ o ∈ os, o ∈ n.os) →
      ∃ T' F', Tree g.v g.i T' F' (rmLoop g rec path k dp r).st ∧ (∃ d ∈ T', d.sclust = g.cdir) ∧ Did g.v g.i (Within g.v T0 n0.sclust) T0 F0 s0 T' F' (rmLoop g rec path k dp r).st ∧ (rmLoop g rec path k dp r).res ≠ UB
  | 0, dp, r, T, F, n, os, j, h, hc, hd, _, _, _, _, _ => ⟨T, F, h, hc, hd, by rw [rmLoop]; exact (by decide : HANG ≠ UB)⟩
  | k + 1, dp, r, T, F, n, os, j, h, hc, hd, hn, hns, hpos, hrep, hos => by
    obtain ⟨q, hres, hit⟩ := rd_step hr hs h hn hpos hrep (hold r.n)
    rw [rmLoop, if_pos hres]
    generalize readdir g.v g.i r.st dp (g.old r.n).2 = x at q hit
    have hq := tree_quiet hr q h
    have hdq := did_trans hd (did_quiet hr h q _)
    rcases hit with ⟨hit, -⟩ | ⟨a, o, b, name, rfl, -, hdo, hsh, hit, hpos', hrep'⟩
    · rw [hit]
      exact ⟨T, F, hq, hc, hdq, (by decide : FR_OK ≠ UB)⟩
    rw [hit]
    simp only
    have ho : o ∈ n.os := hos o (by simp)
    obtain ⟨n1, hn1, a1, -, a3, -⟩ := hd.pruned.dirs n hn
    cases dir_unique h0.once hn1 hn0 (a1.symm.trans hns)
    obtain ⟨cs, hk⟩ := hl n0 hn0 .self o (a3.subset ho) hdo
    have hkr := (h.dirs n hn).dir.rep
    have hcs := known_ne hkr ho hk
    obtain ⟨hgood, hnd, hcall⟩ := known_good hkr ho hk
    rw [known_shown hk hsh, if_neg (known_head hk hcs)]
    have hlen := known_len hk
    rw [childPath, if_pos (by omega)]
    simp only
    -- where the path of the object leads
    have hpc := child_path hp hne hge hk.1 hcs
    obtain ⟨G', hG', hst⟩ := still_resolves h0 hq hdq.pruned hc hG (into_lands hi)
    have hGc : ∃ G1, Resolves g.v T g.cdir abs (l ++ [cs]) G1 ∧ (G1 = .object n cs o ∨ G1 = .noPath) := by
      rcases still_into hq hst hi hn hns with hx | hx
      · exact ⟨_, resolves_child hG' hx hgood ho hcall, .inl rfl⟩
      · exact ⟨_, resolves_lost hG' hx cs, .inr rfl⟩
    obtain ⟨G1, hG1, hG1'⟩ := hGc
    have hge' : ∀ c ∈ path ++ 47 :: text cs, 32 ≤ c := fun c hx => by
      rcases List.mem_append.mp hx with hx | hx
      · exact hge c hx
      · rcases List.mem_cons.mp hx with rfl | hx
        · decide
        · exact text_ge hk.1 c hx
    have hsub : IsDir o → Within g.v T0 n0.sclust (first g.v o) := fun hx => .sub .self hn0 (a3.subset ho) hdo hx
    have hli : ∀ n1, Into g.v T G1 (.inl n1) → Listable g.v T n1.sclust := fun n1 hx => by
      rcases hG1' with rfl | rfl
      · cases hx with
        | dir h1 h2 h3 =>
          rw [h3]
          exact listable_did hdq hl (hsub h1)
      · cases hx
    have hin : ∀ c, Inside g.v T G1 c → Within g.v T0 n0.sclust c := fun c hx => by
      rcases hG1' with rfl | rfl
      · exact within_trans (hsub hx.1) (pruned_within hdq.pruned hx.2)
      · exact hx.elim
    have hone : ∃ T' F', Tree g.v g.i T' F' (rmOne g rec o.entry (path ++ 47 :: text cs) ⟨x.st, r.files, r.n + 1, FR_OK⟩).st ∧ (∃ d ∈ T', d.sclust = g.cdir) ∧
        Out g.v g.i T F x.st G1 T' F' (rmOne g rec o.entry (path ++ 47 :: text cs) ⟨x.st, r.files, r.n + 1, FR_OK⟩).st (rmOne g rec o.entry (path ++ 47 :: text cs) ⟨x.st, r.files, r.n + 1, FR_OK⟩).res := by
      unfold rmOne
      split
      · exact hrec _ abs _ ⟨x.st, r.files, r.n + 1, FR_OK⟩ T F G1 hq hc (by simp) hge' hpc hG1 hli
      · exact hun _ abs _ ⟨x.st, r.files, r.n + 1, FR_OK⟩ T F G1 hq hc (by simp) hge' hpc hG1 hli
    generalize rmOne g rec o.entry (path ++ 47 :: text cs) ⟨x.st, r.files, r.n + 1, FR_OK⟩ = y at hone
    obtain ⟨T', F', ht', hc', hub, hout⟩ := hone
    rcases hout with ⟨hno, hdid⟩ | ⟨hok, d, cs', o', rfl, -, -, -, hdid, hleft, -, -, hrest⟩
    · rw [if_neg hno]
      exact ⟨T', F', ht', hc', did_trans hdq (did_mono hin hdid), hub⟩
    · rw [if_pos hok]
      rcases hG1' with hx | hx <;> cases hx
      obtain ⟨u, w, hos', hmem⟩ := hleft
      refine loop_spec hr hs hold hrec hun h0 hne hge hp hG hn0 hi hl k ht' hc' (did_trans hdq (did_mono ?_ hdid)) hmem hns hpos' (os := b) ?_ ?_
      · rintro c (hx | rfl)
        · exact hin c hx
        · rw [hns]
          exact .self
      · show Rep true (o.pos + 1) (List.drop (o.pos + 1) (entries g.v g.i (view y.st) n.loc)) b
        rw [hrest, entries_same hr (tree_linked h hn) q.same]
        exact hrep'
      · intro o2 ho2
        have h1 := (rep_pos hrep' o2 ho2).1
        have h2 := hos o2 (by simp [ho2])
        rw [hos'] at h2
        simp only [List.mem_append, List.mem_cons] at h2 ⊢
        rcases h2 with h2 | rfl | h2
        · exact .inl h2
        · omega
        · exact .inr h2

/-! ## The recursion -/

theorem opendir_ub {v : Vol} {T : List Dir} {G : Goal} {e : Nat} (h : Into v T G (.inr e)) : e ≠ FR_OK ∧ e ≠ UB := by
  cases h <;> decide

theorem rec_spec {g : Env} (hr : Ready g.v g.i) (hbig : g.i.fsi ≠ none → 512 ≤ g.v.ss) (hs : Sound g.v) (hold : ∀ n, (g.old n).2.length = 256) : ∀ k, Removes g (rmRec g k)
  | 0 => fun path abs l r T F G h hc _ _ _ _ _ => ⟨T, F, h, hc, by rw [rmRec]; exact ⟨(by decide : HANG ≠ UB), .inl ⟨(by show HANG ≠ FR_OK; decide), did_quiet hr h (.refl h.inv) _⟩⟩⟩
  | k + 1 => fun path abs l r T F G h hc hne hge hp hG hl => by
    have hun := unlink_removes hr hbig hs hold
    rcases unlink_out hr hbig hs hold h hc hp hG with ⟨-, -, ⟨q, h1, h2, -⟩ | ⟨T', F', d, cs, o, rfl, hn, hres, h1, h2, h3⟩⟩
    rotate_left
    · rw [rmRec, if_pos hres]
      exact ⟨T', F', h1, h2, by rw [hres]; exact gone_out h.once h3 hn⟩
    rw [rmRec, if_neg h1]
    have ht1 := tree_quiet hr q h
    generalize rmUnlink g path r = r1 at q ht1
    -- opening the directory
    obtain ⟨q2, h3⟩ := follow_spec hr ht1 hc hp (g.old r1.n).1 (hold r1.n)
    have h3 := h3.resolve_left fun hx => hx.2 hs
    obtain ⟨G', hG', harr⟩ := h3
    obtain ⟨G0, -, huq⟩ := C81_place g.v g.i T F _ ht1 g.cdir hc abs l
    cases (huq G' hG').trans (huq G hG).symm
    obtain ⟨q3, -, h4⟩ := opendir_spec hr ht1 r1.files g.fs q2 harr
    unfold rmOpen fOpendir
    generalize opendirAt g.v g.i r1.files g.fs (followPath g.v g.i g.cdir (path ++ [0]) r1.st (g.old r1.n).1 (g.old r1.n).2) = od at q3 h4
    have h4 := h4.resolve_left fun hx => hx.2 hs
    have hq3 := q.trans q3
    have ht3 := tree_quiet hr hq3 h
    unfold rmInside
    rcases h4 with ⟨n0, hn0, hi, hsc, hat, hcase⟩ | ⟨e, hi, he⟩
    rotate_left
    · rw [if_neg (by rw [he]; exact (opendir_ub hi).1)]
      exact ⟨T, F, ht3, hc, by show od.res ≠ UB; rw [he]; exact (opendir_ub hi).2, .inl ⟨(by show od.res ≠ FR_OK; rw [he]; exact (opendir_ub hi).1), did_quiet hr h hq3 _⟩⟩
    rcases hcase with hok | ⟨htoo, -⟩
    rotate_left
    · rw [if_neg (by rw [htoo]; decide)]
      exact ⟨T, F, ht3, hc, by show od.res ≠ UB; rw [htoo]; decide, .inl ⟨(by show od.res ≠ FR_OK; rw [htoo]; decide), did_quiet hr h hq3 _⟩⟩
    rw [if_pos hok]
    have hrep := (ht3.dirs n0 hn0).dir.rep
    obtain ⟨T2, F2, ht2, hc2, hd2, hub⟩ := loop_spec hr hs hold (rec_spec hr hbig hs hold k) hun h hne hge hp hG hn0 hi (hl n0 hi) ROUNDS (r := ⟨od.st, od.files, r1.n + 1, FR_OK⟩) ht3 hc (did_quiet hr h hq3 _) hn0 rfl (.inl hat) (by rw [List.drop_zero]; exact hrep) (fun o ho => ho)
    generalize rmLoop g (rmRec g k) path ROUNDS od.dp ⟨od.st, od.files, r1.n + 1, FR_OK⟩ = y at ht2 hd2 hub
    have hcl : (rmClose od.lock y).st = y.st ∧ (rmClose od.lock y).res = y.res := ⟨rfl, rfl⟩
    generalize rmClose od.lock y = z at hcl
    rw [← hcl.1] at ht2 hd2
    rw [← hcl.2] at hub
    have hd2 := did_mono (fun c hx => (inside_into hi c).mpr hx) hd2
    unfold rmEnd
    by_cases hz : z.res = FR_OK
    rotate_left
    · rw [if_neg hz]
      exact ⟨T2, F2, ht2, hc2, hub, .inl ⟨hz, hd2⟩⟩
    rw [if_pos hz]
    -- removing the directory
    obtain ⟨G2, hG2, hst⟩ := still_resolves h ht2 hd2.pruned hc2 hG (into_lands hi)
    rcases unlink_out hr hbig hs hold ht2 hc2 hp hG2 with ⟨-, -, ⟨q5, c1, c2, -⟩ | ⟨T3, F3, d2, cs, o, rfl, hn, hres, c1, c2, c3⟩⟩
    · exact ⟨T2, F2, tree_quiet hr q5 ht2, hc2, c2, .inl ⟨c1, did_trans hd2 (did_quiet hr ht2 q5 _)⟩⟩
    refine ⟨T3, F3, c1, c2, by rw [hres]; decide, .inr ⟨hres, ?_⟩⟩
    cases hst with
    | @object d _ _ _ hm2 he2 ho2 =>
      obtain ⟨hdT, hoT, -⟩ := resolves_object hG
      have hdir : IsDir o := by cases hi with | dir h1 _ _ => exact h1
      have hout : ∀ e ∈ T3, ¬ Inside g.v T (.object d cs o) e.sclust := by
        intro e he hin
        obtain ⟨e2, he2, b1, -⟩ := (gone_pruned ht2.once c3).dirs e he
        have hw := hd2.pruned.reach e2 he2 (first g.v o) (by rw [← b1]; exact hin.2)
        have hv := vacant_within (c3.vacant hdir) hw
        refine (c3.dirs e he fun hx => ?_).2 ⟨hdir, b1.trans hv⟩
        exact c3.nodot (c3.vacant hdir d2 hm2 (by rw [← hx, b1, hv]) o ho2)
      obtain ⟨x, y', hos, hleft⟩ := c3.left
      have hnd : ¬ Inside g.v T (.object d cs o) d.sclust := by
        rw [← he2]
        exact hout { d2 with os := x ++ y' } hleft
      have hdd : d2 = d := dir_unique ht2.once hm2 (hd2.pruned.same d hdT hnd) he2
      subst hdd
      refine ⟨d2, cs, o, rfl, hn, hdT, c3.nodot, ?_, ⟨x, y', hos, hleft⟩, hout, c3.freed, ?_⟩
      · refine did_trans (did_mono (fun c hx => .inl hx) hd2) (did_mono (fun c hx => ?_) (gone_did ht2.once c3))
        rcases hx with ⟨-, rfl⟩ | hx
        · exact .inl ⟨hdir, .self⟩
        · exact .inr hx
      · rw [c3.rest, hd2.ents d2 c3.mem hnd]

end Fpm.Tree
