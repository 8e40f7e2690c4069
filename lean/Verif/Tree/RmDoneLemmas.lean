import Verif.Tree.RmLoopLemmas
/-!
# Lemmas about rm: when it succeeds
-/
namespace Fpm.Tree
open Fpm.Fat Fpm.Fat.Spec Fpm.FatFile.Spec Fpm.Lfn Fpm.Names Fpm.Names.Spec Fpm.TextIo.Spec Fpm.FatDir Fpm.FatDir.Spec Fpm.Mount Fpm.Mount.Spec Fpm.DirDev Fpm.DirDev.Spec Fpm.Tree.Spec Fpm.FatSync
open Fpm.FatLock (Sem chkShare incShare decShare Key incAt)

/-! ## The table of open objects -/

theorem locks_refl (f : List Sem) : SameLocks f f := ⟨rfl, fun _ x y h1 h2 => .inl (Option.some.inj (h1.symm.trans h2))⟩

theorem locks_trans {a b c : List Sem} (h1 : SameLocks a b) (h2 : SameLocks b c) : SameLocks a c := by
  refine ⟨h2.1.trans h1.1, fun j x z hx hz => ?_⟩
  obtain ⟨y, hy⟩ : ∃ y, b[j]? = some y := by
    have := (List.getElem?_eq_some_iff.mp hx).1
    exact ⟨_, List.getElem?_eq_getElem (by rw [h1.1]; exact this)⟩
  rcases h1.2 j x y hx hy with rfl | e1
  · exact h2.2 j _ z hy hz
  · rcases h2.2 j y z hy hz with rfl | e2
    · exact .inr e1
    · exact .inr ⟨e1.1, e2.2⟩

theorem locks_mem {f f' : List Sem} (h : SameLocks f f') {y : Sem} (hy : y ∈ f') : y ∈ f ∨ y.key.fs = 0 := by
  obtain ⟨j, hj⟩ := List.mem_iff_getElem?.mp hy
  have hlt := (List.getElem?_eq_some_iff.mp hj).1
  have hx := List.getElem?_eq_getElem (l := f) (i := j) (by rw [← h.1]; exact hlt)
  rcases h.2 j _ y hx hj with e | e
  · exact .inl (e ▸ List.mem_of_getElem? hx)
  · exact .inr e.2

theorem spare_locks : ∀ {f f' : List Sem}, SameLocks f f' → spare f' = spare f
  | [], [], _ => rfl
  | [], y :: f', h => by simp [SameLocks] at h
  | x :: f, [], h => by simp [SameLocks] at h
  | x :: f, y :: f', h => by
    have hr : SameLocks f f' := ⟨by simpa using h.1, fun j a b ha hb => h.2 (j + 1) a b (by simpa using ha) (by simpa using hb)⟩
    have ih := spare_locks hr
    unfold spare at ih ⊢
    rw [List.countP_cons, List.countP_cons, ih]
    rcases h.2 0 x y rfl rfl with rfl | ⟨e1, e2⟩
    · rfl
    · simp [e1, e2]

/-- Taking a place for a directory that is not open. -/
theorem inc_new {files : List Sem} {k : Key} (hk : k.fs ≠ 0) (hno : ∀ x ∈ files, x.key ≠ k) (hs : 0 < spare files) :
    ∃ j x, files[j]? = some x ∧ x.key.fs = 0 ∧ incShare files k 0 = (files.set j ⟨k, 1⟩, j + 1) ∧ spare (files.set j ⟨k, 1⟩) + 1 = spare files := by
  have e1 : files.findIdx? (·.key = k) = none := List.findIdx?_eq_none_iff.mpr (by simpa using hno)
  unfold incShare
  rw [e1]
  simp only
  cases e2 : files.findIdx? (·.key.fs = 0) with
  | none =>
    have := List.findIdx?_eq_none_iff.mp e2
    unfold spare at hs
    obtain ⟨x, hx, h0⟩ := List.countP_pos_iff.mp hs
    have := this x hx
    simp_all
  | some j =>
    obtain ⟨hj, h0, -⟩ := List.findIdx?_eq_some_iff_getElem.mp e2
    have h0 : files[j].key.fs = 0 := by simpa using h0
    refine ⟨j, files[j], List.getElem?_eq_getElem hj, h0, ?_, ?_⟩
    · simp only
      unfold incAt
      rw [List.getElem?_set_self hj]
      simp
    · unfold spare
      rw [List.countP_set hj]
      have : 0 < List.countP (fun x : Sem => decide (x.key.fs = 0)) files := by unfold spare at hs; exact hs
      simp [h0, hk]
      omega

/-- Giving it back. -/
theorem dec_back {files f' : List Sem} {k : Key} {j : Nat} {x : Sem} (hk : k.fs ≠ 0) (hx : files[j]? = some x) (h0 : x.key.fs = 0) (ha : SameLocks (files.set j ⟨k, 1⟩) f') : SameLocks files (decShare f' (j + 1)).1 := by
  have hj := (List.getElem?_eq_some_iff.mp hx).1
  have hlen : f'.length = files.length := by rw [ha.1, List.length_set]
  have hf : f'[j]? = some ⟨k, 1⟩ := by
    have hg := List.getElem?_eq_getElem (l := f') (i := j) (by omega)
    rcases ha.2 j ⟨k, 1⟩ _ (by rw [List.getElem?_set_self hj]) hg with e | e
    · rw [hg, ← e]
    · exact absurd e.1 hk
  unfold decShare
  rw [if_neg (by omega), Nat.add_sub_cancel, hf]
  refine ⟨by simp [hlen], fun n a b h1 h2 => ?_⟩
  by_cases hn : n = j
  · subst hn
    cases hx.symm.trans h1
    rw [List.getElem?_set_self (by omega)] at h2
    cases h2
    exact .inr ⟨h0, rfl⟩
  · simp only at h2
    rw [List.getElem?_set_ne (by omega)] at h2
    exact ha.2 n a b (by rw [List.getElem?_set_ne (by omega)]; exact h1) h2

theorem opendir_locks {v : Vol} {i : Info} {files : List Sem} {fs : Nat} {f : Fol} (h : (opendirAt v i files fs f).res = FR_OK) (h0 : (opendirAt v i files fs f).dp.sclust ≠ 0) :
    (opendirAt v i files fs f).lock = (incShare files (keyOf fs (opendirAt v i files fs f).dp) 0).2 ∧ (opendirAt v i files fs f).files = (incShare files (keyOf fs (opendirAt v i files fs f).dp) 0).1 := by
  unfold opendirAt at h h0 ⊢
  by_cases h1 : f.res = FR_OK
  · rw [if_pos h1] at h h0 ⊢
    by_cases h2 : (opendirObj v f).2 = FR_OK
    · rw [if_pos h2] at h h0 ⊢
      generalize dirSdi v i f.st (opendirObj v f).1 0 = r at h h0 ⊢
      unfold opendirLock at h h0 ⊢
      by_cases h3 : r.res = FR_OK
      · rw [if_pos h3] at h h0 ⊢
        by_cases h4 : r.dp.sclust ≠ 0
        · rw [if_pos h4]
          exact ⟨rfl, rfl⟩
        · rw [if_neg h4] at h0
          exact absurd h0 h4
      · rw [if_neg h3] at h
        simp only at h
        split at h
        · cases h
        · exact absurd h h3
    · rw [if_neg h2] at h
      exact absurd h h2
  · rw [if_neg h1] at h
    simp only at h
    split at h
    · cases h
    · exact absurd h h1

/-! ## Depth -/

theorem depth_succ {v : Vol} {T : List Dir} : ∀ {k n : Nat}, Depth v T k n → Depth v T (k + 1) n
  | 0, _, h => h.elim
  | k + 1, n, h => fun e he hs o ho hdo hd => depth_succ (h e he hs o ho hdo hd)

theorem depth_within {v : Vol} {T : List Dir} {k n c : Nat} (h : Depth v T k n) (hw : Within v T n c) : Depth v T k c := by
  induction hw with
  | self => exact h
  | @sub d o _ hd ho hdo hdir ih =>
    cases k with
    | zero => exact h.elim
    | succ k => exact depth_succ (ih d hd rfl o ho hdo hdir)

/-- A directory is not below itself. -/
theorem depth_loop {v : Vol} {T : List Dir} {d : Dir} {o : Obj} (hd : d ∈ T) (ho : o ∈ d.os) (hdo : ¬ Dotted o) (hdir : IsDir o) : ∀ {k : Nat}, Depth v T k (first v o) → ¬ Within v T (first v o) d.sclust
  | 0, h, _ => h
  | k + 1, h, hw => depth_loop hd ho hdo hdir (depth_within h hw d hd rfl o ho hdo hdir) hw

theorem depth_pruned {v : Vol} {S : Nat → Prop} {T T' : List Dir} {F F' : List (List Nat)} {s s' : St} (hp : Pruned v S T F s T' F' s') : ∀ {k n : Nat}, Depth v T k n → Depth v T' k n
  | 0, _, h => h
  | k + 1, n, h => fun e he hs o ho hdo hd => by
    obtain ⟨e0, he0, a1, -, a3, -⟩ := hp.dirs e he
    exact depth_pruned hp (h e0 he0 (a1.symm.trans hs) o (a3.subset ho) hdo hd)

/-! ## Paths that go on to lead to the directory -/

theorem leads_below {v : Vol} {i : Info} {T : List Dir} {F : List (List Nat)} {s : St} (h : Tree v i T F s) {d0 d : Dir} {l : List (List Nat)} {G : Goal} {cs : List Nat} {o : Obj} {x : Nat} (hl : Leads v T d0 l G) : G = .object d cs o → (∀ c ∈ l, ¬ DotName c) →
    d0 ∈ T → Within v T x d0.sclust → Within v T x d.sclust := by
  induction hl with
  | bad _ => exact fun hG => by cases hG
  | missing _ _ _ _ => exact fun hG => by cases hG
  | noDir _ _ _ _ _ => exact fun hG => by cases hG
  | free _ _ _ => exact fun hG => by cases hG
  | self _ _ => exact fun hG => by cases hG
  | stay hn _ _ ih => exact fun _ hx => absurd hn (hx _ (by simp))
  | object _ _ _ => intro hG _ _ hw; cases hG; exact hw
  | @enter d0 d' cs l o' G hg ho hc hdir hd' he _ ih =>
    intro hG hx h0 hw
    have hdo : ¬ Dotted o' := fun hdot => by
      unfold Calls at hc
      rw [if_neg (hx _ (by simp))] at hc
      exact means_dotted hc (h.dots d0 h0 o' ho hdot)
    exact ih hG (fun c hc => hx c (by simp [hc])) hd' (by rw [he]; exact .sub hw h0 ho hdo hdir)

theorem leads_kept {v : Vol} {i : Info} {T T' : List Dir} {F F' : List (List Nat)} {s s' : St} (h : Tree v i T F s) {n : Nat} (hp : Pruned v (Within v T n) T F s T' F' s') {d0 d : Dir} {l : List (List Nat)} {G : Goal} {cs : List Nat} {o : Obj}
    (hnd : ¬ Within v T n d.sclust) (hl : Leads v T d0 l G) : G = .object d cs o → (∀ c ∈ l, ¬ DotName c) → d0 ∈ T → ¬ Within v T n d0.sclust → Leads v T' d0 l G := by
  induction hl with
  | bad _ => exact fun hG => by cases hG
  | missing _ _ _ _ => exact fun hG => by cases hG
  | noDir _ _ _ _ _ => exact fun hG => by cases hG
  | free _ _ _ => exact fun hG => by cases hG
  | self _ _ => exact fun hG => by cases hG
  | stay hn _ _ ih => exact fun _ hx => absurd hn (hx _ (by simp))
  | object hg ho hc => exact fun _ _ _ _ => .object hg ho hc
  | @enter d0 d' cs l o' G hg ho hc hdir hd' he hl ih =>
    intro hG hx h0 hw
    have hdo : ¬ Dotted o' := fun hdot => by
      unfold Calls at hc
      rw [if_neg (hx _ (by simp))] at hc
      exact means_dotted hc (h.dots d0 h0 o' ho hdot)
    have hx' : ∀ c ∈ l, ¬ DotName c := fun c hc => hx c (by simp [hc])
    have hw' : ¬ Within v T n d'.sclust := fun hin => hnd (leads_below h hl hG hx' hd' hin)
    exact .enter hg ho hc hdir (hp.same d' hd' hw') he (ih hG hx' hd' hw')

theorem resolves_kept {g : Env} {T T' : List Dir} {F F' : List (List Nat)} {s s' : St} (h : Tree g.v g.i T F s) {n : Nat} (hp : Pruned g.v (Within g.v T n) T F s T' F' s') {abs : Bool} {l : List (List Nat)} {d : Dir} {cs : List Nat} {o : Obj}
    (hG : Resolves g.v T g.cdir abs l (.object d cs o)) (hnd : ¬ Within g.v T n d.sclust) (hst : Straight g T abs l n) : Resolves g.v T' g.cdir abs l (.object d cs o) := by
  obtain ⟨d0, hd0, he, hG⟩ := hG
  have hw : ¬ Within g.v T n d0.sclust := by rw [he]; exact hst.start
  refine ⟨d0, hp.same d0 hd0 hw, he, .inr ?_⟩
  rcases hG with ⟨-, hG⟩ | hG
  · cases hG
  · exact leads_kept h hp hnd hG rfl hst.nodots hd0 hw

theorem root_outside {v : Vol} {i : Info} {T : List Dir} {F : List (List Nat)} {s : St} (h : Tree v i T F s) {n : Nat} (hn : n ≠ 0) : ¬ Within v T n 0 := by
  intro hw
  generalize hc : 0 = c at hw
  cases hw with
  | self => exact hn hc.symm
  | sub _ h2 h3 h4 h5 => exact (h.subs _ h2 _ h3 h4 h5).1 hc.symm

/-! ## Removing succeeds -/

theorem share_free {files : List Sem} {k : Key} (h : ∀ x ∈ files, x.key ≠ k) : chkShare files k 2 = FR_OK := by
  unfold chkShare
  cases hc : FatLock.chkLoop k false files with
  | mk o be =>
    cases o with
    | none => simp; rfl
    | some x =>
      have := (FatLock.chkLoop_spec k files false).1 x be hc
      exact absurd this.2.1 (h x this.1)

theorem refused_not {g : Env} {T : List Dir} {files : List Sem} {r : Nat} {d : Dir} {cs : List Nat} {o : Obj} (hn : ¬ DotName cs) (hk : ∀ x ∈ files, x.key ≠ ⟨g.fs, d.sclust, 32 * o.pos⟩) (hro : ¬ ReadOnly o)
    (hd : IsDir o → first g.v o ≠ g.cdir ∧ Vacant g.v T o) : ¬ Refused g.v g.i T g.cdir (fun dp => chkShare files (keyOf g.fs dp) 2) r (.object d cs o) := by
  rintro (⟨h, -⟩ | ⟨-, dp, h1, h2, h3, -⟩ | ⟨-, h, -⟩)
  · exact hn h
  · refine h3 ?_
    have : keyOf g.fs dp = ⟨g.fs, d.sclust, 32 * o.pos⟩ := by unfold keyOf; rw [h1, h2.dptr]
    show chkShare files (keyOf g.fs dp) 2 = FR_OK
    rw [this]
    exact share_free hk
  · rcases h with h | ⟨h1, h | h⟩
    · exact hro h
    · exact (hd h1).1 h
    · exact h (hd h1).2

/-- Removing directories that nothing prevents from being removed, for a function that does it. -/
def Manages (g : Env) (m : Nat) (rec : List Nat → Rm → Rm) : Prop := ∀ (path : List Nat) (abs : Bool) (l : List (List Nat)) (r : Rm) (T : List Dir) (F : List (List Nat)) (d : Dir) (cs : List Nat) (o : Obj) (k : Nat), Tree g.v g.i T F r.st →
  (∃ d ∈ T, d.sclust = g.cdir) → path ≠ [] → (∀ c ∈ path, 32 ≤ c) → PathOf (path ++ [0]) abs l → Resolves g.v T g.cdir abs l (.object d cs o) → ¬ DotName cs → Listable g.v T (first g.v o) → Straight g T abs l (first g.v o) →
  Removable g.v T g.cdir g.fs r.files k d o → k ≤ m → (rec path r).res = FR_OK ∧ SameLocks r.files (rec path r).files

/-- What is open while the directory with cluster `n` is being emptied: the directory, and nothing in it. -/
def Idle (g : Env) (T : List Dir) (n : Nat) (files : List Sem) : Prop := ∀ x ∈ files, x.key.fs = g.fs → x.key.clu = n ∧ x.key.ofs = 0 ∨ ¬ Within g.v T n x.key.clu

theorem loop_done {g : Env} (hr : Ready g.v g.i) (hbig : g.i.fsi ≠ none → 512 ≤ g.v.ss) (hs : Sound g.v) (hold : ∀ n, (g.old n).2.length = 256) (hfs : g.fs ≠ 0) {m : Nat} {rec : List Nat → Rm → Rm} (hrec : Removes g rec) (hman : Manages g m rec) {path : List Nat} {abs : Bool} {l : List (List Nat)}
    {T0 : List Dir} {F0 : List (List Nat)} {s0 : St} {d : Dir} {cs0 : List Nat} {o0 : Obj} (h0 : Tree g.v g.i T0 F0 s0) (hne : path ≠ []) (hge : ∀ c ∈ path, 32 ≤ c) (hp : PathOf (path ++ [0]) abs l) (hG : Resolves g.v T0 g.cdir abs l (.object d cs0 o0)) {n0 : Dir} (hn0 : n0 ∈ T0)
    (hi : Into g.v T0 (.object d cs0 o0) (.inl n0)) (hl : Listable g.v T0 n0.sclust) (hst : Straight g T0 abs l n0.sclust) {k : Nat} (hkm : k ≤ m) (hdep : Depth g.v T0 (k + 1) n0.sclust) (hnd : ¬ Within g.v T0 n0.sclust d.sclust) (hcwd : ¬ Within g.v T0 n0.sclust g.cdir)
    (hall : ∀ e ∈ T0, Within g.v T0 n0.sclust e.sclust → ∀ o' ∈ e.os, ¬ Dotted o' → ¬ ReadOnly o' ∧ o'.pos ≠ 0) {f1 : List Sem} (hidle : Idle g T0 n0.sclust f1) (hsp : k ≤ spare f1) :
    ∀ (rounds : Nat) {dp : Dp} {r : Rm} {T : List Dir} {F : List (List Nat)} {n : Dir} {os : List Obj} {j : Nat}, Tree g.v g.i T F r.st → (∃ d ∈ T, d.sclust = g.cdir) → Did g.v g.i (Within g.v T0 n0.sclust) T0 F0 s0 T F r.st → n ∈ T → n.sclust = n0.sclust →
      Pos g.v g.i n.loc j dp → Rep true j ((entries g.v g.i (view r.st) n.loc).drop j) os → (∀ o ∈ os, o ∈ n.os) → (∀ o ∈ n.os, Dotted o ∨ o ∈ os) → os.length < rounds → SameLocks f1 r.files →
      ∃ T' F', Tree g.v g.i T' F' (rmLoop g rec path rounds dp r).st ∧ (∃ d ∈ T', d.sclust = g.cdir) ∧ Did g.v g.i (Within g.v T0 n0.sclust) T0 F0 s0 T' F' (rmLoop g rec path rounds dp r).st ∧ (rmLoop g rec path rounds dp r).res = FR_OK ∧
        SameLocks f1 (rmLoop g rec path rounds dp r).files ∧ ∃ n' ∈ T', n'.sclust = n0.sclust ∧ ∀ o ∈ n'.os, Dotted o
  | 0, dp, r, T, F, n, os, j, _, _, _, _, _, _, _, _, _, hlt, _ => absurd hlt (by omega)
  | rounds + 1, dp, r, T, F, n, os, j, h, hc, hd, hn, hns, hpos, hrep, hos, hleft0, hlt, hlk => by
    obtain ⟨q, hres, hit⟩ := rd_step hr hs h hn hpos hrep (hold r.n)
    rw [rmLoop, if_pos hres]
    generalize readdir g.v g.i r.st dp (g.old r.n).2 = x at q hit
    have hq := tree_quiet hr q h
    have hdq := did_trans hd (did_quiet hr h q _)
    rcases hit with ⟨hit, hdots⟩ | ⟨a, o, b, name, rfl, hadot, hdo, hsh, hit, hpos', hrep'⟩
    · rw [hit]
      exact ⟨T, F, hq, hc, hdq, rfl, hlk, n, hn, hns, fun o ho => (hleft0 o ho).elim id (hdots o)⟩
    rw [hit]
    simp only
    have ho : o ∈ n.os := hos o (by simp)
    obtain ⟨n1, hn1, a1, -, a3, -⟩ := hd.pruned.dirs n hn
    cases dir_unique h0.once hn1 hn0 (a1.symm.trans hns)
    have ho0 := a3.subset ho
    obtain ⟨cs, hk⟩ := hl n0 hn0 .self o ho0 hdo
    have hkr := (h.dirs n hn).dir.rep
    have hcs := known_ne hkr ho hk
    obtain ⟨hgood, hndot, hcall⟩ := known_good hkr ho hk
    rw [known_shown hk hsh, if_neg (known_head hk hcs)]
    have hlen := known_len hk
    rw [childPath, if_pos (by omega)]
    simp only
    have hpc := child_path hp hne hge hk.1 hcs
    have hge' : ∀ c ∈ path ++ 47 :: text cs, 32 ≤ c := fun c hx => by
      rcases List.mem_append.mp hx with hx | hx
      · exact hge c hx
      · rcases List.mem_cons.mp hx with rfl | hx
        · decide
        · exact text_ge hk.1 c hx
    have hi' : Into g.v T (.object d cs0 o0) (.inl n) := by
      cases hi with
      | dir h1 h2 h3 => exact .dir h1 hn (hns.trans h3)
    have hG1 : Resolves g.v T g.cdir abs (l ++ [cs]) (.object n cs o) := resolves_child (resolves_kept h0 hd.pruned hG hnd hst) hi' hgood ho hcall
    obtain ⟨hro, hp0⟩ := hall n0 hn0 .self o ho0 hdo
    have hsub : IsDir o → Within g.v T0 n0.sclust (first g.v o) := fun hx => .sub .self hn0 ho0 hdo hx
    have hli : ∀ n1, Into g.v T (.object n cs o) (.inl n1) → Listable g.v T n1.sclust := fun n1 hx => by
      cases hx with
      | dir h1 h2 h3 =>
        rw [h3]
        exact listable_did hdq hl (hsub h1)
    have hin : ∀ c, Inside g.v T (.object n cs o) c → Within g.v T0 n0.sclust c := fun c hx => within_trans (hsub hx.1) (pruned_within hdq.pruned hx.2)
    have hattr := (attr_dir (o := o) fun b hb => (entries_table hr (view_sec h.inv) n.loc _ (List.mem_of_getElem? (rep_entry hkr o ho))).2 b hb).1
    have hkey : ∀ y ∈ r.files, y.key ≠ ⟨g.fs, n.sclust, 32 * o.pos⟩ := fun y hy hx => by
      rcases locks_mem hlk hy with hy | hy
      · rcases hidle y hy (by rw [hx]) with ⟨-, h1⟩ | h1
        · rw [hx] at h1
          have h1 : 32 * o.pos = 0 := h1
          exact hp0 (by omega)
        · rw [hx] at h1
          exact h1 (by rw [hns]; exact .self)
      · rw [hx] at hy
        exact hfs hy
    have hone : ∃ T' F', Tree g.v g.i T' F' (rmOne g rec o.entry (path ++ 47 :: text cs) ⟨x.st, r.files, r.n + 1, FR_OK⟩).st ∧ (∃ d ∈ T', d.sclust = g.cdir) ∧
        Out g.v g.i T F x.st (.object n cs o) T' F' (rmOne g rec o.entry (path ++ 47 :: text cs) ⟨x.st, r.files, r.n + 1, FR_OK⟩).st (rmOne g rec o.entry (path ++ 47 :: text cs) ⟨x.st, r.files, r.n + 1, FR_OK⟩).res ∧
        (rmOne g rec o.entry (path ++ 47 :: text cs) ⟨x.st, r.files, r.n + 1, FR_OK⟩).res = FR_OK ∧ SameLocks r.files (rmOne g rec o.entry (path ++ 47 :: text cs) ⟨x.st, r.files, r.n + 1, FR_OK⟩).files := by
      unfold rmOne
      split
      · rename_i hdir
        have hdir : IsDir o := by unfold IsDir; rw [← hattr]; exact hdir
        obtain ⟨T', F', b1, b2, b3⟩ := hrec _ abs _ ⟨x.st, r.files, r.n + 1, FR_OK⟩ T F _ hq hc (by simp) hge' hpc hG1 hli
        have hdk := hdep n0 hn0 rfl o ho0 hdo hdir
        have hw := hsub hdir
        refine ⟨T', F', b1, b2, b3, hman _ abs _ ⟨x.st, r.files, r.n + 1, FR_OK⟩ T F n cs o k hq hc (by simp) hge' hpc hG1 hndot (listable_did hdq hl hw) ⟨?_, fun hx => hst.start (within_trans hw (pruned_within hdq.pruned hx))⟩ ⟨hdir, hro, ?_, ?_, ?_, depth_pruned hdq.pruned hdk, ?_⟩ hkm⟩
        · intro c hc
          rcases List.mem_append.mp hc with hc | hc
          · exact hst.nodots c hc
          · rw [List.mem_singleton.mp hc]
            exact hndot
        · intro e he hwe o' ho' hdo'
          obtain ⟨e0, he0, c1, -, c3, -⟩ := hdq.pruned.dirs e he
          refine hall e0 he0 ?_ o' (c3.subset ho') hdo'
          rw [← c1]
          exact within_trans hw (pruned_within hdq.pruned hwe)
        · exact fun hx => hcwd (within_trans hw (pruned_within hdq.pruned hx))
        · refine fun y hy => ⟨hkey y hy, fun hyf hyw => ?_⟩
          have hyw := pruned_within hdq.pruned hyw
          rcases locks_mem hlk hy with hy | hy
          · rcases hidle y hy hyf with ⟨h1, -⟩ | h1
            · rw [h1] at hyw
              exact depth_loop hn0 ho0 hdo hdir hdk hyw
            · exact h1 (within_trans hw hyw)
          · exact hfs (hyf.symm.trans hy)
        · show k ≤ spare r.files
          rw [spare_locks hlk]
          exact hsp
      · rename_i hdir
        have hdir : ¬ IsDir o := by unfold IsDir; rw [← hattr]; exact hdir
        rcases (unlink_out (path := path ++ 47 :: text cs) (r := ⟨x.st, r.files, r.n + 1, FR_OK⟩) hr hbig hs hold hq hc hpc hG1).2.2 with ⟨-, -, -, h1⟩ | ⟨T', F', d2, cs2, o2, hx, hn2, hres2, h1, h2, h3⟩
        · exact absurd h1 (refused_not hndot hkey hro fun hx => absurd hx hdir)
        · cases hx
          exact ⟨T', F', h1, h2, by rw [hres2]; exact gone_out h.once h3 hn2, hres2, locks_refl _⟩
    generalize rmOne g rec o.entry (path ++ 47 :: text cs) ⟨x.st, r.files, r.n + 1, FR_OK⟩ = y at hone
    obtain ⟨T', F', ht', hc', ⟨-, hout⟩, hok, hlk'⟩ := hone
    rw [if_pos hok]
    rcases hout with ⟨hno, -⟩ | ⟨-, d', cs', o', hx, -, -, -, hdid, hleft, -, -, hrest⟩
    · exact absurd hok hno
    cases hx
    obtain ⟨u, w, hos', hmem⟩ := hleft
    refine loop_done hr hbig hs hold hfs hrec hman h0 hne hge hp hG hn0 hi hl hst hkm hdep hnd hcwd hall hidle hsp rounds ht' hc' (did_trans hdq (did_mono ?_ hdid)) hmem hns hpos' (os := b) ?_ ?_ ?_ ?_ (locks_trans hlk hlk')
    · rintro c (hx | rfl)
      · exact hin c hx
      · rw [hns]
        exact .self
    · show Rep true (o.pos + 1) (List.drop (o.pos + 1) (entries g.v g.i (view y.st) n.loc)) b
      rw [hrest, entries_same hr (tree_linked h hn) q.same]
      exact hrep'
    · intro o2 ho2
      have h1 := (rep_pos hrep' o2 ho2).1
      have h2 := hos o2 (by simp [ho2])
      rw [hos'] at h2
      simp only [List.mem_append, List.mem_cons] at h2 ⊢
      rcases h2 with h2 | rfl | h2
      · exact .inl h2
      · omega
      · exact .inr h2
    · intro o2 ho2
      have hne2 := rep_inj hkr hos' o2 ho2
      have h2 : o2 ∈ n.os := by
        rw [hos']
        simp only [List.mem_append, List.mem_cons] at ho2 ⊢
        exact ho2.elim .inl fun h => .inr (.inr h)
      rcases hleft0 o2 h2 with h3 | h3
      · exact .inl h3
      · rcases List.mem_append.mp h3 with h3 | h3
        · exact .inl (hadot o2 h3)
        · rcases List.mem_cons.mp h3 with rfl | h3
          · exact absurd rfl hne2
          · exact .inr h3
    · rw [List.length_append, List.length_cons] at hlt
      omega

theorem rec_done {g : Env} (hr : Ready g.v g.i) (hbig : g.i.fsi ≠ none → 512 ≤ g.v.ss) (hs : Sound g.v) (hold : ∀ n, (g.old n).2.length = 256) (hfs : g.fs ≠ 0) : ∀ m, Manages g m (rmRec g m)
  | 0 => fun path abs l r T F d cs o k _ _ _ _ _ _ _ _ _ hrm hkm => by
    cases Nat.le_zero.mp hkm
    exact hrm.depth.elim
  | m + 1 => fun path abs l r T F d cs o k h hc hne hge hp hG hnd hl hst hrm hkm => by
    rcases unlink_out hr hbig hs hold h hc hp hG with ⟨hf, -, ⟨q, h1, -⟩ | ⟨T', F', d', cs', o', -, -, hres, -⟩⟩
    rotate_left
    · rw [rmRec, if_pos hres, hf]
      exact ⟨hres, locks_refl _⟩
    obtain ⟨k, rfl⟩ : ∃ k', k = k' + 1 := by
      cases k with
      | zero => exact hrm.depth.elim
      | succ k => exact ⟨k, rfl⟩
    rw [rmRec, if_neg h1, ← hf]
    rw [← hf] at hrm
    have ht1 := tree_quiet hr q h
    generalize rmUnlink g path r = r1 at q ht1 hf hrm
    obtain ⟨hdT, hoT, hcall⟩ := resolves_object hG
    have hdo : ¬ Dotted o := fun hdot => by
      unfold Calls at hcall
      rw [if_neg hnd] at hcall
      exact means_dotted hcall (h.dots d hdT o hoT hdot)
    have hf0 := (h.subs d hdT o hoT hdo hrm.dir).1
    have hout := depth_loop hdT hoT hdo hrm.dir hrm.depth
    -- opening the directory
    obtain ⟨q2, h3⟩ := follow_spec hr ht1 hc hp (g.old r1.n).1 (hold r1.n)
    have h3 := h3.resolve_left fun hx => hx.2 hs
    obtain ⟨G', hG', harr⟩ := h3
    obtain ⟨G0, -, huq⟩ := C81_place g.v g.i T F _ ht1 g.cdir hc abs l
    cases (huq G' hG').trans (huq _ hG).symm
    obtain ⟨q3, -, h4⟩ := opendir_spec hr ht1 r1.files g.fs q2 harr
    unfold rmOpen fOpendir
    have hlocks := @opendir_locks g.v g.i r1.files g.fs (followPath g.v g.i g.cdir (path ++ [0]) r1.st (g.old r1.n).1 (g.old r1.n).2)
    generalize opendirAt g.v g.i r1.files g.fs (followPath g.v g.i g.cdir (path ++ [0]) r1.st (g.old r1.n).1 (g.old r1.n).2) = od at q3 h4 hlocks
    have h4 := h4.resolve_left fun hx => hx.2 hs
    have hq3 := q.trans q3
    have ht3 := tree_quiet hr hq3 h
    rcases h4 with ⟨n0, hn0, hi, hsc, hat, hcase⟩ | ⟨e, hi, he⟩
    rotate_left
    · cases hi with
      | file hx => exact absurd hrm.dir hx
    have hn0s : n0.sclust = first g.v o := by
      cases hi with
      | dir _ _ h3 => exact h3
    have hspare := hrm.slots
    rcases hcase with hok | ⟨-, -, -, hfull⟩
    rotate_left
    · obtain ⟨x, hx, hx0⟩ := List.countP_pos_iff.mp (show 0 < spare r1.files by omega)
      exact absurd (by simpa using hx0) (hfull x hx)
    obtain ⟨hlock, hfiles⟩ := hlocks hok (by rw [hsc, hn0s]; exact hf0)
    have hkey : keyOf g.fs od.dp = ⟨g.fs, n0.sclust, 0⟩ := by unfold keyOf; rw [hsc, hat.dptr, Nat.mul_zero]
    rw [hkey] at hlock hfiles
    obtain ⟨j, x, hx, hx0, hinc, hsp⟩ := inc_new (files := r1.files) (k := ⟨g.fs, n0.sclust, 0⟩) hfs (fun y hy hk => (hrm.closed y hy).2 (by rw [hk]) (by rw [hk, ← hn0s]; exact .self)) (by omega)
    rw [hinc] at hlock hfiles
    have hidle : Idle g T n0.sclust (r1.files.set j ⟨⟨g.fs, n0.sclust, 0⟩, 1⟩) := by
      intro y hy hyf
      rcases List.mem_or_eq_of_mem_set hy with hy | rfl
      · exact .inr (by rw [hn0s]; exact (hrm.closed y hy).2 hyf)
      · exact .inl ⟨rfl, rfl⟩
    have hrep := (ht3.dirs n0 hn0).dir.rep
    have hlen : n0.os.length < ROUNDS := by
      have h3 := rep_length hrep
      have h4 := rounds_enough g.v g.i n0.loc 0
      rw [entries_length] at h3
      have h5 : DirDev.total g.v g.i n0.loc ≤ 65536 := by unfold DirDev.total; omega
      unfold ROUNDS MAX_DIR
      omega
    unfold rmInside
    rw [if_pos hok]
    obtain ⟨T2, F2, ht2, hc2, hd2, hres2, hlk2, n2, hn2, hn2s, hvac⟩ := loop_done (rec := rmRec g m) hr hbig hs hold hfs (rec_spec hr hbig hs hold m) (rec_done hr hbig hs hold hfs m) h hne hge hp hG hn0 hi (by rw [hn0s]; exact hl) (by rw [hn0s]; exact hst) (Nat.le_of_succ_le_succ hkm)
      (by rw [hn0s]; exact hrm.depth) (by rw [hn0s]; exact hout) (by rw [hn0s]; exact hrm.cwd) (by rw [hn0s]; exact hrm.all) hidle (by omega) ROUNDS (r := ⟨od.st, od.files, r1.n + 1, FR_OK⟩) (dp := od.dp) ht3 hc (did_quiet hr h hq3 _) hn0 rfl (.inl hat)
      (by rw [List.drop_zero]; exact hrep) (fun o ho => ho) (fun o ho => .inr ho) hlen (by rw [hfiles]; exact locks_refl _)
    generalize rmLoop g (rmRec g m) path ROUNDS od.dp ⟨od.st, od.files, r1.n + 1, FR_OK⟩ = y at ht2 hd2 hres2 hlk2
    have hcl : (rmClose od.lock y).st = y.st ∧ (rmClose od.lock y).res = y.res ∧ SameLocks r1.files (rmClose od.lock y).files := by
      refine ⟨rfl, rfl, ?_⟩
      unfold rmClose
      rw [hlock]
      exact dec_back hfs hx hx0 hlk2
    generalize rmClose od.lock y = z at hcl
    obtain ⟨hz1, hz2, hz3⟩ := hcl
    rw [← hz1] at ht2 hd2
    unfold rmEnd
    rw [if_pos (hz2.trans hres2)]
    have hG2 := resolves_kept h hd2.pruned hG (by rw [hn0s]; exact hout) (by rw [hn0s]; exact hst)
    rcases unlink_out hr hbig hs hold ht2 hc2 hp hG2 with ⟨hfz, -, ⟨-, -, -, hrf⟩ | ⟨T3, F3, d2, cs2, o2, -, -, hres3, -⟩⟩
    · refine absurd hrf (refused_not hnd (fun y hy hk => ?_) hrm.write fun _ => ⟨fun hx => hrm.cwd (by rw [← hx]; exact .self), ?_⟩)
      · rcases locks_mem hz3 hy with hy | hy
        · exact (hrm.closed y hy).1 hk
        · rw [hk] at hy
          exact hfs hy
      · intro e he hes
        cases dir_unique ht2.once he hn2 (hes.trans (hn0s.symm.trans hn2s.symm))
        exact hvac
    · exact ⟨hres3, by rw [hfz]; exact hz3⟩

end Fpm.Tree
