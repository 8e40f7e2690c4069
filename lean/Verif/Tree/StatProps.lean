import Verif.Tree.StatLemmas
import Verif.Tree.RenameProps
import Verif.Glob.Props
/-!
# C88: looking at files and directories by path
-/
namespace Fpm.Tree
open Fpm.Fat Fpm.Fat.Spec Fpm.FatFile.Spec Fpm.Lfn Fpm.Names Fpm.Names.Spec Fpm.TextIo.Spec Fpm.FatDir Fpm.FatDir.Spec Fpm.Mount Fpm.Mount.Spec Fpm.DirDev Fpm.DirDev.Spec Fpm.Tree.Spec Fpm.FatSync
open Fpm.FatLock (Sem)

theorem units_inj : ∀ (a b : List Nat), (∀ c ∈ a, Scalar c) → (∀ c ∈ b, Scalar c) → units a = units b → a = b := by
  intro a
  induction a with
  | nil =>
    intro b _ _ h
    cases b with
    | nil => rfl
    | cons c b => rw [units_cons] at h; unfold unit at h; split at h <;> cases h
  | cons c a ih =>
    intro b ha hb h
    cases b with
    | nil => rw [units_cons] at h; unfold unit at h; split at h <;> cases h
    | cons d b =>
      rw [units_cons, units_cons] at h
      have hc := ha c (by simp)
      have hd := hb d (by simp)
      have rest : units a = units b → a = b := ih b (fun x hx => ha x (by simp [hx])) fun x hx => hb x (by simp [hx])
      unfold Scalar at hc hd
      unfold unit at h
      split at h <;> split at h <;> simp only [List.cons_append, List.nil_append, List.cons.injEq] at h
      · rw [h.1, rest h.2]
      · exfalso; omega
      · exfalso; omega
      · rw [show c = d by omega, rest h.2.2]

theorem text_chars {p : List Nat} {l : List (List Nat)} (h : PathText p l) : ∀ cs ∈ l, ∀ c ∈ cs, NameChar c := by
  induction h with
  | last h1 _ _ => intro cs hcs; rw [List.mem_singleton.mp hcs]; exact h1
  | cons h1 _ _ _ ih =>
    intro cs hcs
    rcases List.mem_cons.mp hcs with rfl | hcs
    · exact h1
    · exact ih cs hcs

theorem path_chars {p : List Nat} {abs : Bool} {l : List (List Nat)} (h : PathOf p abs l) : ∀ cs ∈ l, ∀ c ∈ cs, NameChar c := by
  cases h with
  | empty _ _ => intro cs hcs; cases hcs
  | segs _ h => exact text_chars h

theorem leads_seg {v : Vol} {T : List Dir} {d0 : Dir} {l : List (List Nat)} {G : Goal} (h : Leads v T d0 l G) : ∀ d cs o, G = .object d cs o → cs ∈ l := by
  induction h with
  | object _ _ _ => intro d cs o e; cases e; simp
  | stay _ _ _ ih => intro d cs o e; exact List.mem_cons_of_mem _ (ih d cs o e)
  | enter _ _ _ _ _ _ _ ih => intro d cs o e; exact List.mem_cons_of_mem _ (ih d cs o e)
  | _ => intro d cs o e; cases e

theorem resolves_chars {v : Vol} {T : List Dir} {cdir : Nat} {path : List Nat} {abs : Bool} {l : List (List Nat)} {d : Dir} {cs : List Nat} {o : Obj} (hp : PathOf path abs l) (h : Resolves v T cdir abs l (.object d cs o)) : ∀ c ∈ cs, NameChar c := by
  obtain ⟨_, _, _, ⟨-, e⟩ | hl⟩ := h
  · cases e
  · exact path_chars hp cs (leads_seg hl d cs o rfl)

theorem trimmed_sub {cs : List Nat} {c : Nat} (h : c ∈ trimmed cs) : c ∈ cs := by
  obtain ⟨z, e, -⟩ := trimmed_append cs
  rw [e]
  exact List.mem_append_left _ h

/-- `f_stat` changes nothing and tells about the object where the path leads: attributes, size, time and date are those of its entry, the first sector is that of its first cluster.  The name is that of
the entry only if the object has no long name, else it is the last segment of the path.  For the root directory, and for a directory called by an empty path, there is an error. -/
theorem C88_stat (v : Vol) (i : Info) (hr : Ready v i) (T : List Dir) (F : List (List Nat)) (s : St) (h : Tree v i T F s) (cdir : Nat) (hc : ∃ d ∈ T, d.sclust = cdir) (path : List Nat) (abs : Bool) (l : List (List Nat))
    (hp : PathOf path abs l) (dp : Dp) (buf : List Nat) (hb : buf.length = 256) (old : FInfo) (G : Goal) (hG : Resolves v T cdir abs l G) (r : St × Nat × Option FInfo) (he : r = fStat v i cdir path s dp buf old) :
    Tree v i T F r.1 ∧ (∀ n, ¬ Fat2 v n → view r.1 n = view s n) ∧ (r.2.1 = FR_DISK_ERR ∧ r.2.2 = none ∧ ¬ Sound v ∨ Stated v r.2.1 r.2.2 G) := by
  obtain ⟨q, h1⟩ := follow_spec hr h hc hp dp hb
  unfold fStat at he
  generalize followPath v i cdir path s dp buf = f at q h1 he
  rcases h1 with ⟨h1, h2⟩ | ⟨G', h1, h2⟩
  · have e : statAt v old f = (f.st, f.res, none) := by unfold statAt; rw [if_neg (by rw [h1]; decide)]
    rw [he, e]
    exact ⟨tree_quiet hr q h, q.same, .inl ⟨h1, rfl, h2⟩⟩
  · obtain ⟨G0, -, hu⟩ := C81_place v i T F s h cdir hc abs l
    cases (hu G' h1).trans (hu G hG).symm
    obtain ⟨h3, h4⟩ := stat_spec hr h old h2
    rw [he, h4]
    exact ⟨tree_quiet hr q h, q.same, .inr h3⟩

/-- The name that `f_stat` should give: the one that listings show. -/
def C88_full : Prop := ∀ (v : Vol) (i : Info), Ready v i → Sound v → ∀ (T : List Dir) (F : List (List Nat)) (s : St), Tree v i T F s → ∀ cdir, (∃ d ∈ T, d.sclust = cdir) → ∀ (path : List Nat) (abs : Bool) (l : List (List Nat)),
  PathOf path abs l → ∀ (dp : Dp) (buf : List Nat), buf.length = 256 → ∀ (old : FInfo) (d : Dir) (cs : List Nat) (o : Obj), Resolves v T cdir abs l (.object d cs o) →
  ∃ x, (fStat v i cdir path s dp buf old).2 = (FR_OK, some x) ∧ Shown o x.name

/-- It gives that name for objects without long names, and for others if the path has the same spelling. -/
theorem C88_name_partial (v : Vol) (i : Info) (hr : Ready v i) (hs : Sound v) (T : List Dir) (F : List (List Nat)) (s : St) (h : Tree v i T F s) (cdir : Nat) (hc : ∃ d ∈ T, d.sclust = cdir) (path : List Nat) (abs : Bool)
    (l : List (List Nat)) (hp : PathOf path abs l) (dp : Dp) (buf : List Nat) (hb : buf.length = 256) (old : FInfo) (d : Dir) (cs : List Nat) (o : Obj) (hG : Resolves v T cdir abs l (.object d cs o))
    (hl : o.long = none ∨ o.long = some (units (trimmed cs)) ∧ (text (trimmed cs)).length ≤ 255) : ∃ x, (fStat v i cdir path s dp buf old).2 = (FR_OK, some x) ∧ Shown o x.name := by
  obtain ⟨-, -, h1⟩ := C88_stat v i hr T F s h cdir hc path abs l hp dp buf hb old _ hG _ rfl
  rcases h1 with ⟨-, -, h1⟩ | ⟨h1, x, h2, -, h3⟩
  · exact absurd hs h1
  · refine ⟨x, Prod.ext h1 h2, ?_⟩
    rcases hl with hl | ⟨hl, hle⟩
    · exact h3.1 hl
    · have e := h3.2 _ hl hle
      have hsc : ∀ c ∈ trimmed cs, Scalar c := fun c hx => (resolves_chars hp hG c (trimmed_sub hx)).1
      rw [e]
      have huniq : ∀ cs', (∀ c ∈ cs', Scalar c ∧ c ≠ 0) → o.long = some (units cs') → trimmed cs = cs' := fun cs' hc' hu => by
        rw [hl] at hu
        exact units_inj _ _ (fun c hx => hsc c hx) (fun c hx => (hc' c hx).1) (Option.some.inj hu)
      refine ⟨fun cs' hc' hu _ => by rw [huniq cs' hc' hu], fun n body ext _ hn => ?_⟩
      rcases hn with hn | ⟨cs', hc', hu, hlt⟩
      · rw [hl] at hn; cases hn
      · rw [← huniq cs' hc' hu] at hlt; omega

/-- `f_opendir`, and `f_readdir` to the end, change nothing and give the objects of the directory where the path leads, each but `.` and `..` once and in order, with name and entry. -/
theorem C88_list (v : Vol) (i : Info) (hr : Ready v i) (T : List Dir) (F : List (List Nat)) (s : St) (h : Tree v i T F s) (cdir : Nat) (hc : ∃ d ∈ T, d.sclust = cdir) (files : List Sem) (fs : Nat) (path : List Nat) (abs : Bool)
    (l : List (List Nat)) (hp : PathOf path abs l) (dp : Dp) (buf : List Nat) (hb : buf.length = 256) (k : Nat) (hk : ∀ d ∈ T, d.os.length < k) (G : Goal) (hG : Resolves v T cdir abs l G) (r : Listed)
    (he : r = listPath v i cdir files fs path s dp buf k) :
    Tree v i T F r.st ∧ (∀ n, ¬ Fat2 v n → view r.st n = view s n) ∧ (r.res = FR_DISK_ERR ∧ ¬ Sound v ∨ ∃ D, Into v T G D ∧ Seen fs files r.res r.items D) := by
  obtain ⟨q, h1⟩ := follow_spec hr h hc hp dp hb
  have hbuf := follow_buf (v := v) (i := i) (cdir := cdir) hp s dp hb
  unfold listPath fOpendir at he
  generalize followPath v i cdir path s dp buf = f at q h1 he hbuf
  rcases h1 with ⟨h1, h2⟩ | ⟨G', h1, h2⟩
  · have e : (opendirAt v i files fs f).res = FR_DISK_ERR ∧ (opendirAt v i files fs f).st = f.st := by
      unfold opendirAt
      rw [if_neg (by rw [h1]; decide)]
      simp only
      rw [if_neg (by rw [h1]; decide)]
      exact ⟨h1, trivial⟩
    rw [if_neg (by rw [e.1]; decide), e.1, e.2] at he
    rw [he]
    exact ⟨tree_quiet hr q h, q.same, .inl ⟨rfl, h2⟩⟩
  · obtain ⟨G0, -, hu⟩ := C81_place v i T F s h cdir hc abs l
    cases (hu G' h1).trans (hu G hG).symm
    obtain ⟨h3, h4, h5⟩ := opendir_spec hr h files fs q h2
    generalize opendirAt v i files fs f = g at h3 h4 h5 he
    rcases h5 with ⟨h5, h6⟩ | ⟨d, hd, h5, h6, h7, h8⟩ | ⟨e, h5, h6⟩
    · rw [if_neg (by rw [h5]; decide)] at he
      rw [he]
      exact ⟨tree_quiet hr h3 h, h3.same, .inl ⟨h5, h6⟩⟩
    · rcases h8 with h8 | ⟨h8, h9⟩
      · rw [if_pos h8] at he
        have ht := (h.dirs d hd).dir
        obtain ⟨items, e, hl⟩ := C75_list true _ d.os g.buf k ht.table ht.rep (by rw [h4]; exact hbuf) (hk d hd)
        have hld := tree_linked h hd
        obtain ⟨q2, h9⟩ := listLoop_dev hr k g.buf h3.inv (linked_same hld h3.same) (.inl h7) items (by rw [entries_same hr hld h3.same]; exact e)
        rw [he]
        refine ⟨tree_quiet hr (h3.trans q2) h, (h3.trans q2).same, ?_⟩
        rcases h9 with h9 | ⟨h9, h10⟩
        · exact .inl h9
        · exact .inr ⟨_, h5, .inl ⟨h9, by rw [h10]; exact hl⟩⟩
      · rw [if_neg (by rw [h8]; decide)] at he
        rw [he]
        exact ⟨tree_quiet hr h3 h, h3.same, .inr ⟨_, h5, .inr ⟨h8, rfl, h9⟩⟩⟩
    · rw [if_neg (by rw [h6]; cases h5 <;> decide)] at he
      rw [he]
      exact ⟨tree_quiet hr h3 h, h3.same, .inr ⟨_, h5, h6, rfl⟩⟩

/-- `f_findfirst` and `f_findnext` end like `f_opendir` and `f_readdir`, and give those of the objects whose names match, in the same order: only such that match the pattern, and all of them, if it has no more than
four groups of wildcards and fewer than 256 question marks. -/
theorem C88_search (v : Vol) (i : Info) (cdir : Nat) (files : List Sem) (fs : Nat) (path pat z : List Nat) (s : St) (dp : Dp) (buf : List Nat) (k : Nat) (hk : (listPath v i cdir files fs path s dp buf k).res ≠ HANG) (r : Listed)
    (he : r = searchPath v i cdir files fs path (text pat ++ 0 :: z) s dp buf k) :
    r.st = (listPath v i cdir files fs path s dp buf k).st ∧ r.res = (listPath v i cdir files fs path s dp buf k).res ∧ r.items.Sublist (listPath v i cdir files fs path s dp buf k).items ∧
    (Text pat → pat.count 63 < 256 → ∀ x ∈ (listPath v i cdir files fs path s dp buf k).items, ∀ n, Text n → x.1 = text n →
      (x ∈ r.items → Glob.Spec.Matches pat n) ∧ (Glob.Spec.Matches pat n → Glob.Spec.groups pat ≤ 4 → x ∈ r.items)) := by
  have hdef : ∀ n : List Nat, Glob.findMatch (text pat ++ 0 :: z) (n ++ [0]) ≠ none := fun n => Glob.C58_defined (text pat) n z []
  have e : r = ⟨(listPath v i cdir files fs path s dp buf k).st, (listPath v i cdir files fs path s dp buf k).res, (listPath v i cdir files fs path s dp buf k).items.filter fun x => Glob.findMatch (text pat ++ 0 :: z) (x.1 ++ [0]) = some true⟩ := by
    rw [he]
    unfold searchPath listPath at *
    split
    · rename_i hok
      rw [if_pos hok] at hk
      exact search_loop v i _ hdef k k (Nat.le_refl _) hk k (Nat.le_refl _)
    · rfl
  generalize listPath v i cdir files fs path s dp buf k = g at e
  rw [e]
  refine ⟨rfl, rfl, List.filter_sublist, fun hp hq x hx n hn hxn => ?_⟩
  obtain ⟨b, e1, h1, h2⟩ := Glob.C58_match_partial pat n z [] hp hn hq
  rw [← hxn] at e1
  refine ⟨fun hm => h1 ?_, fun hm hg => List.mem_filter.mpr ⟨hx, ?_⟩⟩
  · have := (List.mem_filter.mp hm).2
    rw [e1] at this
    simpa using this
  · rw [e1, h2 hm hg]
    decide

/-! ## Example -/

theorem tr_path_xy : PathOf [47, 120, 32, 121, 0] true [[120, 32, 121]] := .segs (z := [47]) (p := [120, 32, 121, 0]) (by decide) (.last (cs := [120, 32, 121]) (t := [0]) (rest := []) (by decide) (by decide) (.fin (by decide)))
theorem tr_path_XY : PathOf [47, 88, 32, 89, 0] true [[88, 32, 89]] := .segs (z := [47]) (p := [88, 32, 89, 0]) (by decide) (.last (cs := [88, 32, 89]) (t := [0]) (rest := []) (by decide) (by decide) (.fin (by decide)))

theorem no_xy {body ext : List Nat} (h : EightThree [120, 32, 121] body ext) : False := by
  have : 32 ∈ body ∨ 32 ∈ ext := by
    have : 32 ∈ body ++ if ext = [] then [] else 46 :: ext := by rw [← h.eq]; decide
    rw [List.mem_append] at this
    refine this.imp id fun hx => ?_
    split at hx
    · cases hx
    · simpa using hx
  rcases this with hx | hx
  · exact absurd (h.body_chars _ hx) (by decide)
  · exact absurd (h.ext_chars _ hx) (by decide)

theorem tr_leads_xy : Resolves trV trT 0 true [[120, 32, 121]] (.free trRoot [120, 32, 121]) := by
  refine ⟨trRoot, by simp [trT], rfl, .inr (.free (by decide) (by decide) ?_)⟩
  intro o ho hx
  unfold Calls at hx
  rw [if_neg (by decide)] at hx
  rcases hx with ⟨m, hm, -⟩ | ⟨body, ext, h8, e⟩
  · have hnone : ∀ o ∈ trRoot.os, o.long = none := by decide
    rw [hnone o ho] at hm
    cases hm
  · exact no_xy h8

/-- The example after file `x.c` has been renamed to `x y`. -/
def trXY : St := (fRename trV trI 0 (fun _ => 0) [120, 46, 99, 0] [47, 120, 32, 121, 0] trS trDp (List.replicate 256 7)).1

theorem tr_spaced : ∃ T' d o, Tree trV trI T' trF trXY ∧ d ∈ T' ∧ d.sclust = 0 ∧ o ∈ d.os ∧ o.long = some [120, 32, 121] := by
  have hG : Resolves trV trT 0 false [[120, 46, 99]] (.object trRoot [120, 46, 99] ⟨1, none, trX⟩) := ⟨trRoot, by simp [trT], rfl, .inr (.object (by decide) (by decide) tr_calls_x)⟩
  have hok : (fRename trV trI 0 (fun _ => 0) [120, 46, 99, 0] [47, 120, 32, 121, 0] trS trDp (List.replicate 256 7)).2 = FR_OK := by decide +kernel
  have := C86_rename trV trI tr_ready (fun h => absurd rfl h) (by decide) tr_sound trT trF trS tr_tree 0 ⟨trRoot, by simp [trT], rfl⟩ (fun _ => 0) [120, 46, 99, 0] [47, 120, 32, 121, 0] false true [[120, 46, 99]] [[120, 32, 121]] tr_path_x
    tr_path_xy (by decide) trDp (List.replicate 256 7) (List.length_replicate) _ _ hG tr_leads_xy (fun d cs o e _ hx => by cases e; exact absurd hx (by decide)) _ rfl
  rcases this with ⟨h1, -⟩ | ⟨d, cs, o, n, cs', e, -, -, ht, -, h1⟩
  · rw [hok] at h1
    rcases h1 with ⟨-, e⟩ | ⟨-, dp, -, -, h, -⟩ | ⟨-, h⟩
    · cases e
    · exact absurd rfl h
    · cases h
  · cases e
    obtain ⟨rfl, rfl⟩ := ht
    rcases h1 with ⟨R, loc, -, h1, -⟩ | ⟨-, T', h1, h2, -⟩
    · rw [hok] at h1; cases h1
    · obtain ⟨-, o', -, -, ⟨hcall, hspell⟩, n', hn', e, ho'⟩ := renamed_keep h1
      refine ⟨T', n', o', h2, hn', e, ho', ?_⟩
      rcases hspell with hx | ⟨hx, -⟩
      · exact hx
      · unfold Calls at hcall
        rw [if_neg (by decide)] at hcall
        rcases hcall with ⟨m, hm, -⟩ | ⟨body, ext, h8, -⟩
        · rw [hx] at hm; cases hm
        · exact (no_xy h8).elim

def trOld : FInfo := ⟨[], 0, 0, 0, 0, 0⟩

/-- The file with the name `x y` is found by the path `/X Y`, and `f_stat` says that its name is `X Y`. -/
theorem C88_violated : ¬ C88_full := by
  intro hx
  obtain ⟨T', d, o, h1, h2, h3, h4, h5⟩ := tr_spaced
  obtain ⟨x, e, hs⟩ := hx trV trI tr_ready tr_sound T' trF trXY h1 0 ⟨d, h2, h3⟩ [47, 88, 32, 89, 0] true [[88, 32, 89]] tr_path_XY trDp (List.replicate 256 7) (List.length_replicate) trOld d [88, 32, 89] o
    ⟨d, h2, h3, .inr (.object (by decide) h4 (by
      unfold Calls
      rw [if_neg (by decide)]
      exact .inl ⟨_, h5, by unfold Lfn.Spec.SameName; decide +kernel⟩))⟩
  have hn := hs.1 [120, 32, 121] (by decide) h5 (by decide)
  have hc : (fStat trV trI 0 [47, 88, 32, 89, 0] trXY trDp (List.replicate 256 7) trOld).2.2.map FInfo.name = some [88, 32, 89] := by decide +kernel
  rw [e] at hc
  have hc : x.name = [88, 32, 89] := Option.some.inj hc
  rw [hn] at hc
  exact absurd hc (by decide)

/-! Hypotheses of `C88_stat`, `C88_name_partial` and `C88_list` hold for the example, those of `C88_name_partial` also for the file with the long name; those of `C88_search` for the pattern `?*y`. -/

example : Ready trV trI ∧ Sound trV ∧ Tree trV trI trT trF trS ∧ (∃ d ∈ trT, d.sclust = 0) ∧ PathOf [120, 46, 99, 0] false [[120, 46, 99]] ∧ (∀ d ∈ trT, d.os.length < 9) ∧
    Resolves trV trT 0 false [[120, 46, 99]] (.object trRoot [120, 46, 99] ⟨1, none, trX⟩) ∧ Resolves trV trT 0 false [[97]] (.object trRoot [97] ⟨0, none, trA⟩) :=
  ⟨tr_ready, tr_sound, tr_tree, ⟨trRoot, by simp [trT], rfl⟩, tr_path_x, by decide, ⟨trRoot, by simp [trT], rfl, .inr (.object (by decide) (by decide) tr_calls_x)⟩, tr_leads_a⟩

example : ∃ T' d o, Tree trV trI T' trF trXY ∧ PathOf [47, 120, 32, 121, 0] true [[120, 32, 121]] ∧ Resolves trV T' 0 true [[120, 32, 121]] (.object d [120, 32, 121] o) ∧ o.long = some (units (trimmed [120, 32, 121])) ∧
    (text (trimmed [120, 32, 121])).length ≤ 255 := by
  obtain ⟨T', d, o, h1, h2, h3, h4, h5⟩ := tr_spaced
  refine ⟨T', d, o, h1, tr_path_xy, ⟨d, h2, h3, .inr (.object (by decide) h4 ?_)⟩, h5, by decide⟩
  unfold Calls
  rw [if_neg (by decide)]
  exact .inl ⟨_, h5, rfl⟩

/-- `f_stat` in the example. -/
def trStat (path : List Nat) (s : St) : Nat × Option FInfo := (fStat trV trI 0 path s trDp (List.replicate 256 7) trOld).2

/-- File `x.c`, directory `a`, `/`, `/a/b/..`, nothing, no directory, and the file with the long name. -/
example : trStat [120, 46, 99, 0] trS = (FR_OK, some ⟨[88, 46, 67], 0x20, 100, 0, 0, 6⟩) ∧ trStat [97, 0] trS = (FR_OK, some ⟨[65], 0x10, 0, 0, 0, 0⟩) ∧ trStat [47, 0] trS = (FR_INVALID_NAME, none) ∧
    trStat [99, 0] trS = (FR_NO_FILE, none) ∧ trStat [99, 47, 99, 0] trS = (FR_NO_PATH, none) ∧ (trStat [120, 32, 89, 0] trXY).2.map (fun x => (x.name, x.size)) = some ([120, 32, 89], 100) := by decide +kernel

/-- Listing and searching in the example. -/
def trList (path : List Nat) (s : St) : Nat × List (List Nat) := let r := listPath trV trI 0 [⟨⟨0, 0, 0⟩, 0⟩] 9 path s trDp (List.replicate 256 7) 9; (r.res, r.items.map Prod.fst)
def trFind (path pat : List Nat) (s : St) : Nat × List (List Nat) := let r := searchPath trV trI 0 [⟨⟨0, 0, 0⟩, 0⟩] 9 path pat s trDp (List.replicate 256 7) 9; (r.res, r.items.map Prod.fst)

example : trList [47, 0] trXY = (FR_OK, [[65], [120, 32, 121]]) ∧ trList [97, 0] trXY = (FR_OK, [[66]]) ∧ trList [97, 47, 98, 0] trXY = (FR_OK, []) ∧ trList [120, 46, 99, 0] trS = (FR_NO_PATH, []) ∧
    trFind [0] [63, 42, 121, 0] trXY = (FR_OK, [[120, 32, 121]]) ∧ trFind [0] [122, 0] trXY = (FR_OK, []) ∧ (listPath trV trI 0 [] 9 [97, 0] trS trDp (List.replicate 256 7) 9).res = FR_TOO_MANY_OPEN_FILES ∧
    (listPath trV trI 0 [⟨⟨0, 0, 0⟩, 0⟩] 9 [0] trXY trDp (List.replicate 256 7) 9).res ≠ HANG := by decide +kernel

end Fpm.Tree
