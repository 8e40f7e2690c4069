import Verif.Tree.MvSpec
import Verif.Tree.StatProps
import Verif.Tree.HistProps
import Verif.Copy.Props
/-!
# Lemmas about the command mv
-/
namespace Fpm.Tree
open Fpm.Fat Fpm.Fat.Spec Fpm.FatFile Fpm.FatFile.Spec Fpm.FatSync Fpm.DirDev Fpm.Tree.Spec Fpm.Mount Fpm.Mount.Spec Fpm.FatDir Fpm.FatDir.Spec Fpm.DirDev.Spec Fpm.Names.Spec Fpm.TextIo.Spec
open Fpm.FatLock (Sem Key chkShare chkLoop)

theorem same_trans' {v : Vol} {F : List (List Nat)} {s t u : St} (h1 : SameData v F s t) (h2 : SameData v F t u) : SameData v F s u := fun l hl n hn => (h2 l hl n hn).trans (h1 l hl n hn)

theorem chk_loop_hit {k : Key} {files : List Sem} : ∀ {be : Bool}, (∃ x, (chkLoop k be files).1 = some x) → ∃ x ∈ files, x.key = k := by
  induction files with
  | nil => rintro be ⟨x, h⟩; cases h
  | cons a r ih =>
    rintro be ⟨x, h⟩
    rw [chkLoop] at h
    split at h
    · split at h
      · rename_i hk
        exact ⟨a, by simp, hk⟩
      · obtain ⟨y, h1, h2⟩ := ih ⟨x, h⟩
        exact ⟨y, by simp [h1], h2⟩
    · obtain ⟨y, h1, h2⟩ := ih ⟨x, h⟩
      exact ⟨y, by simp [h1], h2⟩

theorem chk_loop_miss {k : Key} (hk : k.fs ≠ 0) {files : List Sem} : ∀ {be : Bool}, (chkLoop k be files).1 = none → ∀ x ∈ files, x.key ≠ k := by
  induction files with
  | nil => intro be _ x hx; cases hx
  | cons a r ih =>
    intro be h x hx
    rw [chkLoop] at h
    split at h
    · split at h
      · cases h
      · rename_i hk
        rcases List.mem_cons.mp hx with rfl | hx
        · exact hk
        · exact ih h x hx
    · rename_i h0
      rcases List.mem_cons.mp hx with rfl | hx
      · intro e
        exact h0 (by rw [e]; exact hk)
      · exact ih h x hx

theorem chk_remove {k : Key} (hk : k.fs ≠ 0) (files : List Sem) : (chkShare files k 2 = FR_OK ∧ ∀ x ∈ files, x.key ≠ k) ∨ (chkShare files k 2 = 16 ∧ ∃ x ∈ files, x.key = k) := by
  unfold chkShare
  cases h : chkLoop k false files with
  | mk a be =>
    cases a with
    | none => exact .inl ⟨by simp [FatLock.FR_OK, FR_OK], chk_loop_miss hk (be := false) (by rw [h])⟩
    | some x => exact .inr ⟨by simp [FatLock.FR_LOCKED], chk_loop_hit (be := false) ⟨x, by rw [h]⟩⟩

theorem said_ok {q : St × Nat} {r : Mv} (h : q.2 = FR_OK) : mvSaid q r = ⟨q.1, r.n + 1, r.msgs⟩ := by unfold mvSaid; rw [if_pos h]
theorem said_err {q : St × Nat} {r : Mv} (h : q.2 ≠ FR_OK) : mvSaid q r = ⟨q.1, r.n + 1, r.msgs ++ [.failed q.2]⟩ := by unfold mvSaid; rw [if_neg h]

theorem hindered_ne {files : List Sem} {fs r : Nat} {G1 G : Goal} (h : Hindered files fs r G1 G) : r ≠ FR_OK := by
  intro e
  subst e
  cases G1 with
  | object d cs o =>
    rcases h with ⟨-, h⟩ | ⟨-, -, h⟩ | ⟨-, h⟩
    · cases h
    · cases h
    · cases G with
      | self => rcases h with h | h <;> cases h
      | object => cases h.2
      | free => exact h
      | _ => cases h
  | _ => cases h

/-- What `f_rename` does, in words of the specification of `mv`. -/
theorem mv_do {g : Env} (hr : Ready g.v g.i) (hbig : g.i.fsi ≠ none → 512 ≤ g.v.ss) (h64 : 64 ≤ g.v.ss) (hs : Sound g.v) (hfs : g.fs ≠ 0) (hold : ∀ n, (g.old n).2.length = 256) {T : List Dir} {F : List (List Nat)} {r : Mv} (h : InOrder g.v g.i T F ⟨r.st, g.cdir⟩)
    (files : List Sem) {src dst : List Nat} {abs abs' : Bool} {l l' : List (List Nat)} (hp : PathOf (src ++ [0]) abs l) (hp' : PathOf (dst ++ [0]) abs' l') (hcl : Spec.Clean l') {G1 G : Goal} (hG : Resolves g.v T g.cdir abs l G1) (hG' : Resolves g.v T g.cdir abs' l' G)
    {force yes : Bool} (ha : Asked force yes G) {x : Mv} (hx : x = mvDo g files src dst r) :
    ∃ T' ms, x.msgs = r.msgs ++ ms ∧ Tree g.v g.i T' F x.st ∧ SameData g.v F r.st x.st ∧ MvEnd g.v g.i files g.fs force yes G1 G T F x.st ms T' := by
  have hdots : ∀ d cs o, G1 = .object d cs o → ¬ DotName cs → IsDir o → ∀ q ∈ T, q.sclust = first g.v o → DotsSecond q := by
    rintro d cs o rfl hcs hdir q hq hqs
    obtain ⟨hd, ho, hcall⟩ := resolves_object hG
    exact h.dots q hq (by rw [hqs]; exact (h.tree.subs d hd o ho (calls_nodot h.tree hd ho hcall hcs) hdir).1)
  have key := C86_rename g.v g.i hr hbig h64 hs T F r.st h.tree g.cdir h.here (fun dp => chkShare files (keyOf g.fs dp) 2) (src ++ [0]) (dst ++ [0]) abs abs' l l' hp hp' hcl (g.old r.n).1 (g.old r.n).2 (hold r.n) G1 G hG hG' hdots _ rfl
  unfold mvDo at hx
  generalize fRename g.v g.i g.cdir (fun dp => chkShare files (keyOf g.fs dp) 2) (src ++ [0]) (dst ++ [0]) r.st (g.old r.n).1 (g.old r.n).2 = q at hx key
  rcases key with ⟨h1, h2, h3⟩ | ⟨d, cs, o, n, cs', rfl, hcs, ⟨dp, hdp, hat, hsh⟩, htg, hv, h1⟩
  · have hh : Hindered files g.fs q.2 G1 G := by
      cases G1 with
      | object d cs o =>
        rcases h1 with h1 | ⟨h1, dp, h4, h5, h6, h7⟩ | h1
        · exact .inl h1
        · refine .inr (.inl ⟨h1, ?_⟩)
          rcases chk_remove (k := keyOf g.fs dp) hfs files with ⟨e, -⟩ | ⟨e, y, hy, e'⟩
          · exact absurd e h6
          · refine ⟨⟨y, hy, ?_⟩, h7.trans e⟩
            rw [e', keyOf, h4, h5.dptr]
        · exact .inr (.inr h1)
      | _ => exact h1
    rw [said_err (hindered_ne hh)] at hx
    subst hx
    exact ⟨T, _, rfl, h2, alike_fat hr h.tree h3, .refused ha hh⟩
  · have hu : ¬ InUse files g.fs d o := by
      rintro ⟨y, hy, e⟩
      rcases chk_remove (k := keyOf g.fs dp) hfs files with ⟨-, e'⟩ | ⟨e', -⟩
      · refine e' y hy ?_
        rw [e, keyOf, hdp, hat.dptr]
      · exact absurd (hsh.symm.trans e') (by decide)
    rcases h1 with ⟨R, loc, hT, hres, hlo, h2, h3⟩ | ⟨hres, T', hre, ht, hw⟩
    · rw [said_err (by rw [hres]; decide)] at hx
      subst hx
      refine ⟨_, _, rfl, h2, hv, ?_⟩
      rw [hres]
      exact .full ha rfl hcs hu htg hT hlo h3
    · rw [said_ok hres] at hx
      subst hx
      exact ⟨T', [], by simp, ht, hv, .moved ha rfl hcs hu htg hre hw⟩

theorem stated_absent {v : Vol} {r : Nat} {info : Option FInfo} {G : Goal} (h : Stated v r info G) (hr : r ≠ FR_OK) : Absent r G := by
  cases G with
  | object => exact absurd h.1 hr
  | _ => exact h.1

theorem stated_object {v : Vol} {r : Nat} {info : Option FInfo} {G : Goal} (h : Stated v r info G) (hr : r = FR_OK) : ∃ d cs o, G = .object d cs o := by
  subst hr
  cases G with
  | object d cs o => exact ⟨d, cs, o, rfl⟩
  | _ => cases h.1

/-- One file or directory, `rename_file`. -/
theorem mv_file {g : Env} (hr : Ready g.v g.i) (hbig : g.i.fsi ≠ none → 512 ≤ g.v.ss) (h64 : 64 ≤ g.v.ss) (hs : Sound g.v) (hfs : g.fs ≠ 0) (hold : ∀ n, (g.old n).2.length = 256) {T : List Dir} {F : List (List Nat)} {r : Mv} (h : InOrder g.v g.i T F ⟨r.st, g.cdir⟩)
    (files : List Sem) {src dst : List Nat} {abs abs' : Bool} {l l' : List (List Nat)} (hp : PathOf (src ++ [0]) abs l) (hp' : PathOf (dst ++ [0]) abs' l') (hcl : Spec.Clean l') {G1 G : Goal} (hG : Resolves g.v T g.cdir abs l G1) (hG' : Resolves g.v T g.cdir abs' l' G)
    (force yes : Bool) (info : FInfo) {x : Mv} (hx : x = mvFile g files force yes info src dst r) :
    ∃ T' ms, x.msgs = r.msgs ++ ms ∧ Tree g.v g.i T' F x.st ∧ SameData g.v F r.st x.st ∧ MvEnd g.v g.i files g.fs force yes G1 G T F x.st ms T' := by
  unfold mvFile at hx
  split at hx
  · rename_i hf
    exact mv_do hr hbig h64 hs hfs hold h files hp hp' hcl hG hG' (.inl hf) hx
  rename_i hf
  have hf : force = false := by cases force <;> simp_all
  obtain ⟨q1, q2, q3⟩ := C88_stat g.v g.i hr T F r.st h.tree g.cdir h.here (dst ++ [0]) abs' l' hp' (g.old r.n).1 (g.old r.n).2 (hold r.n) info G hG' _ rfl
  have q3 := q3.resolve_left fun z => z.2.2 hs
  generalize fStat g.v g.i g.cdir (dst ++ [0]) r.st (g.old r.n).1 (g.old r.n).2 info = u at hx q1 q2 q3
  have hsame := alike_fat hr h.tree q2
  unfold mvSeen at hx
  split at hx
  · rename_i hok
    obtain ⟨p1, p2, p3⟩ := C88_stat g.v g.i hr T F u.1 q1 g.cdir h.here (src ++ [0]) abs l hp (g.old (r.n + 1)).1 (g.old (r.n + 1)).2 (hold (r.n + 1)) info G1 hG _ rfl
    have p3 := p3.resolve_left fun z => z.2.2 hs
    generalize fStat g.v g.i g.cdir (src ++ [0]) u.1 (g.old (r.n + 1)).1 (g.old (r.n + 1)).2 info = w at hx p1 p2 p3
    have hsame' : SameData g.v F r.st w.1 := same_trans' hsame (alike_fat hr q1 p2)
    unfold mvAsk at hx
    split at hx
    · rename_i hno
      subst hx
      exact ⟨T, _, rfl, p1, hsame', .missing hf (stated_object q3 hok) (stated_absent p3 hno)⟩
    rename_i hyes
    have hyes : w.2.1 = FR_OK := Decidable.not_not.mp hyes
    split at hx
    · rename_i hno
      subst hx
      exact ⟨T, _, rfl, p1, hsame', .kept hf hno (stated_object q3 hok) (stated_object p3 hyes)⟩
    · rename_i hy
      have hy : yes = true := by cases yes <;> simp_all
      obtain ⟨T', ms, k1, k2, k3, k4⟩ := mv_do (r := ⟨w.1, r.n + 1 + 1, r.msgs⟩) hr hbig h64 hs hfs hold ⟨p1, h.here, h.dots⟩ files hp hp' hcl hG hG' (.inr (.inl hy)) hx
      exact ⟨T', ms, k1, k2, same_trans' hsame' k3, k4⟩
  · rename_i hno
    obtain ⟨T', ms, k1, k2, k3, k4⟩ := mv_do (r := ⟨u.1, r.n + 1, r.msgs⟩) hr hbig h64 hs hfs hold ⟨q1, h.here, h.dots⟩ files hp hp' hcl hG hG' (force := force) (yes := yes)
      (.inr (.inr fun d cs o e => hno (by subst e; exact q3.1))) hx
    exact ⟨T', ms, k1, k2, same_trans' hsame k3, k4⟩

/-- How a destination passes for a directory. -/
theorem dir_passes {v : Vol} {r : Nat} {info : Option FInfo} {G : Goal} (h : Stated v r info G) : mvDir r info = true ↔ Passes G := by
  unfold mvDir
  cases G with
  | badName => rw [if_pos h.1]; simp [Passes]
  | self => rw [if_pos h.1]; simp [Passes]
  | noPath => rw [if_neg (by rw [h.1]; decide), if_neg (by rw [h.1]; decide)]; simp [Passes]
  | free => rw [if_neg (by rw [h.1]; decide), if_neg (by rw [h.1]; decide)]; simp [Passes]
  | object d cs o =>
    obtain ⟨h1, y, rfl, h2, -⟩ := h
    rw [if_neg (by rw [h1]; decide), if_pos h1]
    simp only [Passes, IsDir, h2.attr, decide_eq_true_eq]
    have : Lfn.byte o.entry 11 % 64 &&& 16 = Lfn.byte o.entry 11 &&& 16 := by
      rw [show (64 : Nat) = 2 ^ 6 from rfl, ← Nat.and_two_pow_sub_one_eq_mod, Nat.and_assoc]
      rfl
    rw [this]

theorem dirslash_one {dir a b : List Nat} (h : Copy.Spec.DirSlash dir a) (h' : Copy.Spec.DirSlash dir b) : a = b := by
  obtain ⟨h1, h2, h3⟩ := h
  obtain ⟨k1, k2, k3⟩ := h'
  by_cases e : dir.getLast? = some 47
  · rw [h3 e, k3 e]
  · rcases h2 with rfl | rfl
    · exact absurd h1 e
    · rcases k2 with rfl | rfl
      · exact absurd k1 e
      · rfl

theorem into_one {dst src b name sl : List Nat} (hb : Copy.Spec.DirSlash dst b) (hl : Copy.Spec.Last src name sl) (hlen : (name ++ sl).length ≤ 255) : Copy.moveToDirectory dst [src] = some [(src, b ++ name ++ sl)] := by
  have hp := Copy.lastPart_eq src name sl hl
  have hb' : (Copy.base dst).length ≤ dst.length + 1 := by unfold Copy.base; split <;> simp
  unfold Copy.moveToDirectory
  rw [Copy.moveDests, hp, if_neg (by simp only [Copy.lfnBuf]; omega), dirslash_one (Copy.base_spec dst) hb]
  simp [Copy.moveDests]

/-- The whole command with one source. -/
theorem mv_cmd {g : Env} (hr : Ready g.v g.i) (hbig : g.i.fsi ≠ none → 512 ≤ g.v.ss) (h64 : 64 ≤ g.v.ss) (hs : Sound g.v) (hfs : g.fs ≠ 0) (hold : ∀ n, (g.old n).2.length = 256) {T : List Dir} {F : List (List Nat)} {r : Mv} (h : InOrder g.v g.i T F ⟨r.st, g.cdir⟩)
    (files : List Sem) {src dst path : List Nat} {abs1 abs2 abs : Bool} {l1 l2 l : List (List Nat)} (hp1 : PathOf (src ++ [0]) abs1 l1) (hp2 : PathOf (dst ++ [0]) abs2 l2) (hp : PathOf (path ++ [0]) abs l) (hcl : Spec.Clean l) {G1 G2 G : Goal} (hG1 : Resolves g.v T g.cdir abs1 l1 G1)
    (hG2 : Resolves g.v T g.cdir abs2 l2 G2) (hG : Resolves g.v T g.cdir abs l G) (hc : 58 ∉ dst) (ha : Aim G2 src dst path) (force : Bool) (ans : List Nat → Bool) (info : FInfo) {x : Mv} (hx : x = mvCmd g files force ans info [src] dst r) :
    ∃ T' ms, x.msgs = r.msgs ++ ms ∧ Tree g.v g.i T' F x.st ∧ SameData g.v F r.st x.st ∧ MvEnd g.v g.i files g.fs force (ans path) G1 G T F x.st ms T' := by
  unfold mvCmd at hx
  rw [if_neg hc] at hx
  obtain ⟨q1, q2, q3⟩ := C88_stat g.v g.i hr T F r.st h.tree g.cdir h.here (dst ++ [0]) abs2 l2 hp2 (g.old r.n).1 (g.old r.n).2 (hold r.n) ⟨[], 0, 0, 0, 0, 0⟩ G2 hG2 _ rfl
  have q3 := q3.resolve_left fun z => z.2.2 hs
  generalize fStat g.v g.i g.cdir (dst ++ [0]) r.st (g.old r.n).1 (g.old r.n).2 ⟨[], 0, 0, 0, 0, 0⟩ = u at hx q1 q2 q3
  have hsame := alike_fat hr h.tree q2
  have hd := dir_passes q3
  unfold mvMany at hx
  have main : x = mvFile g files force (ans path) info src path ⟨u.1, r.n + 1, r.msgs⟩ := by
    rcases ha with ⟨hps, b, name, sl, hb, hl, hlen, rfl⟩ | ⟨hps, rfl⟩
    · rw [if_pos (hd.mpr hps)] at hx
      unfold mvInto at hx
      rw [into_one hb hl hlen] at hx
      exact hx
    · rw [if_neg (fun e => hps (hd.mp e))] at hx
      exact hx
  obtain ⟨T', ms, k1, k2, k3, k4⟩ := mv_file (r := ⟨u.1, r.n + 1, r.msgs⟩) hr hbig h64 hs hfs hold ⟨q1, h.here, h.dots⟩ files hp1 hp hcl hG1 hG force (ans path) info main
  exact ⟨T', ms, k1, k2, same_trans' hsame k3, k4⟩

/-- What is there after a file has been renamed. -/
theorem renamed_file {v : Vol} {d n : Dir} {cs : List Nat} {o : Obj} {T T' : List Dir} (h : Renamed v d n cs o T T') (hf : ¬ IsDir o) :
    ∃ o', Carried v o o' ∧ ¬ Dotted o' ∧ Calls cs o' ∧ (∀ p ∈ T, ∃ p' ∈ T', p'.sclust = p.sclust ∧ ∀ w ∈ p.os, w ∈ p'.os ∨ w = o) ∧ (∀ p' ∈ T', ∃ p ∈ T, p.sclust = p'.sclust ∧ ∀ w ∈ p'.os, w ∈ p.os ∨ w = o') ∧ ∃ n' ∈ T', n'.sclust = n.sclust ∧ o' ∈ n'.os := by
  obtain ⟨o', T1, T2, h1, hcall, hspell, h2, hne, h3, h4, h5⟩ := h
  rw [if_neg fun hx => hf hx.1] at h4
  subst h4
  refine ⟨o', h3, h2, hcall, fun p hp => ?_, fun p' hp' => ?_, ?_⟩
  · obtain ⟨p1, a1, a2, -, a3⟩ := added_keep h1 p hp
    obtain ⟨p3, c1, c2, c3⟩ := dropped_keep h5 p1 a1
    exact ⟨p3, c1, by rw [c2, a2], fun w hw => (c3 w (a3 w hw)).imp id fun hx => hx.1⟩
  · obtain ⟨p1, a1, a2, a3⟩ := dropped_back h5 p' hp'
    obtain ⟨p0, c1, c2, c3⟩ := added_back h1 p1 a1
    exact ⟨p0, c1, by rw [c2, a2], fun w hw => (c3 w (a3 w hw)).imp id fun hx => hx.1⟩
  · obtain ⟨n1, a1, a2, a3⟩ := added_in h1
    obtain ⟨p3, c1, c2, c3⟩ := dropped_keep h5 n1 a1
    exact ⟨p3, c1, by rw [c2, a2], (c3 o' a3).resolve_right fun hx => hne (by rw [← hx.2, a2]) (by rw [hx.1])⟩

/-- The path of the destination leads to the file that has been moved there. -/
theorem leads_moved {v : Vol} {T T' : List Dir} {o o' : Obj} (hf : ¬ IsDir o) (hd : ¬ Dotted o') (ho : (T'.map Dir.sclust).Nodup) (hk : ∀ p ∈ T, ∃ p' ∈ T', p'.sclust = p.sclust ∧ ∀ w ∈ p.os, w ∈ p'.os ∨ w = o) (hb : ∀ p' ∈ T', ∃ p ∈ T, p.sclust = p'.sclust ∧ ∀ w ∈ p'.os, w ∈ p.os ∨ w = o')
    (ho1 : (T.map Dir.sclust).Nodup) {n n' : Dir} {cs : List Nat} (hcall : Calls cs o') (hn : n' ∈ T') (hs : n'.sclust = n.sclust) (hmem : o' ∈ n'.os) {d0 : Dir} {l : List (List Nat)} {G : Goal} (hl : Leads v T d0 l G) :
    (G = .free n cs ∨ ∃ o, G = .object n cs o) → d0 ∈ T → ∀ d0' ∈ T', d0'.sclust = d0.sclust → Leads v T' d0' l (.object n' cs o') := by
  have one : ∀ {T : List Dir}, (T.map Dir.sclust).Nodup → ∀ {a b : Dir}, a ∈ T → b ∈ T → a.sclust = b.sclust → a = b := by
    intro T ht a b ha hb' e
    obtain ⟨x, y, rfl⟩ := List.append_of_mem ha
    rw [List.map_append, List.map_cons, List.nodup_append] at ht
    rcases List.mem_append.mp hb' with hb' | hb'
    · exact absurd e.symm (ht.2.2 _ (List.mem_map_of_mem hb') _ (by simp))
    · rcases List.mem_cons.mp hb' with hb' | hb'
      · exact hb'.symm
      · have := (List.nodup_cons.mp ht.2.1).1
        exact absurd (by rw [e]; exact List.mem_map_of_mem hb') this
  induction hl with
  | bad => rintro (h | ⟨_, h⟩) <;> cases h
  | self => rintro (h | ⟨_, h⟩) <;> cases h
  | missing => rintro (h | ⟨_, h⟩) <;> cases h
  | noDir => rintro (h | ⟨_, h⟩) <;> cases h
  | @stay d c l g h1 h2 _ ih =>
    intro hG h0 d0' h0' e
    refine .stay h1 (fun w hw hc => ?_) (ih hG h0 d0' h0' e)
    obtain ⟨p, hp, e', hw'⟩ := hb d0' h0'
    rcases hw' w hw with hw' | rfl
    · rw [one ho1 hp h0 (e'.trans e)] at hw'
      exact h2 w hw' hc
    · exact hd (dotted_calls hc h1)
  | @free d c h1 h2 h3 =>
    rintro (h | ⟨_, h⟩)
    · cases h
      intro h0 d0' h0' e
      rw [one ho h0' hn (e.trans hs.symm)]
      exact .object h1 hmem hcall
    · cases h
  | @object d c w h1 h2 h3 =>
    rintro (h | ⟨_, h⟩)
    · cases h
    · cases h
      intro h0 d0' h0' e
      rw [one ho h0' hn (e.trans hs.symm)]
      exact .object h1 hmem hcall
  | @enter d d' c l w g h1 h2 h3 h4 h5 h6 _ ih =>
    intro hG h0 d0' h0' e
    obtain ⟨p, hp, e1, h7⟩ := hk d h0
    obtain ⟨p', hp', e2, -⟩ := hk d' h5
    have : w ∈ d0'.os := by
      rw [one ho h0' hp (e.trans e1.symm)]
      exact (h7 w h2).resolve_right fun e => hf (e ▸ h4)
    exact .enter h1 this h3 h4 hp' (e2.trans h6) (ih hG h5 p' hp' e2)

theorem resolves_moved {v : Vol} {T T' : List Dir} {d n : Dir} {cs : List Nat} {o : Obj} (ho : (T'.map Dir.sclust).Nodup) (ho1 : (T.map Dir.sclust).Nodup) (h : Renamed v d n cs o T T') (hf : ¬ IsDir o) {cdir : Nat} {abs : Bool} {l : List (List Nat)} {G : Goal} (hG : Resolves v T cdir abs l G)
    (ht : Target d o n cs G) : ∃ n' o', Carried v o o' ∧ n'.sclust = n.sclust ∧ Resolves v T' cdir abs l (.object n' cs o') := by
  obtain ⟨o', h1, h2, h3, h4, h5, n', h6, h7, h8⟩ := renamed_file h hf
  have hg : G = .free n cs ∨ ∃ o, G = .object n cs o := by
    cases G with
    | free d' c' => exact .inl (by rw [ht.1, ht.2])
    | object d' c' o1 => exact .inr ⟨o1, by rw [ht.1, ht.2.1, ht.2.2.2]⟩
    | _ => cases ht
  obtain ⟨d0, h0, e, hl⟩ := hG
  obtain ⟨d0', h0', e', -⟩ := h4 d0 h0
  refine ⟨n', o', h1, h7, d0', h0', e'.trans e, .inr ?_⟩
  rcases hl with ⟨-, rfl⟩ | hl
  · rcases hg with hg | ⟨_, hg⟩ <;> cases hg
  · exact leads_moved hf h2 ho h4 h5 ho1 h3 h6 h7 h8 hl hg h0 d0' h0' e'

theorem bytes_carried {v : Vol} {F : List (List Nat)} {s s' : St} (h : SameData v F s s') {o o' : Obj} (hc : size o' = size o) {m : List Nat} (hm : m = [] ∨ m ∈ F) : bytesOf v s' m o' = bytesOf v s m o := by
  unfold bytesOf
  rw [hc]
  congr 1
  rcases hm with rfl | hm
  · rfl
  · exact flat_same fun n hn => h m hm n hn

/-- Files after renaming, and before: all are where they were, but for those that the old path leads to or to which it is on the way, and there are no others, but for those to which the new path is on the way. -/
theorem renamed_files {v : Vol} {i : Info} {T T' : List Dir} {F : List (List Nat)} {w : World} {s' : St} (h : InOrder v i T F w) (ht : Tree v i T' F s') (hv : SameData v F w.st s') {old new : List Nat} {abs abs' : Bool} {l l' : List (List Nat)} (hp : PathOf old abs l) (hp' : PathOf new abs' l')
    {d n : Dir} {cs cs' : List Nat} {o : Obj} {G' : Goal} (hcs : ¬ DotName cs) (hG : Resolves v T w.cdir abs l (.object d cs o)) (hG' : Resolves v T w.cdir abs' l' G') (htg : Target d o n cs' G') (hre : Renamed v d n cs' o T T') :
    ∀ l data, Plain l → ((¬ ∃ l1, l1 <+: l ∧ Meets v T w.cdir old l1) → FileAt v T F w.st l data → FileAt v T' F s' l data) ∧ ((¬ ∃ l1, l1 <+: l ∧ Lands v T T' w.cdir new l1) → FileAt v T' F s' l data → FileAt v T F w.st l data) := by
  obtain ⟨hd, ho, hcall⟩ := resolves_object hG
  have hdo := calls_nodot h.tree hd ho hcall hcs
  obtain ⟨o', hcall', hback⟩ := renamed_back hre
  have k1 : Same v T F w.st T' F s' fun l => ¬ ∃ l1, l1 <+: l ∧ Meets v T w.cdir old l1 := by
    refine ⟨fun k a => a = o ∧ k = d.sclust, fun q hq => .inr ((renamed_keep hre).1 q hq), fun _ _ _ _ _ _ _ m _ hm _ => ⟨hm, hv m hm⟩, ?_⟩
    exact fun d0 h0 hz l d1 c1 o1 hpl _ hl hn => clear_prefix h.tree hl h0 hpl ⟨_, _, _, rfl⟩ fun l1 d2 c2 o2 hl1 hl2 => not_meets h.tree hp hG (fun hx => hn ⟨l1, hl1, hx⟩) h0 hz hl2
  have k2 : Same v T' F s' T F w.st fun l => ¬ ∃ l1, l1 <+: l ∧ Lands v T T' w.cdir new l1 := by
    refine ⟨fun k a => a = o' ∧ k = n.sclust, fun q hq => .inr (hback q hq), fun _ _ _ _ _ _ _ m _ hm _ => ⟨hm, fun n hn => (hv m hm n hn).symm⟩, ?_⟩
    refine fun d0 h0 hz l d1 c1 o1 hpl _ hl hn => clear_prefix ht hl h0 hpl ⟨_, _, _, rfl⟩ fun l1 d2 c2 o2 hl1 hl2 hx => hn ⟨l1, hl1, abs', l', G', n, cs', d2, c2, o2, hp', hG', ?_, ⟨d0, h0, hz, .inr hl2⟩, hx.2, hx.1 ▸ hcall'⟩
    cases G' with
    | free d' c' => exact .inl (by rw [htg.1, htg.2])
    | object d' c' o1 => exact .inr ⟨o1, by rw [htg.1, htg.2.1, htg.2.2.2]⟩
    | badName => exact htg.elim
    | noPath => exact htg.elim
    | self _ => exact htg.elim
  obtain ⟨bad, h2, h3, h4⟩ := k1
  obtain ⟨bad', h5, h6, h7⟩ := k2
  exact fun l data hl => ⟨fun hn hf => file_keeps ht.once ht.root h2 h3 hf fun d0 h0 d cs o ho hz hL => h4 d0 h0 hz l d cs o hl ho hL hn,
    fun hn hf => file_keeps h.tree.once h.tree.root h5 h6 hf fun d0 h0 d cs o ho hz hL => h7 d0 h0 hz l d cs o hl ho hL hn⟩

theorem dir_one {T : List Dir} (ht : (T.map Dir.sclust).Nodup) {a b : Dir} (ha : a ∈ T) (hb' : b ∈ T) (e : a.sclust = b.sclust) : a = b := by
  obtain ⟨x, y, rfl⟩ := List.append_of_mem ha
  rw [List.map_append, List.map_cons, List.nodup_append] at ht
  rcases List.mem_append.mp hb' with hb' | hb'
  · exact absurd e.symm (ht.2.2 _ (List.mem_map_of_mem hb') _ (by simp))
  · rcases List.mem_cons.mp hb' with hb' | hb'
    · exact hb'.symm
    · have := (List.nodup_cons.mp ht.2.1).1
      exact absurd (by rw [e]; exact List.mem_map_of_mem hb') this

/-- The object under its old name has gone from its directory, if the new name was free. -/
theorem renamed_gone {v : Vol} {T T' : List Dir} {d n : Dir} {cs' : List Nat} {o : Obj} (ho : (T'.map Dir.sclust).Nodup) (ho1 : (T.map Dir.sclust).Nodup) (hnod : d.os.Nodup) (hn : n ∈ T) (hd : d ∈ T) (hfree : ∀ w ∈ n.os, ¬ Calls cs' w) (h : Renamed v d n cs' o T T') (hf : ¬ IsDir o) :
    ∀ p ∈ T', p.sclust = d.sclust → o ∉ p.os := by
  obtain ⟨o', T1, T2, h1, hcall, hspell, h2, hne, h3, h4, h5⟩ := h
  rw [if_neg fun hx => hf hx.1] at h4
  subst h4
  intro p hp e hmem
  obtain ⟨q, x, y, R, hk, hos, hT2, hT'⟩ := h5
  have hperm : (T'.map Dir.sclust).Perm (T2.map Dir.sclust) := (hT'.map _).trans ((hT2.map Dir.sclust).trans (by simp)).symm
  have ho2 : (T2.map Dir.sclust).Nodup := hperm.nodup_iff.mp ho
  have hpe : p = { q with os := x ++ y } := dir_one ho hp (hT'.mem_iff.mpr (by simp)) (by rw [e]; exact hk.symm)
  have hq2 : q ∈ T2 := hT2.mem_iff.mpr (by simp)
  have hnd : ¬ (q.os.Nodup) := by
    rw [hos]
    intro hx
    rw [hpe] at hmem
    rw [List.nodup_append] at hx
    rcases List.mem_append.mp hmem with hm | hm
    · exact hx.2.2 o hm o (by simp) rfl
    · exact (List.nodup_cons.mp hx.2.1).1 hm
  obtain ⟨x', y', loc, R', e1, -, hT, hT1⟩ := h1
  refine hnd ?_
  rcases List.mem_cons.mp (hT1.mem_iff.mp hq2) with rfl | hq
  · have : n = d := dir_one ho1 hn hd hk
    subst this
    show (x' ++ o' :: y').Nodup
    rw [e1] at hnod
    rw [(List.perm_middle (a := o') (l₁ := x') (l₂ := y')).nodup_iff, List.nodup_cons]
    exact ⟨fun hx => hfree o' (by rw [e1]; exact hx) hcall, hnod⟩
  · rw [dir_one ho1 (hT.mem_iff.mpr (by simp [hq])) hd hk]
    exact hnod

theorem nodup_split {α : Type} : ∀ {os : List α}, (∀ x o y, os = x ++ o :: y → o ∉ x ++ y) → os.Nodup
  | [], _ => .nil
  | a :: l, h => List.nodup_cons.mpr ⟨h [] a l rfl, nodup_split fun x o y e hx => h (a :: x) o y (by rw [e]; rfl) (by simp only [List.cons_append, List.mem_cons]; exact .inr hx)⟩

theorem dir_nodup {v : Vol} {i : Info} {T : List Dir} {F : List (List Nat)} {s : St} (h : Tree v i T F s) {d : Dir} (hd : d ∈ T) : d.os.Nodup := nodup_split fun _ o _ e hx => rep_inj (h.dirs d hd).dir.rep e o hx rfl

/-- Directories that can be reached, in two descriptions of a volume. -/
theorem within_same {v : Vol} {i : Info} {T T1 : List Dir} {F F1 : List (List Nat)} {s : St} (h : Tree v i T F s) (h1 : Tree v i T1 F1 s) {k : Nat} (hk : Within v T 0 k) : Within v T1 0 k ∧ ∃ d ∈ T1, d.sclust = k := by
  induction hk with
  | self => exact ⟨.self, h1.root⟩
  | @sub d o _ hd ho hdo hdir ih =>
    obtain ⟨ih, d1, hd1, e⟩ := ih
    obtain rfl := dir_same h h1 hd hd1 e.symm
    exact ⟨.sub ih hd1 ho hdo hdir, (h1.subs d hd1 o ho hdo hdir).2⟩

/-- Where the old path of a file leads: to its directory still. -/
theorem leads_left {v : Vol} {T T' : List Dir} {o o' : Obj} (hf : ¬ IsDir o) (hd : ¬ Dotted o') (ho : (T'.map Dir.sclust).Nodup) (hk : ∀ p ∈ T, ∃ p' ∈ T', p'.sclust = p.sclust ∧ ∀ w ∈ p.os, w ∈ p'.os ∨ w = o) (hb : ∀ p' ∈ T', ∃ p ∈ T, p.sclust = p'.sclust ∧ ∀ w ∈ p'.os, w ∈ p.os ∨ w = o')
    (ho1 : (T.map Dir.sclust).Nodup) {d : Dir} {cs : List Nat} (hcs : ¬ DotName cs) {d0 : Dir} {l : List (List Nat)} {G : Goal} (hl : Leads v T d0 l G) :
    G = .object d cs o → d0 ∈ T → ∀ d0' ∈ T', d0'.sclust = d0.sclust → ∃ d' ∈ T', d'.sclust = d.sclust ∧ (Leads v T' d0' l (.free d' cs) ∨ ∃ o2 ∈ d'.os, Calls cs o2 ∧ Leads v T' d0' l (.object d' cs o2)) := by
  induction hl with
  | bad => intro h; cases h
  | self => intro h; cases h
  | missing => intro h; cases h
  | noDir => intro h; cases h
  | free => intro h; cases h
  | @stay d c l g h1 h2 _ ih =>
    intro hG h0 d0' h0' e
    have hno : ∀ w ∈ d0'.os, ¬ Calls c w := by
      intro w hw hc
      obtain ⟨p, hp, e', hw'⟩ := hb d0' h0'
      rcases hw' w hw with hw' | rfl
      · rw [dir_one ho1 hp h0 (e'.trans e)] at hw'
        exact h2 w hw' hc
      · exact hd (dotted_calls hc h1)
    obtain ⟨d', k1, k2, k3 | ⟨o2, k3, k4, k5⟩⟩ := ih hG h0 d0' h0' e
    · exact ⟨d', k1, k2, .inl (.stay h1 hno k3)⟩
    · exact ⟨d', k1, k2, .inr ⟨o2, k3, k4, .stay h1 hno k5⟩⟩
  | @object d c w h1 h2 h3 =>
    intro h
    cases h
    intro h0 d0' h0' e
    by_cases hx : ∃ o2 ∈ d0'.os, Calls cs o2
    · obtain ⟨o2, a, b⟩ := hx
      exact ⟨d0', h0', e, .inr ⟨o2, a, b, .object h1 a b⟩⟩
    · exact ⟨d0', h0', e, .inl (.free h1 hcs fun w hw hc => hx ⟨w, hw, hc⟩)⟩
  | @enter d d' c l w g h1 h2 h3 h4 h5 h6 _ ih =>
    intro hG h0 d0' h0' e
    obtain ⟨p, hp, e1, h7⟩ := hk d h0
    obtain ⟨p', hp', e2, -⟩ := hk d' h5
    have hw : w ∈ d0'.os := by
      rw [dir_one ho h0' hp (e.trans e1.symm)]
      exact (h7 w h2).resolve_right fun e => hf (e ▸ h4)
    obtain ⟨q, k1, k2, k3 | ⟨o2, k3, k4, k5⟩⟩ := ih hG h5 p' hp' e2
    · exact ⟨q, k1, k2, .inl (.enter h1 hw h3 h4 hp' (e2.trans h6) k3)⟩
    · exact ⟨q, k1, k2, .inr ⟨o2, k3, k4, .enter h1 hw h3 h4 hp' (e2.trans h6) k5⟩⟩

/-- The old name of a file is free, or it is another name of the file at its new place. -/
theorem resolves_left {v : Vol} {i : Info} {T T' : List Dir} {F F' : List (List Nat)} {s s' : St} (h : Tree v i T F s) (h' : Tree v i T' F' s') {d n n' : Dir} {cs cs' : List Nat} {o o' : Obj} (hcs : ¬ DotName cs) (hre : Renamed v d n cs' o T T') (hf : ¬ IsDir o) {cdir : Nat} {abs abs' : Bool} {l l' : List (List Nat)}
    (hG : Resolves v T cdir abs l (.object d cs o)) (hn : n ∈ T) (hfree : ∀ w ∈ n.os, ¬ Calls cs' w) (hns : n'.sclust = n.sclust) (hG' : Resolves v T' cdir abs' l' (.object n' cs' o')) : ∃ d', Resolves v T' cdir abs l (.free d' cs) ∨ Resolves v T' cdir abs l (.object n' cs o') := by
  obtain ⟨hd, ho, hcall⟩ := resolves_object hG
  obtain ⟨hn', ho', hcall'⟩ := resolves_object hG'
  have hgone := renamed_gone h'.once h.once (dir_nodup h hd) hn hd hfree hre hf
  obtain ⟨o1, h1, h2, h3, h4, h5, n1, h6, h7, h8⟩ := renamed_file hre hf
  obtain ⟨d0, h0, e, hl⟩ := hG
  obtain ⟨d0', h0', e', -⟩ := h4 d0 h0
  have hl := hl.resolve_left fun hx => by cases hx.2
  obtain rfl : n1 = n' := dir_one h'.once h6 hn' (h7.trans hns.symm)
  obtain ⟨d', k1, k2, k3 | ⟨o2, k3, k4, k5⟩⟩ := leads_left hf h2 h'.once h4 h5 h.once hcs hl rfl h0 d0' h0' e'
  · exact ⟨d', .inl ⟨d0', h0', e'.trans e, .inr k3⟩⟩
  · refine ⟨d', .inr ?_⟩
    obtain ⟨o3, hc3, hback⟩ := renamed_back hre
    obtain ⟨p, b1, b2, b3⟩ := hback d' k1
    have hnd2 : ¬ Dotted o2 := fun hx => (calls_nodot h' k1 k3 k4 hcs) hx
    rcases b3 o2 k3 hnd2 with b | ⟨b, b4⟩
    · rw [dir_one h.once b1 hd (b2.trans k2)] at b
      rw [calls_unique (h.dirs d hd).names b ho k4 hcall] at k3
      exact absurd k3 (hgone d' k1 k2)
    · obtain rfl : d' = n1 := dir_one h'.once k1 hn' (b4.trans hns.symm)
      rw [← b] at hc3
      rw [calls_unique (h'.dirs d' k1).names ho' k3 hcall' hc3]
      exact ⟨d0', h0', e'.trans e, .inr k5⟩

theorem leads_free_in {v : Vol} {T : List Dir} {d0 d : Dir} {l : List (List Nat)} {G : Goal} {cs : List Nat} (h : Leads v T d0 l G) (hG : G = .free d cs) : d0 ∈ T → d ∈ T := by
  induction h with
  | stay _ _ _ ih => exact ih hG
  | free => cases hG; exact id
  | enter _ _ _ _ h5 _ _ ih => exact fun _ => ih hG h5
  | _ => cases hG

end Fpm.Tree
