import Verif.Tree.MvLemmas
import Verif.Tree.RmProps
/-!
# C100, C101: renaming and moving with the command mv
-/
namespace Fpm.Tree
open Fpm.Fat Fpm.Fat.Spec Fpm.FatFile Fpm.FatFile.Spec Fpm.FatSync Fpm.DirDev Fpm.Tree.Spec Fpm.Mount Fpm.Mount.Spec Fpm.FatDir Fpm.FatDir.Spec Fpm.DirDev.Spec Fpm.Names.Spec Fpm.TextIo.Spec
open Fpm.FatLock (Sem Key)

/-- All that `mv src dst` may do, on a device that does not fail.  Either there is one message that says why nothing has been moved: there is nothing to be moved, the user does not want it, it cannot be (in use, `.` or `..`, a bad path, or there is something else with that
name), or the directory has no room; all that may have changed then is that the directory is longer.  Or there is no message, and the object has moved to the path, or into the directory, in the sense of C86.  The bytes of all files are where they were. -/
theorem C100_end (g : Env) (hr : Ready g.v g.i) (hbig : g.i.fsi ≠ none → 512 ≤ g.v.ss) (h64 : 64 ≤ g.v.ss) (hs : Sound g.v) (hfs : g.fs ≠ 0) (hold : ∀ n, (g.old n).2.length = 256) (T : List Dir) (F : List (List Nat)) (r : Mv) (h : InOrder g.v g.i T F ⟨r.st, g.cdir⟩)
    (files : List Sem) (src dst path : List Nat) (abs1 abs2 abs : Bool) (l1 l2 l : List (List Nat)) (hp1 : PathOf (src ++ [0]) abs1 l1) (hp2 : PathOf (dst ++ [0]) abs2 l2) (hp : PathOf (path ++ [0]) abs l) (hcl : Spec.Clean l) (G1 G2 G : Goal) (hG1 : Resolves g.v T g.cdir abs1 l1 G1)
    (hG2 : Resolves g.v T g.cdir abs2 l2 G2) (hG : Resolves g.v T g.cdir abs l G) (hc : 58 ∉ dst) (ha : Aim G2 src dst path) (force : Bool) (ans : List Nat → Bool) (info : FInfo) (x : Mv) (hx : x = mvCmd g files force ans info [src] dst r) :
    ∃ T' ms, x.msgs = r.msgs ++ ms ∧ InOrder g.v g.i T' F ⟨x.st, g.cdir⟩ ∧ SameData g.v F r.st x.st ∧ MvEnd g.v g.i files g.fs force (ans path) G1 G T F x.st ms T' := by
  obtain ⟨T', ms, h1, h2, h3, h4⟩ := mv_cmd hr hbig h64 hs hfs hold h files hp1 hp2 hp hcl hG1 hG2 hG hc ha force ans info hx
  refine ⟨T', ms, h1, ?_, h3, h4⟩
  generalize x.st = s' at h2 h3 h4
  cases h4 with
  | missing => exact ⟨h2, h.here, h.dots⟩
  | kept => exact ⟨h2, h.here, h.dots⟩
  | refused => exact ⟨h2, h.here, h.dots⟩
  | @full d n cs cs' o R loc a1 a2 a3 a4 a5 hT a7 a8 =>
    have key : ∀ q ∈ { n with loc := loc } :: R, ∃ q' ∈ T, q'.sclust = q.sclust ∧ q'.os = q.os := by
      intro q hq
      rcases List.mem_cons.mp hq with rfl | hq
      · exact ⟨n, hT.mem_iff.mpr (by simp), rfl, rfl⟩
      · exact ⟨q, hT.mem_iff.mpr (by simp [hq]), rfl, rfl⟩
    refine ⟨h2, ?_, fun q hq h0 => ?_⟩
    · obtain ⟨q, hq, e⟩ := h.here
      rcases List.mem_cons.mp (hT.mem_iff.mp hq) with rfl | hq
      · exact ⟨_, List.mem_cons_self, e⟩
      · exact ⟨q, by simp [hq], e⟩
    · obtain ⟨q', b1, b2, b3⟩ := key q hq
      obtain ⟨b, c1, c2, c3⟩ := h.dots q' b1 (by rw [b2]; exact h0)
      exact ⟨b, b3 ▸ c1, c2, c3⟩
  | @moved d n cs cs' o T' a1 a2 a3 a4 a5 hre a7 =>
    subst a2
    obtain ⟨hd, ho, hcall⟩ := resolves_object hG1
    obtain ⟨k1, k2⟩ := dots_renamed (calls_nodot h.tree hd ho hcall a3) hre
    exact ⟨h2, here_perm k2 h.here, second_next h2.once k1 k2 h.dots⟩

/-! ## C100: what is at the destination is replaced -/

/-- Full statement: if both paths lead to files, and the user has said yes or used the option `-f`, then afterwards the bytes of the first file are at the second path. -/
def C100_full : Prop := ∀ (g : Env), Ready g.v g.i → (g.i.fsi ≠ none → 512 ≤ g.v.ss) → 64 ≤ g.v.ss → Sound g.v → g.fs ≠ 0 → (∀ n, (g.old n).2.length = 256) → ∀ (T : List Dir) (F : List (List Nat)) (r : Mv), InOrder g.v g.i T F ⟨r.st, g.cdir⟩ →
  ∀ (files : List Sem), (∀ x ∈ files, x.key.fs = 0) → ∀ (src dst : List Nat) (l1 l2 : List (List Nat)), PathOf (src ++ [0]) true l1 → PathOf (dst ++ [0]) true l2 → Spec.Clean l1 → Spec.Clean l2 → Plain l1 → Plain l2 → 58 ∉ dst → ∀ (A B : List Nat), FileAt g.v T F r.st l1 A →
  FileAt g.v T F r.st l2 B → ∀ (force : Bool) (ans : List Nat → Bool) (info : FInfo) (x : Mv), force = true ∨ ans dst = true → x = mvCmd g files force ans info [src] dst r → ∃ T' F', InOrder g.v g.i T' F' ⟨x.st, g.cdir⟩ ∧ FileAt g.v T' F' x.st l2 A

/-- What happens instead if something else is at the path: it stays, and there is a message. -/
theorem C100_stays_partial (g : Env) (hr : Ready g.v g.i) (hbig : g.i.fsi ≠ none → 512 ≤ g.v.ss) (h64 : 64 ≤ g.v.ss) (hs : Sound g.v) (hfs : g.fs ≠ 0) (hold : ∀ n, (g.old n).2.length = 256) (T : List Dir) (F : List (List Nat)) (r : Mv) (h : InOrder g.v g.i T F ⟨r.st, g.cdir⟩)
    (files : List Sem) (src dst path : List Nat) (abs1 abs2 abs : Bool) (l1 l2 l : List (List Nat)) (hp1 : PathOf (src ++ [0]) abs1 l1) (hp2 : PathOf (dst ++ [0]) abs2 l2) (hp : PathOf (path ++ [0]) abs l) (hcl : Spec.Clean l) (G1 G2 : Goal) (d : Dir) (cs : List Nat) (o : Obj)
    (hG1 : Resolves g.v T g.cdir abs1 l1 G1) (hG2 : Resolves g.v T g.cdir abs2 l2 G2) (hG : Resolves g.v T g.cdir abs l (.object d cs o)) (hne : ∀ cs', G1 ≠ .object d cs' o) (hc : 58 ∉ dst) (ha : Aim G2 src dst path) (force : Bool) (ans : List Nat → Bool) (info : FInfo) (x : Mv)
    (hx : x = mvCmd g files force ans info [src] dst r) :
    InOrder g.v g.i T F ⟨x.st, g.cdir⟩ ∧ (∀ l data, FileAt g.v T F r.st l data → FileAt g.v T F x.st l data) ∧ ∃ m, x.msgs = r.msgs ++ [m] ∧
      (m = .kept ↔ force = false ∧ ans path = false ∧ ∃ d cs o, G1 = .object d cs o) ∧ (∀ d' cs' o', G1 = .object d' cs' o' → ¬ DotName cs' → ¬ InUse files g.fs d' o' → force = true ∨ ans path = true → m = .failed FR_EXIST) := by
  obtain ⟨T', ms, h1, h2, h3, h4⟩ := C100_end g hr hbig h64 hs hfs hold T F r h files src dst path abs1 abs2 abs l1 l2 l hp1 hp2 hp hcl G1 G2 _ hG1 hG2 hG hc ha force ans info x hx
  have hfile : ∀ l data, FileAt g.v T F r.st l data → FileAt g.v T F x.st l data := by
    rintro l data ⟨d, cs, o, m, a1, a2, a3, a4, a5⟩
    exact ⟨d, cs, o, m, a1, a2, a3, a4, by rw [bytes_carried h3 rfl a3]; exact a5⟩
  generalize x.st = s' at h2 h3 h4 hfile
  have target : ∀ {d' n : Dir} {cs' cs1 : List Nat} {o' : Obj}, G1 = .object d' cs' o' → ¬ Target d' o' n cs1 (.object d cs o) := by
    rintro d' n cs' cs1 o' rfl ⟨-, e1, e2, -⟩
    exact hne cs' (by rw [e1, e2])
  cases h4 with
  | missing a1 a2 a3 =>
    refine ⟨h2, hfile, _, h1, ⟨(fun e => by cases e), fun ⟨_, _, d1, c1, o1, e⟩ => ?_⟩, ?_⟩
    · subst e; exact a3.elim
    · rintro d' cs' o' rfl; exact a3.elim
  | kept a1 a2 a3 a4 =>
    refine ⟨h2, hfile, _, h1, ⟨fun _ => ⟨a1, a2, a4⟩, fun _ => rfl⟩, ?_⟩
    rintro d' cs' o' rfl - - (e | e)
    · rw [a1] at e; cases e
    · rw [a2] at e; cases e
  | @refused rr a1 a2 =>
    refine ⟨h2, hfile, _, h1, ⟨(fun e => by cases e), fun ⟨e1, e2, _⟩ => ?_⟩, ?_⟩
    · rcases a1 with a1 | a1 | a1
      · rw [e1] at a1; cases a1
      · rw [e2] at a1; cases a1
      · exact absurd rfl (a1 d cs o)
    · rintro d' cs' o' rfl k1 k2 -
      rcases a2 with ⟨b, -⟩ | ⟨-, b, -⟩ | ⟨-, -, b⟩
      · exact absurd b k1
      · exact absurd b k2
      · rw [b]
  | full a1 a2 a3 a4 a5 => exact absurd a5 (target a2)
  | moved a1 a2 a3 a4 a5 => exact absurd a5 (target a2)

/-- If nothing is at the path, a file moves there: the path leads to a file with its bytes, all other files are as before, and at the old path there is nothing any more, but for another name of the file at its new place.  Or the directory has no room, there is a message, and all files are as before. -/
theorem C100_moves_partial (g : Env) (hr : Ready g.v g.i) (hbig : g.i.fsi ≠ none → 512 ≤ g.v.ss) (h64 : 64 ≤ g.v.ss) (hs : Sound g.v) (hfs : g.fs ≠ 0) (hold : ∀ n, (g.old n).2.length = 256) (T : List Dir) (F : List (List Nat)) (r : Mv) (h : InOrder g.v g.i T F ⟨r.st, g.cdir⟩)
    (files : List Sem) (src dst path : List Nat) (abs1 abs2 abs : Bool) (l1 l2 l : List (List Nat)) (hp1 : PathOf (src ++ [0]) abs1 l1) (hp2 : PathOf (dst ++ [0]) abs2 l2) (hp : PathOf (path ++ [0]) abs l) (hcl : Spec.Clean l) (G2 : Goal) (d n : Dir) (cs cs' : List Nat) (o : Obj)
    (hcs : ¬ DotName cs) (hf : ¬ IsDir o) (hu : ¬ InUse files g.fs d o) (hG1 : Resolves g.v T g.cdir abs1 l1 (.object d cs o)) (hG2 : Resolves g.v T g.cdir abs2 l2 G2) (hG : Resolves g.v T g.cdir abs l (.free n cs')) (hc : 58 ∉ dst) (ha : Aim G2 src dst path) (force : Bool)
    (ans : List Nat → Bool) (info : FInfo) (x : Mv) (hx : x = mvCmd g files force ans info [src] dst r) (m : List Nat) (hm : m = [] ∨ m ∈ F) (hmo : first g.v o = m.headD 0) :
    ∃ T', InOrder g.v g.i T' F ⟨x.st, g.cdir⟩ ∧
      ((x.msgs = r.msgs ++ [.failed DirDev.FR_DENIED] ∧ (∃ n', NoEntry g.v g.i T' F (view x.st) n' cs' ∧ n'.sclust = n.sclust) ∧ ∀ l data, Plain l → FileAt g.v T F r.st l data → FileAt g.v T' F x.st l data) ∨
       (x.msgs = r.msgs ∧ x.st.wflag = false ∧ (∃ n' o', Resolves g.v T' g.cdir abs l (.object n' cs' o') ∧ ¬ IsDir o' ∧ first g.v o' = m.headD 0 ∧ bytesOf g.v x.st m o' = bytesOf g.v r.st m o ∧
           ∃ d', Resolves g.v T' g.cdir abs1 l1 (.free d' cs) ∨ Resolves g.v T' g.cdir abs1 l1 (.object n' cs o')) ∧
         ∀ l data, Plain l → ((¬ ∃ l0, l0 <+: l ∧ Meets g.v T g.cdir (src ++ [0]) l0) → FileAt g.v T F r.st l data → FileAt g.v T' F x.st l data) ∧
           ((¬ ∃ l0, l0 <+: l ∧ Spec.Lands g.v T T' g.cdir (path ++ [0]) l0) → FileAt g.v T' F x.st l data → FileAt g.v T F r.st l data))) := by
  obtain ⟨T', ms, h1, h2, h3, h4⟩ := C100_end g hr hbig h64 hs hfs hold T F r h files src dst path abs1 abs2 abs l1 l2 l hp1 hp2 hp hcl _ G2 _ hG1 hG2 hG hc ha force ans info x hx
  generalize hst : x.st = s' at h2 h3 h4
  refine ⟨T', h2, ?_⟩
  cases h4 with
  | missing a1 a2 => obtain ⟨_, _, _, e⟩ := a2; cases e
  | kept a1 a2 a3 => obtain ⟨_, _, _, e⟩ := a3; cases e
  | refused a1 a2 =>
    rcases a2 with ⟨b, -⟩ | ⟨-, b, -⟩ | ⟨-, b⟩
    · exact absurd b hcs
    · exact absurd b hu
    · exact b.elim
  | @full d n cs cs' o R loc a1 a2 a3 a4 a5 hT a7 a8 =>
    obtain ⟨rfl, rfl⟩ := a5
    obtain ⟨T1, F1, k1, ⟨bad, k2, k3, k4⟩, -⟩ := next_longer (w := ⟨s', g.cdir⟩) (P := fun _ => True) (Q := fun _ _ => True) h.tree hT h2.tree h.dots h.here h3
    refine .inl ⟨h1, ⟨_, a8, rfl⟩, fun l data hl hfi => ?_⟩
    exact file_same k1.tree h2.tree (file_keeps k1.tree.once k1.tree.root k2 k3 hfi fun d0 h0 d cs o ho hz hL => k4 d0 h0 hz l d cs o hl ho hL trivial)
  | @moved d n cs cs' o T' a1 a2 a3 a4 a5 hre a7 =>
    cases a2
    obtain ⟨rfl, rfl⟩ := a5
    obtain ⟨n', o', b1, b2, b3⟩ := resolves_moved h2.tree.once h.tree.once hre hf hG ⟨rfl, rfl⟩
    refine .inr ⟨by rw [h1, List.append_nil], a7, ⟨n', o', b3, fun e => hf ((carried_dir b1).mp e), b1.first.trans hmo, bytes_carried h3 b1.size hm, ?_⟩, renamed_files (w := ⟨r.st, g.cdir⟩) h h2.tree h3 hp1 hp hcs hG1 hG ⟨rfl, rfl⟩ hre⟩
    have hfr : n ∈ T ∧ ∀ w ∈ n.os, ¬ Calls cs' w := by
      obtain ⟨d0, h0, -, ⟨-, e⟩ | hl⟩ := hG
      · cases e
      · exact ⟨leads_free_in hl rfl h0, (leads_free hl rfl).2⟩
    exact resolves_left h.tree h2.tree hcs hre hf hG1 hfr.1 hfr.2 b2 b3

/-! ## C101: nothing is lost -/

/-- Full statement: whatever `mv` moves, afterwards every directory and every file that could be reached from the root directory still can. -/
def C101_full : Prop := ∀ (g : Env), Ready g.v g.i → (g.i.fsi ≠ none → 512 ≤ g.v.ss) → 64 ≤ g.v.ss → Sound g.v → g.fs ≠ 0 → (∀ n, (g.old n).2.length = 256) → ∀ (T : List Dir) (F : List (List Nat)) (r : Mv), InOrder g.v g.i T F ⟨r.st, g.cdir⟩ → Within g.v T 0 g.cdir →
  ∀ (files : List Sem) (src dst path : List Nat) (G : Goal) (abs : Bool) (l : List (List Nat)), PathOf (dst ++ [0]) abs l → Resolves g.v T g.cdir abs l G → IsPath (src ++ [0]) → IsPath (path ++ [0]) → 58 ∉ dst → Aim G src dst path →
  ∀ (force : Bool) (ans : List Nat → Bool) (info : FInfo) (x : Mv), x = mvCmd g files force ans info [src] dst r →
  ∃ T' F', InOrder g.v g.i T' F' ⟨x.st, g.cdir⟩ ∧ (∀ k, Within g.v T 0 k → Within g.v T' 0 k) ∧ ∀ data, Stored g.v T F r.st data → Stored g.v T' F' x.st data

/-- It holds unless a directory is moved into itself, or into a directory below it. -/
theorem C101_safe_partial (g : Env) (hr : Ready g.v g.i) (hbig : g.i.fsi ≠ none → 512 ≤ g.v.ss) (h64 : 64 ≤ g.v.ss) (hs : Sound g.v) (hfs : g.fs ≠ 0) (hold : ∀ n, (g.old n).2.length = 256) (T : List Dir) (F : List (List Nat)) (r : Mv) (h : InOrder g.v g.i T F ⟨r.st, g.cdir⟩)
    (hw : Within g.v T 0 g.cdir) (files : List Sem) (src dst path : List Nat) (abs1 abs2 abs : Bool) (l1 l2 l : List (List Nat)) (hp1 : PathOf (src ++ [0]) abs1 l1) (hp2 : PathOf (dst ++ [0]) abs2 l2) (hp : PathOf (path ++ [0]) abs l) (hcl : Spec.Clean l) (G1 G2 G : Goal)
    (hG1 : Resolves g.v T g.cdir abs1 l1 G1) (hG2 : Resolves g.v T g.cdir abs2 l2 G2) (hG : Resolves g.v T g.cdir abs l G) (hc : 58 ∉ dst) (ha : Aim G2 src dst path) (hin : ¬ IntoItself g.v T G1 G) (force : Bool) (ans : List Nat → Bool) (info : FInfo) (x : Mv)
    (hx : x = mvCmd g files force ans info [src] dst r) :
    ∃ T', InOrder g.v g.i T' F ⟨x.st, g.cdir⟩ ∧ (∀ k, Within g.v T 0 k → Within g.v T' 0 k) ∧ ∀ data, Stored g.v T F r.st data → Stored g.v T' F x.st data := by
  obtain ⟨T', ms, h1, h2, h3, h4⟩ := C100_end g hr hbig h64 hs hfs hold T F r h files src dst path abs1 abs2 abs l1 l2 l hp1 hp2 hp hcl G1 G2 G hG1 hG2 hG hc ha force ans info x hx
  refine ⟨T', h2, ?_⟩
  generalize x.st = s' at h2 h3 h4
  have same : (∀ k, Within g.v T 0 k → Within g.v T 0 k) ∧ ∀ data, Stored g.v T F r.st data → Stored g.v T F s' data := by
    refine ⟨fun _ => id, ?_⟩
    rintro data ⟨d, a1, a2, o, a3, m, a4, a5, a6, a7⟩
    exact ⟨d, a1, a2, o, a3, m, a4, a5, a6, by rw [bytes_carried h3 rfl a5]; exact a7⟩
  cases h4 with
  | missing => exact same
  | kept => exact same
  | refused => exact same
  | @full d n cs cs' o R loc a1 a2 a3 a4 a5 hT a7 a8 =>
    have key : ∀ q ∈ T, ∃ q' ∈ { n with loc := loc } :: R, q'.sclust = q.sclust ∧ q'.os = q.os := by
      intro q hq
      rcases List.mem_cons.mp (hT.mem_iff.mp hq) with rfl | hq
      · exact ⟨_, List.mem_cons_self, rfl, rfl⟩
      · exact ⟨q, by simp [hq], rfl, rfl⟩
    have hreach : ∀ k, Within g.v T 0 k → Within g.v ({ n with loc := loc } :: R) 0 k := by
      intro k hk
      induction hk with
      | self => exact .self
      | @sub q o _ b1 b2 b3 b4 ih =>
        obtain ⟨q', c1, c2, c3⟩ := key q b1
        exact .sub (c2 ▸ ih) c1 (c3 ▸ b2) b3 b4
    refine ⟨hreach, ?_⟩
    rintro data ⟨d, b1, b2, o, b3, m, b4, b5, b6, b7⟩
    obtain ⟨q', c1, c2, c3⟩ := key d b1
    exact ⟨q', c1, by rw [c2]; exact hreach _ b2, o, c3 ▸ b3, m, b4, b5, b6, by rw [bytes_carried h3 rfl b5]; exact b7⟩
  | @moved d n cs cs' o T' a1 a2 a3 a4 a5 hre a7 =>
    subst a2
    obtain ⟨hd, ho, hcall⟩ := resolves_object hG1
    have hdo := calls_nodot h.tree hd ho hcall a3
    have hreach : ∀ k, Within g.v T 0 k → Within g.v T' 0 k := C86_reach_partial g.v g.i T T' F r.st h.tree g.cdir hw abs1 abs l1 l d n cs cs' o G hG1 hG a5 hre fun hdir hx => hin ⟨d, cs, o, n, cs', rfl, hdir, a5, hx⟩
    refine ⟨hreach, ?_⟩
    rintro data ⟨q, b1, b2, w, b3, m, b4, b5, b6, b7⟩
    obtain ⟨hk, o', c1, c2, c3, n', hn', c4, c5⟩ := renamed_keep hre
    have hwd : ¬ Dotted w := fun hx => b4 (h.tree.dots q b1 w b3 hx).1
    obtain ⟨q', d1, d2, d3⟩ := hk q b1
    rcases d3 w b3 hwd with d3 | ⟨rfl, -⟩
    · exact ⟨q', d1, by rw [d2]; exact hreach _ b2, w, d3, m, b4, b5, b6, by rw [bytes_carried h3 rfl b5]; exact b7⟩
    · refine ⟨n', hn', ?_, o', c5, m, fun hx => b4 ((carried_dir c2).mp hx), b5, by rw [c2.first]; exact b6, by rw [bytes_carried h3 c2.size b5]; exact b7⟩
      rw [c4]
      refine hreach _ ?_
      have start : ∀ {ab : Bool} {d0 : Dir}, d0.sclust = (if ab then 0 else g.cdir) → Within g.v T 0 d0.sclust := by
        intro ab d0 e
        rw [e]
        cases ab
        · exact hw
        · exact .self
      have goal : ∀ {ab : Bool} {l : List (List Nat)} {G : Goal}, Resolves g.v T g.cdir ab l G → (∀ d cs, G = .free d cs → Within g.v T 0 d.sclust) ∧ ∀ d cs o, G = .object d cs o → Within g.v T 0 d.sclust := by
        rintro ab l G ⟨d0, hd0, e, ⟨-, rfl⟩ | hl⟩
        · exact ⟨fun d cs e => (by cases e), fun d cs o e => (by cases e)⟩
        · exact leads_within h.tree hl hd0 (start e)
      cases G with
      | free d' c =>
        obtain ⟨rfl, -⟩ := a5
        exact (goal hG).1 _ _ rfl
      | object d' c o1 =>
        obtain ⟨rfl, -⟩ := a5
        exact (goal hG1).2 _ _ _ rfl
      | _ => cases a5

/-! In the example `mv a a` moves directory `a` to `a/a`, and it is lost.  And if there is a file `/x y`, then `mv -f "/x.c" "/x y"` does not replace it. -/

def mvInfo : FInfo := ⟨[], 0, 0, 0, 0, 0⟩
def mvFree : List Sem := [⟨⟨0, 0, 0⟩, 0⟩]
def mvAA : Mv := mvCmd (trEnv 0) mvFree false (fun _ => false) mvInfo [[97]] [97] ⟨trS, 0, []⟩

theorem tr_path_aa : PathOf [97, 47, 97, 0] false [[97], [97]] :=
  .segs (z := []) (p := [97, 47, 97, 0]) (by decide) (.cons (cs := [97]) (t := [47, 97, 0]) (rest := [97, 0]) (by decide) (by decide) (.sep (s := [47]) (b := 97) (z := [0]) (by decide) (by decide) (by decide) (by decide)) (.last (cs := [97]) (t := [0]) (rest := []) (by decide) (by decide) (.fin (by decide))))

theorem tr_calls_aa : Calls [97] ⟨0, none, trA⟩ := by
  unfold Calls
  rw [if_neg (by decide)]
  exact .inr ⟨[97], [], ⟨by decide, by decide, by decide, by decide, by decide, by decide⟩, by decide⟩

theorem tr_leads_aa : Resolves trV trT 0 false [[97], [97]] (.free trDirA [97]) := by
  refine ⟨trRoot, by simp [trT], rfl, .inr (.enter (o := ⟨0, none, trA⟩) (d' := trDirA) (by decide) (by decide) tr_calls_aa (by decide) (by simp [trT]) (by decide) (.free (by decide) (by decide) ?_))⟩
  intro o ho hx
  unfold Calls at hx
  rw [if_neg (by decide)] at hx
  rcases hx with ⟨m, hm, -⟩ | ⟨body, ext, h8, e⟩
  · rw [plain_long o ho] at hm; cases hm
  · have he : [97] = body ++ if ext = [] then [] else 46 :: ext := h8.eq
    cases body with
    | nil => exact h8.ne rfl
    | cons b body =>
      rw [List.cons_append] at he
      obtain ⟨rfl, he2⟩ := List.cons.inj he
      obtain ⟨hb, he⟩ := List.append_eq_nil_iff.mp he2.symm
      subst hb
      have hx : ext = [] := by
        by_cases h : ext = []
        · exact h
        · rw [if_neg h] at he; cases he
      subst hx
      have key : ∀ o ∈ trDirA.os, o.fn ≠ form [97] [] := by decide
      exact key o ho e

theorem mv_aim : Aim (.object trRoot [97] ⟨0, none, trA⟩) [97] [97] [97, 47, 97] :=
  .inl ⟨(by decide : IsDir ⟨0, none, trA⟩), [97, 47], [97], [], ⟨by decide, .inr rfl, by decide⟩, ⟨[], rfl, .inl rfl, by decide, by decide, by decide⟩, by decide, rfl⟩

/-- `mv a a` has no message, and `a` cannot be reached any more. -/
theorem C101_violated : ¬ C101_full := by
  intro hx
  have hm : mvAA.msgs = [] := by decide +kernel
  obtain ⟨T1, F1, h1, h2, -⟩ := hx (trEnv 0) tr_ready (by decide) (by decide) tr_sound (by decide) (fun n => List.length_replicate) trT trF ⟨trS, 0, []⟩ tr_order .self mvFree [97] [97] [97, 47, 97] _ false [[97]] tr_path_a tr_leads_a ⟨_, _, tr_path_a, by unfold Spec.Clean; decide⟩
    ⟨_, _, tr_path_aa, by unfold Spec.Clean; decide⟩ (by decide) mv_aim false (fun _ => false) mvInfo mvAA rfl
  obtain ⟨T', ms, k1, k2, k3, k4⟩ := C100_end (trEnv 0) tr_ready (by decide) (by decide) tr_sound (by decide) (fun n => List.length_replicate) trT trF ⟨trS, 0, []⟩ tr_order mvFree [97] [97] [97, 47, 97] false false false [[97]] [[97]] [[97], [97]] tr_path_a tr_path_a tr_path_aa
    (by unfold Spec.Clean; decide) _ _ _ tr_leads_a tr_leads_a tr_leads_aa (by decide) mv_aim false (fun _ => false) mvInfo mvAA rfl
  rw [hm, List.nil_append] at k1
  subst k1
  generalize mvAA.st = s' at h1 k2 k4
  cases k4 with
  | moved a1 a2 a3 a4 a5 a6 a7 =>
    cases a2
    obtain ⟨rfl, rfl⟩ := a5
    exact C86_lost trV trI trT T' trF trF trS s' tr_tree k2.tree trRoot trDirA [97] ⟨0, none, trA⟩ (by simp [trT]) (by decide) (by decide) (by decide) a6 .self 2 .self (within_same h1.tree k2.tree (h2 2 tr_within)).1

/-- The example with an empty file `/x y`. -/
def mvTwo : World := exec trV trI 1 ⟨.edit 0x0A 0 0 [47, 120, 32, 121, 0] [] 0, mvFree, trDp, List.replicate 256 7⟩ ⟨trS, 0⟩

theorem mv_two : ∃ T F, InOrder trV trI T F mvTwo ∧ FileAt trV T F mvTwo.st [[120, 46, 99]] (List.replicate 64 49 ++ List.replicate 36 50) ∧ FileAt trV T F mvTwo.st [[120, 32, 121]] [] := by
  obtain ⟨T, F, h1, h2⟩ := C87_step trV trI tr_ready (fun h => absurd rfl h) (by decide) tr_sound 1 (by decide) trT trF ⟨trS, 0⟩ tr_order ⟨.edit 0x0A 0 0 [47, 120, 32, 121, 0] [] 0, mvFree, trDp, List.replicate 256 7⟩
    ⟨List.length_replicate, ⟨_, _, tr_path_xy, by unfold Spec.Clean; decide⟩, by simp⟩
  refine ⟨T, F, h1, (h2 _ _ (by unfold Plain; decide)).1 ?_ tr_file, ?_⟩
  · rintro ⟨abs, l0, d, cs, o, cs', a1, a2, a3⟩
    obtain ⟨rfl, rfl⟩ := path_one a1 tr_path_xy
    obtain ⟨G, -, hun⟩ := C81_place trV trI trT trF trS tr_tree 0 ⟨trRoot, by simp [trT], rfl⟩ true [[120, 32, 121]]
    cases (hun _ a2).trans (hun _ tr_leads_xy).symm
  · have hs : (fOpen trV trI 0 mvFree 1 0 0x0A 0 [47, 120, 32, 121, 0] trS trDp (List.replicate 256 7)).fp.isSome := by decide +kernel
    obtain ⟨fp, hfp⟩ := Option.isSome_iff_exists.mp hs
    obtain ⟨K, A, B, b1, b2, b3, -⟩ := C87_written trV trI tr_ready (fun h => absurd rfl h) tr_sound 1 (by decide) trT trF ⟨trS, 0⟩ tr_order mvFree trDp (List.replicate 256 7) List.length_replicate 0x0A 0 0 [47, 120, 32, 121, 0] [] 0 [[120, 32, 121]] tr_path_xy
      (by unfold Spec.Clean; decide) (by simp) _ rfl fp hfp _ rfl T F h1
    cases b1
    rw [b3 (by decide)] at b2
    exact b2

def mvXY (st : St) : Mv := mvCmd (trEnv 0) mvFree true (fun _ => false) mvInfo [[47, 120, 46, 99]] [47, 120, 32, 121] ⟨st, 0, []⟩

theorem C100_violated : ¬ C100_full := by
  intro hx
  obtain ⟨T, F, h1, h2, h3⟩ := mv_two
  have h0 : mvTwo.cdir = 0 := by decide +kernel
  generalize mvTwo = w at h0 h1 h2 h3
  obtain ⟨s2, c2⟩ := w
  cases h0
  obtain ⟨T1, F1, k1, k2⟩ := hx (trEnv 0) tr_ready (by decide) (by decide) tr_sound (by decide) (fun n => List.length_replicate) T F ⟨s2, 0, []⟩ h1 mvFree (by decide) [47, 120, 46, 99] [47, 120, 32, 121] [[120, 46, 99]] [[120, 32, 121]] tr_path_xx tr_path_xy
    (by unfold Spec.Clean; decide) (by unfold Spec.Clean; decide) (by unfold Plain; decide) (by unfold Plain; decide) (by decide) _ _ h2 h3 true (fun _ => false) mvInfo (mvXY s2) (.inl rfl) rfl
  obtain ⟨d1, c1, o1, m1, a1, a2, -⟩ := id h2
  obtain ⟨d2, c2, o2, m2, b1, b2, b3, b4, b5⟩ := id h3
  have hne : ∀ cs', (.object d1 c1 o1 : Goal) ≠ .object d2 cs' o2 := by
    intro cs' e
    cases e
    have := file_one h1.tree h1.tree h2 ⟨d1, c1, o1, m2, a1, a2, b3, b4, b5⟩
    exact absurd this (by decide)
  obtain ⟨p1, p2, -⟩ := C100_stays_partial (trEnv 0) tr_ready (by decide) (by decide) tr_sound (by decide) (fun n => List.length_replicate) T F ⟨s2, 0, []⟩ h1 mvFree [47, 120, 46, 99] [47, 120, 32, 121] [47, 120, 32, 121] true true true [[120, 46, 99]] [[120, 32, 121]]
    [[120, 32, 121]] tr_path_xx tr_path_xy tr_path_xy (by unfold Spec.Clean; decide) _ _ d2 c2 o2 a1 b1 b1 hne (by decide) (.inr ⟨b2, rfl⟩) true (fun _ => false) mvInfo (mvXY s2) rfl
  exact absurd (file_one k1.tree p1.tree k2 (p2 _ _ h3)) (by decide)

/-- What `mv` says in the example: `mv x.c "/x y"`, the same onto a directory, to itself in capitals, of something that is not there, and onto a file. -/
example : (mvCmd (trEnv 0) mvFree false (fun _ => false) mvInfo [[120, 46, 99]] [47, 120, 32, 121] ⟨trS, 0, []⟩).msgs = [] ∧ (mvCmd (trEnv 0) mvFree false (fun _ => false) mvInfo [[120, 46, 99]] [97] ⟨trS, 0, []⟩).msgs = [] ∧
    (mvCmd (trEnv 0) mvFree true (fun _ => false) mvInfo [[120, 46, 99]] [88, 46, 67] ⟨trS, 0, []⟩).msgs = [] ∧ (mvCmd (trEnv 0) mvFree false (fun _ => false) mvInfo [[121]] [97] ⟨trS, 0, []⟩).msgs = [.failed 4] ∧
    (mvCmd (trEnv 0) mvFree false (fun _ => true) mvInfo [[120, 46, 99]] [120, 32, 121] ⟨mvTwo.st, 0, []⟩).msgs = [.failed 8] ∧ (mvCmd (trEnv 0) mvFree false (fun _ => false) mvInfo [[120, 46, 99]] [120, 32, 121] ⟨mvTwo.st, 0, []⟩).msgs = [.kept] ∧
    (mvCmd (trEnv 0) mvFree false (fun _ => false) mvInfo [[97], [120, 46, 99]] [120, 32, 121] ⟨mvTwo.st, 0, []⟩).msgs = [.notDir] := by decide +kernel

/-- The hypotheses of `C100_moves_partial` and `C101_safe_partial`: `mv /x.c "/x y"` with the example. -/
example : Ready trV trI ∧ 64 ≤ trV.ss ∧ Sound trV ∧ (trEnv 0).fs ≠ 0 ∧ (∀ n, ((trEnv 0).old n).2.length = 256) ∧ InOrder trV trI trT trF ⟨trS, 0⟩ ∧ Within trV trT 0 0 ∧ Spec.Clean [[120, 32, 121]] ∧ PathOf [47, 120, 32, 121, 0] true [[120, 32, 121]] ∧
    Resolves trV trT 0 true [[120, 32, 121]] (.free trRoot [120, 32, 121]) ∧ Aim (.free trRoot [120, 32, 121]) [47, 120, 46, 99] [47, 120, 32, 121] [47, 120, 32, 121] ∧
    ∃ d cs o m, Resolves trV trT 0 true [[120, 46, 99]] (.object d cs o) ∧ ¬ IsDir o ∧ (m = [] ∨ m ∈ trF) ∧ first trV o = m.headD 0 ∧ ¬ InUse mvFree 1 d o ∧ ¬ IntoItself trV trT (.object d cs o) (.free trRoot [120, 32, 121]) := by
  refine ⟨tr_ready, by decide, tr_sound, by decide, fun n => List.length_replicate, tr_order, .self, by unfold Spec.Clean; decide, tr_path_xy, tr_leads_xy, .inr ⟨id, rfl⟩, ?_⟩
  obtain ⟨d, cs, o, m, a1, a2, a3, a4, a5⟩ := tr_file
  refine ⟨d, cs, o, m, a1, a2, a3, a4, ?_, ?_⟩
  · rintro ⟨x, hx, e⟩
    cases List.mem_singleton.mp hx
    cases e
  · rintro ⟨d', cs', o', n, c, e, h, -⟩
    cases e
    exact a2 h

end Fpm.Tree
