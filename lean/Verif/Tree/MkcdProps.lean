import Verif.Tree.MkcdSpec
import Verif.Tree.MvLemmas
import Verif.Tree.RmdirProps
import Verif.Tree.MkdirProps
import Verif.Tree.CwdProps
/-!
# C130: the command mkdir; C131: the command cd
-/
namespace Fpm.Tree
open Fpm.Fat Fpm.Fat.Spec Fpm.FatFile.Spec Fpm.Lfn Fpm.Names Fpm.Names.Spec Fpm.TextIo.Spec Fpm.FatDir Fpm.FatDir.Spec Fpm.Mount Fpm.Mount.Spec Fpm.DirDev Fpm.DirDev.Spec Fpm.Tree.Spec Fpm.FatSync

theorem made_keeps {v : Vol} {tm : Nat} {cs : List Nat} {d : Dir} {T T' : List Dir} (h : Made v tm cs d T T') {e : Dir} (he : e ∈ T) : ∃ e' ∈ T', e'.sclust = e.sclust ∧ ∀ o ∈ e.os, o ∈ e'.os := by
  cases h with
  | mk hos =>
    rcases List.mem_cons.mp he with rfl | he
    · refine ⟨_, List.mem_cons_self, rfl, fun o ho => ?_⟩
      rw [hos] at ho
      show o ∈ _ ++ _ :: _
      rcases List.mem_append.mp ho with h | h <;> simp [h]
    · exact ⟨e, by simp [he], rfl, fun _ h => h⟩

theorem mkend_keeps {v : Vol} {i : Info} {F : List (List Nat)} {s : St} {tm : Nat} {T T' : List Dir} {G : Goal} {ms : List MkMsg} (h : MkEnd v i F s tm T G ms T') {e : Dir} (he : e ∈ T) : ∃ e' ∈ T', e'.sclust = e.sclust ∧ ∀ o ∈ e.os, o ∈ e'.os := by
  cases h with
  | refused => exact ⟨e, he, rfl, fun _ h => h⟩
  | full hT =>
    rcases List.mem_cons.mp (hT.mem_iff.mp he) with rfl | he
    · exact ⟨_, List.mem_cons_self, rfl, fun _ h => h⟩
    · exact ⟨e, by simp [he], rfl, fun _ h => h⟩
  | made hT hm => exact made_keeps hm (hT.mem_iff.mp he)

/-- C130, for one path: the volume stays in order, the data of all files stay, and the end is one that `mkdir` should have. -/
theorem C130_one (g : Env) (hr : Ready g.v g.i) (hbig : g.i.fsi ≠ none → 512 ≤ g.v.ss) (h64 : 64 ≤ g.v.ss) (hs : Sound g.v) (hold : ∀ n, (g.old n).2.length = 256) (T : List Dir) (F : List (List Nat)) (r : Mk) (h : Tree g.v g.i T F r.st)
    (hc : ∃ d ∈ T, d.sclust = g.cdir) (tm : Nat → Nat) (path : List Nat) (abs : Bool) (l : List (List Nat)) (hp : PathOf (path ++ [0]) abs l) (hcl : Spec.Clean l) (G : Goal) (hG : Resolves g.v T g.cdir abs l G) (x : Mk) (hx : x = mkOne g tm path r) :
    ∃ T' ms, x.n = r.n + 1 ∧ x.msgs = r.msgs ++ ms ∧ MkEnd g.v g.i F x.st (tm r.n) T G ms T' ∧ Tree g.v g.i T' F x.st ∧ (∃ d ∈ T', d.sclust = g.cdir) ∧ SameData g.v F r.st x.st := by
  obtain ⟨hd, key⟩ := C83_mkdir g.v g.i hr hbig h64 hs T F r.st h g.cdir hc (tm r.n) (path ++ [0]) abs l hp hcl (g.old r.n).1 (g.old r.n).2 (hold r.n) G hG _ rfl
  unfold mkOne at hx
  generalize fMkdir g.v g.i g.cdir (tm r.n) (path ++ [0]) r.st (g.old r.n).1 (g.old r.n).2 = q at hd key hx
  unfold mkSaid at hx
  have fin : ∀ T' ms, x.st = q.1 → x.n = r.n + 1 → x.msgs = r.msgs ++ ms → MkEnd g.v g.i F x.st (tm r.n) T G ms T' → Tree g.v g.i T' F q.1 →
      ∃ T' ms, x.n = r.n + 1 ∧ x.msgs = r.msgs ++ ms ∧ MkEnd g.v g.i F x.st (tm r.n) T G ms T' ∧ Tree g.v g.i T' F x.st ∧ (∃ d ∈ T', d.sclust = g.cdir) ∧ SameData g.v F r.st x.st := by
    intro T' ms e1 e2 e3 e4 e5
    obtain ⟨d, hd1, hd2⟩ := hc
    obtain ⟨d', a1, a2, -⟩ := mkend_keeps e4 hd1
    exact ⟨T', ms, e2, e3, e4, by rw [e1]; exact e5, ⟨d', a1, a2.trans hd2⟩, by rw [e1]; exact hd⟩
  rcases key with ⟨k1, k2, -⟩ | ⟨d, cs, R, rfl, hT, ⟨k1, loc, k2, k3, k4⟩ | ⟨k1, k2, T2, k3, k4⟩⟩
  · rw [if_pos (by rintro e; rw [e] at k1; cases G <;> cases k1)] at hx
    subst hx
    exact fin T _ rfl rfl rfl (.refused k1) k2
  · rw [if_pos (by rw [k1]; decide)] at hx
    subst hx
    exact fin _ [.failed DirDev.FR_DENIED] rfl rfl (by simp [k1]) (.full hT k2 k4) k3
  · rw [if_neg (fun hn => hn k1)] at hx
    subst hx
    exact fin T2 [] rfl rfl (by simp) (.made hT k3 k2) k4

/-- The paths with the times of their calls. -/
def timed (tm : Nat → Nat) : Nat → List (List Nat) → List (List Nat × Nat)
  | _, [] => []
  | n, p :: ps => (p, tm n) :: timed tm (n + 1) ps

theorem mk_all {g : Env} (hr : Ready g.v g.i) (hbig : g.i.fsi ≠ none → 512 ≤ g.v.ss) (h64 : 64 ≤ g.v.ss) (hs : Sound g.v) (hold : ∀ n, (g.old n).2.length = 256) {F : List (List Nat)} (tm : Nat → Nat) (rest : List RdArg) :
    ∀ (ps : List (List Nat)) (k : Nat) (T : List Dir) (r : Mk), Tree g.v g.i T F r.st → (∃ d ∈ T, d.sclust = g.cdir) → (∀ p ∈ ps, IsPath (p ++ [0])) →
    ∃ T' ms y, mkLoop g tm (ps.map .path ++ rest) k r = mkLoop g tm rest (k + ps.length) y ∧ y.msgs = r.msgs ++ ms ∧ MkRun g.v g.i F g.cdir (timed tm r.n ps) T ms T' ∧ Tree g.v g.i T' F y.st ∧
      (∃ d ∈ T', d.sclust = g.cdir) ∧ SameData g.v F r.st y.st
  | [], k, T, r, h, hc, _ => ⟨T, [], r, rfl, by simp, .nil, h, hc, fun _ _ _ _ => rfl⟩
  | p :: ps, k, T, r, h, hc, hps => by
    obtain ⟨abs, l, hp, hcl⟩ := hps p (by simp)
    obtain ⟨G, hG, -⟩ := C81_place g.v g.i T F r.st h g.cdir hc abs l
    obtain ⟨T1, ms, a0, a1, a2, a3, a4, a5⟩ := C130_one g hr hbig h64 hs hold T F r h hc tm p abs l hp hcl G hG _ rfl
    obtain ⟨T2, ms', y, b1, b2, b3, b4, b5, b6⟩ := mk_all hr hbig h64 hs hold tm rest ps (k + 1) T1 _ a3 a4 fun p hp => hps p (by simp [hp])
    rw [a0] at b3
    refine ⟨T2, ms ++ ms', y, ?_, by rw [b2, a1, List.append_assoc], .cons hp hG a3 a2 b3, b4, b5, same_trans' a5 b6⟩
    rw [List.map_cons, List.cons_append, mkLoop, b1, List.length_cons]
    congr 1
    omega

/-- C130, the command: it handles the paths up to the first option one after the other, and each comes to an end that it should have; then it says what it should. -/
theorem C130_command (g : Env) (hr : Ready g.v g.i) (hbig : g.i.fsi ≠ none → 512 ≤ g.v.ss) (h64 : 64 ≤ g.v.ss) (hs : Sound g.v) (hold : ∀ n, (g.old n).2.length = 256) (T : List Dir) (F : List (List Nat)) (r : Mk) (h : Tree g.v g.i T F r.st)
    (hc : ∃ d ∈ T, d.sclust = g.cdir) (tm : Nat → Nat) (as : List RdArg) (ps : List (List Nat)) (last : List MkMsg) (hl : MkLine as ps last) (hps : ∀ p ∈ ps, IsPath (p ++ [0])) (x : Mk) (hx : x = mkCmd g tm as r) :
    ∃ T' ms tms, x.msgs = r.msgs ++ ms ++ last ∧ tms.map Prod.fst = ps ∧ (∀ j, (tms[j]?).map Prod.snd = (ps[j]?).map fun _ => tm (r.n + j)) ∧ MkRun g.v g.i F g.cdir tms T ms T' ∧ Tree g.v g.i T' F x.st ∧
      (∃ d ∈ T', d.sclust = g.cdir) ∧ SameData g.v F r.st x.st := by
  subst hx
  unfold mkCmd
  have ht : ∀ (ps : List (List Nat)) (n : Nat), (timed tm n ps).map Prod.fst = ps ∧ ∀ j : Nat, ((timed tm n ps)[j]?).map Prod.snd = (ps[j]?).map fun _ => tm (n + j) := by
    intro ps
    induction ps with
    | nil => intro n; simp [timed]
    | cons p ps ih =>
      intro n
      obtain ⟨i1, i2⟩ := ih (n + 1)
      refine ⟨by simp [timed, i1], fun j => ?_⟩
      cases j with
      | zero => simp [timed]
      | succ j => simp only [timed, List.getElem?_cons_succ]; rw [i2 j]; congr 1; funext _; congr 1; omega
  obtain ⟨t1, t2⟩ := ht ps r.n
  cases hl with
  | bare => exact ⟨T, [], [], by simp [mkLoop], rfl, by simp, .nil, h, hc, fun _ _ _ _ => rfl⟩
  | paths hne =>
    obtain ⟨T', ms, y, b1, b2, b3, b4, b5, b6⟩ := mk_all hr hbig h64 hs hold tm [] ps 0 T r h hc hps
    rw [List.append_nil] at b1
    rw [b1, mkLoop, if_neg (by have := List.length_pos_iff.mpr hne; omega)]
    exact ⟨T', ms, _, by rw [b2, List.append_nil], t1, t2, b3, b4, b5, b6⟩
  | @unknown _ rest =>
    obtain ⟨T', ms, y, b1, b2, b3, b4, b5, b6⟩ := mk_all hr hbig h64 hs hold tm (.unknown :: rest) ps 0 T r h hc hps
    rw [b1, mkLoop]
    exact ⟨T', ms, _, by rw [b2, List.append_nil], t1, t2, b3, b4, b5, b6⟩
  | @help _ rest =>
    obtain ⟨T', ms, y, b1, b2, b3, b4, b5, b6⟩ := mk_all hr hbig h64 hs hold tm (.help :: rest) ps 0 T r h hc hps
    rw [b1, mkLoop]
    exact ⟨T', ms, _, by simp [b2], t1, t2, b3, b4, b5, b6⟩

/-- C130: all objects stay in their directories, whatever the paths are. -/
theorem C130_keeps (v : Vol) (i : Info) (F : List (List Nat)) (cdir : Nat) (ps : List (List Nat × Nat)) (T T' : List Dir) (ms : List MkMsg) (h : MkRun v i F cdir ps T ms T') (d : Dir) (hd : d ∈ T) : ∃ d' ∈ T', d'.sclust = d.sclust ∧ ∀ o ∈ d.os, o ∈ d'.os := by
  induction h generalizing d with
  | nil => exact ⟨d, hd, rfl, fun _ h => h⟩
  | cons _ _ _ he _ ih =>
    obtain ⟨d1, h1, h2, h3⟩ := mkend_keeps he hd
    obtain ⟨d2, k1, k2, k3⟩ := ih d1 h1
    exact ⟨d2, k1, k2.trans h2, fun o ho => k3 o (h3 o ho)⟩

/-- C131: `cd path` goes to the directory where the path leads, and says so if there is none; nothing on the volume changes. -/
theorem C131_goes (v : Vol) (i : Info) (hr : Ready v i) (hs : Sound v) (T : List Dir) (F : List (List Nat)) (w : World) (h : InOrder v i T F w) (vp : List Nat) (dp : Dp) (buf out : List Nat) (hb : buf.length = 256) (p : List Nat) (abs : Bool) (l : List (List Nat))
    (hp : PathOf (p ++ [0]) abs l) (G : Goal) (hG : Resolves v T w.cdir abs l G) (as : List RdArg) (x : World × CdOut) (hx : x = cdCmd v i vp dp buf out (.path p :: as) w) :
    InOrder v i T F x.1 ∧ (∀ n, ¬ Fat2 v n → view x.1.st n = view w.st n) ∧ CdEnd v w.cdir G x.1.cdir x.2 := by
  obtain ⟨h1, h2, h3, h4⟩ := C87_chdir v i hr hs T F w.st h.tree w.cdir h.here (p ++ [0]) abs l hp dp buf hb G hG _ rfl
  unfold cdCmd cdTo at hx
  simp only at hx
  generalize fChdir v i w.cdir (p ++ [0]) w.st dp buf = q at h1 h2 h3 h4 hx
  obtain ⟨s', c, r⟩ := q
  subst hx
  refine ⟨⟨h1, h4, h.dots⟩, h2, ?_⟩
  cases G with
  | badName => obtain ⟨rfl, rfl⟩ := h3; exact .badName
  | noPath => obtain ⟨rfl, rfl⟩ := h3; exact .noPath
  | free d cs => obtain ⟨rfl, rfl⟩ := h3; exact .free
  | self d => obtain ⟨rfl, rfl⟩ := h3; exact .self
  | object d cs o =>
    rcases h3 with ⟨h5, rfl, rfl⟩ | ⟨h5, rfl, rfl⟩
    · exact .dir h5
    · exact .file h5

theorem shown_nozero {v : Vol} {T : List Dir} {n : Nat} {l : List (List Nat)} (hl : PathTo v T n l) : ∀ b ∈ slashed (l.map text), b ≠ 0 := by
  have key : ∀ m ∈ l.map text, ∀ b ∈ m, b ≠ 0 := by
    induction hl with
    | root => simp
    | sub _ _ _ _ _ hk ih =>
      intro m hm b hb
      rw [List.map_append, List.mem_append] at hm
      rcases hm with hm | hm
      · exact ih m hm b hb
      · rw [List.map_singleton, List.mem_singleton] at hm
        subst hm
        rintro rfl
        exact TextIo.text_no_zero _ (fun c hc e => by have := (hk.1 c hc).2.1; omega) hb
  intro b hb
  unfold slashed at hb
  split at hb
  · simp at hb; omega
  · obtain ⟨m, hm, hb⟩ := List.mem_flatMap.mp hb
    rcases List.mem_cons.mp hb with rfl | hb
    · decide
    · exact key m hm b hb

/-- C131: `cd` without a path changes nothing, and shows the name of the disk and the path from the root directory to the current one, if there is room for it in the array of 4096 bytes; else it says that there is not. -/
theorem C131_shows (v : Vol) (i : Info) (hr : Ready v i) (hs : Sound v) (T : List Dir) (F : List (List Nat)) (w : World) (h : InOrder v i T F w) (l : List (List Nat)) (hl : PathTo v T w.cdir l) (vp : List Nat) (hvp : 0 ∉ vp) (dp : Dp) (buf out : List Nat)
    (hb : buf.length = 256) (ho : out.length = 4096) (x : World × CdOut) (hx : x = cdCmd v i vp dp buf out [] w) :
    InOrder v i T F x.1 ∧ x.1.cdir = w.cdir ∧ (∀ n, ¬ Fat2 v n → view x.1.st n = view w.st n) ∧
      (vp.length + (slashed (l.map text)).length + 2 ≤ 4096 → x.2 = .text (vp ++ 58 :: slashed (l.map text))) ∧ (¬ vp.length + (slashed (l.map text)).length + 2 ≤ 4096 → x.2 = .failed FR_NOT_ENOUGH_CORE) := by
  obtain ⟨st, cdir⟩ := w
  obtain ⟨h1, h2, -⟩ := C91_getcwd v i hr T F st cdir h vp dp buf out hb (by omega) _ rfl
  obtain ⟨out', e, h3, h4⟩ := C91_path v i hr hs T F st cdir h l hl vp dp buf out hb (by omega)
  unfold cdCmd cdShow at hx
  simp only at hx
  generalize fGetcwd v i cdir vp st dp buf out = q at h1 h2 e h3 h4 hx
  rw [e] at hx
  simp only at hx
  subst hx
  refine ⟨h1, rfl, h2, fun hf => ?_, fun hf => ?_⟩
  · obtain ⟨h5, -, z, rfl⟩ := h3 (by unfold Fits; omega)
    have hno : ∀ b ∈ vp ++ 58 :: slashed (l.map text), b ≠ 0 := by
      intro b hb'
      rcases List.mem_append.mp hb' with hb' | hb'
      · rintro rfl; exact hvp hb'
      · rcases List.mem_cons.mp hb' with rfl | hb'
        · decide
        · exact shown_nozero hl b hb'
    simp only
    rw [if_pos h5, if_pos (by simp)]
    congr 1
    rw [show vp ++ 58 :: (slashed (l.map text) ++ 0 :: z) = (vp ++ 58 :: slashed (l.map text)) ++ 0 :: z by simp]
    rw [List.takeWhile_append_of_pos (by simpa using hno)]
    simp
  · obtain ⟨h5, -⟩ := h4 (by unfold Fits; omega)
    simp only
    rw [if_neg (by rw [h5]; decide), h5]

/-- C131: whatever the device does and whatever the names are, no memory outside of the array is used. -/
theorem C131_safe (v : Vol) (i : Info) (hr : Ready v i) (T : List Dir) (F : List (List Nat)) (w : World) (h : InOrder v i T F w) (vp : List Nat) (dp : Dp) (buf out : List Nat) (hb : buf.length = 256) (ho : out.length = 4096) (as : List RdArg) :
    (cdCmd v i vp dp buf out as w).2 ≠ .overrun := by
  obtain ⟨st, cdir⟩ := w
  unfold cdCmd
  split
  · unfold cdTo
    simp only
    split <;> simp
  · simp
  · simp
  · obtain ⟨-, -, out', e, h2⟩ := C91_getcwd v i hr T F st cdir h vp dp buf out hb (by omega) _ rfl
    unfold cdShow
    simp only
    generalize fGetcwd v i cdir vp st dp buf out = q at e h2
    rw [e]
    simp only
    rcases h2 with ⟨h2, -⟩ | ⟨h2, names, -, -, -, z, rfl⟩ | ⟨h2, -⟩
    · rw [if_neg (by rw [h2]; decide)]
      simp
    · rw [if_pos h2, if_pos (by simp)]
      simp
    · rw [if_neg (by rw [h2]; decide)]
      simp

/-- C131: with the path that `cd` shows (behind the name of the disk), `cd` comes back to the same directory from any other. -/
theorem C131_back (v : Vol) (i : Info) (hr : Ready v i) (hs : Sound v) (T : List Dir) (F : List (List Nat)) (w w' : World) (h : InOrder v i T F w) (h' : InOrder v i T F w') (l : List (List Nat)) (hl : PathTo v T w.cdir l) (vp : List Nat) (dp : Dp) (buf out : List Nat)
    (hvp : 0 ∉ vp) (hb : buf.length = 256) (ho : out.length = 4096) (t : List Nat) (ht : (cdCmd v i vp dp buf out [] w).2 = .text (vp ++ 58 :: t)) : (cdCmd v i vp dp buf out [.path t] w').1.cdir = w.cdir ∧ (cdCmd v i vp dp buf out [.path t] w').2 = .silent := by
  obtain ⟨-, -, -, h1, h2⟩ := C131_shows v i hr hs T F w h l hl vp hvp dp buf out hb ho _ rfl
  have hlen : vp.length + (slashed (l.map text)).length + 2 ≤ 4096 := by
    by_cases hx : vp.length + (slashed (l.map text)).length + 2 ≤ 4096
    · exact hx
    · rw [h2 hx] at ht
      cases ht
  rw [h1 hlen] at ht
  have e : slashed (l.map text) = t := by simpa using ht
  subst e
  have key := C91_back v i hr hs T F w'.st h'.tree w.cdir l hl w'.cdir h'.here [] dp buf hb
  unfold cdCmd cdTo
  simp only
  rw [key]
  exact ⟨rfl, if_neg fun hx => hx rfl⟩

/-! ## Example -/

/-- `mkdir /A/c x.c /A/c c/a` in the example: the first is made, the second is a file, then the first exists, and there is no directory `c`; `mkdir -h a`, and `mkdir`. -/
example : (mkCmd (trEnv 0) (fun n => n) [.path [47, 65, 47, 99], .path [120, 46, 99], .path [47, 65, 47, 99], .path [99, 47, 97]] ⟨trS, 0, []⟩).msgs = [.failed FR_EXIST, .failed FR_EXIST, .failed FR_NO_PATH] ∧
    (mkCmd (trEnv 0) (fun n => n) [.help, .path [121]] ⟨trS, 0, []⟩).msgs = [.usage] ∧ (mkCmd (trEnv 0) (fun n => n) [] ⟨trS, 0, []⟩).msgs = [.usage] := by decide +kernel

/-- Hypotheses of `C130_command` hold for it. -/
example : Ready trV trI ∧ 64 ≤ trV.ss ∧ Sound trV ∧ Tree trV trI trT trF trS ∧ IsPath ([47, 65, 47, 99] ++ [0]) ∧ MkLine [.path [47, 65, 47, 99], .help] [[47, 65, 47, 99]] [.usage] :=
  ⟨tr_ready, by decide, tr_sound, tr_tree, ⟨_, _, tr_path_c, by unfold Spec.Clean; decide⟩, .help (ps := [[47, 65, 47, 99]])⟩

/-- `cd` on disk `sd` in the example: in `/A/B`; `cd a`, `cd x.c`, `cd -h`. -/
example : (cdCmd trV trI [115, 100] trDp (List.replicate 256 7) (List.replicate 40 9) [] ⟨trS, 5⟩).2 = .text [115, 100, 58, 47, 65, 47, 66] ∧ (cdCmd trV trI [115, 100] trDp (List.replicate 256 7) (List.replicate 40 9) [.path [97]] ⟨trS, 0⟩).1.cdir = 2 ∧
    (cdCmd trV trI [115, 100] trDp (List.replicate 256 7) (List.replicate 40 9) [.path [120, 46, 99]] ⟨trS, 0⟩).2 = .failed FR_NO_PATH ∧ (cdCmd trV trI [115, 100] trDp (List.replicate 256 7) (List.replicate 40 9) [.help] ⟨trS, 0⟩).2 = .usage := by decide +kernel

/-- Hypotheses of `C131_shows` and `C131_back` hold for it. -/
example : Ready trV trI ∧ Sound trV ∧ InOrder trV trI trT trF ⟨trS, 5⟩ ∧ InOrder trV trI trT trF ⟨trS, 0⟩ ∧ PathTo trV trT 5 [[65], [66]] ∧ [115, 100].length + (slashed ([[65], [66]].map text)).length + 2 ≤ 4096 ∧
    (cdCmd trV trI [115, 100] trDp (List.replicate 256 7) (List.replicate 4096 9) [] ⟨trS, 5⟩).2 = .text ([115, 100] ++ 58 :: slashed ([[65], [66]].map text)) :=
  ⟨tr_ready, tr_sound, tr_in_b, tr_order, tr_path_to, by decide,
   (C131_shows trV trI tr_ready tr_sound trT trF ⟨trS, 5⟩ tr_in_b _ tr_path_to [115, 100] (by decide) trDp (List.replicate 256 7) (List.replicate 4096 9) List.length_replicate List.length_replicate _ rfl).2.2.2.1 (by decide)⟩

end Fpm.Tree
