import Verif.Tree.UniqueLemmas
import Verif.Tree.RenameProps
import Verif.Mkfs.Props
/-!
# C87: series of calls
-/
namespace Fpm.Tree
open Fpm.Fat Fpm.Fat.Spec Fpm.FatFile Fpm.FatFile.Spec Fpm.FatBytes Fpm.FatBytes.Spec Fpm.Lfn Fpm.Names Fpm.Names.Spec Fpm.TextIo.Spec Fpm.FatDir Fpm.FatDir.Spec Fpm.Mount Fpm.Mount.Spec Fpm.DirDev Fpm.DirDev.Spec Fpm.Tree.Spec Fpm.FatSync

/-- C87: `f_chdir` changes the current directory to the one that the path leads to, and nothing on the volume; the current directory is always one of the volume. -/
theorem C87_chdir (v : Vol) (i : Info) (hr : Ready v i) (hs : Sound v) (T : List Dir) (F : List (List Nat)) (s : St) (h : Tree v i T F s) (cdir : Nat) (hc : ∃ d ∈ T, d.sclust = cdir) (path : List Nat) (abs : Bool) (l : List (List Nat)) (hp : PathOf path abs l)
    (dp : Dp) (buf : List Nat) (hb : buf.length = 256) (G : Goal) (hG : Resolves v T cdir abs l G) (p : St × Nat × Nat) (hu : p = fChdir v i cdir path s dp buf) :
    Tree v i T F p.1 ∧ (∀ n, ¬ Fat2 v n → view p.1 n = view s n) ∧ ChdirTo v cdir p.2.2 p.2.1 G ∧ ∃ d ∈ T, d.sclust = p.2.1 :=
  chdir_at hr hs h hc hp dp hb hG hu

/-- C87: one call.  The volume is in order afterwards; all files are where they were, with the same bytes, but for the one that the call is about; and there are no others, but for the one that the call has made or changed. -/
theorem C87_step (v : Vol) (i : Info) (hr : Ready v i) (hbig : i.fsi ≠ none → 512 ≤ v.ss) (h64 : 64 ≤ v.ss) (hs : Sound v) (fs : Nat) (hfs : fs ≠ 0) (T : List Dir) (F : List (List Nat)) (w : World) (h : InOrder v i T F w) (c : Call) (hc : Valid c) :
    ∃ T' F', InOrder v i T' F' (exec v i fs c w) ∧ ∀ l data, Plain l →
      (¬ Touches v T w.cdir c l → FileAt v T F w.st l data → FileAt v T' F' (exec v i fs c w).st l data) ∧
      (¬ Emerges v T T' w.cdir c l → FileAt v T' F' (exec v i fs c w).st l data → FileAt v T F w.st l data) := by
  have key : Next v i T F w.st (exec v i fs c w) (fun l => ¬ Touches v T w.cdir c l) fun T' l => ¬ Emerges v T T' w.cdir c l := by
    obtain ⟨cmd, files, dp, buf⟩ := c
    obtain ⟨hb, hc⟩ := hc
    cases cmd with
    | mkdir tm path => exact next_mkdir hr hbig h64 hs h hc tm dp hb
    | unlink path => exact next_unlink hr hbig hs h hc _ dp hb
    | rename old new => exact next_rename hr hbig h64 hs h hc.1 hc.2 _ dp hb
    | chdir path => exact next_chdir hr hs h hc dp hb
    | edit mode tm old path ops tm' => exact next_edit hr hbig hs h hc.1 files hfs mode tm old dp hb hc.2 tm'
  obtain ⟨T', F', h1, ⟨bad, h2, h3, h4⟩, ⟨bad', h5, h6, h7⟩⟩ := key
  exact ⟨T', F', h1, fun l data hl => ⟨fun hn hf => file_keeps h1.tree.once h1.tree.root h2 h3 hf fun d0 h0 d cs o ho hz hL => h4 d0 h0 hz l d cs o hl ho hL hn,
    fun hn hf => file_keeps h.tree.once h.tree.root h5 h6 hf fun d0 h0 d cs o ho hz hL => h7 d0 h0 hz l d cs o hl ho hL hn⟩⟩

/-- C87: any series of calls. -/
theorem C87_history (v : Vol) (i : Info) (hr : Ready v i) (hbig : i.fsi ≠ none → 512 ≤ v.ss) (h64 : 64 ≤ v.ss) (hs : Sound v) (fs : Nat) (hfs : fs ≠ 0) : ∀ (cs : List Call) (T : List Dir) (F : List (List Nat)) (w : World), InOrder v i T F w →
    (∀ c ∈ cs, Valid c) → ∃ T' F', InOrder v i T' F' (execs v i fs cs w) ∧ ∀ l data, Plain l →
      (Spared v i fs l cs w → FileAt v T F w.st l data → FileAt v T' F' (execs v i fs cs w).st l data) ∧
      (Unmade v i fs l cs w → FileAt v T' F' (execs v i fs cs w).st l data → FileAt v T F w.st l data)
  | [], T, F, w, h, _ => ⟨T, F, h, fun _ _ _ => ⟨fun _ hf => hf, fun _ hf => hf⟩⟩
  | c :: cs, T, F, w, h, hc => by
    obtain ⟨T1, F1, h1, h2⟩ := C87_step v i hr hbig h64 hs fs hfs T F w h c (hc c List.mem_cons_self)
    obtain ⟨T2, F2, h3, h4⟩ := C87_history v i hr hbig h64 hs fs hfs cs T1 F1 _ h1 fun c hx => hc c (List.mem_cons_of_mem _ hx)
    exact ⟨T2, F2, h3, fun l data hl => ⟨fun hsp hf => (h4 l data hl).1 hsp.2 ((h2 l data hl).1 (hsp.1 T F h) hf), fun hsp hf => (h2 l data hl).2 (hsp.1 T F T1 F1 h h1) ((h4 l data hl).2 hsp.2 hf)⟩⟩

/-- C87: a path can be read in one way only. -/
theorem C87_path (path : List Nat) (abs abs' : Bool) (l l' : List (List Nat)) (h : PathOf path abs l) (h' : PathOf path abs' l') : abs = abs' ∧ l = l' := path_one h h'

/-- C87: all this does not depend on how the volume is described: two descriptions agree where paths lead, and on the bytes of files. -/
theorem C87_one (v : Vol) (i : Info) (T T1 : List Dir) (F F1 : List (List Nat)) (w : World) (h : InOrder v i T F w) (h1 : InOrder v i T1 F1 w) :
    (∀ abs l G, Resolves v T w.cdir abs l G ↔ Resolves v T1 w.cdir abs l G) ∧ (∀ c l, Touches v T w.cdir c l ↔ Touches v T1 w.cdir c l) ∧
    (∀ l data, FileAt v T F w.st l data ↔ FileAt v T1 F1 w.st l data) ∧ ∀ l data data', FileAt v T F w.st l data → FileAt v T1 F1 w.st l data' → data = data' := by
  have mono : ∀ {T T1 : List Dir} {F F1 : List (List Nat)}, InOrder v i T F w → InOrder v i T1 F1 w → ∀ {path : List Nat} {l : List (List Nat)}, Meets v T w.cdir path l → Meets v T1 w.cdir path l := by
    rintro T T1 F F1 h h1 path l ⟨abs, l0, d, cs, o, cs', a1, a2, a3⟩
    exact ⟨abs, l0, d, cs, o, cs', a1, resolves_same h.tree h1.tree h1.here a2, resolves_same h.tree h1.tree h1.tree.root a3⟩
  have touch : ∀ {T T1 : List Dir} {F F1 : List (List Nat)}, InOrder v i T F w → InOrder v i T1 F1 w → ∀ {c : Call} {l : List (List Nat)}, Touches v T w.cdir c l → Touches v T1 w.cdir c l := by
    rintro T T1 F F1 h h1 ⟨cmd, files, dp, buf⟩ l hx
    cases cmd with
    | mkdir tm path => exact hx
    | unlink path => exact mono h h1 hx
    | rename old new =>
      obtain ⟨l1, e, hx⟩ := hx
      exact ⟨l1, e, mono h h1 hx⟩
    | chdir path => exact hx
    | edit mode tm old path ops tm' => exact mono h h1 hx
  refine ⟨fun abs l G => ⟨resolves_same h.tree h1.tree h1.here, resolves_same h1.tree h.tree h.here⟩, fun c l => ⟨touch h h1, touch h1 h⟩, fun l data => ⟨file_same h.tree h1.tree, file_same h1.tree h.tree⟩, ?_⟩
  exact fun l data data' => file_one h.tree h1.tree

/-- C87: what was written is there.  A file that has been opened by a path from the root directory, used, and closed, has the bytes that the operations on an array leave.  The array has at first the bytes of the file, or none if
there was no file or it has been made empty. -/
theorem C87_written (v : Vol) (i : Info) (hr : Ready v i) (hbig : i.fsi ≠ none → 512 ≤ v.ss) (hs : Sound v) (fs : Nat) (hfs : fs ≠ 0) (T : List Dir) (F : List (List Nat)) (w : World) (h : InOrder v i T F w) (files : List FatLock.Sem) (dp : Dp) (buf : List Nat) (hb : buf.length = 256)
    (mode tm old : Nat) (path : List Nat) (ops : List Op) (tm' : Nat) (l : List (List Nat)) (hp : PathOf path true l) (hcl : Spec.Clean l) (ha : ∀ op ∈ ops, Arg op) (p : Opd) (hu : p = fOpen v i w.cdir files fs tm mode old path w.st dp buf) (fp : File) (hfp : p.fp = some fp)
    (w' : World) (hw : w' = exec v i fs ⟨.edit mode tm old path ops tm', files, dp, buf⟩ w) (T' : List Dir) (F' : List (List Nat)) (h' : InOrder v i T' F' w') :
    ∃ K A B, Runs K (mode.testBit 0) (mode.testBit 1) ⟨A, if AtEnd mode then A.length else 0⟩ ops (calls v p.st fp ops).2.2 B ∧ FileAt v T' F' w'.st l B.data ∧
      (Wipes mode → A = []) ∧ (¬ Wipes mode → FileAt v T F w.st l A ∨ A = [] ∧ ∀ data, ¬ FileAt v T F w.st l data) := by
  obtain ⟨G, hG, hun⟩ := C81_place v i T F w.st h.tree w.cdir h.here true l
  obtain ⟨T1, F1, d, R, F2, o, m, x, y, B, m', o', cs, h1, h2, h3, -, h5, -, h7, -, h9, -, h11, -, h13, h14⟩ := C85_cycle v i hr hbig hs T F w.st h.tree w.cdir h.here files fs hfs tm mode old path true l hp hcl dp buf hb G hG p hu fp hfp ops ha tm' _ rfl
  have hst : w'.st = (fSync v p.place tm' (calls v p.st fp ops).1 (calls v p.st fp ops).2.1).st := by
    rw [hw, hu]
    show editEnd v tm' ops _ = _
    rw [← hu]
    unfold editEnd
    rw [hfp]
  rw [← hst] at h7 h11
  have abs0 : ∀ {T : List Dir} {c c' : Nat} {G : Goal}, Resolves v T c true l G → Resolves v T c' true l G := fun hx => hx
  have blank : ∀ {o : Obj}, Blank v tm o → bytesOf v w.st [] o = [] := fun _ => by simp [bytesOf, secs]
  refine ⟨_, _, B, h5, file_same h7 h'.tree ⟨_, cs, o', m', abs0 h13, h14, ?_, h9, h11⟩, fun hx => ?_, fun hx => ?_⟩
  · unfold withRest
    by_cases e : m' = []
    · exact .inl e
    · rw [if_neg e]
      exact .inr (by simp)
  · cases h3 with
    | kept g1 => exact absurd hx g1
    | wiped g1 g2 g3 g4 g5 g6 g7 g8 g9 hbl => exact blank hbl
    | new g1 g2 g3 g4 hbl => exact blank hbl
  · cases h3 with
    | @kept d cs o R F3 m g1 g2 g3 g4 g5 =>
      refine .inl ⟨d, cs, o, m, abs0 hG, g3, ?_, g5, rfl⟩
      by_cases e : m = []
      · exact .inl e
      · refine .inr (h2.mem_iff.mpr ?_)
        unfold withRest
        rw [if_neg e]
        simp
    | wiped g1 => exact absurd g1 hx
    | new g1 g2 g3 g4 hbl =>
      refine .inr ⟨blank hbl, ?_⟩
      rintro data ⟨d2, c2, o2, m2, a1, -⟩
      cases hun _ (abs0 a1)

/-- C87: what was written stays there: a file is written, then there are other calls, none of them about this file; then the file is opened again, and has the bytes. -/
theorem C87_lasting (v : Vol) (i : Info) (hr : Ready v i) (hbig : i.fsi ≠ none → 512 ≤ v.ss) (h64 : 64 ≤ v.ss) (hs : Sound v) (fs : Nat) (hfs : fs ≠ 0) (T : List Dir) (F : List (List Nat)) (w : World) (h : InOrder v i T F w) (l : List (List Nat)) (hpl : Plain l) (data : List Nat)
    (hf : FileAt v T F w.st l data) (cs : List Call) (hc : ∀ c ∈ cs, Valid c) (hsp : Spared v i fs l cs w) (w' : World) (hw : w' = execs v i fs cs w) (files : List FatLock.Sem) (dp : Dp) (buf : List Nat) (hb : buf.length = 256)
    (mode tm old : Nat) (path : List Nat) (hp : PathOf path true l) (hcl : Spec.Clean l) (hm : ¬ Wipes mode) (p : Opd) (hu : p = fOpen v i w'.cdir files fs tm mode old path w'.st dp buf) (fp : File) (hfp : p.fp = some fp) :
    ∃ others m, Handle v mode others m data p.st fp := by
  obtain ⟨T', F', h1, h2⟩ := C87_history v i hr hbig h64 hs fs hfs cs T F w h hc
  rw [← hw] at h1 h2
  obtain ⟨d, c, o, m, a1, a2, a3, a4, a5⟩ := (h2 l data hpl).1 hsp hf
  obtain ⟨-, -, others, k⟩ := C85_reopen v i hr hs T' F' w'.st h1.tree w'.cdir h1.here files fs hfs tm mode old path true l hp hcl dp buf hb d c o a1 m a3 a4 hm p hu fp hfp
  rw [a5] at k
  exact ⟨others, m, k⟩

theorem drop_replicate' {n k j : Nat} (h : 32 * j + 32 ≤ n) : ((List.replicate n k).drop (32 * j)).take 32 = List.replicate 32 k := by
  rw [List.drop_replicate, List.take_replicate, Nat.min_eq_left (by omega)]

/-- C87: a volume that has just been formatted and mounted is in order; so it stays, whatever calls there are. -/
theorem C87_formatted (ss : Nat) (io : Nat → Io) (blk size : Nat) (o : Mkfs.Opt) (len vsn : Nat) (s : St) (hd : Dev ss io s) (hs : ∀ n, io n = .ok) (hz : size < 2 ^ 32) (hb : blk ≤ 16) (h : (Mkfs.mkfs ss io blk size o len vsn s).2 = 0) (fs : Nat) (hfs : fs ≠ 0) (r : Mount.Out) (hm : r = mount ss io (Mkfs.mkfs ss io blk size o len vsn s).1) :
    ∃ v i d, r.vol = some (v, i) ∧ Ready v i ∧ d.os = [] ∧ InOrder v i [d] [] ⟨r.st, 0⟩ ∧ ∀ cs, (∀ c ∈ cs, Valid c) → ∃ T F, InOrder v i T F (execs v i fs cs ⟨r.st, 0⟩) := by
  obtain ⟨v, i, e1, e2, -, hl, he, -, h4, h5, h6, h7⟩ := Mkfs.C79_mounts_partial ss io blk size o len vsn s hd hs hz hb h
  rw [← hm] at h4 h5 h6 h7
  generalize (Mkfs.mkfs ss io blk size o len vsn s).1.disk = dk at *
  have hss : 512 ≤ v.ss ∧ v.ss % 32 = 0 := by
    rw [e1]
    rcases hd.kind with e | e | e | e <;> rw [e] <;> decide
  have hr : Ready v i := ⟨hl, hss.2⟩
  have hin : ∀ loc, (∀ n ∈ dirSecs v i loc, Mkfs.Spec.InRoot v i n) → ∀ e ∈ entries v i (view r.st) loc, e = List.replicate 32 0 := by
    intro loc hloc e hx
    obtain ⟨n, hn, hx⟩ := List.mem_flatMap.mp (List.mem_of_mem_take hx)
    obtain ⟨j, hj, rfl⟩ := List.mem_map.mp hx
    rw [h6, he.root n (hloc n hn)]
    exact drop_replicate' (by have := List.mem_range.mp hj; omega)
  have hdir : ∀ loc, (∀ n ∈ dirSecs v i loc, Mkfs.Spec.InRoot v i n) → Starts v i 0 loc → DirOk v i r.st ⟨0, loc, []⟩ := by
    intro loc hloc hst
    have hz := hin loc hloc
    refine ⟨hst, ⟨fun e hx => ?_, rep_zero fun e hx => ?_, fun x e y h1 _ z hy => ?_⟩, ⟨(fun o ho => by cases ho), .nil⟩, (fun o ho => by cases ho)⟩
    · rw [hz e hx]
      decide
    · rw [hz e hx]
      rfl
    · rw [hz z (by rw [h1]; simp [hy])]
      rfl
  have hroot : ∃ loc, (∀ n ∈ dirSecs v i loc, Mkfs.Spec.InRoot v i n) ∧ Starts v i 0 loc ∧ chainOf loc = Mkfs.Spec.rootChains v i := by
    by_cases h3 : v.fsType = 3
    · refine ⟨.chain [i.dirbase], fun n hn => ?_, ⟨rfl, fun _ => h3⟩, by unfold Mkfs.Spec.rootChains; rw [if_pos h3]; rfl⟩
      unfold Mkfs.Spec.InRoot
      rw [if_pos h3]
      simpa [dirSecs, secs] using hn
    · refine ⟨.root, fun n hn => ?_, ⟨rfl, h3⟩, by unfold Mkfs.Spec.rootChains; rw [if_neg h3]; rfl⟩
      unfold Mkfs.Spec.InRoot
      rw [if_neg h3]
      obtain ⟨j, hj, rfl⟩ := List.mem_map.mp hn
      have hj := List.mem_range.mp hj
      obtain ⟨-, -, k⟩ := hl.root h3
      have k2 : i.nRoot * 32 / v.ss = v.database - i.dirbase := by
        have : i.nRoot * 32 = (v.database - i.dirbase) * v.ss := by
          rw [Nat.sub_mul]
          omega
        rw [this, Nat.mul_div_cancel _ (by omega)]
      omega
  obtain ⟨loc, k1, k2, k3⟩ := hroot
  have hio : InOrder v i [⟨0, loc, []⟩] [] ⟨r.st, 0⟩ := by
    refine ⟨⟨h7.inv, h7.count, ?_, ⟨_, List.mem_singleton.mpr rfl, rfl⟩, by simp, fun d hx => ?_, by simp [claims], ?_, ?_, ?_⟩, ⟨_, List.mem_singleton.mpr rfl, rfl⟩, fun q hq h0 => absurd ?_ h0⟩
    · have := h7.chains
      simpa [dirChains, k3, withRest] using this
    · rw [List.mem_singleton.mp hx]
      exact hdir loc k1 k2
    · intro d hx o ho
      rw [List.mem_singleton.mp hx] at ho
      cases ho
    · intro d hx o ho
      rw [List.mem_singleton.mp hx] at ho
      cases ho
    · intro d hx o ho
      rw [List.mem_singleton.mp hx] at ho
      cases ho
    · rw [List.mem_singleton.mp hq]
  refine ⟨v, i, ⟨0, loc, []⟩, h4, hr, rfl, hio, fun cs hc => ?_⟩
  obtain ⟨T, F, k, -⟩ := C87_history v i hr (fun _ => hss.1) (by omega) (fun n => by rw [e2]; exact hs n) fs hfs cs _ _ _ hio hc
  exact ⟨T, F, k⟩

/-! In the example: directory `a` is renamed `/b`, a directory `/b/c` is made, the current directory is `b` then; `/x.c` is another file. -/

theorem tr_order : InOrder trV trI trT trF ⟨trS, 0⟩ := by
  refine ⟨tr_tree, ⟨trRoot, by simp [trT], rfl⟩, fun q hq h0 => ?_⟩
  simp only [trT, List.mem_cons, List.not_mem_nil, or_false] at hq
  rcases hq with rfl | rfl | rfl
  · exact absurd rfl h0
  · exact ⟨⟨1, none, trDots 0⟩, by decide, rfl, by decide⟩
  · exact ⟨⟨1, none, trDots 2⟩, by decide, rfl, by decide⟩

def trCalls : List Call := [.rename [97, 0] [47, 98, 0], .mkdir 0 [47, 98, 47, 99, 0], .chdir [98, 0]].map fun c => ⟨c, [⟨⟨0, 0, 0⟩, 0⟩], trDp, List.replicate 256 7⟩

theorem tr_file : FileAt trV trT trF trS [[120, 46, 99]] (List.replicate 64 49 ++ List.replicate 36 50) :=
  ⟨trRoot, [120, 46, 99], ⟨1, none, trX⟩, [4, 6], ⟨trRoot, by simp [trT], rfl, .inr (.object (by decide) (by decide) tr_calls_x)⟩, by decide, .inr (by decide), by decide, by decide +kernel⟩

theorem tr_path_xx : PathOf [47, 120, 46, 99, 0] true [[120, 46, 99]] := .segs (z := [47]) (p := [120, 46, 99, 0]) (by decide) (.last (cs := [120, 46, 99]) (t := [0]) (rest := []) (by decide) (by decide) (.fin (by decide)))
theorem tr_path_b : PathOf [47, 98, 0] true [[98]] := .segs (z := [47]) (p := [98, 0]) (by decide) (.last (cs := [98]) (t := [0]) (rest := []) (by decide) (by decide) (.fin (by decide)))
theorem tr_path_b' : PathOf [98, 0] false [[98]] := .segs (z := []) (p := [98, 0]) (by decide) (.last (cs := [98]) (t := [0]) (rest := []) (by decide) (by decide) (.fin (by decide)))
theorem tr_path_bc : PathOf [47, 98, 47, 99, 0] true [[98], [99]] :=
  .segs (z := [47]) (p := [98, 47, 99, 0]) (by decide) (.cons (cs := [98]) (t := [47, 99, 0]) (rest := [99, 0]) (by decide) (by decide) (.sep (s := [47]) (b := 99) (z := [0]) (by decide) (by decide) (by decide) (by decide)) (.last (cs := [99]) (t := [0]) (rest := []) (by decide) (by decide) (.fin (by decide))))

theorem tr_spared : Spared trV trI 9 [[120, 46, 99]] trCalls ⟨trS, 0⟩ := by
  refine ⟨fun T F h => ?_, fun _ _ _ hx => hx, fun _ _ _ hx => hx, trivial⟩
  rw [(C87_one trV trI T trT F trF _ h tr_order).2.1]
  rintro ⟨l1, ⟨t, ht⟩, abs, l0, d, cs, o, cs', h1, h2, h3⟩
  obtain ⟨rfl, rfl⟩ := path_one h1 tr_path_a
  obtain ⟨G, -, hun⟩ := C81_place trV trI trT trF trS tr_tree 0 ⟨trRoot, by simp [trT], rfl⟩ false [[97]]
  cases (hun _ h2).trans (hun _ tr_leads_a).symm
  cases l1 with
  | nil =>
    obtain ⟨d0, h0, hz, ⟨-, h3⟩ | h3⟩ := h3
    · cases h3
    · cases h3
  | cons a l1 =>
    obtain ⟨rfl, hl⟩ := List.cons.inj ht
    obtain ⟨rfl, -⟩ := List.append_eq_nil_iff.mp hl
    obtain ⟨G, -, hun⟩ := C81_place trV trI trT trF trS tr_tree 0 ⟨trRoot, by simp [trT], rfl⟩ true [[120, 46, 99]]
    cases (hun _ h3).trans (hun _ (⟨trRoot, by simp [trT], rfl, .inr (.object (by decide) (by decide) tr_calls_x)⟩ : Resolves trV trT 0 true [[120, 46, 99]] (.object trRoot [120, 46, 99] ⟨1, none, trX⟩))).symm

example : InOrder trV trI trT trF ⟨trS, 0⟩ ∧ Plain [[120, 46, 99]] ∧ Spec.Clean [[120, 46, 99]] ∧ FileAt trV trT trF trS [[120, 46, 99]] (List.replicate 64 49 ++ List.replicate 36 50) ∧ Spared trV trI 9 [[120, 46, 99]] trCalls ⟨trS, 0⟩ ∧
    (∀ c ∈ trCalls, Valid c) ∧ PathOf [47, 120, 46, 99, 0] true [[120, 46, 99]] ∧ ¬ Wipes 1 ∧ (execs trV trI 9 trCalls ⟨trS, 0⟩).cdir = 2 ∧
    (fOpen trV trI 2 [⟨⟨0, 0, 0⟩, 0⟩] 9 0 1 5 [47, 120, 46, 99, 0] (execs trV trI 9 trCalls ⟨trS, 0⟩).st trDp (List.replicate 256 7)).fp.isSome := by
  refine ⟨tr_order, by unfold Plain; decide, by unfold Spec.Clean; decide, tr_file, tr_spared, fun c hc => ?_, tr_path_xx, by decide, by decide +kernel, by decide +kernel⟩
  simp only [trCalls, List.map_cons, List.map_nil, List.mem_cons, List.not_mem_nil, or_false] at hc
  rcases hc with rfl | rfl | rfl
  · exact ⟨List.length_replicate, ⟨_, _, tr_path_a, by unfold Spec.Clean; decide⟩, ⟨_, _, tr_path_b, by unfold Spec.Clean; decide⟩⟩
  · exact ⟨List.length_replicate, ⟨_, _, tr_path_bc, by unfold Spec.Clean; decide⟩⟩
  · exact ⟨List.length_replicate, ⟨_, _, tr_path_b', by unfold Spec.Clean; decide⟩⟩

/-- The hypotheses of `C87_formatted`: a card of 40 megabytes. -/
example : Dev 512 (fun _ => .ok) Mkfs.exSt ∧ 81920 < 2 ^ 32 ∧ (Mkfs.mkfs 512 (fun _ => .ok) 1 81920 Mkfs.Spec.sd 4096 7 Mkfs.exSt).2 = 0 := by
  refine ⟨Mkfs.exDev, by decide, ?_⟩
  have := Mkfs.C79_sd 81920 4096 7 (fun _ => .ok) Mkfs.exSt (fun _ => rfl) (by decide) (by decide)
  rwa [if_pos (by decide)] at this

end Fpm.Tree
