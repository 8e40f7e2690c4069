import Verif.Tree.CpCloseLemmas
import Verif.Tree.StatProps
/-!
# Copying a file: what is left
-/
namespace Fpm.Tree
open Fpm.Fat Fpm.Fat.Spec Fpm.FatFile Fpm.FatFile.Spec Fpm.FatSync Fpm.DirDev Fpm.Tree.Spec Fpm.Mount Fpm.Mount.Spec Fpm.FatDir Fpm.FatDir.Spec Fpm.DirDev.Spec Fpm.Names.Spec Fpm.TextIo.Spec
open Fpm.FatLock (Sem Key decShare decCtr)

/-- The source has been opened. -/
structure SrcOpen (g : Env) (T : List Dir) (F : List (List Nat)) (s : St) (files : List Sem) (G : Goal) (d : Dir) (o : Obj) (m : List Nat) (p : Opd) (fp : File) : Prop where
  tree : Tree g.v g.i T F p.st
  dmem : d ∈ T
  omem : o ∈ d.os
  src : Source g.v g.fs F files G d o m p.files
  taken : Taken files ⟨g.fs, d.sclust, 32 * o.pos⟩ 0 p.files p.lock
  ok : FatFile.Spec.FileOk g.v p.st ⟨m, fp, ⟨bytesOf g.v s m o, 0⟩⟩
  rd : fp.canRead = true
  clean : fp.dirty = false
  fresh : fp.modified = false
  win : ∀ n, p.st.winsect = some n → ∀ l ∈ F, n ∉ secs g.v l
  same : SameData g.v F s p.st

theorem mode_from (res : Nat) : openMode (fromMode &&& 0x3F) res &&& 0x20 = 0 := by
  unfold openMode
  split <;> first | decide | (split <;> decide)

theorem mode_to (res : Nat) : openMode (toMode &&& 0x3F) res &&& 0x20 = 0 := by
  unfold openMode
  split <;> first | decide | (split <;> decide)

theorem refused_res {files : List Sem} {fs mode r : Nat} {G : Goal} (h : OpenRefused files fs mode r G) : r ≠ FR_OK := by
  cases G with
  | badName => rw [show r = _ from h]; decide
  | noPath => rw [show r = _ from h]; decide
  | free d cs =>
    rcases h with ⟨-, h⟩ | ⟨-, -, h⟩ <;> rw [h] <;> decide
  | self d => rw [show r = _ from h]; decide
  | object d cs o =>
    rcases h with ⟨h1, h⟩ | ⟨-, ⟨-, -, h⟩ | ⟨-, -, -, -, h⟩ | ⟨-, -, h⟩ | ⟨-, -, -, -, h⟩⟩
    · rw [h]; exact h1
    all_goals rw [h]; decide

theorem src_open {g : Env} (hr : Ready g.v g.i) (hs : Sound g.v) {T : List Dir} {F : List (List Nat)} {s : St} (h : Tree g.v g.i T F s) (hc : ∃ d ∈ T, d.sclust = g.cdir) {files : List Sem} (hfs : g.fs ≠ 0) {tm old : Nat} {path : List Nat} {abs : Bool}
    {l : List (List Nat)} (hp : PathOf path abs l) (hff : ∀ cs ∈ l, 0xFFFF ∉ cs) {dp : Dp} {buf : List Nat} (hb : buf.length = 256) {G : Goal} (hG : Resolves g.v T g.cdir abs l G) {p : Opd}
    (hu : p = Tree.fOpen g.v g.i g.cdir files g.fs tm fromMode old path s dp buf) :
    p.res ≠ FR_OK ∧ p.files = files ∧ OpenRefused files g.fs fromMode p.res G ∧ Tree g.v g.i T F p.st ∧ SameData g.v F s p.st ∨ p.res = FR_OK ∧ ∃ d o m fp, p.fp = some fp ∧ SrcOpen g T F s files G d o m p fp := by
  have hcr : ¬ Creates fromMode := by decide
  have hw := fun fp => open_window (fp := fp) mode_from hu
  rcases C84_open g.v g.i hr hs T F s h g.cdir hc files g.fs hfs tm fromMode old path abs l hp hff dp buf hb G hG p hu with ⟨e1, e2, e3, e4, e5⟩ | ⟨_, _, _, _, _, _, hx, -⟩ | ⟨T1, F1, d, R, F2, o, m, h1, h2, h3, h4, h5, h6, h7⟩
  · refine .inl ⟨?_, e2, e3, e4, fun l hl n hn => e5 n (chain_secs hr (h.chains.chain l (by simp [hl])) hn).2.1⟩
    exact refused_res e3
  · exact absurd hx hcr
  · rcases h7 with ⟨-, -, -, hx, -⟩ | ⟨h7, h8, fp, h9, h10, h11⟩
    · obtain ⟨_, _, rfl⟩ := hx
      cases h3 with
      | new hx => exact absurd hx hcr
    obtain ⟨w1, w2⟩ := hw fp h9
    refine .inr ⟨h7, d, o, m, fp, h9, ?_⟩
    have hfree : ¬ ∃ d cs, G = .free d cs := by
      rintro ⟨_, _, rfl⟩
      cases h3 with
      | new hx => exact absurd hx hcr
    have hmod : fp.modified = false := by
      refine Bool.eq_false_iff.mpr fun e => ?_
      rcases h11.mp e with hx | hx
      · exact absurd hx (by decide)
      · exact hfree hx
    cases h3 with
    | wiped hx => exact absurd hx (by decide)
    | new hx => exact absurd hx hcr
    | @kept d cs o R F2 m g1 g2 g3 g4 g5 =>
      have hT : Tree g.v g.i T F p.st := tree_perm h1.symm h2.symm h4
      have hd : d ∈ T := h1.mem_iff.mpr (by simp)
      have ho : o ∈ d.os := by
        obtain ⟨d0, hd0, -, hl⟩ := hG
        rcases hl with ⟨-, hl⟩ | hl
        · cases hl
        · exact (leads_obj hl rfl hd0).2
      have hm : m = [] ∨ m ∈ F := by
        by_cases e : m = []
        · exact .inl e
        · exact .inr (h2.mem_iff.mpr (by rw [rest_nil, if_neg e]; simp))
      have hsame : SameData g.v F s p.st := fun l hl => h6 l (h2.mem_iff.mp hl)
      have hR := h10.repr
      rw [if_neg (by decide)] at hR
      refine ⟨hT, hd, ho, ⟨⟨cs, rfl⟩, g3, hm, g5, ⟨_, h8⟩⟩, h8, fresh_ok hr hR (hm.imp id fun hm => hT.chains.chain m (by simp [hm])) w1 h10.clean, h10.read, h10.clean, hmod, fun n hn l hl => ?_, hsame⟩
      have := w2 n hn
      subst this
      exact win_apart hr hT hd (List.mem_of_getElem? h5.sect) hl

/-- Closing a file that has not been changed. -/
theorem close_fresh {v : Vol} {tm : Nat} {p : Opd} {fp : File} (h : fp.modified = false) (s : St) (files : List Sem) : fClose v tm p fp s files = (s, (decShare files p.lock).1) := by
  have e : fSync v p.place tm s fp = done s fp := by
    unfold fSync
    rw [if_neg (by rw [h]; decide)]
  unfold fClose
  rw [e]
  rfl

theorem taken_fs {files f' : List Sem} {k : Key} {acc j : Nat} (hc : Counted files) (hk : k.fs ≠ 0) (h : Taken files k acc f' j) : SameLocks files (decShare f' j).1 :=
  dec_taken h hk (fun x hx e => hc x hx (by rw [e]; exact hk)) (locks_refl _)

/-- Both files are open. -/
theorem halfway {g : Env} (hr : Ready g.v g.i) (hs : Sound g.v) {T : List Dir} {F : List (List Nat)} {s : St} {files : List Sem} {G1 : Goal} {d1 : Dir} {o1 : Obj} {m1 : List Nat} {p : Opd} {fp : File} (h : SrcOpen g T F s files G1 d1 o1 m1 p fp)
    {tm old : Nat} {path : List Nat} {dp : Dp} {buf : List Nat} {q : Opd} (hu : q = Tree.fOpen g.v g.i g.cdir p.files g.fs tm toMode old path p.st dp buf) {d : Dir} {R : List Dir} {F3 : List (List Nat)} {o : Obj}
    (h4 : Tree g.v g.i (d :: R) (F3 ++ lone m1) q.st) (h5 : EntryAt g.v g.i d o q.place) (h6 : SameData g.v (F3 ++ lone m1) p.st q.st) (hm1 : m1 = [] ∨ m1 ∈ F3 ++ lone m1) {fq : File} {C : List (List Nat)} {D : List Nat} (hfq : q.fp = some fq)
    (h10 : Handle g.v toMode C [] D q.st fq) (hD : D = []) (h11 : fq.modified = true) :
    Halfway g.v (dirChains (d :: R) ++ F3) m1 (bytesOf g.v s m1 o1) q.st fp fq [] 0 0 := by
  obtain ⟨w1, w2⟩ := open_window mode_to hu hfq
  have hwin : ∀ n, q.st.winsect = some n → n ∈ dirSecs g.v g.i d.loc := fun n hn => by rw [← w2 n hn]; exact List.mem_of_getElem? h5.sect
  have hR := h10.repr
  rw [if_neg (by decide), hD] at hR
  refine ⟨⟨h4.inv, ?_, h4.count, fun n hn => dir_own hr h4 (by simp) (hwin n hn) fun c hc => by rw [List.flatten_append]; exact List.mem_append_left _ hc, ?_⟩, h.rd, h10.write, h.fresh, h.clean, h11⟩
  · rw [show chainsOf [⟨[], fq, ⟨(bytesOf g.v s m1 o1).take 0, 0⟩⟩, ⟨m1, fp, ⟨bytesOf g.v s m1 o1, 0⟩⟩] = lone m1 from rfl, List.append_assoc]
    exact h4.chains
  · intro x hx
    rcases List.mem_cons.mp hx with rfl | hx
    · exact fresh_ok hr hR (.inl rfl) w1 h10.clean
    · have := List.mem_singleton.mp hx
      subst this
      refine file_other h.ok fun n hn => ?_
      have hm : m1 ∈ F3 ++ lone m1 := hm1.resolve_left fun e => by subst e; cases hn
      have e1 : view q.st n = q.st.disk n := view_apart fun e => win_apart hr h4 (d := d) (by simp) (hwin n e) hm hn
      have e2 : view p.st n = p.st.disk n := view_apart fun e => h.win n e m1 (h.src.chain.resolve_left fun e => by subst e; cases hn) hn
      rw [← e1, ← e2]
      exact h6 m1 hm n hn

theorem rest_shift (a b : List (List Nat)) (m : List Nat) : (withRest a m b).Perm (withRest (a ++ b) m []) := by
  unfold withRest
  split
  · simp
  · rw [List.append_assoc]
    exact List.Perm.append_left _ (List.perm_append_singleton m b).symm

theorem repr_shift {v : Vol} {a b : List (List Nat)} {m : List Nat} {s : St} {fp : File} {A : Arr} (h : FatFile.Spec.Repr v a b m s fp A) : FatFile.Spec.Repr v (a ++ b) [] m s fp A := by
  have e : (a ++ b ++ []).flatten = (a ++ b).flatten := by rw [List.append_nil]
  exact ⟨⟨⟨h.inv, chains_perm (rest_shift a b m) h.chains, h.count, by rw [e]; exact h.window⟩, h.sclust, h.buf, by rw [e]; exact h.own, by rw [e]; exact h.clean, h.size, h.small⟩, h.pos, h.clust, h.sect, h.noErr, h.data, h.at_⟩

theorem opened_key {v : Vol} {tm mode : Nat} {T1 : List Dir} {F1 : List (List Nat)} {d e : Dir} {cs : List Nat} {a : Obj} {R : List Dir} {F2 : List (List Nat)} {o : Obj} {m : List Nat} (h : Opened v tm mode (.object e cs a) T1 F1 d R F2 o m) :
    d.sclust = e.sclust ∧ o.pos = a.pos := by
  cases h with
  | kept => exact ⟨rfl, rfl⟩
  | wiped _ _ _ _ _ _ h7 => exact ⟨rfl, h7⟩

theorem opened_sub {v : Vol} {tm mode : Nat} {G : Goal} {T1 : List Dir} {F1 : List (List Nat)} {d : Dir} {R : List Dir} {F2 : List (List Nat)} {o : Obj} {m : List Nat} (h : Opened v tm mode G T1 F1 d R F2 o m) {l : List Nat} (hl : l ∈ F2) : l ∈ F1 := by
  cases h with
  | kept => exact rest_mem hl
  | wiped => exact rest_mem hl
  | new => exact hl

/-- The chain of the source is still there. -/
theorem opened_chain {v : Vol} {i : Info} {tm mode : Nat} {G : Goal} {T T1 : List Dir} {F F1 : List (List Nat)} {s : St} (h : Tree v i T F s) (hT : T.Perm T1) (hF : F.Perm F1) {d : Dir} {R : List Dir} {F2 : List (List Nat)} {o : Obj} (ho : Opened v tm mode G T1 F1 d R F2 o [])
    (hG : ∀ e cs a, G = .object e cs a → e ∈ T ∧ a ∈ e.os) {d1 : Dir} {o1 : Obj} {m1 : List Nat} (hd1 : d1 ∈ T) (ho1 : o1 ∈ d1.os) (hf1 : ¬ IsDir o1) (hfst : first v o1 = m1.headD 0) (hne : ∀ cs, G ≠ .object d1 cs o1) (hm : m1 ∈ F) : m1 ∈ F2 := by
  have hm' := hF.mem_iff.mp hm
  cases ho with
  | kept => exact hm'
  | new => exact hm'
  | @wiped d0 cs a o' x y R F2 m g1 g2 g3 g4 g5 g6 =>
    rw [rest_nil] at hm'
    split at hm'
    · exact hm'
    · rcases List.mem_cons.mp hm' with e | e
      · exfalso
        subst e
        obtain ⟨k1, k2⟩ := hG _ _ _ rfl
        have h0 : first v o1 ≠ 0 := by
          have hl := h.chains.chain m1 (by simp [hm])
          cases m1 with
          | nil => exact hl.elim
          | cons c r =>
            have := (links_mem hl c (by simp)).1
            rw [hfst]
            show c ≠ 0
            omega
        obtain ⟨rfl, rfl⟩ := refs_inj h.once h.refs hd1 k1 ho1 k2 (fun hx => hf1 (h.dots _ hd1 _ ho1 hx).1) (fun hx => g3 (h.dots _ k1 _ k2 hx).1) h0 (g6.trans hfst.symm)
        exact hne cs rfl
      · exact e

theorem bytes_small {v : Vol} {s : St} (hi : Inv v s) (m : List Nat) (o : Obj) : ∀ x ∈ bytesOf v s m o, x < 256 := by
  intro x hx
  unfold bytesOf at hx
  obtain ⟨n, -, hn⟩ := List.mem_flatMap.mp (List.mem_of_mem_take hx)
  exact (view_sec hi n).2 x hn

theorem take_limit {D : List Nat} {K : Nat} (h : D.length < 2 ^ 32) : D.take (min D.length (limit K)) = D.take K := by
  unfold limit
  by_cases e : K ≤ 0xFFFFFFFF
  · rw [Nat.min_eq_left e]
    by_cases e' : D.length ≤ K
    · rw [Nat.min_eq_left e', List.take_length, List.take_of_length_le e']
    · rw [Nat.min_eq_right (by omega)]
  · rw [Nat.min_eq_right (a := K) (by omega), Nat.min_eq_left (by omega), List.take_length, List.take_of_length_le (by omega)]

/-- Both files have been opened: the loop, and closing them. -/
theorem copy_done {g : Env} (hr : Ready g.v g.i) (hbig : g.i.fsi ≠ none → 512 ≤ g.v.ss) (hs : Sound g.v) {T : List Dir} {F : List (List Nat)} {s : St} (hi : Inv g.v s) (hc : ∃ d ∈ T, d.sclust = g.cdir) {files : List Sem} (hfs : g.fs ≠ 0) (hcnt : Counted files)
    {G1 G2 : Goal} {d1 : Dir} {o1 : Obj} {m1 : List Nat} {p : Opd} {fp : File} (h : SrcOpen g T F s files G1 d1 o1 m1 p fp) {tm tm' old n : Nat} {force yes : Bool} (hask : Asked force yes G2) {path : List Nat} {abs : Bool} {l : List (List Nat)} {dp : Dp} {buf : List Nat}
    (hG : Resolves g.v T g.cdir abs l G2) {q : Opd} (hu : q = Tree.fOpen g.v g.i g.cdir p.files g.fs tm toMode old path p.st dp buf) {T1 : List Dir} {F1 : List (List Nat)} {d : Dir} {R : List Dir} {F2 : List (List Nat)} {o : Obj}
    (h1 : T.Perm T1) (h2 : F.Perm F1) (h3 : Opened g.v tm toMode G2 T1 F1 d R F2 o []) (h4 : Tree g.v g.i (d :: R) F2 q.st) (h5 : EntryAt g.v g.i d o q.place) (h6 : SameData g.v F2 p.st q.st)
    (h8 : Taken p.files ⟨g.fs, d.sclust, 32 * o.pos⟩ 1 q.files q.lock) {fq : File} {D : List Nat} (hfq : q.fp = some fq) (h10 : Handle g.v toMode (dirChains (d :: R) ++ F2) [] D q.st fq) (hD : D = []) (h11 : fq.modified = true)
    {x : Cp} (hx : x = cpClose g.v tm' p q n (cpLoop g.v (2 ^ 32) q.st fp fq)) :
    ∃ T' F', Tree g.v g.i T' F' x.st ∧ CopyEnd g tm tm' force yes G1 G2 abs l files T F s x.msg T' F' x.st ∧ SameLocks files x.files ∧ ∃ d ∈ T', d.sclust = g.cdir := by
  obtain ⟨t1, t2⟩ := dec_two h.taken hfs hcnt h8 hfs
  have hne : ∀ cs, G2 ≠ .object d1 cs o1 := by
    rintro cs rfl
    obtain ⟨e1, e2⟩ := opened_key h3
    exact t1 (by rw [e1, e2])
  have hgo : ∀ e cs a, G2 = .object e cs a → e ∈ T ∧ a ∈ e.os := by
    rintro e cs a rfl
    obtain ⟨d0, hd0, -, hl⟩ := hG
    rcases hl with ⟨-, hl⟩ | hl
    · cases hl
    · exact leads_obj hl rfl hd0
  have hm1 : m1 = [] ∨ m1 ∈ F2 := h.src.chain.imp id fun hm => opened_chain h.tree h1 h2 h3 hgo h.dmem h.omem h.src.file h.src.first hne hm
  -- the chain of the source becomes the last one
  obtain ⟨F3, hF3⟩ := lone_perm hm1
  obtain ⟨F1', hF1', h3'⟩ := opened_perm h3 hF3
  have h4 : Tree g.v g.i (d :: R) (F3 ++ lone m1) q.st := tree_perm (List.Perm.refl _) hF3 h4
  have h6 : SameData g.v (F3 ++ lone m1) p.st q.st := fun l hl => h6 l (hF3.mem_iff.mpr hl)
  have hm1 : m1 = [] ∨ m1 ∈ F3 ++ lone m1 := hm1.imp id fun hm => hF3.mem_iff.mp hm
  have h2 := h2.trans hF1'
  have hs' : SameData g.v (F3 ++ lone m1) s p.st := fun l hl => h.same l (h2.mem_iff.mpr (opened_sub h3' hl))
  have H := halfway hr hs h hu h4 h5 h6 hm1 hfq h10 hD h11
  clear h3 hF3 hF1' h10
  have hlen : (bytesOf g.v s m1 o1).length < 2 ^ 32 := by
    have e : bytesOf g.v s m1 o1 = contents g.v m1 p.st fp := h.ok.data
    rw [e]
    unfold contents
    exact Nat.lt_of_le_of_lt (List.length_take_le _ _) h.ok.small
  obtain ⟨m2, pos, j, k1, k2, k3, k4⟩ := copy_loop_spec hr.geo hr.data hs (bytes_small hi m1 o1) (2 ^ 32) q.st fp fq [] 0 H (Nat.zero_le _) (Nat.zero_le _) (by omega)
  generalize cpLoop g.v (2 ^ 32) q.st fp fq = e at hx k1 k2 k3 k4
  rw [List.append_assoc] at k2 k3 k4
  have hR := repr_shift (desk_repr (L1 := []) k1.desk)
  change FatFile.Spec.Repr g.v (dirChains (d :: R) ++ F3 ++ [] ++ lone m1) [] m2 e.st e.dst ⟨(bytesOf g.v s m1 o1).take j, j⟩ at hR
  rw [List.append_nil, List.append_assoc] at hR
  rw [k3, take_limit hlen] at hR
  -- closing
  unfold cpClose at hx
  rw [close_fresh k1.fresh] at hx
  simp only at hx
  obtain ⟨-, x0, y0, hos, hrest⟩ := opened_split (by decide) h3'
  have hfst : first g.v o = ([] : List Nat).headD 0 := by
    cases h3' with
    | kept hx => exact absurd (by decide) hx
    | wiped _ _ _ _ _ _ _ _ _ hb => exact hb.first
    | new _ _ _ _ hb => exact hb.first
  obtain ⟨cs, hres, hfile⟩ := C84_found g.v tm toMode T T1 R F1' (F3 ++ lone m1) g.cdir abs l G2 d o [] h1 hG h3'
  have h4' : Tree g.v g.i (d :: R) (withRest [] [] (F3 ++ lone m1)) q.st := h4
  obtain ⟨o', s1, s2, s3, s4, s5, s6⟩ := sync_tree hr hbig hs h4' hos hfile hfst h5 k2 hR k1.changed tm'
  have hpl := C84_place g.v g.i hr hbig (d :: R) (F3 ++ lone m1) [] q.st h4' d (by simp) o q.place h5
  obtain ⟨-, f2⟩ := FatSync.fsync_spec hr.geo hr.data hR (by rw [List.append_nil]; exact hpl) tm' k1.changed
  obtain ⟨f2, -⟩ := f2 hs
  have hx1 : x = ⟨(fSync g.v q.place tm' e.st e.dst).st, (decShare (decShare q.files p.lock).1 q.lock).1, n, e.msg⟩ := by
    rw [hx]
    unfold fClose
    rw [if_pos f2]
  have hdata : SameData g.v (F3 ++ lone m1) s (fSync g.v q.place tm' e.st e.dst).st := fun l hl n hn => ((s6 l hl n hn).trans (h6 l hl n hn)).trans (hs' l hl n hn)
  have hmsg : x.msg = if decide (capacity g.v (dirChains (d :: R) ++ (F3 ++ lone m1)).flatten < (bytesOf g.v s m1 o1).length) then some .noSpace else none := by
    rw [hx1]
    show e.msg = _
    rw [k4]
    unfold limit
    by_cases c : (bytesOf g.v s m1 o1).length ≤ capacity g.v (dirChains (d :: R) ++ (F3 ++ lone m1)).flatten
    · rw [if_pos (by omega), if_neg (by rw [decide_eq_true_eq]; omega)]
    · rw [if_neg (by omega), if_pos (by rw [decide_eq_true_eq]; omega)]
  refine ⟨{ d with os := x0 ++ o' :: y0 } :: R, withRest [] m2 (F3 ++ lone m1), by rw [hx1]; exact s4, ?_, by rw [hx1]; exact t2, ?_⟩
  · rw [hmsg]
    rw [show x.st = (fSync g.v q.place tm' e.st e.dst).st by rw [hx1]]
    obtain ⟨e1, he1, he2, he3⟩ : ∃ e1 ∈ { d with os := x0 ++ o' :: y0 } :: R, e1.sclust = d1.sclust ∧ o1 ∈ e1.os := by
      rcases hrest d1 (h1.mem_iff.mp h.dmem) o1 h.omem hne with hx | ⟨hx, hy⟩
      · exact ⟨d1, by simp [hx], rfl, h.omem⟩
      · refine ⟨_, List.mem_cons_self, hx.symm, ?_⟩
        show o1 ∈ x0 ++ o' :: y0
        rcases List.mem_append.mp hy with hy | hy <;> simp [hy]
    have hl : ∃ d0 ∈ d :: R, d0.sclust = (if abs then 0 else g.cdir) ∧ Leads g.v (d :: R) d0 l (.object d cs o) := by
      obtain ⟨d0, hd0, hz, hl⟩ := hres
      rcases hl with ⟨-, hl⟩ | hl
      · cases hl
      · exact ⟨d0, hd0, hz, hl⟩
    obtain ⟨d0, hd0, hz, hl⟩ := hl
    obtain ⟨q1, q2⟩ := leads_swap (d := d) (T2 := { d with os := x0 ++ o' :: y0 } :: R) (d2 := { d with os := x0 ++ o' :: y0 }) rfl hos rfl s1.fn s1.long hfile (by simp) (fun q hq => by
      rcases List.mem_cons.mp hq with e | hq
      · exact .inl e
      · exact .inr (by simp [hq])) hl rfl
    refine .copied (cs := cs) (d' := { d with os := x0 ++ o' :: y0 }) (o' := o') hask h.src hne ⟨T1, F1', d, R, F3 ++ lone m1, o, x0, y0, m2, h1, h2, h3', hos, rfl, rfl, rfl, s1, s3, s5, s2, by rw [decide_eq_true_eq], hdata⟩ ?_ ?_ he1 he2 he3 (hm1.imp id rest_mem) ?_
    · by_cases e : d0 = d
      · exact ⟨_, List.mem_cons_self, by rw [← hz, e], .inr (q1 e)⟩
      · exact ⟨d0, by simp [(List.mem_cons.mp hd0).resolve_left e], hz, .inr (q2 e)⟩
    · unfold IsDir
      rw [s1.attr]
      have hb : ∀ b < 256, (b ||| 0x20) &&& 0x10 = b &&& 0x10 := by decide +kernel
      rw [hb _ (byte_lt (obj_ent (h4.dirs d (by simp)).dir (by rw [hos]; simp)).2 11)]
      exact hfile
    · unfold bytesOf
      rw [flat_congr fun n hn => hdata m1 (hm1.resolve_left fun e => by subst e; cases hn) n hn]
  · obtain ⟨d0, hd0, hz⟩ := hc
    have hmem : d0.sclust ∈ (d :: R).map Dir.sclust := by
      rw [← opened_sclust h3']
      exact List.mem_map_of_mem (h1.mem_iff.mp hd0)
    obtain ⟨e, he, hee⟩ := List.mem_map.mp hmem
    rcases List.mem_cons.mp he with rfl | he
    · exact ⟨_, List.mem_cons_self, hee.trans hz⟩
    · exact ⟨e, by simp [he], hee.trans hz⟩

end Fpm.Tree
