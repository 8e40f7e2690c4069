import Verif.Tree.LifeLemmas
/-!
# C85: a file that is opened, changed and closed is found again with its new bytes, and nothing else has changed
-/
namespace Fpm.Tree
open Fpm.Fat Fpm.DirDev Fpm.FatDir Fpm.Names Fpm.Fat.Spec Fpm.FatFile Fpm.FatFile.Spec Fpm.Lfn Fpm.Names.Spec Fpm.TextIo.Spec Fpm.FatDir.Spec Fpm.Mount Fpm.Mount.Spec Fpm.DirDev.Spec Fpm.Tree.Spec
open Fpm.FatSync (fSync Kept kept_history links_unique)
open Fpm.FatLock (Sem Key)

theorem leads_obj {v : Vol} {T : List Dir} {d0 d : Dir} {l : List (List Nat)} {G : Goal} {cs : List Nat} {o : Obj} (h : Leads v T d0 l G) (hG : G = .object d cs o) (h0 : d0 ∈ T) : d ∈ T ∧ o ∈ d.os := by
  induction h with
  | stay _ _ _ ih => exact ih hG h0
  | object _ h2 =>
    cases hG
    exact ⟨h0, h2⟩
  | enter _ _ _ _ h5 _ _ ih => exact ih hG h5
  | _ => cases hG

/-- A chain is known by its first cluster. -/
theorem chain_first {v : Vol} {i : Info} {T : List Dir} {F : List (List Nat)} {s : St} (h : Tree v i T F s) {m k : List Nat} (hm : m = [] ∨ m ∈ F) (hk : k = [] ∨ k ∈ F) (he : m.headD 0 = k.headD 0) : m = k := by
  have hch : ∀ l, (l = [] ∨ l ∈ F) → l = [] ∨ Links v.nFatent (tab v s) l ∧ 2 ≤ l.headD 0 ∧ l.head? = some (l.headD 0) := by
    intro l hl
    refine hl.imp id fun hl => ?_
    have hl := h.chains.chain l (List.mem_append_right _ hl)
    cases l with
    | nil => exact hl.elim
    | cons c l => exact ⟨hl, (links_mem hl c (by simp)).1, rfl⟩
  rcases hch m hm with rfl | ⟨h1, h2, h3⟩ <;> rcases hch k hk with rfl | ⟨g1, g2, g3⟩
  · rfl
  · rw [← he] at g2
    exact absurd g2 (by decide)
  · rw [he] at h2
    exact absurd h2 (by decide)
  · exact links_unique h1 g1 (by rw [h3, g3, he])

/-- What `f_open` gives is an open file on a volume in order. -/
theorem open_session {v : Vol} {tm mode : Nat} {i : Info} {G : Goal} {T1 : List Dir} {F1 : List (List Nat)} {d : Dir} {R : List Dir} {F : List (List Nat)} {o : Obj} {m : List Nat} (ho : Opened v tm mode G T1 F1 d R F o m)
    {T : List Dir} (hT : T.Perm T1) {cdir : Nat} {abs : Bool} {l : List (List Nat)} (hG : Resolves v T cdir abs l G)
    {s t : St} (h : Tree v i (d :: R) (withRest [] m F) t) {pl : FatSync.Place} (hp : EntryAt v i d o pl) (hsame : ∀ l ∈ withRest [] m F, ∀ n ∈ secs v l, view t n = view s n) {fp : File}
    (hh : Handle v mode (dirChains (d :: R) ++ F) m (((secs v m).flatMap (view s)).take (size o)) t fp) :
    bytesOf v s m o = bytesOf v t m o ∧ ∃ x y, Session v i d R F x o y m t fp ⟨bytesOf v t m o, if AtEnd mode then (bytesOf v t m o).length else 0⟩ pl := by
  have hb : ((secs v m).flatMap (view s)).take (size o) = bytesOf v t m o := by
    unfold bytesOf
    rw [flat_congr fun n hn => ?_]
    refine (hsame m ?_ n hn).symm
    rw [rest_nil, if_neg (fun e => by rw [e] at hn; cases hn)]
    simp
  have hR := hh.repr
  rw [hb] at hR
  obtain ⟨cs, ⟨d0, hd0, -, hl⟩, hf⟩ := C84_found v tm mode T T1 R F1 F cdir abs l G d o m hT hG ho
  have hmem : o ∈ d.os := by
    rcases hl with ⟨-, hl⟩ | hl
    · cases hl
    · exact (leads_obj hl rfl hd0).2
  have hfst : first v o = m.headD 0 := by
    cases ho with
    | kept h1 h2 h3 h4 h5 => exact h5
    | wiped h1 h2 h3 h4 h5 h6 h7 h8 h9 h10 => exact h10.first
    | new h1 h2 h3 h4 h5 => exact h5.first
  obtain ⟨x, y, e⟩ := List.append_of_mem hmem
  exact ⟨hb, x, y, h, e, hf, hfst, hp, hR, .inr ⟨hh.clean, rfl⟩⟩

/-- The life of an open file: any reads, writes, seeks and truncations, then `f_sync` or the same in `f_close`, on a device that does not fail.  To the caller the file is an array of bytes.  At the end the volume is in order: the object
of the file is in the same place, with the same names; size, first cluster and bytes are those of the array; if it has changed, the time is the new one and the archive attribute is set.  All other objects of the directory and all
other directories are the same, other chains of files are the same and their sectors have the same data.  The file may be used on and flushed again. -/
theorem C85_life (v : Vol) (i : Info) (hr : Ready v i) (hbig : i.fsi ≠ none → 512 ≤ v.ss) (hs : Sound v) (d : Dir) (R : List Dir) (F : List (List Nat)) (x y : List Obj) (o : Obj) (m : List Nat) (s : St) (fp : File) (A : Arr) (pl : FatSync.Place)
    (h : Session v i d R F x o y m s fp A pl) (ops : List Op) (ha : ∀ op ∈ ops, Arg op) (tm : Nat) (u : FatFile.Out) (hu : u = fSync v pl tm (calls v s fp ops).1 (calls v s fp ops).2.1) :
    ∃ B m' o', Runs (capacity v (dirChains (d :: R) ++ F).flatten) fp.canRead fp.canWrite A ops (calls v s fp ops).2.2 B ∧ u.res = FR_OK ∧
      Session v i { d with os := x ++ o' :: y } R F x o' y m' u.st u.fp B pl ∧ u.fp.modified = false ∧ (o' = o ∧ B.data = A.data ∨ Saved tm o o') ∧ size o' = B.data.length ∧ bytesOf v u.st m' o' = B.data ∧
      ∀ l ∈ F, ∀ n ∈ secs v l, view u.st n = view s n := by
  have hfl : (dirChains (d :: R) ++ F ++ []).flatten = (dirChains (d :: R) ++ F).flatten := by rw [List.append_nil]
  obtain ⟨m', B, h1, h2, h3, h4, h5⟩ := kept_history hr.geo hr.data hs (keepsQuiet hr.geo s) (D := A.data) ops h.repr (h.kept.imp id fun hk => ⟨.refl h.tree.inv, hk.1, rfl⟩) ha
  rw [hfl] at h1
  generalize (calls v s fp ops).2.1 = fp' at *
  generalize (calls v s fp ops).1 = t at *
  by_cases hm : fp'.modified = true
  · obtain ⟨o', k1, k2, k3, k4, k5, k6⟩ := sync_tree hr hbig hs h.tree h.os h.file h.first h.place h4.beside h2 hm tm
    obtain ⟨-, f2⟩ := FatSync.fsync_spec hr.geo hr.data h2 (pl := pl) (by rw [hfl]; exact C84_place v i hr hbig _ F m s h.tree d (by simp) o pl h.place) tm hm
    obtain ⟨f2, f3, -, f4⟩ := f2 hs
    rw [← hu] at k4 k5 k6 f2 f3 f4
    refine ⟨B, m', o', h1, f2, ⟨k4, rfl, ?_, k3, ⟨?_, ?_, h.place.info⟩, f3, .inr ⟨by rw [f4], k5⟩⟩, by rw [f4], .inr k1, k2, k5, k6⟩
    · unfold IsDir
      rw [k1.attr]
      have hb : ∀ b < 256, (b ||| 0x20) &&& 0x10 = b &&& 0x10 := by decide +kernel
      rw [hb _ (byte_lt (obj_ent (h.tree.dirs d (by simp)).dir (by rw [h.os]; simp)).2 11)]
      exact h.file
    · rw [k1.pos]
      exact h.place.sect
    · rw [k1.pos]
      exact h.place.off
  · obtain ⟨q, e1, e2⟩ := h3.resolve_left hm
    have e : u = done t fp' := by
      rw [hu]
      unfold fSync
      rw [if_neg hm]
    subst e
    obtain ⟨g1, g2⟩ := h.kept.resolve_left fun z => hm (h5 z)
    have hmm : m' = m := by
      have c1 := h2.toVolOk.chains
      rw [tab_same q.same] at c1
      exact chain_same c1 h.repr.toVolOk.chains
    subst hmm
    have hd : { d with os := x ++ o :: y } = d := by rw [← h.os]
    have hsz : size o = B.data.length := by
      rw [e2, ← g2]
      have hod : o ∈ d.os := by rw [h.os]; simp
      have hdo : ¬ Dotted o := fun z => h.file (h.tree.dots d (by simp) o hod z).1
      obtain ⟨k, k1, k2, k3⟩ := h.tree.files d (by simp) o hod hdo h.file
      have hm' : m' = [] ∨ m' ∈ withRest [] m' F := by
        by_cases e : m' = []
        · exact .inl e
        · rw [rest_nil, if_neg e]
          exact .inr (by simp)
      cases chain_first h.tree hm' k1 (h.first.symm.trans k2)
      unfold bytesOf
      rw [List.length_take, flatLength _ fun n _ => (view_sec h.tree.inv n).1, secs_length, Nat.mul_assoc]
      exact (Nat.min_eq_left k3).symm
    have hbytes : bytesOf v t m' o = B.data := by
      rw [e2, ← g2]
      unfold bytesOf
      rw [flat_congr fun n hn => q.same n ?_]
      have hmn : m' ≠ [] := fun e => by rw [e] at hn; cases hn
      exact (chain_secs hr (h.tree.chains.chain m' (by rw [rest_nil, if_neg hmn]; simp)) hn).2.1
    refine ⟨B, m', o, h1, rfl, ?_, Bool.eq_false_iff.mpr hm, .inl ⟨rfl, e2⟩, hsz, hbytes, fun l hl n hn => q.same n (chain_secs hr (h.tree.chains.chain l (List.mem_append_right _ (rest_mem hl))) hn).2.1⟩
    rw [hd]
    exact ⟨tree_quiet hr q h.tree, h.os, h.file, h.first, h.place, h2, .inr ⟨e1, hbytes⟩⟩

/-- From `f_open` by path to `f_sync` or `f_close`, on a device that does not fail.  If there is a file object, it is for the file that the path leads to, or for an empty one, as in `Opened`.  To the caller it is an array of bytes: those that
the file had, at the position asked for.  At the end the volume is in order, the path leads to the file, which has the bytes of the array; other objects, directories and files are the same. -/
theorem C85_cycle (v : Vol) (i : Info) (hr : Ready v i) (hbig : i.fsi ≠ none → 512 ≤ v.ss) (hs : Sound v) (T : List Dir) (F : List (List Nat)) (s : St) (h : Tree v i T F s) (cdir : Nat) (hc : ∃ d ∈ T, d.sclust = cdir) (files : List Sem) (fs : Nat) (hfs : fs ≠ 0)
    (tm mode old : Nat) (path : List Nat) (abs : Bool) (l : List (List Nat)) (hp : PathOf path abs l) (hff : ∀ cs ∈ l, 0xFFFF ∉ cs) (dp : Dp) (buf : List Nat) (hb : buf.length = 256) (G : Goal) (hG : Resolves v T cdir abs l G) (p : Opd)
    (hu : p = fOpen v i cdir files fs tm mode old path s dp buf) (fp : File) (hfp : p.fp = some fp) (ops : List Op) (ha : ∀ op ∈ ops, Arg op) (tm' : Nat) (u : FatFile.Out) (hu' : u = fSync v p.place tm' (calls v p.st fp ops).1 (calls v p.st fp ops).2.1) :
    ∃ T1 F1 d R F2 o m x y B m' o' cs, T.Perm T1 ∧ F.Perm F1 ∧ Opened v tm mode G T1 F1 d R F2 o m ∧ d.os = x ++ o :: y ∧
      Runs (capacity v (dirChains (d :: R) ++ F2).flatten) (mode.testBit 0) (mode.testBit 1) ⟨bytesOf v s m o, if AtEnd mode then (bytesOf v s m o).length else 0⟩ ops (calls v p.st fp ops).2.2 B ∧
      u.res = FR_OK ∧ Tree v i ({ d with os := x ++ o' :: y } :: R) (withRest [] m' F2) u.st ∧ (o' = o ∧ B.data = bytesOf v s m o ∨ Saved tm' o o') ∧ first v o' = m'.headD 0 ∧ size o' = B.data.length ∧ bytesOf v u.st m' o' = B.data ∧
      (∀ l ∈ F2, ∀ n ∈ secs v l, view u.st n = view s n) ∧ Resolves v ({ d with os := x ++ o' :: y } :: R) cdir abs l (.object { d with os := x ++ o' :: y } cs o') ∧ ¬ IsDir o' := by
  rcases C84_open v i hr hs T F s h cdir hc files fs hfs tm mode old path abs l hp hff dp buf hb G hG p hu with ⟨e, -⟩ | ⟨_, _, _, _, _, _, _, _, e, -⟩ | ⟨T1, F1, d, R, F2, o, m, h1, h2, h3, h4, h5, h6, h7⟩
  · rw [hfp] at e; cases e
  · rw [hfp] at e; cases e
  rcases h7 with ⟨-, e, -⟩ | ⟨h7, -, fp', e, h8, -⟩
  · rw [hfp] at e; cases e
  rw [hfp] at e
  cases e
  obtain ⟨hby, x, y, hS⟩ := open_session h3 h1 hG h4 h5 h6 h8
  obtain ⟨B, m', o', k1, k2, k3, -, k4, k5, k6, k7⟩ := C85_life v i hr hbig hs d R F2 x y o m p.st fp _ p.place hS ops ha tm' u hu'
  rw [h8.read, h8.write, ← hby] at k1
  obtain ⟨cs, ⟨d0, hd0, hz, hl⟩, hf⟩ := C84_found v tm mode T T1 R F1 F2 cdir abs l G d o m h1 hG h3
  have hl : Leads v (d :: R) d0 l (.object d cs o) := by
    rcases hl with ⟨-, hl⟩ | hl
    · cases hl
    · exact hl
  have hfn : o'.fn = o.fn ∧ o'.long = o.long := by
    rcases k4 with ⟨rfl, -⟩ | k4
    · exact ⟨rfl, rfl⟩
    · exact ⟨k4.fn, k4.long⟩
  obtain ⟨q1, q2⟩ := leads_swap (d := d) (T2 := { d with os := x ++ o' :: y } :: R) (d2 := { d with os := x ++ o' :: y }) rfl hS.os rfl hfn.1 hfn.2 hS.file (by simp) (fun q hq => by
    rcases List.mem_cons.mp hq with e | hq
    · exact .inl e
    · exact .inr (by simp [hq])) hl rfl
  rw [← hby] at k4
  refine ⟨T1, F1, d, R, F2, o, m, x, y, B, m', o', cs, h1, h2, h3, hS.os, k1, k2, k3.tree, k4, k3.first, k5, k6, fun l hl n hn => (k7 l hl n hn).trans (h6 l (rest_mem hl) n hn), ?_, k3.file⟩
  by_cases e : d0 = d
  · exact ⟨_, List.mem_cons_self, by rw [← hz, e], .inr (q1 e)⟩
  · exact ⟨d0, by simp [(List.mem_cons.mp hd0).resolve_left e], hz, .inr (q2 e)⟩

/-- Opening a file again, in any mode that does not empty it: the bytes are those which the volume has for the object that the path leads to. -/
theorem C85_reopen (v : Vol) (i : Info) (hr : Ready v i) (hs : Sound v) (T : List Dir) (F : List (List Nat)) (s : St) (h : Tree v i T F s) (cdir : Nat) (hc : ∃ d ∈ T, d.sclust = cdir) (files : List Sem) (fs : Nat) (hfs : fs ≠ 0)
    (tm mode old : Nat) (path : List Nat) (abs : Bool) (l : List (List Nat)) (hp : PathOf path abs l) (hff : ∀ cs ∈ l, 0xFFFF ∉ cs) (dp : Dp) (buf : List Nat) (hb : buf.length = 256) (d : Dir) (cs : List Nat) (o : Obj)
    (hG : Resolves v T cdir abs l (.object d cs o)) (m : List Nat) (hm : m = [] ∨ m ∈ F) (hfst : first v o = m.headD 0) (hw : ¬ Wipes mode) (p : Opd)
    (hu : p = fOpen v i cdir files fs tm mode old path s dp buf) (fp : File) (hfp : p.fp = some fp) :
    p.res = FR_OK ∧ ¬ IsDir o ∧ ∃ others, Handle v mode others m (bytesOf v s m o) p.st fp := by
  rcases C84_open v i hr hs T F s h cdir hc files fs hfs tm mode old path abs l hp hff dp buf hb _ hG p hu with ⟨e, -⟩ | ⟨_, _, _, _, e, -⟩ | ⟨T1, F1, d', R, F2, o', m', h1, h2, h3, h4, h5, h6, h7⟩
  · rw [hfp] at e; cases e
  · cases e
  rcases h7 with ⟨-, e, -⟩ | ⟨h7, -, fp', e, h8, -⟩
  · rw [hfp] at e; cases e
  rw [hfp] at e
  cases e
  cases h3 with
  | kept g1 g2 g3 g4 g5 =>
    have hmm : m' = m := by
      refine chain_first h ?_ hm (g5.symm.trans hfst)
      by_cases e : m' = []
      · exact .inl e
      · refine .inr (h2.mem_iff.mpr ?_)
        rw [rest_nil, if_neg e]
        simp
    subst hmm
    exact ⟨h7, g3, _, h8⟩
  | wiped g1 => exact absurd g1 hw

/-! In the example `x.c` is opened, gets longer, and is opened again. -/

def trOps : List Op := [.read 2, .seek 99, .write [7, 8, 9], .seek 98]

def trDone : Option (FatFile.Out × List Seen) := (trOpen 3 [120, 46, 99, 0]).fp.map fun fp =>
  (fSync trV (trOpen 3 [120, 46, 99, 0]).place 0x5A000000 (calls trV (trOpen 3 [120, 46, 99, 0]).st fp trOps).1 (calls trV (trOpen 3 [120, 46, 99, 0]).st fp trOps).2.1, (calls trV (trOpen 3 [120, 46, 99, 0]).st fp trOps).2.2)

def trAgain : Option Opd := trDone.map fun u => fOpen trV trI 0 [⟨⟨0, 0, 0⟩, 0⟩] 9 0 1 5 [120, 46, 99, 0] u.1.st trDp (List.replicate 256 7)

/-- Hypotheses of `C85_cycle` and `C85_reopen` can be met. -/
example : Ready trV trI ∧ (trI.fsi ≠ none → 512 ≤ trV.ss) ∧ Sound trV ∧ Tree trV trI trT trF trS ∧ PathOf [120, 46, 99, 0] false [[120, 46, 99]] ∧ Resolves trV trT 0 false [[120, 46, 99]] (.object trRoot [120, 46, 99] ⟨1, none, trX⟩) ∧
    (trOpen 3 [120, 46, 99, 0]).fp.isSome ∧ (∀ op ∈ trOps, Arg op) ∧ ¬ Wipes 1 := by
  refine ⟨tr_ready, by decide, tr_sound, tr_tree, tr_path_x, ⟨trRoot, by simp [trT], rfl, .inr (.object (by decide) (by decide) tr_calls_x)⟩, by decide +kernel, ?_, by decide⟩
  intro op hop
  simp only [trOps, List.mem_cons, List.not_mem_nil, or_false] at hop
  rcases hop with rfl | rfl | rfl | rfl
  · trivial
  · trivial
  · exact ⟨by decide, by decide⟩
  · trivial

def trSeen (u : FatFile.Out × List Seen) : List Nat := u.1.res :: u.1.fp.objsize :: u.2.flatMap fun z => [z.res, z.pos, z.size]

def trRead (p : Opd) : List Nat := p.res :: match p.fp with
  | none => []
  | some fp => fp.objsize :: (call trV (call trV p.st fp (.seek 99)).st (call trV p.st fp (.seek 99)).fp (.read 10)).got

/-- 102 bytes now, and the last three are the new ones. -/
example : trDone.map trSeen = some [0, 102, 0, 2, 100, 0, 99, 100, 0, 102, 102, 0, 98, 102] ∧ trAgain.map trRead = some [0, 102, 7, 8, 9] := by decide +kernel

end Fpm.Tree
