import Verif.Tree.Spec
import Verif.DirDev.Props
import Verif.FatSync.EntryLemmas
/-!
# Following paths
-/
namespace Fpm.Tree
open Fpm.Fat Fpm.Fat.Spec Fpm.FatFile.Spec Fpm.Lfn Fpm.Names Fpm.Names.Spec Fpm.TextIo.Spec Fpm.FatDir Fpm.FatDir.Spec Fpm.Mount Fpm.Mount.Spec Fpm.DirDev Fpm.DirDev.Spec Fpm.Tree.Spec Fpm.FatSync

theorem dirChains_mid (A B : List Dir) (d : Dir) : dirChains (A ++ d :: B) = dirChains A ++ (chainOf d.loc ++ dirChains B) := by
  unfold dirChains
  rw [List.flatMap_append, List.flatMap_cons]

theorem all_chains (A B : List Dir) (F : List (List Nat)) (d : Dir) : allChains (dirChains A) (dirChains B ++ F) d.loc = dirChains (A ++ d :: B) ++ F := by
  rw [dirChains_mid]
  cases d.loc <;> simp [allChains, chainOf]

/-- A directory of the volume. -/
theorem tree_vol {v : Vol} {i : Info} {T : List Dir} {F : List (List Nat)} {s : St} (h : Tree v i T F s) {A B : List Dir} {d : Dir} (hT : T = A ++ d :: B) : DirVol v (dirChains A) (dirChains B ++ F) d.loc s := by
  subst hT
  refine ⟨h.inv, fun hl => ?_, by rw [all_chains]; exact h.chains, h.count⟩
  have := (h.dirs d (by simp)).starts
  rw [hl] at this
  exact this.2

theorem tree_linked {v : Vol} {i : Info} {T : List Dir} {F : List (List Nat)} {s : St} (h : Tree v i T F s) {d : Dir} (hd : d ∈ T) : Linked v (tab v s) d.loc := by
  obtain ⟨A, B, hT⟩ := List.append_of_mem hd
  exact (tree_vol h hT).linked

theorem dirok_quiet {v : Vol} {i : Info} (hr : Ready v i) {s s' : St} {d : Dir} {f : Nat → Nat} (hl : Linked v f d.loc) (hq : Same v s s') (h : DirOk v i s d) : DirOk v i s' d :=
  ⟨h.starts, by rw [entries_same hr hl hq]; exact h.dir, h.names, h.nodot⟩

theorem tree_quiet {v : Vol} {i : Info} (hr : Ready v i) {T : List Dir} {F : List (List Nat)} {s s' : St} (hq : Quiet v s s') (h : Tree v i T F s) : Tree v i T F s' :=
  ⟨hq.inv, count_same hq.same hq.rest h.count, by rw [tab_same hq.same]; exact h.chains, h.root, h.once, fun d hd => dirok_quiet hr (tree_linked h hd) hq.same (h.dirs d hd), h.refs, h.files, h.subs, h.dots⟩

/-- What `dir_find` tells about a segment. -/
inductive Seeks (v : Vol) (i : Info) (d : Dir) (s : St) (cs fn : List Nat) (fl : Nat) (buf : List Nat) (g : Got) : Prop where
  | fail : g.res = FR_DISK_ERR → ¬ Sound v → Seeks v i d s cs fn fl buf g
  | none : g.res = FR_NO_FILE → (∀ o ∈ d.os, ¬ Calls cs o) → Seeks v i d s cs fn fl buf g
  | some (o : Obj) (blk : Option Nat) : g.res = FR_OK → o ∈ d.os → Calls cs o → At v i d.loc o.pos g.dp → g.st.winsect = some g.dp.sect → dirEnt v g.st g.dp = some o.entry → g.blk = blk.map (32 * ·) →
      FatDir.dirFind (entries v i (view s) d.loc) fn fl buf = .found o.pos blk buf → Seeks v i d s cs fn fl buf g

theorem seek_dir {v : Vol} {i : Info} (hr : Ready v i) {s : St} (hi : Inv v s) {d : Dir} (hl : Linked v (tab v s) d.loc) (hd : DirOk v i s d) {dp : Dp} (hdp : dp.sclust = d.sclust) {cs : List Nat}
    (hc : ∀ c ∈ cs, NameChar c) {last : Bool} {buf fn : List Nat} {fl : Nat} (hn : Named cs last buf fn fl) :
    Quiet v s (dirFind v i s dp fn fl buf).st ∧ (dirFind v i s dp fn fl buf).dp.sclust = dp.sclust ∧ (dirFind v i s dp fn fl buf).buf = buf ∧ Seeks v i d s cs fn fl buf (dirFind v i s dp fn fl buf) := by
  obtain ⟨q, h1, h2⟩ := find_spec hr hi hl (dp := dp) (by rw [hdp]; exact hd.starts) fn fl buf
  have he := entries_same hr hl q.same
  have hbuf : (dirFind v i s dp fn fl buf).buf = buf := by
    unfold DirDev.dirFind
    split
    · unfold findEnd
      split <;> rfl
    · rfl
  generalize dirFind v i s dp fn fl buf = g at q h1 h2 he hbuf
  refine ⟨q, h1, hbuf, ?_⟩
  rcases h2 with ⟨h2, h3⟩ | h2
  · exact .fail h2 h3
  have key : (FatDir.dirFind (entries v i (view s) d.loc) fn fl buf = .noFile ∧ ∀ o ∈ d.os, ¬ Calls cs o) ∨ ∃ o blk, o ∈ d.os ∧ Calls cs o ∧ FatDir.dirFind (entries v i (view s) d.loc) fn fl buf = .found o.pos blk buf := by
    by_cases hdot : DotName cs
    · rcases C75_dots cs last buf fn fl true _ d.os hdot hn hd.dir.table hd.dir.rep (fun o ho => by
        rcases hdot with rfl | rfl
        · exact (hd.nodot o ho).1
        · exact (hd.nodot o ho).2) with ⟨e, h3⟩ | ⟨x, o, y, blk, h3, -, h5, e⟩
      · refine .inl ⟨e, fun o ho => ?_⟩
        unfold Calls
        rw [if_pos hdot]
        exact h3 o ho
      · refine .inr ⟨o, blk, by rw [h3]; simp, ?_, e⟩
        unfold Calls
        rw [if_pos hdot]
        exact h5
    · rcases C75_find cs last buf fn fl true _ d.os ⟨hc, hdot, hn⟩ hd.dir.table hd.dir.rep with ⟨e, h3⟩ | ⟨x, o, y, blk, h3, -, h5, e⟩
      · refine .inl ⟨e, fun o ho => ?_⟩
        unfold Calls
        rw [if_neg hdot]
        exact h3 o ho
      · refine .inr ⟨o, blk, by rw [h3]; simp, ?_, e⟩
        unfold Calls
        rw [if_neg hdot]
        exact h5
  rcases key with ⟨e, h3⟩ | ⟨o, blk, h3, h4, e⟩
  · rw [e] at h2
    exact .none h2 h3
  · have h5 := h2
    rw [e] at h5
    refine .some o blk h5.1 h3 h4 h5.2.2.2.1 h5.2.2.2.2 ?_ h5.2.1 e
    obtain ⟨e1, he1, hg, -⟩ := ent_entry hr q.inv h5.2.2.2.1 h5.2.2.2.2
    rw [he, rep_entry hd.dir.rep o h3] at hg
    rw [he1, hg]

theorem attr_bits : ∀ b < 256, (b &&& 0x3F) &&& 0x10 = b &&& 0x10 ∧ (b &&& 0x3F) &&& 1 = b &&& 1 := by decide +kernel

/-- Bytes of the entry of an object. -/
theorem obj_ent {c : Bool} {t : List (List Nat)} {os : List Obj} (h : Directory c t os) {o : Obj} (ho : o ∈ os) : o.entry.length = 32 ∧ ∀ b ∈ o.entry, b < 256 :=
  h.table _ (List.mem_of_getElem? (rep_entry h.rep o ho))

theorem byte_lt {e : List Nat} (h : ∀ b ∈ e, b < 256) (k : Nat) : byte e k < 256 := by
  unfold byte
  rw [List.getD_eq_getElem?_getD]
  cases hk : e[k]? with
  | none => decide
  | some b => exact h b (List.mem_of_getElem? hk)

theorem attr_dir {o : Obj} (h : ∀ b ∈ o.entry, b < 256) : attr o.entry &&& 0x10 = byte o.entry 11 &&& 0x10 ∧ attr o.entry &&& 1 = byte o.entry 11 &&& 1 := attr_bits _ (byte_lt h 11)

/-- Where an object leads, that is a directory. -/
theorem sub_dir {v : Vol} {i : Info} {T : List Dir} {F : List (List Nat)} {s : St} (h : Tree v i T F s) {d : Dir} (hd : d ∈ T) {o : Obj} (ho : o ∈ d.os) (hs : IsDir o) : ∃ d' ∈ T, d'.sclust = first v o := by
  by_cases hdot : Dotted o
  · obtain ⟨-, -, ⟨-, h1⟩ | ⟨-, p, hp, h1, -⟩⟩ := h.dots d hd o ho hdot
    · exact ⟨d, hd, h1.symm⟩
    · exact ⟨p, hp, h1⟩
  · exact (h.subs d hd o ho hdot hs).2

/-- Outcome of following a path, for each of the places where it can lead. -/
def Arrives (v : Vol) (i : Info) (T : List Dir) (s : St) (f : Fol) : Goal → Prop
  | .badName => f.res = FR_INVALID_NAME
  | .noPath => f.res = FR_NO_PATH
  | .free d cs => f.res = FR_NO_FILE ∧ d ∈ T ∧ f.dp.sclust = d.sclust ∧ FileName cs true f.buf f.fn f.fl ∧ f.buf.length = 256
  | .self d => f.res = FR_OK ∧ d ∈ T ∧ f.dp.sclust = d.sclust ∧ f.fl = 0x80
  | .object d cs o => f.res = FR_OK ∧ d ∈ T ∧ f.dp.sclust = d.sclust ∧ (∀ c ∈ cs, NameChar c) ∧ Named cs true f.buf f.fn f.fl ∧ f.buf.length = 256 ∧ o ∈ d.os ∧ Calls cs o ∧ At v i d.loc o.pos f.dp ∧ f.st.winsect = some f.dp.sect ∧
      dirEnt v f.st f.dp = some o.entry ∧ ∃ blk, f.blk = blk.map (32 * ·) ∧ FatDir.dirFind (entries v i (view s) d.loc) f.fn f.fl f.buf = .found o.pos blk f.buf

theorem named_buf {cs : List Nat} {last : Bool} {buf fn : List Nat} {fl : Nat} (h : Named cs last buf fn fl) : buf.length = 256 := by
  by_cases hd : DotName cs
  · exact (h.dot hd).1.1
  · exact (h.name hd).2.1.1

theorem named_bits {cs : List Nat} {last : Bool} {buf fn : List Nat} {fl : Nat} (h : Named cs last buf fn fl) : (fl &&& 4 ≠ 0 ↔ last = true) ∧ (fl &&& 0x20 ≠ 0 ↔ DotName cs) ∧ fl &&& 0x80 = 0 := by
  by_cases hd : DotName cs
  · rw [(h.dot hd).2.2]
    cases last <;> exact ⟨by decide, ⟨fun _ => hd, fun _ => by decide⟩, by decide⟩
  · obtain ⟨-, -, -, hfl⟩ := h.name hd
    have key : (fl &&& 4 ≠ 0 ↔ last = true) ∧ fl &&& 0x20 = 0 ∧ fl &&& 0x80 = 0 := by
      by_cases hex : ∃ body ext, EightThree (units (trimmed cs)) body ext
      · obtain ⟨body, ext, h8⟩ := hex
        rw [hfl.short body ext h8]
        cases last <;> cases oneCase body <;> cases oneCase ext <;> cases hasLower body <;> cases hasLower ext <;> decide
      · rw [hfl.long hex]
        cases last <;> decide
    exact ⟨key.1, ⟨fun hb => absurd key.2.1 hb, fun hx => absurd hx hd⟩, key.2.2⟩

theorem arrives_quiet {v : Vol} {i : Info} (hr : Ready v i) {T : List Dir} {F : List (List Nat)} {s s' : St} (h : Tree v i T F s) (hq : Quiet v s s') {f : Fol} {g : Goal} (ha : Arrives v i T s' f g) : Arrives v i T s f g := by
  cases g with
  | badName => exact ha
  | noPath => exact ha
  | free d cs => exact ha
  | self d => exact ha
  | object d cs o =>
    obtain ⟨h1, h2, h3, h4, h5, h6, h7, h8, h9, h10, h11, h12⟩ := ha
    refine ⟨h1, h2, h3, h4, h5, h6, h7, h8, h9, h10, h11, ?_⟩
    rw [← entries_same hr (tree_linked h h2) hq.same]
    exact h12

theorem tail_shorter {t rest : List Nat} {last : Bool} (h : Tail t last rest) : rest.length < t.length := by
  cases h with
  | fin h => simp
  | @sep s b z hs => 
    cases s with
    | nil => exact absurd rfl hs
    | cons x s => simp; omega

theorem good_dot {cs : List Nat} (h : DotName cs) : Good cs := by
  rcases h with rfl | rfl <;> decide

/-- The outcome of a round. -/
theorem step_spec {v : Vol} {i : Info} {T : List Dir} {F : List (List Nat)} {s : St} (h : Tree v i T F s) {d : Dir} (hd : d ∈ T) {cs : List Nat} (hc : ∀ c ∈ cs, NameChar c)
    (hgood : Good cs) {last : Bool} {buf fn : List Nat} {fl : Nat} (hn : Named cs last buf fn fl) {g : Got} (hsc : g.dp.sclust = d.sclust) (hbuf : g.buf = buf) (hs : Seeks v i d s cs fn fl buf g) :
    (last = true ∧ ∃ f, step v fn fl g = .inl f ∧ f.st = g.st ∧ (f.res = FR_DISK_ERR ∧ ¬ Sound v ∨ ∃ G, Leads v T d [cs] G ∧ Arrives v i T s f G)) ∨
    (last = false ∧ ((∃ f, step v fn fl g = .inl f ∧ f.st = g.st ∧ (f.res = FR_DISK_ERR ∧ ¬ Sound v ∨ f.res = FR_NO_PATH ∧ ∀ l, l ≠ [] → Leads v T d (cs :: l) .noPath)) ∨
      ∃ dp d', step v fn fl g = .inr (g.st, dp) ∧ d' ∈ T ∧ dp.sclust = d'.sclust ∧ ∀ l G, Leads v T d' l G → Leads v T d (cs :: l) G)) := by
  obtain ⟨b4, b20, b80⟩ := named_bits hn
  cases hs with
  | fail h1 h2 =>
    have e : step v fn fl g = .inl ⟨g.st, g.dp, g.res, fn, fl, g.buf, none⟩ := by
      unfold step
      rw [h1, if_neg (by decide), if_neg (by decide)]
    cases last with
    | true => exact .inl ⟨rfl, _, e, rfl, .inl ⟨h1, h2⟩⟩
    | false => exact .inr ⟨rfl, .inl ⟨_, e, rfl, .inl ⟨h1, h2⟩⟩⟩
  | none h1 h2 =>
    unfold step
    rw [h1, if_neg (by decide), if_pos rfl]
    by_cases hdot : DotName cs
    · rw [if_pos (b20.mpr hdot)]
      cases last with
      | true =>
        rw [if_neg (b4.mpr rfl)]
        exact .inl ⟨rfl, _, rfl, rfl, .inr ⟨.self d, .self hdot h2, rfl, hd, hsc, rfl⟩⟩
      | false =>
        rw [if_pos (Classical.byContradiction fun hx => by cases b4.mp hx)]
        exact .inr ⟨rfl, .inr ⟨g.dp, d, rfl, hd, hsc, fun l G hl => .stay hdot h2 hl⟩⟩
    · rw [if_neg (fun hx => hdot (b20.mp hx))]
      cases last with
      | true =>
        rw [if_neg (b4.mpr rfl)]
        exact .inl ⟨rfl, _, rfl, rfl, .inr ⟨.free d cs, .free hgood hdot h2, rfl, hd, hsc, ⟨hc, hdot, by rw [hbuf]; exact hn⟩, by rw [hbuf]; exact named_buf hn⟩⟩
      | false =>
        rw [if_pos (Classical.byContradiction fun hx => by cases b4.mp hx)]
        exact .inr ⟨rfl, .inl ⟨_, rfl, rfl, .inr ⟨rfl, fun l hl => .missing hgood hdot h2 hl⟩⟩⟩
  | some o blk h1 h2 h3 h4 h5 h6 h7 h8 =>
    unfold step
    rw [if_pos h1]
    cases last with
    | true =>
      rw [if_pos (b4.mpr rfl)]
      refine .inl ⟨rfl, _, rfl, rfl, .inr ⟨.object d cs o, .object hgood h2 h3, rfl, hd, hsc, hc, by rw [hbuf]; exact hn, by rw [hbuf]; exact named_buf hn, h2, h3, h4, h5, h6, blk, h7, ?_⟩⟩
      rw [hbuf]
      exact h8
    | false =>
      rw [if_neg (fun hx => by cases b4.mp hx), h6]
      simp only
      have hent := obj_ent (h.dirs d hd).dir h2
      by_cases hsub : IsDir o
      · rw [if_neg (by rw [(attr_dir hent.2).1]; exact hsub), ld_clust hent.2 (by omega)]
        simp only
        obtain ⟨d', hd', e⟩ := sub_dir h hd h2 hsub
        exact .inr ⟨trivial, .inr ⟨_, d', rfl, hd', e.symm, fun l G hl => .enter hgood h2 h3 hsub hd' e hl⟩⟩
      · rw [if_pos (by rw [(attr_dir hent.2).1]; exact Classical.byContradiction hsub)]
        exact .inr ⟨trivial, .inl ⟨⟨g.st, g.dp, FR_NO_PATH, fn, fl, g.buf, none⟩, rfl, rfl, .inr ⟨rfl, fun l hl => .noDir hgood h2 h3 hsub hl⟩⟩⟩

theorem follow_loop {v : Vol} {i : Info} (hr : Ready v i) {T : List Dir} {F : List (List Nat)} {p : List Nat} {l : List (List Nat)} (hp : PathText p l) : ∀ {k : Nat} {s : St} {dp : Dp} {buf : List Nat} {d : Dir},
    Tree v i T F s → d ∈ T → dp.sclust = d.sclust → buf.length = 256 → p.length < k →
    Quiet v s (followLoop v i k p s dp buf).st ∧ ((followLoop v i k p s dp buf).res = FR_DISK_ERR ∧ ¬ Sound v ∨ ∃ G, Leads v T d l G ∧ Arrives v i T s (followLoop v i k p s dp buf) G) := by
  induction hp with
  | @last cs t rest hc hne ht =>
    intro k s dp buf d h hd hdp hb hk
    cases k with
    | zero => omega
    | succ k =>
      unfold followLoop
      obtain ⟨c1, c2⟩ := C74_text cs t rest buf true hc ht hb
      by_cases hgood : Good cs
      · obtain ⟨buf', fn, fl, e, hn⟩ := c1 hgood
        rw [e]
        simp only
        obtain ⟨q, h1, h2, h3⟩ := seek_dir hr h.inv (tree_linked h hd) (h.dirs d hd) hdp hc hn
        generalize DirDev.dirFind v i s dp fn fl buf' = g at q h1 h2 h3
        rcases step_spec h hd hc hgood hn (h1.trans hdp) h2 h3 with ⟨-, f, e1, e2, h4⟩ | ⟨h4, -⟩
        · rw [e1]
          simp only
          rw [e2]
          exact ⟨q, h4⟩
        · cases h4
      · rw [c2 hgood]
        exact ⟨.refl h.inv, .inr ⟨.badName, .bad hgood, rfl⟩⟩
  | @cons cs t rest l hc hne ht hp ih =>
    intro k s dp buf d h hd hdp hb hk
    have hlne : l ≠ [] := by cases hp <;> simp
    cases k with
    | zero => omega
    | succ k =>
      unfold followLoop
      obtain ⟨c1, c2⟩ := C74_text cs t rest buf false hc ht hb
      by_cases hgood : Good cs
      · obtain ⟨buf', fn, fl, e, hn⟩ := c1 hgood
        rw [e]
        simp only
        obtain ⟨q, h1, h2, h3⟩ := seek_dir hr h.inv (tree_linked h hd) (h.dirs d hd) hdp hc hn
        generalize DirDev.dirFind v i s dp fn fl buf' = g at q h1 h2 h3
        rcases step_spec h hd hc hgood hn (h1.trans hdp) h2 h3 with ⟨h4, -⟩ | ⟨-, ⟨f, e1, e2, h4⟩ | ⟨dp', d', e1, h4, h5, h6⟩⟩
        · cases h4
        · rw [e1]
          simp only
          rw [e2]
          refine ⟨q, ?_⟩
          rcases h4 with h4 | h4
          · exact .inl h4
          · exact .inr ⟨.noPath, h4.2 l hlne, h4.1⟩
        · rw [e1]
          simp only
          have hlen := tail_shorter ht
          obtain ⟨q2, h7⟩ := ih (tree_quiet hr q h) h4 h5 (named_buf hn) (k := k) (by simp at hk; omega)
          refine ⟨q.trans q2, ?_⟩
          rcases h7 with h7 | ⟨G, h7, h8⟩
          · exact .inl h7
          · exact .inr ⟨G, h6 l G h7, arrives_quiet hr h q h8⟩
      · rw [c2 hgood]
        exact ⟨.refl h.inv, .inr ⟨.badName, .bad hgood, rfl⟩⟩

end Fpm.Tree
