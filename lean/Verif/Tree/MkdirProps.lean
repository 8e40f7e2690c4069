import Verif.Tree.MkdirLemmas
/-!
# C83: making directories
-/
namespace Fpm.Tree
open Fpm.Fat Fpm.Fat.Spec Fpm.FatFile Fpm.FatFile.Spec Fpm.Lfn Fpm.Names Fpm.Names.Spec Fpm.TextIo.Spec Fpm.FatDir Fpm.FatDir.Spec Fpm.Mount Fpm.Mount.Spec Fpm.DirDev Fpm.DirDev.Spec Fpm.Tree.Spec Fpm.FatSync

/-- Making a directory by path, on a device that does not fail.  If the path leads to something that exists, to no directory, or has a bad name, nothing changes.  If it leads to a free name, either it is
refused as there is no place, and all that may have changed is that its directory has got more clusters (with free entries).  Or there is one new object with this name, a directory with nothing but `.`, which
leads to itself, and `..`, which leads to where it was made (so says `Tree`); all other directories, and all data of files, are as before, and all is on the device. -/
theorem C83_mkdir (v : Vol) (i : Info) (hr : Ready v i) (hbig : i.fsi ≠ none → 512 ≤ v.ss) (h64 : 64 ≤ v.ss) (hs : Sound v) (T : List Dir) (F : List (List Nat)) (s : St) (h : Tree v i T F s) (cdir : Nat)
    (hc : ∃ d ∈ T, d.sclust = cdir) (tm : Nat) (path : List Nat) (abs : Bool) (l : List (List Nat)) (hp : PathOf path abs l) (hff : ∀ cs ∈ l, 0xFFFF ∉ cs) (dp : Dp) (buf : List Nat) (hb : buf.length = 256) (G : Goal)
    (hG : Resolves v T cdir abs l G) (p : St × Nat) (hu : p = fMkdir v i cdir tm path s dp buf) :
    (∀ l ∈ F, ∀ n ∈ secs v l, view p.1 n = view s n) ∧
    (MkdirRefused p.2 G ∧ Tree v i T F p.1 ∧ (∀ n, ¬ Fat2 v n → view p.1 n = view s n) ∨
     ∃ d cs R, G = .free d cs ∧ T.Perm (d :: R) ∧
      (p.2 = DirDev.FR_DENIED ∧ (∃ loc, Longer d.loc loc ∧ Tree v i ({ d with loc := loc } :: R) F p.1 ∧ NoPlace v i ({ d with loc := loc } :: R) F (view p.1) { d with loc := loc } cs) ∨
       p.2 = FR_OK ∧ p.1.wflag = false ∧ ∃ T2, Made v tm cs d (d :: R) T2 ∧ Tree v i T2 F p.1)) := by
  have hfile : ∀ l ∈ F, ∀ n ∈ secs v l, ¬ Fat2 v n := fun l hl n hn => (chain_secs hr (h.chains.chain l (by simp [hl])) hn).2.1
  obtain ⟨q, h1⟩ := follow_spec hr h hc hp dp hb
  unfold fMkdir at hu
  generalize followPath v i cdir path s dp buf = f at q h1 hu
  obtain ⟨G', h1, h2⟩ := h1.resolve_left fun hx => hx.2 hs
  obtain ⟨G0, -, hun⟩ := C81_place v i T F s h cdir hc abs l
  cases (hun G' h1).trans (hun G hG).symm
  have hqt := tree_quiet hr q h
  have same : ∀ r, p = (f.st, r) → MkdirRefused r G → (∀ l ∈ F, ∀ n ∈ secs v l, view p.1 n = view s n) ∧ MkdirRefused p.2 G ∧ Tree v i T F p.1 ∧ (∀ n, ¬ Fat2 v n → view p.1 n = view s n) := by
    rintro r rfl hr'
    exact ⟨fun l hl n hn => q.same n (hfile l hl n hn), hr', hqt, q.same⟩
  unfold mkdirAt at hu
  cases G with
  | badName =>
    rw [show f.res = _ from h2, if_neg (by decide), if_neg (by decide)] at hu
    obtain ⟨a1, a2⟩ := same _ hu rfl
    exact ⟨a1, .inl a2⟩
  | noPath =>
    rw [show f.res = _ from h2, if_neg (by decide), if_neg (by decide)] at hu
    obtain ⟨a1, a2⟩ := same _ hu rfl
    exact ⟨a1, .inl a2⟩
  | self d =>
    rw [if_pos h2.1] at hu
    obtain ⟨a1, a2⟩ := same _ hu rfl
    exact ⟨a1, .inl a2⟩
  | object d cs o =>
    rw [if_pos h2.1] at hu
    obtain ⟨a1, a2⟩ := same _ hu rfl
    exact ⟨a1, .inl a2⟩
  | free d cs =>
    obtain ⟨c1, c2, c3, c4, c5⟩ := h2
    have h20 : ¬ f.fl &&& 0x20 ≠ 0 := fun hx => c4.nodot ((named_bits c4.named).2.1.mp hx)
    rw [c1, if_neg (by decide), if_pos rfl, if_neg h20] at hu
    obtain ⟨A, B, hT⟩ := List.append_of_mem c2
    have hperm : T.Perm (d :: (A ++ B)) := by rw [hT]; exact List.perm_middle
    obtain ⟨d0, -, -, hl⟩ := hG
    have hleads : Leads v T d0 l (.free d cs) := by
      rcases hl with ⟨-, hl⟩ | hl
      · cases hl
      · exact hl
    obtain ⟨hcs, hno⟩ := leads_free hleads rfl
    obtain ⟨m1, m2⟩ := mkdir_new hr hbig h64 hs (tree_perm hperm (.refl _) hqt) c3 c4 (hff cs hcs) c5 hno tm hu
    exact ⟨fun l hl n hn => (m1 l hl n hn).trans (q.same n (hfile l hl n hn)), .inr ⟨d, cs, A ++ B, rfl, hperm, m2⟩⟩

theorem leads_made {v : Vol} {T T2 : List Dir} {d d2 : Dir} {o : Obj} {cs : List Nat} (h1 : d2.sclust = d.sclust) (h2 : ∀ a, a ∈ d2.os ↔ a = o ∨ a ∈ d.os) (hdo : ¬ Dotted o) (hcall : Calls cs o) (hd2 : d2 ∈ T2)
    (hmem : ∀ q ∈ T, q = d ∨ q ∈ T2) {d0 : Dir} {l : List (List Nat)} {G : Goal} (h : Leads v T d0 l G) (hG : G = .free d cs) :
    (d0 = d → Leads v T2 d2 l (.object d2 cs o)) ∧ (d0 ≠ d → Leads v T2 d0 l (.object d2 cs o)) := by
  have hdot : ∀ c, DotName c → ¬ Calls c o := by
    intro c hc hx
    unfold Calls at hx
    rw [if_pos hc] at hx
    refine hdo ?_
    unfold Dotted
    rw [byte_take (b := pad 11 c) (by rw [show o.entry.take 11 = pad 11 c from hx]; rcases hc with rfl | rfl <;> decide) (by decide)]
    rcases hc with rfl | rfl <;> decide
  induction h with
  | bad => cases hG
  | @stay d0 c l G h3 h4 _ ih =>
    obtain ⟨i1, i2⟩ := ih hG
    refine ⟨fun e => .stay h3 (fun a ha => ?_) (i1 e), fun e => .stay h3 h4 (i2 e)⟩
    rcases (h2 a).mp ha with rfl | ha
    · exact hdot _ h3
    · exact h4 a (e ▸ ha)
  | self => cases hG
  | free h3 h4 h5 =>
    cases hG
    exact ⟨fun _ => .object h3 ((h2 o).mpr (.inl rfl)) hcall, fun hx => absurd rfl hx⟩
  | missing => cases hG
  | object => cases hG
  | noDir => cases hG
  | @enter d0 d' c l a G h3 h4 h5 h6 h7 h8 _ ih =>
    obtain ⟨i1, i2⟩ := ih hG
    by_cases hd' : d' = d
    · subst hd'
      exact ⟨fun e => .enter h3 ((h2 a).mpr (.inr (e ▸ h4))) h5 h6 hd2 (h1.trans h8) (i1 rfl), fun _ => .enter h3 h4 h5 h6 hd2 (h1.trans h8) (i1 rfl)⟩
    · have hm := (hmem d' h7).resolve_left hd'
      exact ⟨fun e => .enter h3 ((h2 a).mpr (.inr (e ▸ h4))) h5 h6 hm h8 (i2 hd'), fun _ => .enter h3 h4 h5 h6 hm h8 (i2 hd')⟩

/-- After a directory has been made, its path leads to it, and nothing is in it. -/
theorem C83_found (v : Vol) (tm : Nat) (T T2 R : List Dir) (cdir : Nat) (abs : Bool) (l : List (List Nat)) (d : Dir) (cs : List Nat) (hT : T.Perm (d :: R)) (hG : Resolves v T cdir abs l (.free d cs)) (hm : Made v tm cs d (d :: R) T2) :
    ∃ d2 o n, Resolves v T2 cdir abs l (.object d2 cs o) ∧ IsDir o ∧ n ∈ T2 ∧ n.sclust = first v o ∧ ∀ o' ∈ n.os, o'.fn = pad 11 [46] ∨ o'.fn = pad 11 [46, 46] := by
  obtain ⟨d0, hd0, hz, hl⟩ := hG
  have hl : Leads v T d0 l (.free d cs) := by
    rcases hl with ⟨-, hl⟩ | hl
    · cases hl
    · exact hl
  generalize hT1 : d :: R = T1 at hm hT
  cases hm with
  | @mk x y o a b loc n R' h1 h2 h3 h4 h5 h6 h7 h8 h9 h10 h11 _ _ =>
    cases hT1
    obtain ⟨k1, k2⟩ := leads_made (d := d) (T2 := { d with loc := loc, os := x ++ o :: y } :: n :: R) (d2 := { d with loc := loc, os := x ++ o :: y }) rfl (fun a => by rw [h1]; exact mem_new) h6 h3 (by simp) (fun q hq => by
      rcases List.mem_cons.mp (hT.mem_iff.mp hq) with e | hq
      · exact .inl e
      · exact .inr (by simp [hq])) hl rfl
    refine ⟨{ d with loc := loc, os := x ++ o :: y }, o, n, ?_, h4, by simp, h8, fun o' ho' => ?_⟩
    · by_cases e : d0 = d
      · exact ⟨_, List.mem_cons_self, by rw [← hz, e], .inr (k1 e)⟩
      · exact ⟨d0, by simp [(List.mem_cons.mp (hT.mem_iff.mp hd0)).resolve_left e], hz, .inr (k2 e)⟩
    · rw [h9] at ho'
      simp only [List.mem_cons, List.not_mem_nil, or_false] at ho'
      rcases ho' with rfl | rfl
      · exact .inl h10
      · exact .inr h11

/-! In the example `/A/c` is a free name, and the directory can be made there; `b` exists. -/

theorem tr_path_c : PathOf [47, 65, 47, 99, 0] true [[65], [99]] :=
  .segs (z := [47]) (p := [65, 47, 99, 0]) (by decide) (.cons (cs := [65]) (t := [47, 99, 0]) (rest := [99, 0]) (by decide) (by decide) (.sep (s := [47]) (b := 99) (z := [0]) (by decide) (by decide) (by decide) (by decide)) (.last (cs := [99]) (t := [0]) (rest := []) (by decide) (by decide) (.fin (by decide))))

theorem tr_leads_c : Resolves trV trT 0 true [[65], [99]] (.free trDirA [99]) := by
  refine ⟨trRoot, by simp [trT], rfl, .inr (.enter (o := ⟨0, none, trA⟩) (d' := trDirA) (by decide) (by decide) tr_calls_a (by decide) (by simp [trT]) (by decide) (.free (by decide) (by decide) ?_))⟩
  intro o ho hx
  unfold Calls at hx
  rw [if_neg (by decide)] at hx
  rcases hx with ⟨m, hm, -⟩ | ⟨body, ext, h8, e⟩
  · rw [plain_long o ho] at hm; cases hm
  · have he : [99] = body ++ if ext = [] then [] else 46 :: ext := h8.eq
    cases body with
    | nil => exact h8.ne rfl
    | cons b body =>
      rw [List.cons_append] at he
      obtain ⟨rfl, he2⟩ := List.cons.inj he
      obtain ⟨hb, he⟩ := List.append_eq_nil_iff.mp he2.symm
      subst hb
      have hx : ext = [] := by
        by_cases h : ext = []
        · exact h
        · rw [if_neg h] at he; cases he
      subst hx
      have key : ∀ o ∈ trDirA.os, o.fn ≠ form [99] [] := by decide
      exact key o ho e

example : Ready trV trI ∧ (trI.fsi ≠ none → 512 ≤ trV.ss) ∧ 64 ≤ trV.ss ∧ Sound trV ∧ Tree trV trI trT trF trS ∧ (∃ d ∈ trT, d.sclust = 0) ∧ PathOf [47, 65, 47, 99, 0] true [[65], [99]] ∧ (∀ cs ∈ [[65], [99]], 0xFFFF ∉ cs) ∧
    Resolves trV trT 0 true [[65], [99]] (.free trDirA [99]) := by
  exact ⟨tr_ready, fun h => absurd rfl h, by decide, tr_sound, tr_tree, ⟨trRoot, by simp [trT], rfl⟩, tr_path_c, by decide, tr_leads_c⟩

example : (fMkdir trV trI 0 12345 [47, 65, 47, 99, 0] trS trDp (List.replicate 256 7)).2 = FR_OK ∧ (fMkdir trV trI 0 12345 [97, 0] trS trDp (List.replicate 256 7)).2 = FR_EXIST ∧
    (fMkdir trV trI 0 12345 [99, 47, 97, 0] trS trDp (List.replicate 256 7)).2 = FR_NO_PATH ∧ (fMkdir trV trI 0 12345 [47, 65, 47, 99, 0] trS trDp (List.replicate 256 7)).1.freeClst = 0 ∧
    (fMkdir trV trI 0 12345 [99, 47, 97, 0] (fMkdir trV trI 0 12345 [99, 0] trS trDp (List.replicate 256 7)).1 trDp (List.replicate 256 7)).2 = DirDev.FR_DENIED := by decide +kernel

end Fpm.Tree
