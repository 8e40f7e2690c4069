import Verif.Tree.LooseLemmas
import Verif.Tree.OpenLemmas
/-!
# Renaming: lemmas
-/
namespace Fpm.Tree
open Fpm.Fat Fpm.Fat.Spec Fpm.FatFile Fpm.FatFile.Spec Fpm.FatBytes Fpm.FatBytes.Spec Fpm.Lfn Fpm.Names Fpm.Names.Spec Fpm.TextIo.Spec Fpm.FatDir Fpm.FatDir.Spec Fpm.Mount Fpm.Mount.Spec Fpm.DirDev Fpm.DirDev.Spec Fpm.Tree.Spec Fpm.FatSync

/-- A position in a directory that gets more clusters. -/
theorem at_longer {v : Vol} {i : Info} {loc loc' : Loc} (hl : Longer loc loc') {j : Nat} {dp : Dp} (h : At v i loc j dp) : At v i loc' j dp := by
  cases loc with
  | root =>
    have hl : loc' = .root := hl
    rw [hl]
    exact h
  | chain l =>
    obtain ⟨m, rfl⟩ := hl
    refine ⟨h.dptr, h.small, ?_, (fun hx => by cases hx), fun l' hl' => ?_⟩
    · have := h.sect
      simp only [dirSecs, secs, List.flatMap_append] at this ⊢
      obtain ⟨hlt, -⟩ := List.getElem?_eq_some_iff.mp this
      rw [List.getElem?_append_left hlt]
      exact this
    · cases hl'
      have := h.clust l rfl
      obtain ⟨hlt, -⟩ := List.getElem?_eq_some_iff.mp this
      rw [List.getElem?_append_left hlt]
      exact this

theorem rep_sorted {c : Bool} {i : Nat} {t : List (List Nat)} {os : List Obj} (h : Rep c i t os) : os.Pairwise fun a b => a.pos < b.pos := by
  induction h with
  | nil => exact .nil
  | fin => exact .nil
  | skip _ _ _ ih => exact ih
  | @obj i j es s long t os _ _ _ h4 ih =>
    refine List.pairwise_cons.mpr ⟨fun o ho => ?_, ih⟩
    have := (rep_pos h4 o ho).1
    simp only
    omega

theorem rep_inj {c : Bool} {i : Nat} {t : List (List Nat)} {os : List Obj} (h : Rep c i t os) {x y : List Obj} {o : Obj} (hos : os = x ++ o :: y) : ∀ a ∈ x ++ y, a.pos ≠ o.pos := by
  have hs := rep_sorted h
  rw [hos] at hs
  obtain ⟨-, h2, h3⟩ := List.pairwise_append.mp hs
  intro a ha
  rcases List.mem_append.mp ha with ha | ha
  · have := h3 a ha o (by simp)
    omega
  · have := (List.pairwise_cons.mp h2).1 a ha
    omega

/-- Where the long name of an object that is found starts. -/
theorem found_blk {t : List (List Nat)} {os : List Obj} (h : Directory true t os) {cs : List Nat} {last : Bool} {buf fn : List Nat} {fl : Nat} (hf : FileName cs last buf fn fl) {o : Obj} (ho : o ∈ os) {blk : Option Nat} {buf' : List Nat}
    (hfind : FatDir.dirFind t fn fl buf = .found o.pos blk buf') : blk.getD o.pos = o.pos - width o := by
  obtain ⟨hn, hb, -, hfl⟩ := hf.named.name hf.nodot
  rcases find_all (fn := fn) (fl := fl) (name_of hf) hb h.rep h.table with ⟨h1, -⟩ | ⟨a, o2, b, blk2, h1, -, -, h2, h3⟩
  · rw [h1] at hfind
    cases hfind
  · rw [h2] at hfind
    injection hfind with e1 e2 e3
    have hz := zip_blk (h3 (flags_bits hfl).2.1)
    have : o = o2 := by
      rw [h1] at ho
      rcases mem_new.mp ho with ho | ho
      · exact ho
      · exact absurd e1.symm (rep_inj h.rep h1 o ho)
    subst this
    rw [← e2]
    exact hz.1

/-- The entry under the new name. -/
theorem rename_entry {v : Vol} {e b : List Nat} (he : e.length = 32 ∧ ∀ x ∈ e, x < 256) (hb : b.length = 32 ∧ ∀ x ∈ b, x < 256) {r : List Nat} (hr : r = renameEntry e b) :
    (r.length = 32 ∧ ∀ x ∈ r, x < 256) ∧ r.take 11 = e.take 11 ∧ byte r 11 = (if byte b 11 &&& 0x10 ≠ 0 then byte b 11 else byte b 11 ||| 0x20) ∧ r.drop 13 = b.drop 13 ∧ FatSync.Spec.first v r 0 = FatSync.Spec.first v b 0 ∧
      FatSync.Spec.field r 28 4 = FatSync.Spec.field b 28 4 ∧ byte r 12 = byte e 12 := by
  unfold renameEntry at hr
  have hlt : (e.take 13).length = 13 := by rw [List.length_take]; omega
  have hout : ∀ k, 13 ≤ k → r[k]? = b[k]? := by
    intro k hk
    rw [hr, List.getElem?_set_ne (by omega), List.getElem?_append_right (by omega), hlt, List.getElem?_drop]
    congr 1
    omega
  have hlen : r.length = 32 := by
    rw [hr]
    simp
    omega
  have hby : byte b 11 < 256 := byte_lt hb.2 11
  have ha : (if byte b 11 &&& 0x10 = 0 then byte b 11 ||| 0x20 else byte b 11) < 256 := by
    split
    · exact Nat.or_lt_two_pow (n := 8) hby (by decide)
    · exact hby
  refine ⟨⟨hlen, fun x hx => ?_⟩, ?_, ?_, ?_, ?_, field_out fun k h1 h2 => hout k (by omega), ?_⟩
  · rw [hr] at hx
    rcases List.mem_or_eq_of_mem_set hx with hx | hx
    · rcases List.mem_append.mp hx with hx | hx
      · exact he.2 x (List.mem_of_mem_take hx)
      · exact hb.2 x (List.mem_of_mem_drop hx)
    · rw [hx]
      exact ha
  · refine take_eq fun k hk => ?_
    rw [hr, List.getElem?_set_ne (by omega), List.getElem?_append_left (by omega), List.getElem?_take_of_lt (by omega)]
  · rw [hr]
    unfold byte
    rw [List.getD_eq_getElem?_getD, List.getElem?_set_self (by simp; omega), Option.getD_some]
    by_cases hx : b.getD 11 0 &&& 0x10 = 0
    · rw [if_pos hx, if_neg (fun hy => hy hx)]
    · rw [if_neg hx, if_pos hx]
  · refine List.ext_getElem? fun k => ?_
    rw [List.getElem?_drop, List.getElem?_drop, hout _ (by omega)]
  · unfold FatSync.Spec.first
    rw [field_out fun k h1 h2 => hout k (by omega), field_out fun k h1 h2 => hout k (by omega)]
  · rw [hr]
    unfold byte
    rw [List.getD_eq_getElem?_getD, List.getD_eq_getElem?_getD, List.getElem?_set_ne (by omega), List.getElem?_append_left (by omega), List.getElem?_take_of_lt (by omega), List.getD_eq_getElem?_getD]

/-- Names with the new one. -/
theorem new_namesok {cs : List Nat} {last : Bool} {buf fn : List Nat} {fl : Nat} (hf : FileName cs last buf fn fl) {os os' : List Obj} {o : Obj} (h : NewObj (units (trimmed cs)) fn fl os o) (hsub : ∀ a ∈ os', a ∈ os) (hn : NamesOk os')
    (hno : ∀ a ∈ os', ¬ Means (units (trimmed cs)) a) {e : List Nat} (he : e.take 11 = o.entry.take 11) : NamesOk ({ o with entry := e } :: os') := by
  obtain ⟨-, -, hfo, hfl⟩ := hf.named.name hf.nodot
  have hnew : NewObj (units (trimmed cs)) fn fl ([] ++ os') o := ⟨h.long, h.entry, h.ok, h.same, fun o' ho' => h.fresh o' (hsub o' ho')⟩
  refine ⟨names_update (x := []) (o := o) he rfl (new_names hfo hfl hnew hn.1 hno), fun a ha => ?_⟩
  rcases List.mem_cons.mp ha with rfl | ha
  · show o.long ≠ _ ∧ o.long ≠ _
    rw [h.long]
    split
    · obtain ⟨e1, e2⟩ := name_nodot hf
      exact ⟨fun h => e1 (Option.some.inj h), fun h => e2 (Option.some.inj h)⟩
    · exact ⟨(fun h => by cases h), (fun h => by cases h)⟩
  · exact hn.2 a ha

theorem tree_namesok {v : Vol} {i : Info} {T : List Dir} {F : List (List Nat)} {s : St} (h : Tree v i T F s) : ∀ d ∈ T, NamesOk d.os := fun d hd => ⟨(h.dirs d hd).names, (h.dirs d hd).nodot⟩

theorem base_tree {v : Vol} {i : Info} {T : List Dir} {F : List (List Nat)} {s : St} (h : Base v i T F s) (hs : Shape v T F) (hn : ∀ d ∈ T, NamesOk d.os) : Tree v i T F s :=
  tree_of h.inv h.count h.chains (fun d hd => ⟨h.starts d hd, h.dirs d hd, (hn d hd).1, (hn d hd).2⟩) hs

/-- What is needed to give an object a new name. -/
structure Ready2 (v : Vol) (i : Info) (T : List Dir) (F : List (List Nat)) (s : St) (d : Dir) (o : Obj) (dp : Dp) (blk : Option Nat) (n : Dir) (cs : List Nat) (dpn : Dp) (buf fn : List Nat) (fl : Nat) : Prop where
  tree : Tree v i T F s
  mem : d ∈ T
  obj : o ∈ d.os
  nodots : ¬ Dotted o
  start : dp.sclust = d.sclust
  place : At v i d.loc o.pos dp
  block : blk.getD o.pos = o.pos - width o
  memN : n ∈ T
  startN : dpn.sclust = n.sclust
  name : FileName cs true buf fn fl
  clean : 0xFFFF ∉ cs
  len : buf.length = 256
  free : (∀ a ∈ n.os, ¬ Means (units (trimmed cs)) a) ∨ n = d ∧ Means (units (trimmed cs)) o
  dots : IsDir o → ∀ q ∈ T, q.sclust = first v o → DotsSecond q

theorem rename_spec {v : Vol} {i : Info} (hr : Ready v i) (hbig : i.fsi ≠ none → 512 ≤ v.ss) (h64 : 64 ≤ v.ss) (hs : Sound v) {T : List Dir} {F : List (List Nat)} {s : St} {d : Dir} {o : Obj} {f : Fol} {blk : Option Nat} (hfb : f.blk = blk.map (32 * ·)) {n : Dir} {cs : List Nat} {dpn : Dp}
    {buf fn : List Nat} {fl : Nat} (h : Ready2 v i T F s d o f.dp blk n cs dpn buf fn fl) {p : St × Nat} (hp : p = renameEnd v i f (renameNew v f.dp.sclust o.entry (dirRegister v i s dpn fn fl buf))) :
    Alike v F s p.1 ∧
    ((∃ R loc, T.Perm (n :: R) ∧ p.2 = DirDev.FR_DENIED ∧ Longer n.loc loc ∧ Tree v i ({ n with loc := loc } :: R) F p.1 ∧ NoEntry v i ({ n with loc := loc } :: R) F (view p.1) { n with loc := loc } cs) ∨
     p.2 = FR_OK ∧ ∃ T', Renamed v d n cs o T T' ∧ Tree v i T' F p.1 ∧ p.1.wflag = false) := by
  have ht := h.tree
  obtain ⟨A, B, hAB⟩ := List.append_of_mem h.memN
  have hperm : T.Perm (n :: (A ++ B)) := by rw [hAB]; exact List.perm_middle
  have hb0 := base_perm hperm (tree_base ht)
  generalize hR : A ++ B = R at hperm hb0
  clear hR hAB A B
  obtain ⟨g1, g2⟩ := base_register hr hb0 h.startN h.name h.clean h.len (g := dirRegister v i s dpn fn fl buf) rfl
  generalize dirRegister v i s dpn fn fl buf = g at g1 g2 hp
  unfold renameNew at hp
  rcases g2.resolve_left fun hx => hx.2 hs with ⟨g2, loc, g3, g4, g5, g6⟩ | ⟨g2, loc, x, o1, y, g3, g4, g5, g6, g7, g8, g9, g10⟩
  · -- no place
    rw [if_neg (by rw [g2]; decide)] at hp
    unfold renameEnd at hp
    rw [if_neg (show ¬ g.res = FR_OK by rw [g2]; decide), g2] at hp
    subst hp
    refine ⟨g5, .inl ⟨R, loc, hperm, rfl, g3, ?_, _, _, _, h.name, ?_⟩⟩
    · refine base_tree g4 (shape_loc (tree_shape (tree_perm hperm (.refl F) ht)) rfl rfl) fun q hq => ?_
      rcases List.mem_cons.mp hq with rfl | hq
      · exact tree_namesok ht n h.memN
      · exact tree_namesok ht q (hperm.mem_iff.mpr (by simp [hq]))
    · rcases g6 with ⟨g6, g7⟩ | g6
      · refine .inl ⟨g6.imp id fun g6 => g6.imp id fun g6 => ?_, g7⟩
        rw [allchains_cons R F n loc n.os] at g6
        exact g6
      · exact .inr g6
  -- the new entry
  have hent := obj_ent (ht.dirs d h.mem).dir h.obj
  have hent1 := obj_ent (g6.dirs _ List.mem_cons_self) (o := o1) (by simp)
  obtain ⟨r1, r2, r3, r4, r5, r6, r7⟩ := rename_entry (v := v) hent1 hent (r := renameEntry o1.entry o.entry) rfl
  obtain ⟨n1, n2, n3, n4, n5, n6⟩ := new_entry (v := v) g5
  have hsf := rep_sfn (ht.dirs d h.mem).dir.rep o h.obj
  have hsf1 := rep_sfn (g6.dirs _ List.mem_cons_self).rep o1 (by simp)
  have hatt8 : byte (renameEntry o1.entry o.entry) 11 &&& 8 = 0 := by
    rw [r3]
    split
    · exact hsf.attr
    · rw [Nat.and_or_distrib_right, hsf.attr]
      rfl
  rw [if_pos g2, g9] at hp
  dsimp only at hp
  unfold renamePut at hp
  obtain ⟨b1, a1⟩ := base_set hr g6 (o := o1) (x := x) (y := y) rfl g8 g10 r2 ⟨by rw [byte_take r2 (by decide)]; exact hsf1.used, hatt8⟩ r1
  generalize hs1 : setEnt v g.st g.dp (renameEntry o1.entry o.entry) = s1 at hp b1 a1
  generalize ho' : ({ o1 with entry := renameEntry o1.entry o.entry } : Obj) = o' at b1
  have hent' : o'.entry = renameEntry o1.entry o.entry := by rw [← ho']
  have hcar : Carried v o o' := by
    refine ⟨?_, ?_, ?_, ?_⟩
    · unfold first; rw [hent']; exact r5
    · unfold size; rw [hent']; exact r6
    · rw [hent', r3]; rfl
    · rw [hent']; exact r4
  have hdo' : ¬ Dotted o' := by
    unfold Dotted at n1 ⊢
    rw [hent', byte_take r2 (by decide)]
    exact n1
  have hcall : Calls cs o' := by
    rw [← ho']
    refine calls_update r2 ?_
    unfold Calls
    rw [if_neg (show ¬ DotName cs from h.name.nodot)]
    exact new_means h.name g5
  have hspell : Spelled cs o' := by
    rw [← ho']
    by_cases h2 : fl &&& 2 ≠ 0
    · exact .inl (by rw [← ho'] at hcall; show o1.long = _; rw [g5.long, if_pos h2])
    · refine .inr ⟨by show o1.long = _; rw [g5.long, if_neg h2], ?_⟩
      obtain ⟨-, -, -, hfl⟩ := h.name.named.name h.name.nodot
      have h2 : fl &&& 2 = 0 := by omega
      refine C74_short cs buf fn _ fl true h.name.named h.name.nodot h2 (r2.trans (g5.same ((flags_bits hfl).2.2.2 h2))) (r7.trans ?_)
      refine byte_at ?_
      rw [g5.entry, List.getElem?_append_left (by simp [g5.ok.1]), List.getElem?_append_right (by rw [g5.ok.1]; decide), g5.ok.1]
      rfl
  have hadd : Added n o' T ({ n with loc := loc, os := x ++ o' :: y } :: R) := ⟨x, y, loc, R, g4, g3, hperm, .refl _⟩
  have hal := g7.trans a1
  generalize hT1 : ({ n with loc := loc, os := x ++ o' :: y } : Dir) :: R = T1 at b1 hadd
  have honce1 := b1.once
  have hok := tree_namesok ht
  -- names after adding
  have hnames1 : (∀ a ∈ n.os, ¬ Means (units (trimmed cs)) a) → ∀ q ∈ T1, NamesOk q.os := by
    intro hfree
    refine added_names hadd hok ?_
    rw [← ho']
    exact new_namesok h.name g5 (fun a ha => ha) (hok n h.memN) hfree r2
  have hcross : d.sclust ≠ n.sclust → ∀ a ∈ n.os, ¬ Means (units (trimmed cs)) a := fun hx => h.free.resolve_right fun hy => hx (by rw [hy.1])
  -- the entry `..`
  have hturn : ∃ q : St × Nat, p = renameEnd v i f q ∧ q.2 = FR_OK ∧ ∃ T2, Base v i T2 F q.1 ∧ Alike v F s1 q.1 ∧ (if IsDir o ∧ d.sclust ≠ n.sclust then Turned v (first v o) n.sclust T1 T2 else T2 = T1) := by
    by_cases hx : IsDir o ∧ d.sclust ≠ n.sclust
    · rw [if_pos ⟨hx.1, by rw [h.start, g1]; exact hx.2⟩, ld_clust r1.2 (by omega)] at hp
      dsimp only at hp
      rw [show FatSync.Spec.first v (renameEntry o1.entry o.entry) 0 = first v o from r5, g1] at hp
      obtain ⟨hz, q0, hq0, hq0s⟩ := ht.subs d h.mem o h.obj h.nodots hx.1
      obtain ⟨b, hb, hbp, hbf⟩ := h.dots hx.1 q0 hq0 hq0s
      obtain ⟨q, hq, hqs, -, hqo⟩ := added_keep hadd q0 hq0
      obtain ⟨A, B, hAB⟩ := List.append_of_mem hq
      have hqp : T1.Perm (q :: (A ++ B)) := by rw [hAB]; exact List.perm_middle
      obtain ⟨x2, y2, hxy⟩ := List.append_of_mem (hqo b hb)
      have hqc : q.sclust = first v o := hqs.trans hq0s
      rcases base_dots hr h64 (base_perm hqp b1) (by rw [hqc]; exact hz) hxy hbp hbf (sclust_lt hr ht h.memN) (p := renameSub v s1 (first v o) n.sclust) (by rw [hqc]) with ⟨-, k⟩ | ⟨k1, e, k2, k3, k4, k5⟩
      · exact absurd hs k
      · refine ⟨_, hp, k1, _, k4, k5, ?_⟩
        rw [if_pos hx]
        exact ⟨q, x2, y2, b, e, A ++ B, hqc, hxy, hbf, k2, k3, hqp, .refl _⟩
    · rw [if_neg (by rw [h.start, g1]; exact hx)] at hp
      exact ⟨_, hp, rfl, T1, b1, fun l hl n hn => rfl, by rw [if_neg hx]⟩
  obtain ⟨q, hp, hq, T2, b2, a2, hturn⟩ := hturn
  clear hs1
  -- the old entry
  have hkeep : ∃ d2 ∈ T2, d2.sclust = d.sclust ∧ Longer d.loc d2.loc ∧ o ∈ d2.os := by
    obtain ⟨d1, hd1, e1, e2, e3⟩ := added_keep hadd d h.mem
    by_cases hx : IsDir o ∧ d.sclust ≠ n.sclust
    · rw [if_pos hx] at hturn
      obtain ⟨d2, hd2, f1, f2, f3⟩ := turned_keep hturn d1 hd1
      exact ⟨d2, hd2, f1.trans e1, by rw [f2]; exact e2, f3 o (e3 o h.obj) h.nodots⟩
    · rw [if_neg hx] at hturn
      subst hturn
      exact ⟨d1, hd1, e1, e2, e3 o h.obj⟩
  obtain ⟨d2, hd2, e1, e2, e3⟩ := hkeep
  obtain ⟨A, B, hAB⟩ := List.append_of_mem hd2
  have hdp : T2.Perm (d2 :: (A ++ B)) := by rw [hAB]; exact List.perm_middle
  obtain ⟨x3, y3, hxy⟩ := List.append_of_mem e3
  have hrem := base_remove hr (base_perm hdp b2) (dp := f.dp) (h.start.trans e1.symm) hxy (at_longer e2 h.place) h.block (r := dirRemove v i q.1 f.dp (blk.map (32 * ·))) rfl
  unfold renameEnd at hp
  rw [if_pos hq, hfb] at hp
  generalize dirRemove v i q.1 f.dp (blk.map (32 * ·)) = r at hp hrem
  obtain ⟨k1, k2, k3⟩ := hrem.resolve_left fun hx => hx.2 hs
  have hdrop : Dropped d.sclust o T2 ({ d2 with os := x3 ++ y3 } :: (A ++ B)) := ⟨d2, x3, y3, A ++ B, e1, hxy, hdp, .refl _⟩
  generalize hT3 : ({ d2 with os := x3 ++ y3 } : Dir) :: (A ++ B) = T3 at k2 hdrop
  have hne : d.sclust = n.sclust → o'.pos ≠ o.pos := by
    intro hsc hx
    obtain ⟨d1, hd1, f1, -, f3⟩ := added_keep hadd d h.mem
    rw [← hT1] at hd1
    have honce : (({ n with loc := loc, os := x ++ o' :: y } :: R).map Dir.sclust).Nodup := by rw [hT1]; exact honce1
    cases dir_unique honce hd1 List.mem_cons_self (f1.trans hsc)
    have ho : o ∈ x ++ y := by
      rw [← g4, ← dir_unique ht.once h.mem h.memN hsc]
      exact h.obj
    exact rep_inj (b1.dirs _ (by rw [← hT1]; exact List.mem_cons_self)).rep rfl o ho hx.symm
  have hshape := renamed_shape ht h.mem h.obj h.nodots hadd hdo' hcar hturn hdrop (fun hx e => hne hx (by rw [e])) fun hx q hq => (hnames1 (hcross hx) q hq).1
  have hnames : ∀ q ∈ T3, NamesOk q.os := by
    by_cases hfree : ∀ a ∈ n.os, ¬ Means (units (trimmed cs)) a
    · refine dropped_names hdrop ?_
      by_cases hx : IsDir o ∧ d.sclust ≠ n.sclust
      · rw [if_pos hx] at hturn
        exact turned_names hturn (hnames1 hfree)
      · rw [if_neg hx] at hturn
        rw [hturn]
        exact hnames1 hfree
    · obtain ⟨rfl, hm⟩ := h.free.resolve_left hfree
      rw [if_neg (fun hx => hx.2 rfl)] at hturn
      subst hturn
      obtain ⟨a, b, hab⟩ := List.append_of_mem h.obj
      have hok' := hok n h.memN
      refine swapped_names ht.once hadd hdrop hok hab ?_
      rw [← ho']
      have hleft : NamesOk (a ++ b) := by
        rw [hab] at hok'
        exact namesok_left (namesok_perm List.perm_middle hok')
      refine new_namesok h.name g5 (fun c hc => by rw [hab]; exact mem_new.mpr (.inr hc)) hleft (fun c hc hcm => ?_) r2
      have hc' : ∀ w : Obj, Means (units (trimmed cs)) w → Calls cs w := fun w hw => by unfold Calls; rw [if_neg (show ¬ DotName cs from h.name.nodot)]; exact hw
      have : c = o := calls_unique hok'.1 (by rw [hab]; exact mem_new.mpr (.inr hc)) h.obj (hc' c hcm) (hc' o hm)
      exact rep_inj (ht.dirs n h.memN).dir.rep hab c hc (by rw [this])
  have htree := base_tree k2 hshape hnames
  unfold synced at hp
  rw [if_pos k1] at hp
  obtain ⟨m1, m2, m3, m4⟩ := tree_synced hr hbig hs htree
  rw [hp]
  exact ⟨hal.trans (a2.trans (k3.trans m4)), .inr ⟨m1, T3, ⟨o', T1, T2, hadd, hcall, hspell, hdo', hne, hcar, hturn, hdrop⟩, m2, m3⟩⟩

end Fpm.Tree
