import Verif.Tree.DotsLemmas
/-!
# Renaming: lemmas without the device
-/
namespace Fpm.Tree
open Fpm.Fat Fpm.Fat.Spec Fpm.FatFile Fpm.FatFile.Spec Fpm.FatBytes Fpm.FatBytes.Spec Fpm.Lfn Fpm.Names Fpm.Names.Spec Fpm.TextIo.Spec Fpm.FatDir Fpm.FatDir.Spec Fpm.Mount Fpm.Mount.Spec Fpm.DirDev Fpm.DirDev.Spec Fpm.Tree.Spec Fpm.FatSync

/-- `Shape`, but two objects may share clusters. -/
structure Loose (v : Vol) (T : List Dir) (F : List (List Nat)) : Prop where
  root : ∃ d ∈ T, d.sclust = 0
  once : (T.map Dir.sclust).Nodup
  files : ∀ d ∈ T, ∀ o ∈ d.os, ¬ Dotted o → ¬ IsDir o → FileOk v F o
  subs : ∀ d ∈ T, ∀ o ∈ d.os, ¬ Dotted o → IsDir o → SubOk v T o
  dots : ∀ d ∈ T, ∀ o ∈ d.os, Dotted o → DotOk v T d o

theorem tree_loose {v : Vol} {i : Info} {T : List Dir} {F : List (List Nat)} {s : St} (h : Tree v i T F s) : Loose v T F := ⟨h.root, h.once, h.files, h.subs, h.dots⟩

theorem mem_sclusts {T : List Dir} {k : Nat} : (∃ d ∈ T, d.sclust = k) ↔ k ∈ T.map Dir.sclust := by simp

theorem loose_of {v : Vol} {T T' : List Dir} {F : List (List Nat)} (h : Loose v T F) (hsc : (T'.map Dir.sclust).Perm (T.map Dir.sclust))
    (hb : ∀ p' ∈ T', ∃ p ∈ T, p.sclust = p'.sclust ∧ ∀ o ∈ p'.os, o ∈ p.os ∨ (¬ Dotted o ∧ (¬ IsDir o → FileOk v F o) ∧ (IsDir o → SubOk v T o)) ∨ (Dotted o ∧ DotOk v T' p' o))
    (hw : ∀ p' ∈ T', ∀ c ∈ p'.os, Dotted c → c.fn = pad 11 [46, 46] → ∀ r ∈ T, r.sclust = first v c → ∀ w ∈ r.os, ¬ Dotted w → IsDir w → first v w = p'.sclust →
      ∃ r' ∈ T', r'.sclust = r.sclust ∧ ∃ w' ∈ r'.os, ¬ Dotted w' ∧ IsDir w' ∧ first v w' = p'.sclust) : Loose v T' F := by
  have hsub : ∀ o, SubOk v T o → SubOk v T' o := fun o ho => ⟨ho.1, mem_sclusts.mpr (hsc.mem_iff.mpr (mem_sclusts.mp ho.2))⟩
  refine ⟨mem_sclusts.mpr (hsc.mem_iff.mpr (mem_sclusts.mp h.root)), hsc.nodup_iff.mpr h.once, fun p' hp' o ho h1 h2 => ?_, fun p' hp' o ho h1 h2 => ?_, fun p' hp' o ho h1 => ?_⟩
  · obtain ⟨p, hp, -, hx⟩ := hb p' hp'
    rcases hx o ho with hx | hx | hx
    · exact h.files p hp o hx h1 h2
    · exact hx.2.1 h2
    · exact absurd hx.1 h1
  · obtain ⟨p, hp, -, hx⟩ := hb p' hp'
    rcases hx o ho with hx | hx | hx
    · exact hsub o (h.subs p hp o hx h1 h2)
    · exact hsub o (hx.2.2 h2)
    · exact absurd hx.1 h1
  · obtain ⟨p, hp, hps, hx⟩ := hb p' hp'
    rcases hx o ho with hx | hx | hx
    · obtain ⟨a1, a2, a3⟩ := h.dots p hp o hx h1
      refine ⟨a1, a2, ?_⟩
      rcases a3 with ⟨a3, a4⟩ | ⟨a3, r, hr, a4, w, hw1, hw2, hw3, hw4⟩
      · exact .inl ⟨a3, by rw [a4, hps]⟩
      · obtain ⟨r', hr', e, hw'⟩ := hw p' hp' o ho h1 a3 r hr a4 w hw1 hw2 hw3 (by rw [hw4, hps])
        exact .inr ⟨a3, r', hr', e.trans a4, hw'⟩
    · exact absurd h1 hx.1
    · exact hx.2

theorem added_sclust {d : Dir} {o : Obj} {T T' : List Dir} (h : Added d o T T') : (T'.map Dir.sclust).Perm (T.map Dir.sclust) := by
  obtain ⟨x, y, loc, R, -, -, h1, h2⟩ := h
  exact (h2.map Dir.sclust).trans (by rw [List.map_cons]; exact (h1.map Dir.sclust).symm)

theorem turned_sclust {v : Vol} {k n : Nat} {T T' : List Dir} (h : Turned v k n T T') : (T'.map Dir.sclust).Perm (T.map Dir.sclust) := by
  obtain ⟨d, x, y, b, e, R, -, -, -, -, -, h1, h2⟩ := h
  exact (h2.map Dir.sclust).trans (by rw [List.map_cons]; exact (h1.map Dir.sclust).symm)

theorem dropped_sclust {k : Nat} {o : Obj} {T T' : List Dir} (h : Dropped k o T T') : (T'.map Dir.sclust).Perm (T.map Dir.sclust) := by
  obtain ⟨d, x, y, R, -, -, h1, h2⟩ := h
  exact (h2.map Dir.sclust).trans (by rw [List.map_cons]; exact (h1.map Dir.sclust).symm)

/-- Objects after adding one. -/
theorem added_back {d : Dir} {o : Obj} {T T' : List Dir} (h : Added d o T T') : ∀ p' ∈ T', ∃ p ∈ T, p.sclust = p'.sclust ∧ ∀ o' ∈ p'.os, o' ∈ p.os ∨ o' = o ∧ p = d := by
  obtain ⟨x, y, loc, R, hos, -, h1, h2⟩ := h
  intro p' hp'
  rcases List.mem_cons.mp (h2.mem_iff.mp hp') with rfl | hp
  · refine ⟨d, h1.mem_iff.mpr (by simp), rfl, fun o' ho' => ?_⟩
    rcases mem_new.mp ho' with ho' | ho'
    · exact .inr ⟨ho', rfl⟩
    · exact .inl (by rw [hos]; exact ho')
  · exact ⟨p', h1.mem_iff.mpr (by simp [hp]), rfl, fun o' ho' => .inl ho'⟩

theorem added_keep {d : Dir} {o : Obj} {T T' : List Dir} (h : Added d o T T') : ∀ p ∈ T, ∃ p' ∈ T', p'.sclust = p.sclust ∧ Longer p.loc p'.loc ∧ ∀ o' ∈ p.os, o' ∈ p'.os := by
  obtain ⟨x, y, loc, R, hos, hl, h1, h2⟩ := h
  intro p hp
  rcases List.mem_cons.mp (h1.mem_iff.mp hp) with rfl | hp
  · exact ⟨_, h2.mem_iff.mpr List.mem_cons_self, rfl, hl, fun o' ho' => mem_new.mpr (.inr (by rw [← hos]; exact ho'))⟩
  · exact ⟨p, h2.mem_iff.mpr (by simp [hp]), rfl, .refl _, fun o' ho' => ho'⟩

theorem added_in {d : Dir} {o : Obj} {T T' : List Dir} (h : Added d o T T') : ∃ d' ∈ T', d'.sclust = d.sclust ∧ o ∈ d'.os := by
  obtain ⟨x, y, loc, R, hos, hl, h1, h2⟩ := h
  exact ⟨_, h2.mem_iff.mpr List.mem_cons_self, rfl, by simp⟩

/-- The name `..` is one of the dotted ones. -/
theorem dotted_fn {o : Obj} (h : o.fn = pad 11 [46, 46]) : Dotted o := by
  unfold Dotted
  rw [byte_take (a := o.entry) (b := o.fn) (by rw [Obj.fn, List.take_take, Nat.min_self]) (by omega), h]
  decide

theorem entry_fn {a b : List Nat} (h : a.take 20 = b.take 20) : a.take 11 = b.take 11 := by
  have := congrArg (List.take 11) h
  rwa [List.take_take, List.take_take] at this

theorem entry_attr {a b : List Nat} (h : a.take 20 = b.take 20) : byte a 11 = byte b 11 := by
  have : (a.take 20)[11]? = (b.take 20)[11]? := by rw [h]
  rw [List.getElem?_take_of_lt (by omega), List.getElem?_take_of_lt (by omega)] at this
  unfold byte
  rw [List.getD_eq_getElem?_getD, List.getD_eq_getElem?_getD, this]

theorem turned_back {v : Vol} {k n : Nat} {T T' : List Dir} (h : Turned v k n T T') :
    ∀ p' ∈ T', ∃ p ∈ T, p.sclust = p'.sclust ∧ ∀ o' ∈ p'.os, o' ∈ p.os ∨ p'.sclust = k ∧ ∃ b ∈ p.os, b.fn = pad 11 [46, 46] ∧ o'.fn = b.fn ∧ o'.long = b.long ∧ byte o'.entry 11 = byte b.entry 11 ∧ first v o' = n := by
  obtain ⟨d, x, y, b, e, R, hk, hos, hb, he, hn, h1, h2⟩ := h
  intro p' hp'
  rcases List.mem_cons.mp (h2.mem_iff.mp hp') with rfl | hp
  · refine ⟨d, h1.mem_iff.mpr (by simp), rfl, fun o' ho' => ?_⟩
    rcases mem_new.mp ho' with rfl | ho'
    · exact .inr ⟨hk, b, by rw [hos]; simp, hb, entry_fn he, rfl, entry_attr he, hn⟩
    · exact .inl (by rw [hos]; exact mem_new.mpr (.inr ho'))
  · exact ⟨p', h1.mem_iff.mpr (by simp [hp]), rfl, fun o' ho' => .inl ho'⟩

theorem turned_keep {v : Vol} {k n : Nat} {T T' : List Dir} (h : Turned v k n T T') : ∀ p ∈ T, ∃ p' ∈ T', p'.sclust = p.sclust ∧ p'.loc = p.loc ∧ ∀ o' ∈ p.os, ¬ Dotted o' → o' ∈ p'.os := by
  obtain ⟨d, x, y, b, e, R, hk, hos, hb, he, hn, h1, h2⟩ := h
  intro p hp
  rcases List.mem_cons.mp (h1.mem_iff.mp hp) with rfl | hp
  · refine ⟨_, h2.mem_iff.mpr List.mem_cons_self, rfl, rfl, fun o' ho' hd => ?_⟩
    rw [hos] at ho'
    rcases mem_new.mp ho' with rfl | ho'
    · exact absurd (dotted_fn hb) hd
    · exact mem_new.mpr (.inr ho')
  · exact ⟨p, h2.mem_iff.mpr (by simp [hp]), rfl, rfl, fun o' ho' _ => ho'⟩

theorem dropped_back {k : Nat} {o : Obj} {T T' : List Dir} (h : Dropped k o T T') : ∀ p' ∈ T', ∃ p ∈ T, p.sclust = p'.sclust ∧ ∀ o' ∈ p'.os, o' ∈ p.os := by
  obtain ⟨d, x, y, R, hk, hos, h1, h2⟩ := h
  intro p' hp'
  rcases List.mem_cons.mp (h2.mem_iff.mp hp') with rfl | hp
  · exact ⟨d, h1.mem_iff.mpr (by simp), rfl, fun o' ho' => by rw [hos]; exact mem_new.mpr (.inr ho')⟩
  · exact ⟨p', h1.mem_iff.mpr (by simp [hp]), rfl, fun o' ho' => ho'⟩

theorem dropped_keep {k : Nat} {o : Obj} {T T' : List Dir} (h : Dropped k o T T') : ∀ p ∈ T, ∃ p' ∈ T', p'.sclust = p.sclust ∧ ∀ o' ∈ p.os, o' ∈ p'.os ∨ o' = o ∧ p.sclust = k := by
  obtain ⟨d, x, y, R, hk, hos, h1, h2⟩ := h
  intro p hp
  rcases List.mem_cons.mp (h1.mem_iff.mp hp) with rfl | hp
  · refine ⟨_, h2.mem_iff.mpr List.mem_cons_self, rfl, fun o' ho' => ?_⟩
    rw [hos] at ho'
    exact (mem_new.mp ho').symm.imp id fun hx => ⟨hx, hk⟩
  · exact ⟨p, h2.mem_iff.mpr (by simp [hp]), rfl, fun o' ho' => .inl ho'⟩

theorem added_loose {v : Vol} {d : Dir} {o : Obj} {T T' : List Dir} {F : List (List Nat)} (ha : Added d o T T') (h : Loose v T F) (hd : ¬ Dotted o) (hf : ¬ IsDir o → FileOk v F o) (hs : IsDir o → SubOk v T o) : Loose v T' F := by
  refine loose_of h (added_sclust ha) (fun p' hp' => ?_) fun p' hp' c hc hdc hfn r hr hrc w hw1 hw2 hw3 hw4 => ?_
  · obtain ⟨p, hp, e, hx⟩ := added_back ha p' hp'
    refine ⟨p, hp, e, fun o' ho' => ?_⟩
    rcases hx o' ho' with hx | ⟨rfl, -⟩
    · exact .inl hx
    · exact .inr (.inl ⟨hd, hf, hs⟩)
  · obtain ⟨r', hr', e, -, hx⟩ := added_keep ha r hr
    exact ⟨r', hr', e, w, hx w hw1, hw2, hw3, hw4⟩

theorem turned_loose {v : Vol} {k n : Nat} {T T' : List Dir} {F : List (List Nat)} (ht : Turned v k n T T') (h : Loose v T F) {o : Obj} (hin : ∃ d ∈ T, d.sclust = n ∧ o ∈ d.os) (hd : ¬ Dotted o) (hs : IsDir o) (hk : first v o = k) : Loose v T' F := by
  refine loose_of h (turned_sclust ht) (fun p' hp' => ?_) fun p' hp' c hc hdc hfn r hr hrc w hw1 hw2 hw3 hw4 => ?_
  · obtain ⟨p, hp, e, hx⟩ := turned_back ht p' hp'
    refine ⟨p, hp, e, fun o' ho' => ?_⟩
    rcases hx o' ho' with hx | ⟨hk', b, hb, hbf, h1, h2, h3, h4⟩
    · exact .inl hx
    · obtain ⟨b1, b2, -⟩ := h.dots p hp b hb (dotted_fn hbf)
      refine .inr (.inr ⟨dotted_fn (h1.trans hbf), ?_, h2.trans b2, .inr ⟨h1.trans hbf, ?_⟩⟩)
      · unfold IsDir at b1 ⊢
        rw [h3]
        exact b1
      · obtain ⟨q, hq, hqn, hqo⟩ := hin
        obtain ⟨q', hq', e', -, hx'⟩ := turned_keep ht q hq
        exact ⟨q', hq', by rw [e', hqn, h4], o, hx' o hqo hd, hd, hs, hk.trans hk'.symm⟩
  · obtain ⟨r', hr', e, -, hx⟩ := turned_keep ht r hr
    exact ⟨r', hr', e, w, hx w hw1 hw2, hw2, hw3, hw4⟩

theorem dropped_loose {v : Vol} {k : Nat} {o : Obj} {T T' : List Dir} {F : List (List Nat)} (hd : Dropped k o T T') (h : Loose v T F)
    (hw : IsDir o → (∃ d ∈ T', d.sclust = k ∧ ∃ o' ∈ d.os, ¬ Dotted o' ∧ IsDir o' ∧ first v o' = first v o) ∨ ∀ p ∈ T, p.sclust = first v o → ∀ c ∈ p.os, c.fn = pad 11 [46, 46] → first v c ≠ k) : Loose v T' F := by
  refine loose_of h (dropped_sclust hd) (fun p' hp' => ?_) fun p' hp' c hc hdc hfn r hr hrc w hw1 hw2 hw3 hw4 => ?_
  · obtain ⟨p, hp, e, hx⟩ := dropped_back hd p' hp'
    exact ⟨p, hp, e, fun o' ho' => .inl (hx o' ho')⟩
  · obtain ⟨r', hr', e, hx⟩ := dropped_keep hd r hr
    rcases hx w hw1 with hx | ⟨rfl, hk⟩
    · exact ⟨r', hr', e, w, hx, hw2, hw3, hw4⟩
    · rcases hw hw3 with ⟨d, hd', e', o', ho', h1, h2, h3⟩ | hno
      · exact ⟨d, hd', by rw [e', hk], o', ho', h1, h2, h3.trans hw4⟩
      · obtain ⟨p, hp, hps, hpo⟩ := dropped_back hd p' hp'
        exact absurd (hrc.symm.trans hk) (hno p hp (hps.trans hw4.symm) c (hpo c hc) hfn)

/-! ## Clusters of objects -/

theorem claims_new {v : Vol} (x y : List Obj) (o : Obj) : (claims v (x ++ o :: y)).Perm (claims v [o] ++ claims v (x ++ y)) := by
  rw [claims_append, show o :: y = [o] ++ y from rfl, claims_append, claims_append, ← List.append_assoc, ← List.append_assoc]
  exact (List.perm_append_comm).append_right _

theorem added_claims {v : Vol} {d : Dir} {o : Obj} {T T' : List Dir} (h : Added d o T T') : (T'.flatMap fun d => claims v d.os).Perm (claims v [o] ++ T.flatMap fun d => claims v d.os) := by
  obtain ⟨x, y, loc, R, hos, hl, h1, h2⟩ := h
  refine (h2.flatMap_right _).trans ?_
  rw [List.flatMap_cons]
  refine ((claims_new x y o).append_right _).trans ?_
  rw [List.append_assoc]
  refine List.Perm.append_left _ ?_
  refine List.Perm.trans ?_ (h1.flatMap_right _).symm
  rw [List.flatMap_cons, hos]

theorem turned_claims {v : Vol} {k n : Nat} {T T' : List Dir} (h : Turned v k n T T') : (T'.flatMap fun d => claims v d.os).Perm (T.flatMap fun d => claims v d.os) := by
  obtain ⟨d, x, y, b, e, R, hk, hos, hb, he, hn, h1, h2⟩ := h
  refine (h2.flatMap_right _).trans (List.Perm.trans ?_ (h1.flatMap_right _).symm)
  rw [List.flatMap_cons, List.flatMap_cons, hos, claims_append, claims_append, claims_none (.inl (dotted_fn hb)), claims_none (.inl (dotted_fn (o := { b with entry := e }) ((entry_fn he).trans hb)))]

theorem dropped_claims {v : Vol} {k : Nat} {o : Obj} {T T' : List Dir} (h : Dropped k o T T') : (T.flatMap fun d => claims v d.os).Perm (claims v [o] ++ T'.flatMap fun d => claims v d.os) := by
  obtain ⟨d, x, y, R, hk, hos, h1, h2⟩ := h
  refine (h1.flatMap_right _).trans ?_
  rw [List.flatMap_cons, hos]
  refine ((claims_new x y o).append_right _).trans ?_
  rw [List.append_assoc]
  refine List.Perm.append_left _ ?_
  refine List.Perm.trans ?_ (h2.flatMap_right _).symm
  rw [List.flatMap_cons]

theorem claims_alike {v : Vol} {o o' : Obj} (h1 : ¬ Dotted o) (h2 : ¬ Dotted o') (h : first v o' = first v o) : claims v [o'] = claims v [o] := by
  unfold claims
  rw [List.filter_cons, List.filter_cons, if_pos (by simpa using h2), if_pos (by simpa using h1), List.map_cons, List.map_cons, h]

theorem carried_dir {v : Vol} {o o' : Obj} (h : Carried v o o') : IsDir o' ↔ IsDir o := by
  have ha := h.attr
  by_cases hx : IsDir o
  · rw [if_pos hx] at ha
    unfold IsDir at hx ⊢
    rw [ha]
  · rw [if_neg hx] at ha
    unfold IsDir at hx ⊢
    rw [ha, Nat.and_or_distrib_right]
    simp

/-- The directories after renaming. -/
theorem renamed_shape {v : Vol} {i : Info} {d n : Dir} {o : Obj} {T T' : List Dir} {F : List (List Nat)} {s : St} (h : Tree v i T F s) (hd : d ∈ T) (ho : o ∈ d.os) (hdo : ¬ Dotted o) {o' : Obj} {T1 T2 : List Dir}
    (h1 : Added n o' T T1) (h2 : ¬ Dotted o') (h3 : Carried v o o') (h4 : if IsDir o ∧ d.sclust ≠ n.sclust then Turned v (first v o) n.sclust T1 T2 else T2 = T1) (h5 : Dropped d.sclust o T2 T') (hne : d.sclust = n.sclust → o' ≠ o)
    (hn : d.sclust ≠ n.sclust → ∀ p ∈ T1, Names p.os) : Shape v T' F := by
  have k1 : Loose v T1 F := by
    refine added_loose h1 (tree_loose h) h2 (fun hx => ?_) fun hx => ?_
    · obtain ⟨m, m1, m2, m3⟩ := h.files d hd o ho hdo fun hy => hx ((carried_dir h3).mpr hy)
      exact ⟨m, m1, h3.first.trans m2, by rw [h3.size]; exact m3⟩
    · obtain ⟨m1, m2⟩ := h.subs d hd o ho hdo ((carried_dir h3).mp hx)
      exact ⟨by rw [h3.first]; exact m1, by rw [h3.first]; exact m2⟩
  have hc1 := added_claims (v := v) h1
  have key : Loose v T2 F ∧ (T2.flatMap fun d => claims v d.os).Perm (T1.flatMap fun d => claims v d.os) ∧
      (IsDir o → (∃ d' ∈ T', d'.sclust = d.sclust ∧ ∃ o' ∈ d'.os, ¬ Dotted o' ∧ IsDir o' ∧ first v o' = first v o) ∨ ∀ p ∈ T2, p.sclust = first v o → ∀ c ∈ p.os, c.fn = pad 11 [46, 46] → first v c ≠ d.sclust) := by
    by_cases hx : IsDir o ∧ d.sclust ≠ n.sclust
    · rw [if_pos hx] at h4
      refine ⟨turned_loose h4 k1 (added_in h1) h2 ((carried_dir h3).mpr hx.1) h3.first, turned_claims h4, fun _ => .inr fun p hp hps c hc hcf hcd => ?_⟩
      have honce := (turned_loose h4 k1 (added_in h1) h2 ((carried_dir h3).mpr hx.1) h3.first).once
      have hn := hn hx.2
      obtain ⟨q, x, y, b, e, R, hk, hos, hb, he, hfn, e1, e2⟩ := h4
      cases dir_unique honce hp (e2.mem_iff.mpr List.mem_cons_self) (hps.trans hk.symm)
      rcases mem_new.mp hc with rfl | hc
      · exact hx.2 (hcd.symm.trans hfn)
      · have := (hn q (e1.mem_iff.mpr (by simp))).distinct
        rw [hos] at this
        obtain ⟨-, a2, a3⟩ := List.pairwise_append.mp this
        rcases List.mem_append.mp hc with hc | hc
        · exact (a3 c hc b (by simp)).short (hcf.trans hb.symm)
        · exact ((List.pairwise_cons.mp a2).1 c hc).short (hb.trans hcf.symm)
    · rw [if_neg hx] at h4
      subst h4
      refine ⟨k1, .refl _, fun hdir => .inl ?_⟩
      have hsc : d.sclust = n.sclust := Classical.byContradiction fun hy => hx ⟨hdir, hy⟩
      obtain ⟨q, hq, hqs, hqo⟩ := added_in h1
      obtain ⟨q', hq', e, hk⟩ := dropped_keep h5 q hq
      exact ⟨q', hq', by rw [e, hqs, hsc], o', (hk o' hqo).resolve_right fun hx => hne hsc hx.1, h2, (carried_dir h3).mpr hdir, h3.first⟩
  obtain ⟨k2, k3, k4⟩ := key
  have k5 := dropped_loose h5 k2 k4
  refine ⟨k5.root, k5.once, ?_, k5.files, k5.subs, k5.dots⟩
  have hp := ((dropped_claims (v := v) h5).symm.trans (k3.trans hc1))
  rw [claims_alike hdo h2 h3.first] at hp
  exact ((List.perm_append_left_iff _).mp hp).nodup_iff.mpr h.refs

/-! ## Names -/

theorem names_perm {a b : List Obj} (hp : a.Perm b) (h : Names a) : Names b :=
  ⟨fun o ho => h.consistent o (hp.mem_iff.mpr ho), (hp.pairwise_iff fun {_ _} => distinct_symm).mp h.distinct⟩

/-- Names and no strange ones. -/
def NamesOk (os : List Obj) : Prop := Names os ∧ ∀ o ∈ os, o.long ≠ some [46] ∧ o.long ≠ some [46, 46]

theorem namesok_perm {a b : List Obj} (hp : a.Perm b) (h : NamesOk a) : NamesOk b := ⟨names_perm hp h.1, fun o ho => h.2 o (hp.mem_iff.mpr ho)⟩

theorem namesok_left {o : Obj} {a : List Obj} (h : NamesOk (o :: a)) : NamesOk a := ⟨names_left (x := []) h.1, fun o' ho => h.2 o' (by simp [ho])⟩

theorem added_names {d : Dir} {o : Obj} {T T' : List Dir} (h : Added d o T T') (hn : ∀ p ∈ T, NamesOk p.os) (ho : NamesOk (o :: d.os)) : ∀ p ∈ T', NamesOk p.os := by
  obtain ⟨x, y, loc, R, hos, hl, h1, h2⟩ := h
  intro p hp
  rcases List.mem_cons.mp (h2.mem_iff.mp hp) with rfl | hp
  · rw [hos] at ho
    exact namesok_perm List.perm_middle.symm ho
  · exact hn p (h1.mem_iff.mpr (by simp [hp]))

theorem turned_names {v : Vol} {k n : Nat} {T T' : List Dir} (h : Turned v k n T T') (hn : ∀ p ∈ T, NamesOk p.os) : ∀ p ∈ T', NamesOk p.os := by
  obtain ⟨d, x, y, b, e, R, hk, hos, hb, he, -, h1, h2⟩ := h
  intro p hp
  rcases List.mem_cons.mp (h2.mem_iff.mp hp) with rfl | hp
  · have hd := hn d (h1.mem_iff.mpr (by simp))
    rw [hos] at hd
    refine ⟨names_update (o := b) (entry_fn he) rfl hd.1, fun o ho => ?_⟩
    rcases mem_new.mp ho with rfl | ho
    · exact hd.2 b (by simp)
    · exact hd.2 o (mem_new.mpr (.inr ho))
  · exact hn p (h1.mem_iff.mpr (by simp [hp]))

theorem dropped_names {k : Nat} {o : Obj} {T T' : List Dir} (h : Dropped k o T T') (hn : ∀ p ∈ T, NamesOk p.os) : ∀ p ∈ T', NamesOk p.os := by
  obtain ⟨d, x, y, R, hk, hos, h1, h2⟩ := h
  intro p hp
  rcases List.mem_cons.mp (h2.mem_iff.mp hp) with rfl | hp
  · have hd := hn d (h1.mem_iff.mpr (by simp))
    rw [hos] at hd
    exact namesok_left (namesok_perm List.perm_middle hd)
  · exact hn p (h1.mem_iff.mpr (by simp [hp]))

/-- A new name in the same directory, where the old one means the same. -/
theorem swapped_names {d : Dir} {o o' : Obj} {T T1 T' : List Dir} (honce : (T.map Dir.sclust).Nodup) (h1 : Added d o' T T1) (h2 : Dropped d.sclust o T1 T') (hn : ∀ p ∈ T, NamesOk p.os) {a b : List Obj} (hos : d.os = a ++ o :: b)
    (ho : NamesOk (o' :: (a ++ b))) : ∀ p ∈ T', NamesOk p.os := by
  have honce1 := (added_sclust h1).nodup_iff.mpr honce
  have hb1 := added_back h1
  obtain ⟨x, y, loc, R, e1, -, e2, e3⟩ := h1
  obtain ⟨d2, x2, y2, R2, f1, f2, f3, f4⟩ := h2
  cases dir_unique honce1 (f3.mem_iff.mpr List.mem_cons_self) (e3.mem_iff.mpr List.mem_cons_self) f1
  intro p hp
  rcases List.mem_cons.mp (f4.mem_iff.mp hp) with rfl | hp
  · refine namesok_perm ?_ ho
    have f2 : x ++ o' :: y = x2 ++ o :: y2 := f2
    have p1 : (o :: (x2 ++ y2)).Perm (o' :: (a ++ o :: b)) := by
      rw [← hos, e1]
      refine List.perm_middle.symm.trans ?_
      rw [← f2]
      exact List.perm_middle
    have p2 : (o' :: (a ++ o :: b)).Perm (o :: o' :: (a ++ b)) := (List.perm_middle.cons o').trans (List.Perm.swap _ _ _)
    exact ((p1.trans p2).cons_inv).symm
  · have hp1 : p ∈ T1 := f3.mem_iff.mpr (by simp [hp])
    obtain ⟨q, hq, e, hx⟩ := hb1 p hp1
    rcases List.mem_cons.mp (e3.mem_iff.mp hp1) with rfl | hp2
    · have := (f3.map Dir.sclust).nodup_iff.mp honce1
      rw [List.map_cons, List.nodup_cons] at this
      exact absurd (List.mem_map_of_mem hp) this.1
    · exact hn p (e2.mem_iff.mpr (by simp [hp2]))

end Fpm.Tree
