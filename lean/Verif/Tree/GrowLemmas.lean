import Verif.Tree.EntryLemmas
import Verif.DirDev.Props
import Verif.Tree.UnlinkLemmas
/-!
# New objects: lemmas
-/
namespace Fpm.Tree
open Fpm.Fat Fpm.Fat.Spec Fpm.FatFile Fpm.FatFile.Spec Fpm.FatBytes Fpm.FatBytes.Spec Fpm.Lfn Fpm.Names Fpm.Names.Spec Fpm.TextIo.Spec Fpm.FatDir Fpm.FatDir.Spec Fpm.Mount Fpm.Mount.Spec Fpm.DirDev Fpm.DirDev.Spec Fpm.Tree.Spec Fpm.FatSync

theorem dotok_map {v : Vol} {T T' : List Dir} (hm : ∀ q ∈ T, ∃ q' ∈ T', q'.sclust = q.sclust ∧ ∀ o ∈ q.os, o ∈ q'.os) {p p' : Dir} (hp : p'.sclust = p.sclust) {o : Obj} (h : DotOk v T p o) : DotOk v T' p' o := by
  obtain ⟨h1, h2, h3⟩ := h
  refine ⟨h1, h2, ?_⟩
  rcases h3 with ⟨h3, h4⟩ | ⟨h3, q, hq, e, o', ho', h4⟩
  · exact .inl ⟨h3, by rw [hp]; exact h4⟩
  · obtain ⟨q', hq', e', hs⟩ := hm q hq
    exact .inr ⟨h3, q', hq', e'.trans e, o', hs o' ho', by rw [hp]; exact h4⟩

theorem subok_map {v : Vol} {T T' : List Dir} (hm : ∀ q ∈ T, ∃ q' ∈ T', q'.sclust = q.sclust ∧ ∀ o ∈ q.os, o ∈ q'.os) {o : Obj} (h : SubOk v T o) : SubOk v T' o := by
  obtain ⟨h1, q, hq, e⟩ := h
  obtain ⟨q', hq', e', -⟩ := hm q hq
  exact ⟨h1, q', hq', e'.trans e⟩

/-- A directory gets other clusters. -/
theorem shape_loc {v : Vol} {d d2 : Dir} {R : List Dir} {F : List (List Nat)} (h : Shape v (d :: R) F) (h1 : d2.sclust = d.sclust) (h2 : d2.os = d.os) : Shape v (d2 :: R) F := by
  have hm : ∀ q ∈ d :: R, ∃ q' ∈ d2 :: R, q'.sclust = q.sclust ∧ ∀ o ∈ q.os, o ∈ q'.os := by
    intro q hq
    rcases List.mem_cons.mp hq with rfl | hq
    · exact ⟨d2, by simp, h1, fun o ho => by rw [h2]; exact ho⟩
    · exact ⟨q, by simp [hq], rfl, fun o ho => ho⟩
  have hb : ∀ q' ∈ d2 :: R, ∃ q ∈ d :: R, q'.sclust = q.sclust ∧ q'.os = q.os := by
    intro q hq
    rcases List.mem_cons.mp hq with rfl | hq
    · exact ⟨d, by simp, h1, h2⟩
    · exact ⟨q, by simp [hq], rfl, rfl⟩
  refine ⟨?_, ?_, ?_, fun q' hq' o ho a b => ?_, fun q' hq' o ho a b => ?_, fun q' hq' o ho a => ?_⟩
  · obtain ⟨q, hq, e⟩ := h.root
    obtain ⟨q', hq', e', -⟩ := hm q hq
    exact ⟨q', hq', e'.trans e⟩
  · have := h.once
    rw [List.map_cons] at this ⊢
    rw [h1]
    exact this
  · have := h.refs
    rw [List.flatMap_cons] at this ⊢
    rw [h2]
    exact this
  · obtain ⟨q, hq, -, e⟩ := hb q' hq'
    exact h.files q hq o (by rw [← e]; exact ho) a b
  · obtain ⟨q, hq, -, e⟩ := hb q' hq'
    exact subok_map hm (h.subs q hq o (by rw [← e]; exact ho) a b)
  · obtain ⟨q, hq, e1, e⟩ := hb q' hq'
    exact dotok_map hm e1 (h.dots q hq o (by rw [← e]; exact ho) a)

/-- An object of a list with one more. -/
theorem mem_new {α : Type} {x y : List α} {o a : α} : a ∈ x ++ o :: y ↔ a = o ∨ a ∈ x ++ y := by
  simp only [List.mem_append, List.mem_cons]
  refine ⟨fun h => ?_, fun h => ?_⟩
  · rcases h with h | h | h
    · exact .inr (.inl h)
    · exact .inl h
    · exact .inr (.inr h)
  · rcases h with h | h | h
    · exact .inr (.inl h)
    · exact .inl h
    · exact .inr (.inr h)

theorem claims_none {v : Vol} {o : Obj} (h0 : Dotted o ∨ first v o = 0) (y : List Obj) : claims v (o :: y) = claims v y := by
  unfold claims
  by_cases hd : Dotted o
  · rw [List.filter_cons, if_neg (by simpa using hd)]
  · rw [List.filter_cons, if_pos (by simpa using hd), List.map_cons, List.filter_cons, if_neg (by simpa using h0.resolve_left hd)]

/-- A new empty file. -/
theorem shape_file_new {v : Vol} {d d2 : Dir} {R : List Dir} {F : List (List Nat)} (h : Shape v (d :: R) F) {x y : List Obj} {o : Obj} (hos : d.os = x ++ y) (h1 : d2.sclust = d.sclust) (h2 : d2.os = x ++ o :: y)
    (hdo : ¬ Dotted o) (hs : ¬ IsDir o) (h0 : first v o = 0) (hz : size o = 0) : Shape v (d2 :: R) F := by
  have hm : ∀ q ∈ d :: R, ∃ q' ∈ d2 :: R, q'.sclust = q.sclust ∧ ∀ o ∈ q.os, o ∈ q'.os := by
    intro q hq
    rcases List.mem_cons.mp hq with rfl | hq
    · exact ⟨d2, by simp, h1, fun o' ho => by rw [h2]; exact mem_new.mpr (.inr (hos ▸ ho))⟩
    · exact ⟨q, by simp [hq], rfl, fun o ho => ho⟩
  have hb : ∀ q' ∈ d2 :: R, ∃ q ∈ d :: R, q'.sclust = q.sclust ∧ ∀ o' ∈ q'.os, o' = o ∨ o' ∈ q.os := by
    intro q hq
    rcases List.mem_cons.mp hq with rfl | hq
    · exact ⟨d, by simp, h1, fun o' ho' => by rw [h2] at ho'; rw [hos]; exact mem_new.mp ho'⟩
    · exact ⟨q, by simp [hq], rfl, fun o ho => .inr ho⟩
  refine ⟨?_, ?_, ?_, fun q' hq' o' ho a b => ?_, fun q' hq' o' ho a b => ?_, fun q' hq' o' ho a => ?_⟩
  · obtain ⟨q, hq, e⟩ := h.root
    obtain ⟨q', hq', e', -⟩ := hm q hq
    exact ⟨q', hq', e'.trans e⟩
  · have := h.once
    rw [List.map_cons] at this ⊢
    rw [h1]
    exact this
  · have := h.refs
    rw [List.flatMap_cons] at this ⊢
    rw [h2, claims_append, claims_none (.inr h0), ← claims_append, ← hos]
    exact this
  · obtain ⟨q, hq, -, e⟩ := hb q' hq'
    rcases e o' ho with rfl | e
    · exact ⟨[], .inl rfl, h0, by omega⟩
    · exact h.files q hq o' e a b
  · obtain ⟨q, hq, -, e⟩ := hb q' hq'
    rcases e o' ho with rfl | e
    · exact absurd b hs
    · exact subok_map hm (h.subs q hq o' e a b)
  · obtain ⟨q, hq, e1, e⟩ := hb q' hq'
    rcases e o' ho with rfl | e
    · exact absurd a hdo
    · exact dotok_map hm e1 (h.dots q hq o' e a)

/-- A new directory. -/
theorem shape_dir_new {v : Vol} {d d2 dn : Dir} {R : List Dir} {F : List (List Nat)} (h : Shape v (d :: R) F) {x y : List Obj} {o a b : Obj} (hos : d.os = x ++ y) (h1 : d2.sclust = d.sclust) (h2 : d2.os = x ++ o :: y)
    (hdo : ¬ Dotted o) (hs : IsDir o) (h0 : first v o ≠ 0) (hn : dn.sclust = first v o) (hno : dn.os = [a, b]) (ha : Dotted a ∧ IsDir a ∧ a.long = none ∧ a.fn = pad 11 [46] ∧ first v a = first v o)
    (hb' : Dotted b ∧ IsDir b ∧ b.long = none ∧ b.fn = pad 11 [46, 46] ∧ first v b = d.sclust) (hc1 : ∀ q ∈ d :: R, q.sclust ≠ first v o) (hc2 : ∀ l ∈ F, l ≠ [] → l.headD 0 ≠ first v o) : Shape v (d2 :: dn :: R) F := by
  have hm : ∀ q ∈ d :: R, ∃ q' ∈ d2 :: dn :: R, q'.sclust = q.sclust ∧ ∀ o ∈ q.os, o ∈ q'.os := by
    intro q hq
    rcases List.mem_cons.mp hq with rfl | hq
    · exact ⟨d2, by simp, h1, fun o' ho => by rw [h2]; exact mem_new.mpr (.inr (hos ▸ ho))⟩
    · exact ⟨q, by simp [hq], rfl, fun o ho => ho⟩
  have hb : ∀ q' ∈ d2 :: dn :: R, q' = dn ∨ ∃ q ∈ d :: R, q'.sclust = q.sclust ∧ ∀ o' ∈ q'.os, o' = o ∨ o' ∈ q.os := by
    intro q hq
    rcases List.mem_cons.mp hq with rfl | hq
    · exact .inr ⟨d, by simp, h1, fun o' ho' => by rw [h2] at ho'; rw [hos]; exact mem_new.mp ho'⟩
    · rcases List.mem_cons.mp hq with rfl | hq
      · exact .inl rfl
      · exact .inr ⟨q, by simp [hq], rfl, fun o ho => .inr ho⟩
  have hdots : ∀ o' ∈ dn.os, o' = a ∨ o' = b := fun o' ho' => by rw [hno] at ho'; simpa using ho'
  have hnew : ∀ q ∈ d :: R, first v o ∉ claims v q.os := by
    intro q hq hc
    unfold claims at hc
    rw [List.mem_filter, List.mem_map] at hc
    obtain ⟨⟨o', ho', e⟩, -⟩ := hc
    rw [List.mem_filter] at ho'
    obtain ⟨ho', hd'⟩ := ho'
    have hd' : ¬ Dotted o' := by simpa using hd'
    by_cases hs' : IsDir o'
    · obtain ⟨-, p, hp, e'⟩ := h.subs q hq o' ho' hd' hs'
      exact hc1 p hp (e'.trans e)
    · obtain ⟨m, hm, e', -⟩ := h.files q hq o' ho' hd' hs'
      rcases hm with rfl | hm
      · exact h0 (e.symm.trans e')
      · by_cases hmn : m = []
        · subst hmn
          exact h0 (e.symm.trans e')
        · exact hc2 m hm hmn (e'.symm.trans e)
  refine ⟨?_, ?_, ?_, fun q' hq' o' ho c1 c2 => ?_, fun q' hq' o' ho c1 c2 => ?_, fun q' hq' o' ho c1 => ?_⟩
  · obtain ⟨q, hq, e⟩ := h.root
    obtain ⟨q', hq', e', -⟩ := hm q hq
    exact ⟨q', hq', e'.trans e⟩
  · have := h.once
    rw [List.map_cons, List.nodup_cons] at this
    rw [List.map_cons, List.map_cons, List.nodup_cons, List.nodup_cons, h1, hn]
    refine ⟨fun hx => ?_, fun hx => ?_, this.2⟩
    · rcases List.mem_cons.mp hx with hx | hx
      · exact hc1 d (by simp) hx
      · exact this.1 hx
    · obtain ⟨q, hq, e⟩ := List.mem_map.mp hx
      exact hc1 q (by simp [hq]) e
  · have hr := h.refs
    have e1 : claims v dn.os = [] := by
      rw [hno, claims_none (.inl ha.1), claims_none (.inl hb'.1)]
      rfl
    rw [List.flatMap_cons, List.flatMap_cons, e1, List.nil_append, h2, claims_append, claims_cons hdo h0]
    have hp : ((claims v x ++ first v o :: claims v y) ++ R.flatMap fun d => claims v d.os).Perm (first v o :: ((d :: R).flatMap fun d => claims v d.os)) := by
      rw [List.flatMap_cons, hos, claims_append]
      exact List.perm_middle.append_right _
    rw [hp.nodup_iff, List.nodup_cons]
    refine ⟨fun hx => ?_, hr⟩
    obtain ⟨q, hq, hx⟩ := List.mem_flatMap.mp hx
    exact hnew q hq hx
  · rcases hb q' hq' with rfl | ⟨q, hq, -, e⟩
    · rcases hdots o' ho with rfl | rfl
      · exact absurd ha.1 c1
      · exact absurd hb'.1 c1
    · rcases e o' ho with rfl | e
      · exact absurd hs c2
      · exact h.files q hq o' e c1 c2
  · rcases hb q' hq' with rfl | ⟨q, hq, -, e⟩
    · rcases hdots o' ho with rfl | rfl
      · exact absurd ha.1 c1
      · exact absurd hb'.1 c1
    · rcases e o' ho with rfl | e
      · exact ⟨h0, dn, by simp, hn⟩
      · exact subok_map hm (h.subs q hq o' e c1 c2)
  · rcases hb q' hq' with rfl | ⟨q, hq, e1, e⟩
    · rcases hdots o' ho with rfl | rfl
      · exact ⟨ha.2.1, ha.2.2.1, .inl ⟨ha.2.2.2.1, by rw [ha.2.2.2.2, hn]⟩⟩
      · exact ⟨hb'.2.1, hb'.2.2.1, .inr ⟨hb'.2.2.2.1, d2, by simp, by rw [h1, hb'.2.2.2.2], o, by rw [h2]; simp, hdo, hs, hn.symm⟩⟩
    · rcases e o' ho with rfl | e
      · exact absurd c1 hdo
      · exact dotok_map hm e1 (h.dots q hq o' e c1)

/-- The entry of a new object. -/
theorem new_entry {v : Vol} {n fn : List Nat} {fl : Nat} {os : List Obj} {o : Obj} (h : NewObj n fn fl os o) : ¬ Dotted o ∧ ¬ IsDir o ∧ ¬ ReadOnly o ∧ first v o = 0 ∧ size o = 0 ∧ byte o.entry 11 = 0 := by
  have hl := h.ok.1
  have hget : ∀ k, 13 ≤ k → k < 32 → o.entry[k]? = some 0 := by
    intro k h1 h2
    rw [h.entry, List.getElem?_append_right (by simp [hl]; omega)]
    simp only [List.length_append, hl, List.length_cons, List.length_nil]
    exact List.getElem?_replicate_of_lt (by omega)
  have h11 : byte o.entry 11 = 0 := by
    refine byte_at ?_
    rw [h.entry, List.getElem?_append_left (by simp [hl]), List.getElem?_append_right (by omega), hl]
    rfl
  have hfield : ∀ p k, 13 ≤ p → p + k ≤ 32 → FatSync.Spec.field o.entry p k = 0 := by
    intro p k h1 h2
    have e : (o.entry.drop p).take k = List.replicate k 0 := by
      refine List.ext_getElem? fun j => ?_
      rw [List.getElem?_take]
      split
      · rename_i hj
        rw [List.getElem?_drop, hget _ (by omega) (by omega), List.getElem?_replicate_of_lt hj]
      · rw [List.getElem?_eq_none (by simp; omega)]
    unfold FatSync.Spec.field
    rw [e]
    clear e h2
    induction k with
    | zero => rfl
    | succ k ih => rw [List.replicate_succ, num, ih]
  refine ⟨fun hd => ?_, ?_, ?_, ?_, hfield 28 4 (by omega) (by omega), h11⟩
  · have hf : byte o.entry 0 ∈ o.fn := by
      rw [byte_take (a := o.entry) (b := o.fn) (by rw [Obj.fn, List.take_take, Nat.min_self]) (by omega)]
      unfold byte
      rw [List.getD_eq_getElem?_getD, List.getElem?_eq_getElem (by omega : 0 < o.fn.length), Option.getD_some]
      exact List.getElem_mem _
    have := h.ok.2 _ hf
    rw [show byte o.entry 0 = 46 from hd] at this
    revert this
    decide
  · unfold IsDir
    rw [h11]
    decide
  · unfold ReadOnly
    rw [h11]
    decide
  · unfold first FatSync.Spec.first
    rw [hfield _ _ (by omega) (by omega), hfield _ _ (by omega) (by omega)]
    simp

theorem new_means {cs : List Nat} {last : Bool} {buf fn : List Nat} {fl : Nat} {os : List Obj} {o : Obj} (hf : FileName cs last buf fn fl) (h : NewObj (units (trimmed cs)) fn fl os o) : Means (units (trimmed cs)) o := by
  obtain ⟨-, -, hfo, hfl⟩ := hf.named.name hf.nodot
  by_cases h2 : fl &&& 2 ≠ 0
  · exact .inl ⟨_, by rw [h.long, if_pos h2], (rfl : Lfn.Spec.SameName _ _)⟩
  · obtain ⟨_, _, h8, h21⟩ := flags_bits hfl
    have h1 := h21 (by omega)
    obtain ⟨body, ext, he⟩ := h8.mpr h1
    exact .inr ⟨body, ext, he, by rw [h.same h1]; exact hfo.short body ext he⟩

theorem units_last {cs : List Nat} (h : trimmed cs ≠ []) : (units (trimmed cs)).getLast? ≠ some 46 := by
  unfold trimmed at h ⊢
  have hn := List.head?_dropWhile_not (fun c => (c = 32 : Bool) || (c = 46 : Bool)) cs.reverse
  generalize cs.reverse.dropWhile (fun c => (c = 32 : Bool) || (c = 46 : Bool)) = l at h hn
  cases l with
  | nil => exact absurd rfl h
  | cons c l =>
    rw [List.head?_cons] at hn
    simp at hn
    unfold units
    rw [List.reverse_cons, List.flatMap_append, List.flatMap_cons, List.flatMap_nil, List.append_nil]
    split
    · rw [List.getLast?_append]
      simpa using hn.2
    · rw [List.getLast?_append]
      simp
      omega

theorem name_nodot {cs : List Nat} {last : Bool} {buf fn : List Nat} {fl : Nat} (hf : FileName cs last buf fn fl) : units (trimmed cs) ≠ [46] ∧ units (trimmed cs) ≠ [46, 46] := by
  have := units_last (hf.named.name hf.nodot).1
  refine ⟨fun h => this (by rw [h]; rfl), fun h => this (by rw [h]; rfl)⟩

/-- `dir_register` in a directory of the tree. -/
theorem register_tree {v : Vol} {i : Info} (hr : Ready v i) {d : Dir} {R : List Dir} {F : List (List Nat)} {s : St} (h : Tree v i (d :: R) F s) {dp : Dp} (hdp : dp.sclust = d.sclust)
    {cs : List Nat} {last : Bool} {buf fn : List Nat} {fl : Nat} (hf : FileName cs last buf fn fl) (hff : 0xFFFF ∉ cs) (hb : buf.length = 256) (hno : ∀ o ∈ d.os, ¬ Calls cs o) {g : Ret} (hg : g = dirRegister v i s dp fn fl buf) :
    Apart v i [] (dirChains R ++ F) d.loc s g.st ∧ (g.res = FR_DISK_ERR ∧ ¬ Sound v ∨
     g.res = DirDev.FR_DENIED ∧ (∃ loc', Longer d.loc loc' ∧ Tree v i ({ d with loc := loc' } :: R) F g.st ∧
       (Full v i [] (dirChains R ++ F) (view g.st) loc' ∧ NoRoom (entries v i (view g.st) loc') (fl &&& 2 ≠ 0) (units (trimmed cs)).length ∨ ∀ z, 1 ≤ z → z < 100 → ∃ o ∈ d.os, genNumname fn buf z = some o.fn)) ∨
     g.res = FR_OK ∧ ∃ loc' x o y, Longer d.loc loc' ∧ d.os = x ++ y ∧ NewObj (units (trimmed cs)) fn fl d.os o ∧ Calls cs o ∧ Tree v i ({ d with loc := loc', os := x ++ o :: y } :: R) F g.st ∧ At v i loc' o.pos g.dp ∧
       dirEnt v g.st g.dp = some o.entry ∧ g.st.winsect = some g.dp.sect) := by
  have hd := h.dirs d (by simp)
  have hv : DirVol v [] (dirChains R ++ F) d.loc s := tree_vol h (A := []) rfl
  have hcall : ∀ o, Calls cs o ↔ Means (units (trimmed cs)) o := fun o => by unfold Calls; rw [if_neg (show ¬ DotName cs from hf.nodot)]
  obtain ⟨h1, h2, h3⟩ := C80_register v i hr [] (dirChains R ++ F) d.loc s dp true d.os ⟨hv, hd.dir⟩ (by rw [hdp]; exact hd.starts) cs last buf fn fl hf hff hb (.inl rfl)
  rw [← hg] at h1 h2 h3
  obtain ⟨a1, a2⟩ := apart_dirs hr h h1
  refine ⟨h1, ?_⟩
  rcases h3 with h3 | ⟨h3, loc', h4, h5, h6⟩ | ⟨h3, loc', x, o, y, c1, -, c2, c3, c4, c5, c6, c7, -⟩
  · exact .inl h3
  · refine .inr (.inl ⟨h3, loc', h4, ?_, h6⟩)
    refine tree_of h5.vol.inv h5.vol.count ?_ (fun d' hd' => ?_) (shape_loc (tree_shape h) rfl rfl)
    · have := h5.vol.chains
      rw [allchains_cons R F d loc' d.os] at this
      exact this
    · rcases List.mem_cons.mp hd' with rfl | hd'
      · exact ⟨starts_longer h4 hv.linked hd.starts, h5.dir, hd.names, hd.nodot⟩
      · exact a1 d' hd'
  · obtain ⟨n1, n2, n3, n4, n5, -⟩ := new_entry (v := v) c3
    obtain ⟨-, -, hfo, hfl⟩ := hf.named.name hf.nodot
    refine .inr (.inr ⟨h3, loc', x, o, y, c1, c2, c3, (hcall o).mpr (new_means hf c3), ?_, c5, c6, c7⟩)
    refine tree_of c4.vol.inv c4.vol.count ?_ (fun d' hd' => ?_) (shape_file_new (tree_shape h) c2 rfl rfl n1 n2 n4 n5)
    · have := c4.vol.chains
      rw [allchains_cons R F d loc' (x ++ o :: y)] at this
      exact this
    · rcases List.mem_cons.mp hd' with rfl | hd'
      · refine ⟨starts_longer c1 hv.linked hd.starts, c4.dir, ?_, fun o' ho' => ?_⟩
        · exact new_names hfo hfl (by rw [← c2]; exact c3) (by rw [← c2]; exact hd.names) (by rw [← c2]; exact fun o ho hm => hno o ho ((hcall o).mpr hm))
        · rcases mem_new.mp ho' with rfl | ho'
          · rw [c3.long]
            split
            · obtain ⟨e1, e2⟩ := name_nodot hf
              exact ⟨fun h => e1 (Option.some.inj h), fun h => e2 (Option.some.inj h)⟩
            · exact ⟨(fun h => by cases h), (fun h => by cases h)⟩
          · exact hd.nodot o' (by rw [c2]; exact ho')
      · exact a1 d' hd'

end Fpm.Tree
