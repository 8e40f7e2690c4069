import Verif.Tree.UnlinkLemmas
/-!
# New contents of an entry: lemmas
-/
namespace Fpm.Tree
open Fpm.Fat Fpm.Fat.Spec Fpm.FatFile Fpm.FatFile.Spec Fpm.FatBytes Fpm.FatBytes.Spec Fpm.Lfn Fpm.Names Fpm.Names.Spec Fpm.TextIo.Spec Fpm.FatDir Fpm.FatDir.Spec Fpm.Mount Fpm.Mount.Spec Fpm.DirDev Fpm.DirDev.Spec Fpm.Tree.Spec Fpm.FatSync

theorem byte_take {a b : List Nat} (h : a.take 11 = b.take 11) {k : Nat} (hk : k < 11) : byte a k = byte b k := by
  have : (a.take 11)[k]? = (b.take 11)[k]? := by rw [h]
  rw [List.getElem?_take_of_lt hk, List.getElem?_take_of_lt hk] at this
  unfold byte
  rw [List.getD_eq_getElem?_getD, List.getD_eq_getElem?_getD, this]

theorem sum_take {a b : List Nat} (h : a.take 11 = b.take 11) : sumSfn a = sumSfn b := by
  unfold sumSfn
  rw [h]

/-- The entry of an object can be replaced by one with the same name. -/
theorem rep_update {c : Bool} {i : Nat} {t : List (List Nat)} {os : List Obj} (h : Rep c i t os) : ∀ {x y : List Obj} {o : Obj} {e : List Nat}, os = x ++ o :: y → e.take 11 = o.entry.take 11 → Sfn e →
    i ≤ o.pos ∧ Rep c i (t.set (o.pos - i) e) (x ++ { o with entry := e } :: y) := by
  induction h with
  | nil => intro x y o e h; simp at h
  | fin => intro x y o e h; simp at h
  | @skip i j e0 t os h1 h2 h3 ih =>
    intro x y o e h he hs
    obtain ⟨k1, k2⟩ := ih h he hs
    refine ⟨by omega, ?_⟩
    rw [List.set_append_right _ _ (by omega), show o.pos - i - j.length = (o.pos - (i + j.length + 1)) + 1 by omega, List.set_cons_succ]
    exact .skip h1 h2 k2
  | @obj i j es s long t os h1 h2 h3 h4 ih =>
    intro x y o e h he hs
    cases x with
    | nil =>
      simp only [List.nil_append, List.cons.injEq] at h
      obtain ⟨rfl, rfl⟩ := h
      refine ⟨by simp only; omega, ?_⟩
      have hp : i + j.length + es.length - i = j.length + es.length := by omega
      simp only [hp, List.nil_append]
      rw [List.set_append_right _ _ (by omega), Nat.add_sub_cancel_left, List.set_append_right _ _ (by omega), Nat.sub_self, List.set_cons_zero]
      refine .obj h1 ?_ hs h4
      cases long with
      | none =>
        refine ⟨h2.1, fun ⟨a, b, e1, e2⟩ => h2.2 ⟨a, b, e1, ?_⟩⟩
        rw [← sum_take he]
        exact e2
      | some n => exact ⟨h2.1, by rw [sum_take he]; exact h2.2⟩
    | cons o1 x =>
      simp only [List.cons_append, List.cons.injEq] at h
      obtain ⟨rfl, h⟩ := h
      obtain ⟨k1, k2⟩ := ih h he hs
      refine ⟨by omega, ?_⟩
      rw [List.set_append_right _ _ (by omega), List.set_append_right _ _ (by omega), show o.pos - i - j.length - es.length = (o.pos - (i + j.length + es.length + 1)) + 1 by omega, List.set_cons_succ]
      exact .obj h1 h2 h3 k2

/-- What is behind the end depends on first bytes only. -/
theorem ended_map {t t' : List (List Nat)} (h : t'.map (byte · 0) = t.map (byte · 0)) (he : Ended t) : Ended t' := by
  rintro x e y rfl h0 z hz
  rw [List.map_append, List.map_cons] at h
  obtain ⟨x', r', rfl, hx, hr⟩ := List.map_eq_append_iff.mp h.symm
  obtain ⟨e', y', rfl, hy, hz'⟩ := List.map_eq_cons_iff.mp hr
  have h1 := he x' e' y' rfl (hy.trans h0)
  have hm : byte z 0 ∈ y'.map (byte · 0) := by rw [hz']; exact List.mem_map.mpr ⟨z, hz, rfl⟩
  obtain ⟨z', hz1, hz2⟩ := List.mem_map.mp hm
  rw [← hz2]
  exact h1 z' hz1

theorem dir_update {c : Bool} {t : List (List Nat)} {x y : List Obj} {o : Obj} (h : Directory c t (x ++ o :: y)) {e : List Nat} (he : e.take 11 = o.entry.take 11) (hs : Sfn e) (hb : e.length = 32 ∧ ∀ b ∈ e, b < 256) :
    Directory c (t.set o.pos e) (x ++ { o with entry := e } :: y) := by
  refine ⟨fun a ha => ?_, ?_, ended_map ?_ h.ended⟩
  · rcases List.mem_or_eq_of_mem_set ha with ha | rfl
    · exact h.table a ha
    · exact hb
  · have := (rep_update h.rep rfl he hs).2
    rw [Nat.sub_zero] at this
    exact this
  · rw [List.map_set]
    have h1 := rep_entry h.rep o (by simp)
    refine List.ext_getElem? fun k => ?_
    rw [List.getElem?_set]
    split
    · rename_i hk
      subst hk
      split
      · rename_i hl
        rw [List.length_map] at hl
        rw [List.getElem?_map, h1, Option.map_some, byte_take he (by omega)]
      · rename_i hl
        rw [List.getElem?_eq_none (by omega)]
    · rfl

theorem consistent_of {o o' : Obj} (h1 : o'.fn = o.fn) (h2 : o'.long = o.long) (h : Consistent o) : Consistent o' := by
  unfold Consistent
  rw [h1, h2]
  exact h

theorem distinct_left {o o' p : Obj} (h1 : o'.fn = o.fn) (h2 : o'.long = o.long) (h : Distinct o p) : Distinct o' p :=
  ⟨by rw [h1]; exact h.short, by rw [h2]; exact h.long, by rw [h2]; exact h.left, by rw [h1]; exact h.right⟩

theorem distinct_right {o o' p : Obj} (h1 : o'.fn = o.fn) (h2 : o'.long = o.long) (h : Distinct p o) : Distinct p o' :=
  ⟨by rw [h1]; exact h.short, by rw [h2]; exact h.long, by rw [h1]; exact h.left, by rw [h2]; exact h.right⟩

theorem names_update {x y : List Obj} {o o' : Obj} (h1 : o'.fn = o.fn) (h2 : o'.long = o.long) (h : Names (x ++ o :: y)) : Names (x ++ o' :: y) := by
  obtain ⟨a1, a2, a3⟩ := List.pairwise_append.mp h.distinct
  obtain ⟨a4, a5⟩ := List.pairwise_cons.mp a2
  refine ⟨fun p hp => ?_, List.pairwise_append.mpr ⟨a1, List.pairwise_cons.mpr ⟨fun p hp => distinct_left h1 h2 (a4 p hp), a5⟩, fun p hp q hq => ?_⟩⟩
  · simp only [List.mem_append, List.mem_cons] at hp
    rcases hp with hp | rfl | hp
    · exact h.consistent p (by simp [hp])
    · exact consistent_of h1 h2 (h.consistent o (by simp))
    · exact h.consistent p (by simp [hp])
  · rcases List.mem_cons.mp hq with rfl | hq
    · exact distinct_right h1 h2 (a3 p hp o (by simp))
    · exact a3 p hp q (by simp [hq])

/-- Storing an entry of an object with the same name. -/
theorem set_tree {v : Vol} {i : Info} (hr : Ready v i) {d : Dir} {R : List Dir} {F : List (List Nat)} {s : St} (h : Tree v i (d :: R) F s) {dp : Dp} {o : Obj} {x y : List Obj} (hos : d.os = x ++ o :: y)
    (hat : At v i d.loc o.pos dp) (hw : s.winsect = some dp.sect) {e : List Nat} (he : e.take 11 = o.entry.take 11) (hs : Sfn e) (hb : e.length = 32 ∧ ∀ b ∈ e, b < 256) :
    DirVol v [] (dirChains R ++ F) d.loc (setEnt v s dp e) ∧ Apart v i [] (dirChains R ++ F) d.loc s (setEnt v s dp e) ∧
    ∀ d' ∈ { d with os := x ++ { o with entry := e } :: y } :: R, DirOk v i (setEnt v s dp e) d' := by
  have hv : DirVol v [] (dirChains R ++ F) d.loc s := tree_vol h (A := []) rfl
  obtain ⟨k1, k2, -⟩ := set_spec hr hv hat hw hb
  have hap := k2.apart hv k1
  refine ⟨k1, hap, fun d' hd' => ?_⟩
  rcases List.mem_cons.mp hd' with rfl | hd'
  · have hd := h.dirs d (by simp)
    have h1 := hd.dir
    have h2 := hd.names
    rw [hos] at h1 h2
    refine ⟨hd.starts, ?_, names_update (o := o) he rfl h2, fun p hp => ?_⟩
    · show Directory true (entries v i (view (setEnt v s dp e)) d.loc) _
      rw [k2.ents]
      exact dir_update h1 he hs hb
    · have hp : p ∈ x ++ { o with entry := e } :: y := hp
      simp only [List.mem_append, List.mem_cons] at hp
      rcases hp with hp | rfl | hp
      · exact hd.nodot p (by rw [hos]; simp [hp])
      · exact hd.nodot o (by rw [hos]; simp)
      · exact hd.nodot p (by rw [hos]; simp [hp])
  · exact (apart_dirs hr h hap).1 d' hd'

/-- Storing a cluster number in an entry. -/
theorem put_clust {v : Vol} (hg : Geo v) {w : List Nat} (h : w.length = 32) {cl : Nat} (hc : cl < v.nFatent) : ∃ w', stClust v w 0 cl = some w' ∧ w'.length = 32 ∧ ((∀ x ∈ w, x < 256) → ∀ x ∈ w', x < 256) ∧
    FatSync.Spec.first v w' 0 = cl ∧ ∀ k, k < 20 ∨ 28 ≤ k ∨ 22 ≤ k ∧ k < 26 → w'[k]? = w[k]? := by
  unfold stClust
  obtain ⟨w2, e2, p2⟩ := put_word (w := w) (p := 0 + 26) (x := cl % 2 ^ 16) (by omega)
  have b2 := bytes_length 2 (cl % 2 ^ 16)
  rw [e2, Option.bind_some]
  have hlow : FatSync.Spec.field w2 (0 + 26) 2 = cl % 2 ^ 16 := by
    rw [field_eq (x := cl % 2 ^ 16) (fun i hi => p2.at_ i (by omega)), word_mod]
  have hk := hg.kind
  split
  · rename_i ht
    obtain ⟨w3, e3, p3⟩ := put_word (w := w2) (p := 0 + 20) (x := (cl >>> 16) % 2 ^ 16) (by rw [p2.len]; omega)
    have b3 := bytes_length 2 ((cl >>> 16) % 2 ^ 16)
    refine ⟨w3, e3, by rw [p3.len, p2.len, h], fun hb => p3.byte (p2.byte hb), ?_, fun k hk => ?_⟩
    · unfold FatSync.Spec.first
      rw [if_pos ht, field_eq (p := 0 + 20) (k := 2) (x := (cl >>> 16) % 2 ^ 16) (fun i hi => p3.at_ i (by omega)), word_mod, Nat.shiftRight_eq_div_pow,
        field_eq (p := 0 + 26) (k := 2) (x := cl % 2 ^ 16) (fun i hi => by rw [p3.out _ (by omega)]; exact p2.at_ i (by omega)), word_mod]
      omega
    · rw [p3.out _ (by omega), p2.out _ (by omega)]
  · rename_i ht
    refine ⟨w2, rfl, by rw [p2.len, h], p2.byte, ?_, fun k hk => p2.out _ (by omega)⟩
    unfold FatSync.Spec.first
    rw [if_neg ht, hlow]
    omega

theorem take_eq {a b : List Nat} {n : Nat} (h : ∀ k, k < n → a[k]? = b[k]?) : a.take n = b.take n := by
  refine List.ext_getElem? fun k => ?_
  rw [List.getElem?_take, List.getElem?_take]
  split
  · exact h k ‹_›
  · rfl

theorem byte_at {e : List Nat} {k x : Nat} (h : e[k]? = some x) : byte e k = x := by
  unfold byte
  rw [List.getD_eq_getElem?_getD, h, Option.getD_some]

/-- The entry of a new directory. -/
theorem dir_entry {v : Vol} (hg : Geo v) {e : List Nat} (h : e.length = 32) (hb : ∀ b ∈ e, b < 256) (tm : Nat) {cl : Nat} (hc : cl < v.nFatent) :
    ∃ e', dirEntry v e tm cl = some e' ∧ e'.length = 32 ∧ (∀ b ∈ e', b < 256) ∧ e'.take 11 = e.take 11 ∧ byte e' 11 = 0x10 ∧ FatSync.Spec.first v e' 0 = cl ∧ (∀ k, 12 ≤ k ∧ k < 20 ∨ 28 ≤ k → e'[k]? = e[k]?) ∧
      FatSync.Spec.field e' 22 4 = tm % 2 ^ 32 := by
  unfold dirEntry
  obtain ⟨w1, e1, p1⟩ := put_dword (w := e) (p := 22) (x := tm) (by omega)
  have l1 := bytes_length 4 tm
  have lw := p1.len
  rw [e1, Option.bind_some]
  obtain ⟨w2, e2, k1, k2, k3, k4⟩ := put_clust hg (w := w1) (by omega) hc
  rw [e2, Option.bind_some]
  obtain ⟨w3, e3, p3⟩ := put_byte (w := w2) (p := 11) (x := 0x10) (by omega)
  have hout : ∀ k, k ≠ 11 → w3[k]? = w2[k]? := fun k hk => p3.out k (by simp only [List.length_cons, List.length_nil]; omega)
  have hfield : ∀ p n, 12 ≤ p → FatSync.Spec.field w3 p n = FatSync.Spec.field w2 p n := by
    intro p n hp
    unfold FatSync.Spec.field
    refine congrArg _ (List.ext_getElem? fun k => ?_)
    rw [List.getElem?_take, List.getElem?_take]
    split
    · rw [List.getElem?_drop, List.getElem?_drop, hout _ (by omega)]
    · rfl
  refine ⟨w3, e3, by rw [p3.len, k1], p3.byte (k2 (p1.byte hb)), take_eq fun k hk => ?_, ?_, ?_, fun k hk => ?_, ?_⟩
  · rw [hout k (by omega), k4 k (by omega), p1.out k (by omega)]
  · have := p3.at_ 0 (by simp)
    exact byte_at this
  · rw [← k3]
    unfold FatSync.Spec.first
    rw [hfield _ _ (by omega), hfield _ _ (by omega)]
  · rw [hout k (by omega), k4 k (by omega), p1.out k (by omega)]
  · rw [hfield _ _ (by omega), field_eq (x := tm) (fun k hk => by rw [k4 _ (by omega)]; exact p1.at_ k (by omega))]

end Fpm.Tree
