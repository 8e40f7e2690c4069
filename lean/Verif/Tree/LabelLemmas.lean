import Verif.Tree.LabelTextLemmas
import Verif.Tree.RenameLemmas
import Verif.Tree.UniqueLemmas
import Verif.DirDev.Props
/-!
# Volume labels: lemmas
-/
namespace Fpm.Tree
open Fpm.Fat Fpm.Fat.Spec Fpm.FatFile Fpm.FatFile.Spec Fpm.Lfn Fpm.Names Fpm.Names.Spec Fpm.TextIo.Spec Fpm.FatDir Fpm.FatDir.Spec Fpm.Mount Fpm.Mount.Spec Fpm.DirDev Fpm.DirDev.Spec Fpm.Tree.Spec Fpm.FatSync Fpm.FatBytes Fpm.FatBytes.Spec

/-! ## Entries -/

/-- An entry with a label. -/
def IsLabel (e : List Nat) : Prop := byte e 0 ≠ 0 ∧ byte e 0 ≠ 0xE5 ∧ byte e 0 ≠ 46 ∧ byte e 11 % 32 = 8

theorem and_31 (x : Nat) : x &&& 0x1F = x % 32 := Nat.and_two_pow_sub_one_eq_mod x 5

theorem label_skip {e : List Nat} (h : IsLabel e) : Skip e := .inr ⟨h.1, by rw [and_31]; exact h.2.2.2⟩

theorem labels_label {e : List Nat} (h : IsLabel e) (t : List (List Nat)) : labels (e :: t) = e.take 11 :: labels t := by
  rw [labels, if_neg h.1, if_pos h.2]

theorem labels_other {e : List Nat} (h0 : byte e 0 ≠ 0) (h : ¬ IsLabel e) (t : List (List Nat)) : labels (e :: t) = labels t := by
  rw [labels, if_neg h0, if_neg (fun hx => h ⟨h0, hx⟩)]

theorem labels_append {x : List (List Nat)} (hx : ∀ e ∈ x, byte e 0 ≠ 0) (t : List (List Nat)) : labels (x ++ t) = labels x ++ labels t := by
  induction x with
  | nil => rfl
  | cons e x ih =>
    have h0 := hx e (by simp)
    have := ih fun z hz => hx z (by simp [hz])
    rw [List.cons_append]
    by_cases hl : IsLabel e
    · rw [labels_label hl, labels_label hl, this, List.cons_append]
    · rw [labels_other h0 hl, labels_other h0 hl, this]

theorem labels_zero {t : List (List Nat)} (h : ∀ e ∈ t, byte e 0 = 0) : labels t = [] := by
  cases t with
  | nil => rfl
  | cons e t => rw [labels, if_pos (h e (by simp))]

theorem labels_blank (t : List (List Nat)) (m : Nat) : labels (t ++ List.replicate m blank) = labels t := by
  induction t with
  | nil => exact labels_zero fun e he => by rw [(List.mem_replicate.mp he).2]; rfl
  | cons e t ih =>
    rw [List.cons_append]
    unfold labels
    rw [ih]

/-- What `dir_read` for labels does with a list of entries. -/
theorem label_run : ∀ (t : List (List Nat)) (j : Nat), ((run labelStep t j () = .fin ∨ ∃ k, run labelStep t j () = .stop k none) ∧ labels t = []) ∨
    ∃ x e y, t = x ++ e :: y ∧ (∀ z ∈ x, byte z 0 ≠ 0) ∧ labels x = [] ∧ IsLabel e ∧ run labelStep t j () = .stop (j + x.length) (some ())
  | [], j => .inl ⟨.inl rfl, rfl⟩
  | e :: t, j => by
    rw [run]
    by_cases h0 : byte e 0 = 0
    · have : labelStep (32 * j) e () = .stop none := by unfold labelStep; rw [if_pos h0]
      rw [this]
      exact .inl ⟨.inr ⟨j, rfl⟩, by rw [labels, if_pos h0]⟩
    · have hatt : attr e &&& 0x1F = byte e 11 % 32 := by
        unfold attr
        rw [Nat.and_assoc, show (0x3F &&& 0x1F : Nat) = 0x1F from rfl, and_31]
      by_cases hl : IsLabel e
      · have : labelStep (32 * j) e () = .stop (some ()) := by
          unfold labelStep
          rw [if_neg h0, if_neg]
          rw [hatt]
          have := hl.2
          omega
        rw [this]
        exact .inr ⟨[], e, t, rfl, by simp, rfl, hl, rfl⟩
      · have : labelStep (32 * j) e () = .go () := by
          unfold labelStep
          rw [if_neg h0, if_pos]
          rw [hatt]
          unfold IsLabel at hl
          omega
        rw [this]
        simp only
        rcases label_run t (j + 1) with ⟨h1, h2⟩ | ⟨x, e', y, h1, h2, h3, h4, h5⟩
        · exact .inl ⟨h1, by rw [labels_other h0 hl, h2]⟩
        · refine .inr ⟨e :: x, e', y, by rw [h1]; rfl, fun z hz => ?_, by rw [labels_other h0 hl, h3], h4, ?_⟩
          · rcases List.mem_cons.mp hz with rfl | hz
            · exact h0
            · exact h2 z hz
          · rw [h5]
            congr 1
            simp
            omega

/-- An entry that is not among the first ones. -/
theorem past_other {z w x : List (List Nat)} {e : List Nat} {y : List (List Nat)} (he : e ∉ z) (h : z ++ w = x ++ e :: y) : ∃ x', x = z ++ x' ∧ w = x' ++ e :: y := by
  induction z generalizing x with
  | nil => exact ⟨x, rfl, h⟩
  | cons a z ih =>
    cases x with
    | nil =>
      rw [List.nil_append, List.cons_append] at h
      exact absurd (by rw [(List.cons.inj h).1]; simp) he
    | cons b x =>
      rw [List.cons_append, List.cons_append] at h
      obtain ⟨h1, h2⟩ := List.cons.inj h
      obtain ⟨x', h3, h4⟩ := ih (fun hx => he (by simp [hx])) h2
      exact ⟨x', by rw [← h1, h3]; rfl, h4⟩

/-- An entry that is no object, or the first behind the last one, becomes another one that is no object. -/
theorem rep_skip {i : Nat} {t : List (List Nat)} {os : List Obj} (h : Rep true i t os) : ∀ {x : List (List Nat)} {e : List Nat} {y : List (List Nat)}, t = x ++ e :: y → (∀ z ∈ x, byte z 0 ≠ 0) →
    (Skip e ∨ byte e 0 = 0 ∧ ∀ z ∈ y, byte z 0 = 0) → ∀ {e' : List Nat}, Skip e' → Rep true i (x ++ e' :: y) os := by
  induction h with
  | nil hj => intro x e y ht; rw [hj.2 rfl] at ht; simp at ht
  | @fin i j e0 t hj h0 =>
    intro x e y ht hx he e' he'
    rw [hj.2 rfl, List.nil_append] at ht
    cases x with
    | nil =>
      rw [List.nil_append] at ht
      obtain ⟨rfl, rfl⟩ := List.cons.inj ht
      rcases he with he | ⟨-, he⟩
      · rcases he with he | he
        · omega
        · exact absurd h0 he.1
      · exact .skip (j := []) ⟨by simp, fun _ => rfl⟩ he' (rep_zero he)
    | cons a x =>
      rw [List.cons_append] at ht
      exact absurd (by rw [← (List.cons.inj ht).1]; exact h0) (hx a (by simp))
  | @skip i j e0 t os hj hs hr ih =>
    intro x e y ht hx he e' he'
    rw [hj.2 rfl, List.nil_append] at ht
    rw [hj.2 rfl] at hr ih
    cases x with
    | nil =>
      rw [List.nil_append] at ht
      obtain ⟨rfl, rfl⟩ := List.cons.inj ht
      exact .skip (j := []) ⟨by simp, fun _ => rfl⟩ he' hr
    | cons a x =>
      rw [List.cons_append] at ht
      obtain ⟨rfl, h2⟩ := List.cons.inj ht
      exact .skip (j := []) ⟨by simp, fun _ => rfl⟩ hs (ih h2 (fun z hz => hx z (by simp [hz])) he he')
  | @obj i j es s long t os hj hl hs hr ih =>
    intro x e y ht hx he e' he'
    obtain rfl := hj.2 rfl
    have hno : e ∉ es ++ [s] := by
      intro hm
      have hno : ¬ Skip e ∧ byte e 0 ≠ 0 := by
        rcases List.mem_append.mp hm with hm | hm
        · cases long with
          | none => rw [hl.1] at hm; cases hm
          | some n => exact (lfn_not (stored_lfn hl.1 hl.2 (Nat.le_refl _) e hm)).2
        · rw [List.mem_singleton.mp hm]
          exact sfn_not hs
      rcases he with he | he
      · exact hno.1 he
      · exact hno.2 he.1
    obtain ⟨x', h1, h2⟩ := past_other (z := es ++ [s]) (w := t) hno (by rw [← ht]; simp)
    have := Rep.obj (i := i) hj hl hs (ih h2 (fun z hz => hx z (by rw [h1]; simp [hz])) he he')
    rw [h1]
    simpa using this

theorem dir_skip {t : List (List Nat)} {os : List Obj} (h : Directory true t os) {x : List (List Nat)} {e : List Nat} {y : List (List Nat)} (ht : t = x ++ e :: y) (hx : ∀ z ∈ x, byte z 0 ≠ 0)
    (he : Skip e ∨ byte e 0 = 0) {e' : List Nat} (he' : Skip e') (hb : e'.length = 32 ∧ ∀ b ∈ e', b < 256) : Directory true (x ++ e' :: y) os := by
  have hz : byte e 0 = 0 → ∀ z ∈ y, byte z 0 = 0 := h.ended x e y ht
  have h0 : byte e' 0 ≠ 0 := by
    rcases he' with h | h
    · omega
    · exact h.1
  refine ⟨fun z hm => ?_, rep_skip h.rep ht hx (he.imp id fun h => ⟨h, hz h⟩) he', ?_⟩
  · simp only [List.mem_append, List.mem_cons] at hm
    rcases hm with hm | rfl | hm
    · exact h.table z (by rw [ht]; simp [hm])
    · exact hb
    · exact h.table z (by rw [ht]; simp [hm])
  · have h1 := h.ended
    rw [ht] at h1
    have := ended_used (x := x ++ [e']) (y := y) (fun z hm => by
      rcases List.mem_append.mp hm with hm | hm
      · exact hx z hm
      · rw [List.mem_singleton.mp hm]; exact h0) (ended_tail (ended_append h1))
    simpa using this

/-! ## On the device -/

/-- Outcome of looking for a label in the directory. -/
theorem read_label {v : Vol} {i : Info} (hr : Ready v i) {s : St} (hi : Inv v s) {loc : Loc} (hl : Linked v (tab v s) loc) (hst : Starts v i 0 loc) (dp : Dp) {r : Ret} (he : r = rootLabel v i s dp) :
    Quiet v s r.st ∧ r.dp.sclust = 0 ∧ (r.res = FR_DISK_ERR ∧ ¬ Sound v ∨ r.res = FR_NO_FILE ∧ labels (entries v i (view s) loc) = [] ∨
      r.res = FR_OK ∧ ∃ x e y, entries v i (view s) loc = x ++ e :: y ∧ (∀ z ∈ x, byte z 0 ≠ 0) ∧ labels x = [] ∧ IsLabel e ∧ At v i loc x.length r.dp ∧ r.st.winsect = some r.dp.sect) := by
  have hs := sdi_spec hr hi hl (dp := { dp with sclust := 0 }) hst (j := 0) (total_pos hr hl)
  unfold rootLabel at he
  rw [show 32 * 0 = 0 from rfl] at hs
  generalize dirSdi v i s { dp with sclust := 0 } 0 = g at hs he
  obtain ⟨q1, hsc, hcs⟩ := hs
  rcases hcs with ⟨hok, hat⟩ | ⟨her, hns⟩
  rotate_left
  · rw [if_neg (by rw [her]; decide)] at he
    subst he
    exact ⟨q1, hsc, .inl ⟨her, hns⟩⟩
  rw [if_pos hok] at he
  unfold readLabel at he
  have hl1 := linked_same hl q1.same
  rw [if_neg (at_place hr hl1 hat).2.2] at he
  obtain ⟨h1, h2, h3⟩ := walk_spec hr labelStep ROUNDS (q := ()) q1.inv hl1 hat (rounds_enough v i loc 0)
  rw [entries_same hr hl q1.same, List.drop_zero] at h3
  have h4 := label_run (entries v i (view s) loc) 0
  generalize walk v i false labelStep ROUNDS g.st g.dp () = w at h1 h2 h3 he
  generalize entries v i (view s) loc = t at h3 h4 ⊢
  have hst' : r.st = w.st ∧ r.dp.sclust = w.dp.sclust := by
    rw [he]
    unfold labelEnd
    split <;> exact ⟨rfl, rfl⟩
  have hnone : w.val = none → r.res = w.res := by
    intro hv
    rw [he]
    unfold labelEnd
    rw [hv]
  refine ⟨by rw [hst'.1]; exact q1.trans h1, by rw [hst'.2, h2]; exact hsc, ?_⟩
  rcases h3 with ⟨a, b, c⟩ | ⟨a, b, c⟩ | ⟨a, b, c, d⟩ | ⟨k, q, a, b, c, d, e⟩
  · exact .inl ⟨(hnone b).trans a, c⟩
  · rcases h4 with ⟨h4, -⟩ | ⟨x, e, y, -, -, -, -, h4⟩
    · rcases h4 with h4 | ⟨k, h4⟩ <;> rw [a] at h4 <;> cases h4
    · rw [a] at h4; cases h4
  · rcases h4 with ⟨-, h5⟩ | ⟨x, e, y, -, -, -, -, h4⟩
    · exact .inr (.inl ⟨(hnone c).trans b, h5⟩)
    · rw [a] at h4; cases h4
  · rcases h4 with ⟨h4, h5⟩ | ⟨x, e', y, h5, h6, h7, h8, h4⟩
    · rcases h4 with h4 | ⟨k', h4⟩
      · rw [a] at h4; cases h4
      · rw [a] at h4
        cases h4
        refine .inr (.inl ⟨?_, h5⟩)
        rw [he]
        unfold labelEnd
        rw [c]
    · rw [a] at h4
      cases h4
      refine .inr (.inr ?_)
      have hre : r = ⟨w.st, w.dp, w.res⟩ := by
        rw [he]
        unfold labelEnd
        rw [c]
      rw [hre]
      rw [Nat.zero_add] at d
      exact ⟨b, x, e', y, h5, h6, h7, h8, d, e⟩

/-- Writing an entry that is no object in place of such an entry, or behind the last object. -/
theorem write_tree {v : Vol} {i : Info} (hr : Ready v i) {d : Dir} {R : List Dir} {F : List (List Nat)} {s : St} (h : Tree v i (d :: R) F s) {dp : Dp} {x : List (List Nat)} {e : List Nat} {y : List (List Nat)}
    (ht : entries v i (view s) d.loc = x ++ e :: y) (hx : ∀ z ∈ x, byte z 0 ≠ 0) (he : Skip e ∨ byte e 0 = 0) (hat : At v i d.loc x.length dp) (hw : s.winsect = some dp.sect) {e' : List Nat} (he' : Skip e')
    (hb : e'.length = 32 ∧ ∀ b ∈ e', b < 256) :
    Tree v i (d :: R) F (setEnt v s dp e') ∧ entries v i (view (setEnt v s dp e')) d.loc = x ++ e' :: y ∧ Alike v F s (setEnt v s dp e') := by
  have hv : DirVol v [] (dirChains R ++ F) d.loc s := tree_vol h (A := []) rfl
  obtain ⟨h1, h2, -⟩ := set_spec hr hv hat hw (show Ent e' from hb)
  have ha := h2.apart (i := i) hv h1
  obtain ⟨a1, a2⟩ := apart_dirs hr h ha
  have hent : entries v i (view (setEnt v s dp e')) d.loc = x ++ e' :: y := by
    rw [h2.ents, ht]
    show (x ++ e :: y).set x.length e' = _
    rw [List.set_append_right _ _ (Nat.le_refl _), Nat.sub_self]
    rfl
  have hd := h.dirs d (by simp)
  refine ⟨tree_of h1.inv h1.count ?_ (fun d' hd' => ?_) (tree_shape h), hent, a2⟩
  · have := h1.chains
    rw [allchains_cons R F d d.loc d.os] at this
    exact this
  · rcases List.mem_cons.mp hd' with rfl | hd'
    · exact ⟨hd.starts, by rw [hent]; exact dir_skip hd.dir ht hx he he' hb, hd.names, hd.nodot⟩
    · exact a1 d' hd'

/-- Looking for a free entry. -/
theorem alloc_tree {v : Vol} {i : Info} (hr : Ready v i) {d : Dir} {R : List Dir} {F : List (List Nat)} {s : St} (h : Tree v i (d :: R) F s) {dp : Dp} (hdp : dp.sclust = d.sclust) {g : Ret} (hg : g = dirAlloc v i s dp 1) :
    Apart v i [] (dirChains R ++ F) d.loc s g.st ∧ (g.res = FR_DISK_ERR ∧ ¬ Sound v ∨
     ∃ loc, Longer d.loc loc ∧ Tree v i ({ d with loc := loc } :: R) F g.st ∧ labels (entries v i (view g.st) loc) = labels (entries v i (view s) d.loc) ∧
       (g.res = DirDev.FR_DENIED ∧ AllUsed (entries v i (view g.st) loc) ∧ Full v i [] (dirChains R ++ F) (view g.st) loc ∨
        g.res = FR_OK ∧ ∃ x e y, entries v i (view g.st) loc = x ++ e :: y ∧ (∀ z ∈ x, byte z 0 ≠ 0) ∧ (Skip e ∨ byte e 0 = 0) ∧ ¬ IsLabel e ∧ (byte e 0 = 0 → ∀ z ∈ y, byte z 0 = 0) ∧ At v i loc x.length g.dp ∧ g.st.winsect = some g.dp.sect)) := by
  have hv : DirVol v [] (dirChains R ++ F) d.loc s := tree_vol h (A := []) rfl
  have hd := h.dirs d (by simp)
  obtain ⟨h1, h2, h3⟩ := alloc_dev hr hv (dp := dp) (by rw [hdp]; exact hd.starts) (n := 1) (by decide)
  rw [← hg] at h1 h2 h3
  obtain ⟨a1, a2⟩ := apart_dirs hr h h1
  refine ⟨h1, ?_⟩
  rcases h3 with h3 | ⟨loc, h4, h5, h6, h7⟩
  · exact .inl h3
  obtain ⟨m, y, e1, e2, -, e3⟩ := FatDir.alloc_spec (growth v [] (dirChains R ++ F) d.loc) (n := 1) (by decide) (entries v i (view s) d.loc)
  rw [e1] at h6 h7
  dsimp only at h6 h7
  have hdir : Directory true (entries v i (view g.st) loc) d.os := by
    rw [h6]
    exact ⟨table_blank hd.dir.table m, append_blank hd.dir.rep m, ended_blank hd.dir.ended m⟩
  have htree : Tree v i ({ d with loc := loc } :: R) F g.st := by
    refine tree_of h5.inv h5.count ?_ (fun d' hd' => ?_) (shape_loc (tree_shape h) rfl rfl)
    · have := h5.chains
      rw [allchains_cons R F d loc d.os] at this
      exact this
    · rcases List.mem_cons.mp hd' with rfl | hd'
      · exact ⟨starts_longer h4 hv.linked hd.starts, hdir, hd.names, hd.nodot⟩
      · exact a1 d' hd'
  refine .inr ⟨loc, h4, htree, by rw [h6, labels_blank], ?_⟩
  rcases h7 with ⟨h7, h8⟩ | ⟨p, h7, h8, h9, h10, -⟩
  · obtain ⟨c1, c2⟩ := e2 h7
    refine .inl ⟨h8, fun e he => ?_, ?_⟩
    · rw [h6] at he
      obtain ⟨u, w, hs⟩ := List.append_of_mem he
      obtain ⟨e', he', hf⟩ := c2 u [e] w (by rw [hs]; simp) rfl
      rw [List.mem_singleton.mp he'] at hf
      have : ¬ (byte e 0 = 0xE5 ∨ byte e 0 = 0) := fun hx => by rw [(free_iff e).mpr hx] at hf; cases hf
      exact ⟨fun hx => this (.inr hx), fun hx => this (.inl hx)⟩
    · exact growth_full hr h4 h5 (by rw [h6]; simpa using c1)
  · obtain ⟨u, f, w, c1, c2, c3, c4, c5⟩ := e3 p h7
    obtain ⟨e, rfl⟩ := List.length_eq_one_iff.mp c2
    have hf := (free_iff e).mp (c4 e (by simp))
    have hte : entries v i (view g.st) loc = u ++ ([e] ++ w) := by rw [h6]; exact c1
    have hend := hdir.ended
    rw [hte] at hend
    refine .inr ⟨h8, u, e, w, hte, before_free hend c5, hf.imp .inl id, fun hx => ?_, hdir.ended u e w hte, ?_, h10⟩
    · rcases hf with hf | hf
      · exact hx.2.1 hf
      · exact hx.1 hf
    · rw [show u.length = p from by omega]
      exact h9

theorem form_length {p : List Nat} (h : GoodLabel p) : (pad 11 (p.map up)).length = 11 := by
  have := h.1
  unfold pad
  simp
  omega

theorem form_byte {p : List Nat} (h : GoodLabel p) : ∀ b ∈ pad 11 (p.map up), 32 ≤ b ∧ b < 127 ∧ b ≠ 46 := by
  have key : ∀ c < 127, LabelChar c → 32 ≤ up c ∧ up c < 127 ∧ up c ≠ 46 := by decide +kernel
  intro b hb
  unfold pad at hb
  rcases List.mem_append.mp hb with hb | hb
  · obtain ⟨c, hc, rfl⟩ := List.mem_map.mp hb
    exact key c (by have := (h.2 c hc).2.1; omega) (h.2 c hc)
  · rw [(List.mem_replicate.mp hb).2]
    decide

theorem first_mem {l : List Nat} (h : 0 < l.length) (t : List Nat) : byte (l ++ t) 0 ∈ l := by
  unfold byte
  rw [List.getD_eq_getElem?_getD, List.getElem?_append_left h, List.getElem?_eq_getElem h, Option.getD_some]
  exact List.getElem_mem _

/-- The entry of a label: the first eleven bytes, and the attribute. -/
theorem label_entry {p : List Nat} (h : GoodLabel p) {w : List Nat} (hw : w.length = 21) (hb : ∀ b ∈ w, b < 256) (ha : w.headD 0 % 32 = 8) :
    IsLabel (pad 11 (p.map up) ++ w) ∧ ((pad 11 (p.map up) ++ w).length = 32 ∧ ∀ b ∈ pad 11 (p.map up) ++ w, b < 256) ∧ (pad 11 (p.map up) ++ w).take 11 = pad 11 (p.map up) := by
  have hl := form_length h
  have hf := form_byte h
  generalize pad 11 (p.map up) = n at hl hf
  have h0 := hf _ (first_mem (l := n) (by omega) w)
  have h11 : byte (n ++ w) 11 = w.headD 0 := by
    unfold byte
    rw [List.getD_eq_getElem?_getD, List.getElem?_append_right (by omega), hl]
    cases w <;> rfl
  refine ⟨⟨by omega, by omega, h0.2.2, by rw [h11]; exact ha⟩, ⟨by simp; omega, fun b hm => ?_⟩, ?_⟩
  · rcases List.mem_append.mp hm with hm | hm
    · have := hf b hm
      omega
    · exact hb b hm
  · rw [← hl, List.take_left]

/-- What setting a label does to the first entry with one. -/
theorem change_entry {p : List Nat} (h : GoodLabel p) {z : List Nat} {di : Nat} (hdi : di = 0 ↔ Void p) {e : List Nat} (he : e.length = 32 ∧ ∀ b ∈ e, b < 256) (hl : IsLabel e) {c : List Nat} (hc : c = changeLabel (pad 11 (p.map up) ++ z) di e) :
    Skip c ∧ (c.length = 32 ∧ ∀ b ∈ c, b < 256) ∧ ∀ y, labels (c :: y) = if Void p then labels y else pad 11 (p.map up) :: labels y := by
  unfold changeLabel at hc
  by_cases hv : Void p
  · rw [if_neg (by rw [hdi.mpr hv]; simp)] at hc
    have h0 : byte c 0 = 0xE5 := by
      rw [hc]
      unfold byte
      cases e with
      | nil => simp at he
      | cons a e => rfl
    refine ⟨.inl h0, ⟨by rw [hc]; simpa using he.1, fun b hb => ?_⟩, fun y => ?_⟩
    · rw [hc] at hb
      rcases List.mem_or_eq_of_mem_set hb with hb | rfl
      · exact he.2 b hb
      · decide
    · rw [if_pos hv, labels_other (by rw [h0]; decide) (fun hx => hx.2.1 h0)]
  · rw [if_pos (fun hx => hv (hdi.mp hx)), show (pad 11 (p.map up) ++ z).take 11 = pad 11 (p.map up) from List.take_left' (form_length h)] at hc
    obtain ⟨k1, k2, k3⟩ := label_entry h (w := e.drop 11) (by simp; omega) (fun b hb => he.2 b ((List.drop_sublist 11 e).subset hb)) (by
      have := hl.2.2.2
      unfold byte at this
      rw [List.getD_eq_getElem?_getD] at this
      rw [List.headD_eq_head?_getD, List.head?_drop]
      exact this)
    rw [← hc] at k1 k2 k3
    exact ⟨label_skip k1, k2, fun y => by rw [if_neg hv, labels_label k1, k3]⟩

theorem new_label {p : List Nat} (h : GoodLabel p) {z : List Nat} {c : List Nat} (hc : c = newLabel (pad 11 (p.map up) ++ z)) :
    IsLabel c ∧ (c.length = 32 ∧ ∀ b ∈ c, b < 256) ∧ c.take 11 = pad 11 (p.map up) := by
  unfold newLabel at hc
  rw [show (pad 11 (p.map up) ++ z).take 11 = pad 11 (p.map up) from List.take_left' (form_length h)] at hc
  rw [hc]
  exact label_entry h (by decide) (by decide) (by decide)

/-- Setting a label, up to the last step. -/
theorem set_label {v : Vol} {i : Info} (hr : Ready v i) {d : Dir} {R : List Dir} {F : List (List Nat)} {s : St} (h : Tree v i (d :: R) F s) (h0 : d.sclust = 0) {p : List Nat} (hp : GoodLabel p) {z : List Nat} {di : Nat} (hdi : di = 0 ↔ Void p)
    (dp : Dp) {r : St × Nat} (he : r = setAt v i (pad 11 (p.map up) ++ z) di (rootLabel v i s dp)) :
    r.2 = FR_DISK_ERR ∧ ¬ Sound v ∧ Alike v F s r.1 ∧ (∀ q ∈ R, DirOk v i r.1 q) ∨
    r.2 = FR_OK ∧ Void p ∧ labels (entries v i (view s) d.loc) = [] ∧ Tree v i (d :: R) F r.1 ∧ (∀ n, ¬ Fat2 v n → view r.1 n = view s n) ∨
    ∃ loc s1, Longer d.loc loc ∧ Tree v i ({ d with loc := loc } :: R) F s1 ∧ Alike v F s s1 ∧
      (r = (s1, DirDev.FR_DENIED) ∧ ¬ Void p ∧ labels (entries v i (view s) d.loc) = [] ∧ labels (entries v i (view s1) loc) = [] ∧ AllUsed (entries v i (view s1) loc) ∧ Full v i [] (dirChains R ++ F) (view s1) loc ∨
       r = syncFs v i.fsi s1 ∧ labels (entries v i (view s1) loc) = relabelled p (labels (entries v i (view s) d.loc)) ∧ (Void p → labels (entries v i (view s) d.loc) ≠ [])) := by
  have hd := h.dirs d (by simp)
  have hlk := tree_linked h (d := d) (by simp)
  obtain ⟨q, hsc, h1⟩ := read_label hr h.inv hlk (by rw [← h0]; exact hd.starts) dp rfl
  generalize rootLabel v i s dp = g at q hsc h1 he
  have hq := tree_quiet hr q h
  have hents : entries v i (view g.st) d.loc = entries v i (view s) d.loc := entries_same hr hlk q.same
  have hal : Alike v F s g.st := fun l hl n hn => q.same n (chain_secs hr (h.chains.chain l (by simp [hl])) hn).2.1
  unfold setAt at he
  rcases h1 with ⟨h1, h2⟩ | ⟨h1, h2⟩ | ⟨h1, x, e, y, h2, h3, h4, h5, h6, h7⟩
  · rw [if_neg (by rw [h1]; decide), if_neg (by rw [h1]; decide)] at he
    subst he
    exact .inl ⟨h1, h2, hal, fun q hq' => hq.dirs q (by simp [hq'])⟩
  · rw [if_neg (by rw [h1]; decide), if_pos h1] at he
    by_cases hv : Void p
    · rw [if_neg (by rw [hdi.mpr hv]; simp)] at he
      subst he
      exact .inr (.inl ⟨rfl, hv, h2, hq, q.same⟩)
    rw [if_pos (fun hx => hv (hdi.mp hx))] at he
    obtain ⟨a1, a2⟩ := alloc_tree hr hq (dp := g.dp) (by rw [hsc, h0]) rfl
    generalize DirDev.dirAlloc v i g.st g.dp 1 = g2 at a1 a2 he
    unfold createLabel at he
    have a3 := (apart_dirs hr hq a1).2
    rcases a2 with ⟨a2, a4⟩ | ⟨loc, b1, b2, b3, ⟨b4, b5, b6⟩ | ⟨b4, x, e, y, b5, b6, b7, b8, b11, b9, b10⟩⟩
    · rw [if_neg (by rw [a2]; decide)] at he
      subst he
      exact .inl ⟨a2, a4, hal.trans a3, (apart_dirs hr hq a1).1⟩
    · rw [if_neg (by rw [b4]; decide), b4] at he
      rw [hents, h2] at b3
      exact .inr (.inr ⟨loc, g2.st, b1, b2, hal.trans a3, .inl ⟨he, hv, h2, b3, b5, b6⟩⟩)
    · rw [if_pos b4] at he
      obtain ⟨e2, c1, -, -⟩ := ent_spec hr b2.inv b9 b10
      rw [c1] at he
      dsimp only at he
      obtain ⟨n1, n2, n3⟩ := new_label hp (z := z) rfl
      generalize newLabel (pad 11 (p.map up) ++ z) = c at n1 n2 n3 he
      obtain ⟨w1, w2, w3⟩ := write_tree (d := { d with loc := loc }) hr b2 b5 b6 b7 b9 b10 (label_skip n1) n2
      refine .inr (.inr ⟨loc, _, b1, w1, (hal.trans a3).trans w3, .inr ⟨he, ?_, fun hx => absurd hx hv⟩⟩)
      rw [show entries v i (view (setEnt v g2.st g2.dp c)) loc = x ++ c :: y from w2, labels_append b6, labels_label n1, n3]
      rw [hents, h2, b5, labels_append b6] at b3
      unfold relabelled
      rw [if_neg hv, h2]
      obtain ⟨k1, k2⟩ := List.append_eq_nil_iff.mp b3
      rw [k1]
      have hy : labels y = [] := by
        by_cases hz : byte e 0 = 0
        · exact labels_zero (b11 hz)
        · rw [← labels_other hz b8]
          exact k2
      rw [hy]
      rfl
  · rw [if_pos h1] at he
    rw [← hents] at h2
    obtain ⟨e2, c1, c2, -⟩ := ent_spec hr hq.inv h6 h7
    have hee : e2 = e := by
      rw [h2] at c2
      simpa using c2.symm
    rw [c1, hee] at he
    dsimp only at he
    have hb : e.length = 32 ∧ ∀ b ∈ e, b < 256 := (hq.dirs d (by simp)).dir.table e (by rw [h2]; simp)
    obtain ⟨n1, n2, n3⟩ := change_entry hp (z := z) hdi hb h5 rfl
    generalize changeLabel (pad 11 (p.map up) ++ z) di e = c at n1 n2 n3 he
    obtain ⟨w1, w2, w3⟩ := write_tree hr hq h2 h3 (.inl (label_skip h5)) h6 h7 n1 n2
    have hls : labels (entries v i (view s) d.loc) = e.take 11 :: labels y := by rw [← hents, h2, labels_append h3, h4, labels_label h5]; rfl
    refine .inr (.inr ⟨d.loc, _, longer_refl _, w1, hal.trans w3, .inr ⟨he, ?_, fun _ => by rw [hls]; simp⟩⟩)
    rw [w2, labels_append h3, h4, n3, hls]
    unfold relabelled
    rfl

end Fpm.Tree
