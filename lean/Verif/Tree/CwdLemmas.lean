import Verif.Tree.CwdSpec
import Verif.Tree.HistLemmas
import Verif.Tree.StatLemmas
/-!
# Lemmas about f_getcwd
-/
namespace Fpm.Tree
open Fpm.Fat Fpm.Fat.Spec Fpm.FatFile.Spec Fpm.Lfn Fpm.Names Fpm.Names.Spec Fpm.TextIo.Spec Fpm.FatDir Fpm.FatDir.Spec Fpm.Mount Fpm.Mount.Spec Fpm.DirDev Fpm.DirDev.Spec Fpm.Tree.Spec Fpm.FatSync

/-! ## The buffer -/

theorem push_spec : ∀ (b out : List Nat) (j : Nat), j ≤ out.length → b.length ≤ j →
    ∃ out', pushDown b out j = some (out', j - b.length) ∧ out'.length = out.length ∧ out'.drop (j - b.length) = b.reverse ++ out.drop j
  | [], out, j, _, _ => ⟨out, rfl, rfl, by simp⟩
  | c :: cs, out, 0, _, h => by simp at h
  | c :: cs, out, j + 1, h1, h2 => by
    rw [pushDown, if_pos (by omega)]
    obtain ⟨out', e, hl, hd⟩ := push_spec cs (out.set j c) j (by simp; omega) (by simpa using h2)
    refine ⟨out', by rw [e]; simp, by rw [hl]; simp, ?_⟩
    rw [show j + 1 - (c :: cs).length = j - cs.length by simp, hd, List.drop_eq_getElem_cons (by simp; omega), List.drop_set_of_lt (by omega)]
    simp

theorem putUp_spec : ∀ (b out : List Nat) (tp : Nat), tp + b.length ≤ out.length →
    ∃ out', putUp b out tp = some out' ∧ out'.length = out.length ∧ out'.take (tp + b.length) = out.take tp ++ b ∧ ∀ j, tp + b.length ≤ j → out'.drop j = out.drop j
  | [], out, tp, _ => ⟨out, rfl, rfl, by simp, fun _ _ => rfl⟩
  | c :: cs, out, tp, h => by
    simp only [List.length_cons] at h
    rw [putUp, if_pos (by omega)]
    obtain ⟨out', e, hl, ht, hd⟩ := putUp_spec cs (out.set tp c) (tp + 1) (by simp; omega)
    refine ⟨out', e, by rw [hl]; simp, ?_, fun j hj => ?_⟩
    · rw [show tp + (c :: cs).length = tp + 1 + cs.length by simp; omega, ht, List.take_add_one, List.getElem?_set_self (by omega), List.take_set_of_le (Nat.le_refl _)]
      simp
    · simp only [List.length_cons] at hj
      rw [hd j (by omega), List.drop_set_of_lt (by omega)]

theorem copyUp_spec : ∀ (k : Nat) (out : List Nat) (tp i : Nat), tp ≤ i → i + k ≤ out.length →
    ∃ out', copyUp k out tp i = some out' ∧ out'.length = out.length ∧ out'.take (tp + k) = out.take tp ++ (out.drop i).take k
  | 0, out, tp, i, _, _ => ⟨out, rfl, rfl, by simp⟩
  | k + 1, out, tp, i, h1, h2 => by
    rw [copyUp, List.getElem?_eq_getElem (by omega)]
    simp only
    rw [if_pos (by omega)]
    obtain ⟨out', e, hl, ht⟩ := copyUp_spec k (out.set tp out[i]) (tp + 1) (i + 1) (by omega) (by simp; omega)
    refine ⟨out', e, by rw [hl]; simp, ?_⟩
    rw [show tp + (k + 1) = tp + 1 + k by omega, ht, List.take_add_one, List.getElem?_set_self (by omega), List.take_set_of_le (Nat.le_refl _), List.drop_set_of_lt (by omega)]
    rw [show out.drop i = out[i] :: out.drop (i + 1) from (List.drop_eq_getElem_cons (by omega)), List.take_succ_cons]
    simp only [Option.toList_some, List.append_assoc, List.singleton_append]

/-! ## Finding the directory in its parent directory -/

theorem shown_blk {o : Obj} {blk : Option Nat} {buf : List Nat} (h1 : o.long = none → blk = none) (h2 : ∀ n, o.long = some n → blk ≠ none ∧ Lfn.Spec.Name n ∧ Lfn.Spec.Holds buf n) :
    ∃ name, listName (if blk.map (32 * ·) = none then none else some buf) o.entry = some name ∧ Shown o name := by
  simp only [Option.map_eq_none_iff]
  exact shown_of h1 h2

theorem child_spec {v : Vol} {i : Info} (hr : Ready v i) {loc : Loc} {ccl : Nat} : ∀ (k : Nat) {s : St} {j : Nat} {dp : Dp} {os : List Obj} (buf : List Nat), Inv v s → Linked v (tab v s) loc → At v i loc j dp →
    Rep true j ((entries v i (view s) loc).drop j) os → buf.length = 256 → os.length < k → (∃ o ∈ os, ¬ Dotted o ∧ first v o = ccl) →
    Quiet v s (findChild v i ccl k s dp buf).st ∧ (findChild v i ccl k s dp buf).dp.sclust = dp.sclust ∧
      ((findChild v i ccl k s dp buf).res = FR_DISK_ERR ∧ ¬ Sound v ∨ (findChild v i ccl k s dp buf).res = FR_OK ∧ (findChild v i ccl k s dp buf).buf.length = 256 ∧
        ∃ o ∈ os, ∃ name, ¬ Dotted o ∧ first v o = ccl ∧ childName v (findChild v i ccl k s dp buf) = some name ∧ Shown o name)
  | 0, _, _, _, _, _, _, _, _, _, _, h, _ => by omega
  | k + 1, s, j, dp, os, buf, hi, hl, hat, hrep, hb, hk, hex => by
    have htab : ∀ e ∈ entries v i (view s) loc, e.length = 32 ∧ ∀ b ∈ e, b < 256 := fun e he => entries_table hr (view_sec hi) loc e he
    obtain ⟨q, hsc, h1⟩ := read_spec hr hi hl hat buf
    rw [findChild]
    generalize dirRead v i s dp buf = g at q hsc h1
    rcases h1 with ⟨her, hns⟩ | h1
    · rw [if_neg (by rw [her]; decide)]
      exact ⟨q, hsc, .inl ⟨her, hns⟩⟩
    unfold FatDir.dirRead at h1
    rcases read_next hrep ⟨0xFF, 0xFF, none⟩ buf (fun e he => htab e (List.mem_of_mem_drop he)) rfl hb with ⟨h2, -⟩ | ⟨a, o, b, blk, buf', rfl, h2, h3, h4, h5, h6, h7, pre, post, h8, h9, h10⟩
    · obtain ⟨o, ho, hd, -⟩ := hex
      exact absurd (h2 o ho) hd
    rw [h4] at h1
    obtain ⟨c1, c2, c3, c4, c5⟩ := h1
    have hget : (entries v i (view s) loc)[o.pos]? = some o.entry := by
      rw [h9, ← List.getElem?_drop, h8, List.getElem?_append_right (by omega), Nat.sub_self]
      rfl
    have hdrop : (entries v i (view s) loc).drop (o.pos + 1) = post := by
      rw [h9, Nat.add_assoc, ← List.drop_drop, h8, ← List.drop_drop, List.drop_left]
      rfl
    obtain ⟨e, he, hg, -⟩ := ent_entry hr q.inv c4 c5
    rw [entries_same hr hl q.same, hget] at hg
    cases hg
    obtain ⟨hel, heb⟩ := htab o.entry (List.mem_of_getElem? hget)
    rw [if_pos c1, he, Option.bind_some, ld_clust heb (by omega)]
    simp only
    by_cases hcl : ccl = FatSync.Spec.first v o.entry 0
    · rw [if_pos hcl]
      obtain ⟨name, hn1, hn2⟩ := shown_blk h6 h7
      refine ⟨q, hsc, .inr ⟨c1, by rw [c3]; exact h5, o, by simp, name, h3, hcl.symm, ?_, hn2⟩⟩
      unfold childName
      rw [he, Option.bind_some, c2, c3]
      exact hn1
    · rw [if_neg hcl]
      have hm := next_spec hr q.inv (linked_same hl q.same) c4
      have hex' : ∃ o ∈ b, ¬ Dotted o ∧ first v o = ccl := by
        obtain ⟨o', ho', hd', hf'⟩ := hex
        rcases List.mem_append.mp ho' with hx | hx
        · exact absurd (h2 o' hx) hd'
        · rcases List.mem_cons.mp hx with rfl | hx
          · exact absurd hf'.symm hcl
          · exact ⟨o', hx, hd', hf'⟩
      generalize dirNext v i false g.st g.dp = r at hm
      rcases hm.cases with ⟨hok, hat'⟩ | ⟨hno, htot, hz⟩ | ⟨her, hns⟩
      · rw [if_pos hok]
        obtain ⟨q2, hs2, h11⟩ := child_spec hr k (os := b) g.buf hm.quiet.inv (linked_same (linked_same hl q.same) hm.quiet.same) hat'
          (by rw [entries_same hr (linked_same hl q.same) hm.quiet.same, entries_same hr hl q.same, hdrop]; exact h10) (by rw [c3]; exact h5) (by simp at hk; omega) hex'
        refine ⟨(q.trans hm.quiet).trans q2, hs2.trans (hm.sclust.trans hsc), h11.imp id fun ⟨x1, x2, o', ho', x3⟩ => ⟨x1, x2, o', by simp [ho'], x3⟩⟩
      · exfalso
        have hlen : (entries v i (view s) loc).length = o.pos + 1 := by rw [entries_length]; exact htot
        rw [List.drop_eq_nil_of_le (by omega)] at hdrop
        subst hdrop
        obtain ⟨o', ho', -⟩ := hex'
        have := (rep_pos h10 o' ho').2
        simp at this
      · rw [if_neg (by rw [her]; decide)]
        exact ⟨q.trans hm.quiet, hm.sclust.trans hsc, .inl ⟨her, hns⟩⟩

theorem fn_dot {o : Obj} {cs : List Nat} (h : o.fn = pad 11 (46 :: cs)) : Dotted o := by
  have h0 : (o.entry.take 11)[0]? = some 46 := by
    have : o.entry.take 11 = o.fn := rfl
    rw [this, h]
    rfl
  rw [List.getElem?_take, if_pos (by decide)] at h0
  unfold Dotted byte
  rw [List.getD_eq_getElem?_getD, h0]
  rfl

theorem parent_spec {v : Vol} {i : Info} (hr : Ready v i) {T : List Dir} {F : List (List Nat)} {s : St} (h : Tree v i T F s) (hdots : ∀ q ∈ T, q.sclust ≠ 0 → DotsSecond q) {q : Dir} (hq : q ∈ T) (h0 : q.sclust ≠ 0) {dp : Dp}
    (hdp : dp.sclust = q.sclust) :
    Quiet v s (parentDir v i s dp).st ∧ ((parentDir v i s dp).res = FR_DISK_ERR ∧ ¬ Sound v ∨
      (parentDir v i s dp).res = FR_OK ∧ ∃ p ∈ T, (parentDir v i s dp).dp.sclust = p.sclust ∧ At v i p.loc 0 (parentDir v i s dp).dp ∧ ∃ o ∈ p.os, ¬ Dotted o ∧ IsDir o ∧ first v o = q.sclust) := by
  have hl := tree_linked h hq
  obtain ⟨b, hb, hpos, hfn⟩ := hdots q hq h0
  have hget := rep_entry (h.dirs q hq).dir.rep b hb
  rw [hpos] at hget
  have hlt : 1 < total v i q.loc := by
    rw [← entries_length v i (view s) q.loc]
    exact (List.getElem?_eq_some_iff.mp hget).1
  obtain ⟨-, -, hor⟩ := h.dots q hq b hb (fn_dot hfn)
  obtain ⟨p, hp, hps, o, ho, hod, hoi, hof⟩ : ∃ p ∈ T, p.sclust = first v b ∧ ∃ o' ∈ p.os, ¬ Dotted o' ∧ IsDir o' ∧ first v o' = q.sclust := by
    rcases hor with ⟨hx, -⟩ | ⟨-, hx⟩
    · rw [hfn] at hx
      exact absurd hx (by decide)
    · exact hx
  have hso := sdi_spec hr h.inv hl (dp := dp) (by rw [hdp]; exact (h.dirs q hq).starts) hlt
  unfold parentDir
  rw [show 32 * 1 = 32 from rfl] at hso
  generalize dirSdi v i s dp 32 = r at hso
  rcases hso.cases with ⟨hok, hat⟩ | ⟨her, hns⟩
  rotate_left
  · rw [if_neg (by rw [her]; decide)]
    exact ⟨hso.quiet, .inl ⟨her, hns⟩⟩
  rw [if_pos hok]
  have hl1 := linked_same hl hso.quiet.same
  obtain ⟨q2, hm⟩ := move_quiet hr.geo hso.quiet.inv (at_place hr hl1 hat).2.1
  generalize moveWindow v r.st r.dp.sect = m at q2 hm
  rcases hm with ⟨hm, hw⟩ | ⟨hm, hns⟩
  rotate_left
  · rw [if_neg (by rw [hm]; decide)]
    exact ⟨hso.quiet.trans q2, .inl ⟨hm, hns⟩⟩
  rw [if_pos hm]
  obtain ⟨e, he, hg, hent⟩ := ent_entry hr q2.inv hat hw
  rw [entries_same hr hl1 q2.same, entries_same hr hl hso.quiet.same, hget] at hg
  cases hg
  rw [he, Option.bind_some, ld_clust hent.2 (by have := hent.1; omega)]
  simp only
  have h2 := tree_quiet hr (hso.quiet.trans q2) h
  have hs3 := sdi_spec hr h2.inv (tree_linked h2 hp) (dp := { r.dp with sclust := FatSync.Spec.first v b.entry 0 }) (by show Starts v i (first v b) p.loc; rw [← hps]; exact (h.dirs p hp).starts)
    (j := 0) (total_pos hr (tree_linked h2 hp))
  rw [show 32 * 0 = 0 from rfl] at hs3
  generalize dirSdi v i m.1 { r.dp with sclust := FatSync.Spec.first v b.entry 0 } 0 = r3 at hs3
  refine ⟨(hso.quiet.trans q2).trans hs3.quiet, ?_⟩
  rcases hs3.cases with ⟨hok3, hat3⟩ | hx
  · exact .inr ⟨hok3, p, hp, by rw [hs3.sclust]; exact hps.symm, hat3, o, ho, hod, hoi, hof⟩
  · exact .inl hx

/-! ## The way up -/

theorem units_et {cs body ext : List Nat} (h : EightThree cs body ext) : units cs = cs := by
  have hc : ∀ c ∈ cs, c < 65536 := fun c hx => by
    rw [h.eq] at hx
    rcases List.mem_append.mp hx with hx | hx
    · have := (h.body_chars c hx).2.1; omega
    · split at hx
      · cases hx
      · rcases List.mem_cons.mp hx with rfl | hx
        · decide
        · have := (h.ext_chars c hx).2.1; omega
  clear h
  induction cs with
  | nil => rfl
  | cons c cs ih =>
    rw [units_cons, ih fun x hx => hc x (by simp [hx])]
    unfold unit
    rw [if_pos (hc c (by simp))]
    rfl

theorem rep_length {c : Bool} {i : Nat} {t : List (List Nat)} {os : List Obj} (h : Rep c i t os) : os.length ≤ t.length := by
  induction h with
  | nil _ => simp
  | fin _ _ => simp
  | skip _ _ _ ih => simp; omega
  | obj _ _ _ _ ih => simp; omega

theorem known_shown {o : Obj} {cs name : List Nat} (h : Known o cs) (hs : Shown o name) : name = text cs := by
  obtain ⟨hc, ht, ⟨h1, h2⟩ | ⟨hu, body, ext, h8, hf, hb, hx, hnb, hnx⟩⟩ := h
  · exact hs.1 cs (fun c hx => ⟨(hc c hx).1, by have := (hc c hx).2.1; omega⟩) h1 h2
  · rw [hs.2 cs body ext h8 hu hf hb hx hnb hnx]
    have e := units_et h8
    have := et_units (m := cs) (by rw [e]; exact h8)
    rw [← this, e]

theorem path_parent {v : Vol} {T : List Dir} (ho : (T.map Dir.sclust).Nodup) (hrefs : (T.flatMap fun d => claims v d.os).Nodup) {n : Nat} {l : List (List Nat)} (h : PathTo v T n l) (h0 : n ≠ 0) {p : Dir} {o : Obj} (hp : p ∈ T) (hm : o ∈ p.os)
    (hd : ¬ Dotted o) (he : first v o = n) : ∃ l' cs, l = l' ++ [cs] ∧ PathTo v T p.sclust l' ∧ Known o cs := by
  cases h with
  | root => exact absurd rfl h0
  | @sub d o' l' cs h1 h2 h3 h4 h5 h6 =>
    obtain ⟨rfl, rfl⟩ := refs_inj ho hrefs h2 hp h3 hm h4 hd h0 he
    exact ⟨l', cs, rfl, h1, h6⟩

/-- Length of a path. -/
theorem slash_len (l : List (List Nat)) (name : List Nat) : ((l ++ [name]).flatMap (47 :: ·)).length = (l.flatMap (47 :: ·)).length + (name.length + 1) := by simp

theorem climb_spec {v : Vol} {i : Info} (hr : Ready v i) {T : List Dir} {F : List (List Nat)} (hdots : ∀ q ∈ T, q.sclust ≠ 0 → DotsSecond q) : ∀ (k : Nat) {s : St} {dp : Dp} {buf out : List Nat} {j : Nat}, Tree v i T F s →
    (∃ q ∈ T, q.sclust = dp.sclust) → buf.length = 256 → j ≤ out.length → j < k →
    Quiet v s (climb v i k s dp buf out j).st ∧ ∃ out', (climb v i k s dp buf out j).out = some out' ∧ out'.length = out.length ∧
      ((climb v i k s dp buf out j).res = FR_DISK_ERR ∧ ¬ Sound v ∨
       (climb v i k s dp buf out j).res = FR_OK ∧ (∃ names, Trail v T dp.sclust names ∧ (names.flatMap (47 :: ·)).length + (climb v i k s dp buf out j).pos = j ∧
          out'.drop (climb v i k s dp buf out j).pos = names.flatMap (47 :: ·) ++ out.drop j) ∨
       (climb v i k s dp buf out j).res = FR_NOT_ENOUGH_CORE ∧ ∀ names, PathTo v T dp.sclust names → j < ((names.map text).flatMap (47 :: ·)).length)
  | 0, _, _, _, _, _, _, _, _, _, h => by omega
  | k + 1, s, dp, buf, out, j, h, ⟨q, hq, hqd⟩, hb, hj, hk => by
    rw [climb]
    by_cases h0 : dp.sclust = 0
    · rw [if_pos h0]
      exact ⟨.refl h.inv, out, rfl, rfl, .inr (.inl ⟨rfl, [], by rw [h0]; exact .root, by simp, by simp⟩)⟩
    rw [if_neg h0]
    obtain ⟨q1, h1⟩ := parent_spec hr h hdots hq (by rw [hqd]; exact h0) hqd.symm
    generalize parentDir v i s dp = r at q1 h1
    rcases h1 with ⟨her, hns⟩ | ⟨hok, p, hp, hps, hat, o, ho, hod, hoi, hof⟩
    · rw [if_neg (by rw [her]; decide)]
      exact ⟨q1, out, rfl, rfl, .inl ⟨her, hns⟩⟩
    rw [if_pos hok]
    have ht1 := tree_quiet hr q1 h
    have hdir := (ht1.dirs p hp).dir
    have hlen : p.os.length < ROUNDS := by
      have h3 := rep_length hdir.rep
      have h4 := rounds_enough v i p.loc 0
      rw [entries_length] at h3
      have h5 : DirDev.total v i p.loc ≤ 65536 := by unfold DirDev.total; omega
      unfold ROUNDS MAX_DIR
      omega
    obtain ⟨q2, hsc, h2⟩ := child_spec hr (ccl := dp.sclust) ROUNDS (os := p.os) buf ht1.inv (tree_linked ht1 hp) hat (by rw [List.drop_zero]; exact hdir.rep) hb hlen ⟨o, ho, hod, by rw [hof, hqd]⟩
    generalize findChild v i dp.sclust ROUNDS r.st r.dp buf = g at q2 hsc h2
    rcases h2 with ⟨her, hns⟩ | ⟨hgo, hgb, o', ho', name, hod', hof', hname, hsh⟩
    · rw [if_neg (by rw [her]; decide), if_neg (by rw [her]; decide)]
      exact ⟨q1.trans q2, out, rfl, rfl, .inl ⟨her, hns⟩⟩
    obtain ⟨-, rfl⟩ := refs_inj h.once h.refs hp hp ho ho' hod hod' (by rw [hof, hqd]; exact h0) (by rw [hof, hof', hqd])
    rw [if_pos hgo, hname]
    simp only
    by_cases hfit : j < name.length + 1
    · rw [if_pos hfit]
      refine ⟨q1.trans q2, out, rfl, rfl, .inr (.inr ⟨rfl, fun names hpt => ?_⟩)⟩
      obtain ⟨l', cs, rfl, -, hkn⟩ := path_parent h.once h.refs hpt h0 hp ho hod hof'
      rw [List.map_append, List.map_singleton, slash_len, ← known_shown hkn hsh]
      omega
    · rw [if_neg hfit]
      obtain ⟨out1, e1, hl1, hd1⟩ := push_spec (name.reverse ++ [47]) out j hj (by simp; omega)
      rw [e1]
      simp only
      have ht2 := tree_quiet hr q2 ht1
      have hlj : (name.reverse ++ [47]).length = name.length + 1 := by simp
      rw [hlj] at hd1 ⊢
      obtain ⟨q3, out2, e2, hl2, h3⟩ := climb_spec hr hdots k (dp := g.dp) (buf := g.buf) (out := out1) (j := j - (name.length + 1)) ht2 ⟨p, hp, by rw [hsc, hps]⟩ hgb (by omega) (by omega)
      rw [hsc, hps] at h3
      refine ⟨(q1.trans q2).trans q3, out2, e2, hl2.trans hl1, ?_⟩
      rcases h3 with h3 | ⟨h3, names, htr, hn, hdr⟩ | ⟨h3, h4⟩
      · exact .inl h3
      · refine .inr (.inl ⟨h3, names ++ [name], ?_, by rw [slash_len]; omega, ?_⟩)
        · have := Trail.sub htr hp ho hod hoi hsh
          rwa [hof, hqd] at this
        · rw [hdr, hd1]
          simp
      · refine .inr (.inr ⟨h3, fun names hpt => ?_⟩)
        obtain ⟨l', cs, rfl, hpt', hkn⟩ := path_parent h.once h.refs hpt h0 hp ho hod hof'
        have := h4 l' hpt'
        rw [List.map_append, List.map_singleton, slash_len, ← known_shown hkn hsh]
        omega

/-! ## The end -/

theorem take_split {α : Type} {l a : List α} {n : Nat} (h : l.take n = a) : l = a ++ l.drop n := by rw [← h, List.take_append_drop]

theorem putZero_spec {out : List Nat} (h : 1 ≤ out.length) : ∃ out', putUp [0] out 0 = some out' ∧ NoText out.length out' := by
  obtain ⟨out', e, hl, ht, -⟩ := putUp_spec [0] out 0 (by simpa using h)
  exact ⟨out', e, hl, _, take_split ht⟩

theorem put_spec (vp : List Nat) {out : List Nat} {j : Nat} (h : j < out.length) :
    ∃ out', (cwdPut vp out j).2 = some out' ∧ out'.length = out.length ∧
      (vp.length + 2 ≤ j ∧ (cwdPut vp out j).1 = FR_OK ∧ (∃ z, out' = vp ++ 58 :: (out.drop j ++ 0 :: z)) ∨ j < vp.length + 2 ∧ (cwdPut vp out j).1 = FR_NOT_ENOUGH_CORE ∧ ∃ z, out' = 0 :: z) := by
  unfold cwdPut
  by_cases hj : j ≥ vp.length + 2
  · rw [if_pos hj]
    obtain ⟨o1, e1, l1, t1, d1⟩ := putUp_spec (vp ++ [58]) out 0 (by simp; omega)
    have hlen : (vp ++ [58]).length = vp.length + 1 := by simp
    rw [hlen] at t1 d1
    simp only
    rw [e1, Option.bind_some, l1, show max 1 (out.length - j) = out.length - j by omega]
    obtain ⟨o2, e2, l2, t2⟩ := copyUp_spec (out.length - j) o1 (vp.length + 1) j (by omega) (by omega)
    rw [e2, Option.bind_some, l2, l1, show max 1 (out.length - j) = out.length - j by omega]
    obtain ⟨o3, e3, l3, t3, -⟩ := putUp_spec [0] o2 (vp.length + 1 + (out.length - j)) (by simp; omega)
    refine ⟨o3, e3, by omega, .inl ⟨hj, trivial, ?_⟩⟩
    rw [d1 j (by omega), List.take_of_length_le (i := out.length - j) (l := out.drop j) (by simp)] at t2
    rw [Nat.zero_add] at t1
    rw [t2, t1] at t3
    refine ⟨o3.drop (vp.length + 1 + (out.length - j) + 1), (take_split t3).trans ?_⟩
    simp
  · rw [if_neg hj]
    obtain ⟨o, e, hl, hz⟩ := putZero_spec (out := out) (by omega)
    exact ⟨o, e, hl, .inr ⟨by omega, rfl, hz⟩⟩

theorem climb_safe (v : Vol) (i : Info) : ∀ (k : Nat) (s : St) (dp : Dp) (buf out : List Nat) (j : Nat), j ≤ out.length →
    ∃ out', (climb v i k s dp buf out j).out = some out' ∧ out'.length = out.length ∧ (climb v i k s dp buf out j).pos ≤ out.length
  | 0, _, _, _, out, j, h => ⟨out, rfl, rfl, h⟩
  | k + 1, s, dp, buf, out, j, h => by
    rw [climb]
    split
    · exact ⟨out, rfl, rfl, h⟩
    split
    rotate_left
    · exact ⟨out, rfl, rfl, h⟩
    split
    rotate_left
    · exact ⟨out, rfl, rfl, h⟩
    split
    · exact ⟨out, rfl, rfl, h⟩
    rename_i name _
    split
    · exact ⟨out, rfl, rfl, h⟩
    rename_i hj
    obtain ⟨out1, e1, hl1, -⟩ := push_spec (name.reverse ++ [47]) out j h (by simp; omega)
    rw [e1]
    simp only
    obtain ⟨out2, e2, hl2, hp⟩ := climb_safe v i k (findChild v i dp.sclust ROUNDS (parentDir v i s dp).st (parentDir v i s dp).dp buf).st (findChild v i dp.sclust ROUNDS (parentDir v i s dp).st (parentDir v i s dp).dp buf).dp
      (findChild v i dp.sclust ROUNDS (parentDir v i s dp).st (parentDir v i s dp).dp buf).buf out1 (j - (name.reverse ++ [47]).length) (by omega)
    exact ⟨out2, e2, hl2.trans hl1, by omega⟩

theorem end_safe (vp : List Nat) {c : Climbed} {out : List Nat} (ho : c.out = some out) (hp : c.pos ≤ out.length) (h1 : 1 ≤ out.length) : ∃ out', (cwdEnd vp c).2.2 = some out' ∧ out'.length = out.length := by
  unfold cwdEnd
  rw [ho]
  simp only
  split
  · split
    · rename_i hx
      obtain ⟨o1, e1, l1, -⟩ := push_spec [47] out c.pos hp (by simp; omega)
      rw [e1]
      obtain ⟨o2, e2, l2, -⟩ := put_spec vp (out := o1) (j := c.pos - [47].length) (by simp; omega)
      exact ⟨o2, e2, by omega⟩
    · obtain ⟨o2, e2, l2, -⟩ := put_spec vp (out := out) (j := c.pos) (by omega)
      exact ⟨o2, e2, l2⟩
  · obtain ⟨o, e, hl, -⟩ := putZero_spec h1
    exact ⟨o, e, hl⟩

/-- The end, if the loop has found the way up. -/
theorem end_spec (vp : List Nat) {c : Climbed} {out : List Nat} (ho : c.out = some out) (hres : c.res = FR_OK) (h1 : 1 ≤ out.length) {names : List (List Nat)} (hn : (names.flatMap (47 :: ·)).length + c.pos = out.length)
    (hd : out.drop c.pos = names.flatMap (47 :: ·)) :
    ∃ out', (cwdEnd vp c).2.2 = some out' ∧ (Fits vp out.length names ∧ (cwdEnd vp c).2.1 = FR_OK ∧ Tells vp out.length names out' ∨ ¬ Fits vp out.length names ∧ (cwdEnd vp c).2.1 = FR_NOT_ENOUGH_CORE ∧ NoText out.length out') := by
  unfold cwdEnd
  rw [ho]
  simp only
  rw [if_pos hres]
  by_cases hx : c.pos = out.length
  · rw [if_pos hx]
    have hnil : names = [] := by
      cases names with
      | nil => rfl
      | cons a b => simp at hn; omega
    subst hnil
    obtain ⟨o1, e1, l1, d1⟩ := push_spec [47] out c.pos (by omega) (by simp; omega)
    have hl47 : [47].length = 1 := rfl
    rw [hl47] at e1 d1
    rw [e1]
    simp only
    obtain ⟨o2, e2, l2, h2⟩ := put_spec vp (out := o1) (j := c.pos - 1) (by omega)
    refine ⟨o2, e2, ?_⟩
    have hf : Fits vp out.length [] ↔ vp.length + 2 ≤ c.pos - 1 := by
      unfold Fits slashed
      rw [if_pos rfl, hl47]
      omega
    rw [d1, hx, List.drop_length] at h2
    rw [hf, hx]
    rcases h2 with ⟨h2, h3, h4⟩ | ⟨h2, h3, h4⟩
    · exact .inl ⟨h2, h3, by omega, h4⟩
    · exact .inr ⟨by omega, h3, by omega, h4⟩
  · rw [if_neg hx]
    have hne : names ≠ [] := by
      intro he
      subst he
      simp at hn
      omega
    obtain ⟨o2, e2, l2, h2⟩ := put_spec vp (out := out) (j := c.pos) (by omega)
    refine ⟨o2, e2, ?_⟩
    have hs : slashed names = names.flatMap (47 :: ·) := by unfold slashed; rw [if_neg hne]
    have hf : Fits vp out.length names ↔ vp.length + 2 ≤ c.pos := by
      unfold Fits
      rw [hs]
      omega
    rw [hd, ← hs] at h2
    rw [hf]
    rcases h2 with ⟨h2, h3, h4⟩ | ⟨h2, h3, h4⟩
    · exact .inl ⟨h2, h3, l2, h4⟩
    · exact .inr ⟨by omega, h3, l2, h4⟩

/-! ## Paths -/

theorem rep_name {c : Bool} {i : Nat} {t : List (List Nat)} {os : List Obj} (h : Rep c i t os) : ∀ o ∈ os, ∀ n, o.long = some n → Lfn.Spec.Name n := by
  induction h with
  | nil _ => intro o ho; cases ho
  | fin _ _ => intro o ho; cases ho
  | skip _ _ _ ih => exact ih
  | obj _ hl _ _ ih =>
    intro o ho n hn
    rcases List.mem_cons.mp ho with rfl | ho
    · cases hn
      exact hl.1
    · exact ih o ho n hn

theorem known_ne {c : Bool} {i : Nat} {t : List (List Nat)} {os : List Obj} (h : Rep c i t os) {o : Obj} (ho : o ∈ os) {cs : List Nat} (hk : Known o cs) : cs ≠ [] := by
  rintro rfl
  obtain ⟨-, -, ⟨h1, -⟩ | ⟨-, body, ext, h8, -⟩⟩ := hk
  · exact (rep_name h o ho _ h1).ne rfl
  · have := h8.eq
    exact h8.ne (List.append_eq_nil_iff.mp this.symm).1

theorem known_good {c : Bool} {i : Nat} {t : List (List Nat)} {os : List Obj} (h : Rep c i t os) {o : Obj} (ho : o ∈ os) {cs : List Nat} (hk : Known o cs) : Good cs ∧ ¬ DotName cs ∧ Calls cs o := by
  have hne := known_ne h ho hk
  obtain ⟨-, ht, hk⟩ := hk
  have hd : ¬ DotName cs := by
    rintro (rfl | rfl)
    · exact absurd ht (by decide)
    · exact absurd ht (by decide)
  refine ⟨⟨?_, .inr (.inr (by rw [ht]; exact hne))⟩, hd, ?_⟩
  · rcases hk with ⟨h1, -⟩ | ⟨-, body, ext, h8, -⟩
    · exact (rep_name h o ho _ h1).le
    · rw [units_et h8, h8.eq]
      have h1 := h8.body8
      have h2 := h8.ext3
      split <;> simp <;> omega
  · unfold Calls
    rw [if_neg hd, ht]
    rcases hk with ⟨h1, -⟩ | ⟨-, body, ext, h8, hf, -⟩
    · exact .inl ⟨_, h1, rfl⟩
    · exact .inr ⟨body, ext, by rw [units_et h8]; exact h8, hf⟩

theorem trail_path {v : Vol} {i : Info} {T : List Dir} {F : List (List Nat)} {s : St} (h : Tree v i T F s) {n : Nat} {names : List (List Nat)} (ht : Trail v T n names) : ∀ {l : List (List Nat)}, PathTo v T n l → names = l.map text := by
  induction ht with
  | root =>
    intro l hl
    generalize hn : 0 = n at hl
    cases hl with
    | root => rfl
    | sub _ h2 h3 h4 h5 _ => exact absurd hn.symm (h.subs _ h2 _ h3 h4 h5).1
  | @sub d o l0 name h1 h2 h3 h4 h5 h6 ih =>
    intro l hl
    obtain ⟨l', cs, rfl, hp, hk⟩ := path_parent h.once h.refs hl (h.subs _ h2 _ h3 h4 h5).1 h2 h3 h4 rfl
    rw [ih hp, known_shown hk h6]
    simp

theorem trail_within {v : Vol} {T : List Dir} {n : Nat} {names : List (List Nat)} (h : Trail v T n names) : Within v T 0 n := by
  induction h with
  | root => exact .self
  | sub _ h2 h3 h4 h5 _ ih => exact .sub ih h2 h3 h4 h5

theorem text_first {c : Nat} (hc : NameChar c) (cs z : List Nat) : ∃ b r, text (c :: cs) ++ z = b :: r ∧ 32 ≤ b ∧ b ≠ 47 ∧ b ≠ 92 := by
  rw [text_cons]
  obtain ⟨-, h1, h2⟩ := hc
  unfold uenc
  have h3 : c ≠ 47 ∧ c ≠ 92 := by
    simp only [List.mem_cons, not_or] at h2
    exact ⟨h2.2.2.1, h2.2.2.2.2.2.2.2.1⟩
  split
  · exact ⟨c, _, rfl, h1, h3.1, h3.2⟩
  split
  · exact ⟨_, _, rfl, by omega, by omega, by omega⟩
  split
  · exact ⟨_, _, rfl, by omega, by omega, by omega⟩
  · exact ⟨_, _, rfl, by omega, by omega, by omega⟩

/-- Names with slashes between them are a path. -/
theorem path_text (z : List Nat) : ∀ (l : List (List Nat)) (cs : List Nat), (∀ x ∈ cs :: l, (∀ c ∈ x, NameChar c) ∧ x ≠ []) → PathText (text cs ++ (l.flatMap (fun x => 47 :: text x) ++ 0 :: z)) (cs :: l)
  | [], cs, h => .last (h cs (by simp)).1 (h cs (by simp)).2 (.fin (by decide))
  | c2 :: l, cs, h => by
    refine .cons (h cs (by simp)).1 (h cs (by simp)).2 (rest := text c2 ++ (l.flatMap (fun x => 47 :: text x) ++ 0 :: z)) ?_ (path_text z l c2 fun x hx => h x (by simp [hx]))
    obtain ⟨h1, h2⟩ := h c2 (by simp)
    cases c2 with
    | nil => exact absurd rfl h2
    | cons c c2 =>
      obtain ⟨b, r, e, hb, hb1, hb2⟩ := text_first (h1 c (by simp)) c2 (l.flatMap (fun x => 47 :: text x) ++ 0 :: z)
      have := Tail.sep (s := [47]) (b := b) (z := r) (by simp) (by simp) hb1 hb2
      rw [show decide (b < 32) = false from decide_eq_false (by omega)] at this
      rw [List.flatMap_cons, e]
      rw [List.cons_append, List.cons_append, List.append_assoc, e]
      exact this

theorem path_chars' {v : Vol} {i : Info} {T : List Dir} {F : List (List Nat)} {s : St} (h : Tree v i T F s) {n : Nat} {l : List (List Nat)} (hp : PathTo v T n l) : ∀ x ∈ l, (∀ c ∈ x, NameChar c) ∧ x ≠ [] := by
  induction hp with
  | root => intro x hx; cases hx
  | @sub d o l cs _ h2 h3 _ _ h6 ih =>
    intro x hx
    rcases List.mem_append.mp hx with hx | hx
    · exact ih x hx
    · rw [List.mem_singleton.mp hx]
      exact ⟨h6.1, known_ne (h.dirs d h2).dir.rep h3 h6⟩

/-- The path leads to the directory. -/
theorem path_leads {v : Vol} {i : Info} {T : List Dir} {F : List (List Nat)} {s : St} (h : Tree v i T F s) {n : Nat} {l : List (List Nat)} (hp : PathTo v T n l) : ∀ {root : Dir}, root ∈ T → root.sclust = 0 →
    (l = [] ∧ n = 0 ∨ ∃ d cs o, Leads v T root l (.object d cs o) ∧ IsDir o ∧ first v o = n) ∧ ∀ d' ∈ T, d'.sclust = n → ∀ l2 G, Leads v T d' l2 G → Leads v T root (l ++ l2) G := by
  induction hp with
  | root =>
    intro root hr h0
    refine ⟨.inl ⟨rfl, rfl⟩, fun d' hd' e l2 G hG => ?_⟩
    rw [← dir_unique h.once hd' hr (e.trans h0.symm)]
    exact hG
  | @sub d o l cs _ h2 h3 h4 h5 h6 ih =>
    intro root hr h0
    obtain ⟨-, hi⟩ := ih hr h0
    obtain ⟨hg, -, hcall⟩ := known_good (h.dirs d h2).dir.rep h3 h6
    refine ⟨.inr ⟨d, cs, o, hi d h2 rfl _ _ (.object hg h3 hcall), h5, rfl⟩, fun d' hd' e l2 G hG => ?_⟩
    rw [List.append_assoc]
    exact hi d h2 rfl _ _ (.enter hg h3 hcall h5 hd' e hG)

theorem path_back {v : Vol} {i : Info} {T : List Dir} {F : List (List Nat)} {s : St} (h : Tree v i T F s) {n : Nat} {l : List (List Nat)} (hp : PathTo v T n l) (z : List Nat) :
    PathOf (slashed (l.map text) ++ 0 :: z) true l ∧ ∀ cdir, ∃ G, Resolves v T cdir true l G ∧ ∀ r c, ChdirTo v cdir r c G → r = FR_OK ∧ c = n := by
  have hch := path_chars' h hp
  obtain ⟨root, hr, h0⟩ := h.root
  obtain ⟨h1, -⟩ := path_leads h hp hr h0
  constructor
  · cases l with
    | nil => exact .empty (z := [47]) (b := 0) (by simp) (by decide)
    | cons cs l =>
      have := PathOf.segs (z := [47]) (by simp) (path_text z l cs hch)
      unfold slashed
      rw [if_neg (by simp), List.flatMap_map, List.flatMap_cons]
      simpa using this
  · intro cdir
    rcases h1 with ⟨rfl, rfl⟩ | ⟨d, cs, o, hl, hd, hf⟩
    · exact ⟨.self root, ⟨root, hr, h0, .inl ⟨rfl, rfl⟩⟩, fun r c hx => ⟨hx.1, hx.2.trans h0⟩⟩
    · refine ⟨_, ⟨root, hr, h0, .inr hl⟩, fun r c hx => ?_⟩
      rcases hx with ⟨-, hx, hy⟩ | ⟨hx, -⟩
      · exact ⟨hx, hy.trans hf⟩
      · exact absurd hd hx

end Fpm.Tree
