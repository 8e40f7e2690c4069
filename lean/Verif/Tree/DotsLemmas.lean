import Verif.Tree.BaseLemmas
import Verif.Tree.WipeLemmas
/-!
# The entry `..` of a directory that is moved: lemmas
-/
namespace Fpm.Tree
open Fpm.Fat Fpm.Fat.Spec Fpm.FatFile Fpm.FatFile.Spec Fpm.FatBytes Fpm.FatBytes.Spec Fpm.Lfn Fpm.Names Fpm.Names.Spec Fpm.TextIo.Spec Fpm.FatDir Fpm.FatDir.Spec Fpm.Mount Fpm.Mount.Spec Fpm.DirDev Fpm.DirDev.Spec Fpm.Tree.Spec Fpm.FatSync

theorem byte_mid {a e c : List Nat} {k p x : Nat} (ha : a.length = k) (hp : p < e.length) : stByte (a ++ e ++ c) (k + p) x = (stByte e p x).map fun e => a ++ e ++ c := by
  unfold stByte
  rw [if_pos (by simp; omega), if_pos hp, Option.map_some, List.set_append_left _ _ (by simp; omega), List.set_append_right _ _ (by omega)]
  rw [show k + p - a.length = p by omega]

theorem word_mid {a e c : List Nat} {k p x : Nat} (ha : a.length = k) (hp : p + 1 < e.length) : stWord (a ++ e ++ c) (k + p) x = (stWord e p x).map fun e => a ++ e ++ c := by
  unfold stWord
  rw [byte_mid ha (by omega)]
  have h1 : stByte e p x = some (e.set p (x % 256)) := by unfold stByte; rw [if_pos (by omega)]
  rw [h1, Option.map_some, Option.bind_some, Option.bind_some, show k + p + 1 = k + (p + 1) by omega, byte_mid ha (by simp; omega)]

theorem clust_mid {v : Vol} {a e c : List Nat} {k x : Nat} (ha : a.length = k) (he : e.length = 32) : stClust v (a ++ e ++ c) k x = (stClust v e 0 x).map fun e => a ++ e ++ c := by
  unfold stClust
  rw [word_mid ha (by omega)]
  obtain ⟨w, h1, h2⟩ := put_word (w := e) (p := 0 + 26) (x := x % 2 ^ 16) (by omega)
  rw [show stWord e 26 (x % 2 ^ 16) = some w by rw [← h1], Option.map_some, Option.bind_some, Option.bind_some]
  split
  · rw [word_mid ha (by rw [h2.len]; omega)]
  · rfl

/-- The second entry of a directory with clusters. -/
theorem second_at {v : Vol} {i : Info} (hr : Ready v i) (h64 : 64 ≤ v.ss) {l : List Nat} {c : Nat} (hl : l.headD 0 = c) (hne : l ≠ []) : At v i (.chain l) 1 ⟨c, 32, c, v.database + v.csize * (c - 2)⟩ := by
  cases l with
  | nil => exact absurd rfl hne
  | cons a l =>
    have hl : a = c := hl
    subst hl
    obtain ⟨k, hk⟩ := hr.data.pow
    have hcs : 0 < v.csize := by rw [hk]; exact Nat.two_pow_pos k
    have hdiv : 32 * 1 / v.ss = 0 := Nat.div_eq_of_lt (by omega)
    refine ⟨rfl, by decide, ?_, (fun h => by cases h), fun m hm => ?_⟩
    · rw [hdiv]
      simp only [dirSecs, secs, List.flatMap_cons, sectors]
      rw [List.getElem?_append_left (by simpa using hcs)]
      simp [hcs]
    · cases hm
      have : 32 * 1 / (v.csize * v.ss) = 0 := Nat.div_eq_of_lt (by
        have := Nat.mul_le_mul_right v.ss hcs
        omega)
      rw [this]
      rfl

/-- The directory in which `..` is changed has clusters. -/
theorem sub_chain {v : Vol} {i : Info} {c : Nat} {loc : Loc} (h : Starts v i c loc) (h0 : c ≠ 0) : ∃ l, loc = .chain l ∧ l.headD 0 = c := by
  cases loc with
  | root => exact absurd h.1 h0
  | chain l =>
    refine ⟨l, rfl, ?_⟩
    have := h.1
    rw [if_neg h0] at this
    exact this

theorem base_dots {v : Vol} {i : Info} (hr : Ready v i) (h64 : 64 ≤ v.ss) {q : Dir} {R : List Dir} {F : List (List Nat)} {s : St} (h : Base v i (q :: R) F s) (h0 : q.sclust ≠ 0) {x y : List Obj} {b : Obj} (hos : q.os = x ++ b :: y)
    (hpos : b.pos = 1) (hfn : b.fn = pad 11 [46, 46]) {pcl : Nat} (hpcl : pcl < v.nFatent) {p : St × Nat} (hp : p = renameSub v s q.sclust pcl) :
    p.2 = FR_DISK_ERR ∧ ¬ Sound v ∨ p.2 = FR_OK ∧ ∃ e, e.take 20 = b.entry.take 20 ∧ FatSync.Spec.first v e 0 = pcl ∧ Base v i ({ q with os := x ++ { b with entry := e } :: y } :: R) F p.1 ∧ Alike v F s p.1 := by
  obtain ⟨l, hloc, hl⟩ := sub_chain (h.starts q (by simp)) h0
  have hlink := base_linked h (d := q) (by simp)
  rw [hloc] at hlink
  have hlinks : Links v.nFatent (tab v s) l := hlink
  have hne : l ≠ [] := fun hx => by rw [hx] at hl; exact h0 hl.symm
  have hmem : q.sclust ∈ l := by
    cases l with
    | nil => exact absurd rfl hne
    | cons a l => have hl : a = q.sclust := hl; simp [hl]
  have hin := links_mem hlinks _ hmem
  have hat := second_at (i := i) hr h64 hl hne
  rw [← hloc] at hat hlink
  have hpl := at_place hr (base_linked h (d := q) (by simp)) hat
  unfold renameSub at hp
  have hcs : clst2sect v q.sclust = v.database + v.csize * (q.sclust - 2) := by unfold clst2sect; rw [if_neg (by omega)]
  have hb0 : 0 < v.database := by have := hr.data.base; have := hr.geo.nFats; have := hr.reserved; omega
  rw [if_neg (by rw [hcs]; omega), hcs] at hp
  obtain ⟨q1, h1⟩ := move_quiet hr.geo h.inv hpl.2.1
  dsimp only at q1 h1
  obtain ⟨hb1, ha1⟩ := base_quiet hr q1 h
  generalize moveWindow v s (v.database + v.csize * (q.sclust - 2)) = m at q1 h1 hp hb1 ha1
  unfold renameDots at hp
  rcases h1 with ⟨h1, h2⟩ | ⟨h1, h2⟩
  rotate_left
  · rw [if_neg (by rw [h1]; exact fun hx => absurd hx.1 (by decide))] at hp
    subst hp
    exact .inl ⟨h1, h2⟩
  have hbm : b ∈ q.os := by rw [hos]; simp
  have hd1 := hb1.dirs q (by simp)
  obtain ⟨e, e1, e2, e3⟩ := ent_entry hr hb1.inv hat h2
  have e4 := rep_entry hd1.rep b hbm
  rw [hpos, e2] at e4
  cases e4
  have hlen := hb1.inv.win.1
  have hsplit : m.1.win = m.1.win.take 32 ++ b.entry ++ m.1.win.drop 64 := by
    unfold dirEnt at e1
    dsimp only at e1
    rw [Nat.mod_eq_of_lt (show 32 < v.ss by omega), if_pos (by omega)] at e1
    rw [← Option.some.inj e1, List.append_assoc, show List.drop 64 m.1.win = ((m.1.win.drop 32).drop 32) by simp, List.take_append_drop, List.take_append_drop]
  have h32 : (m.1.win.take 32).length = 32 := by rw [List.length_take]; omega
  have hdot : byte m.1.win 33 = 46 := by
    have hb1 : byte b.entry 1 = 46 := by
      have := congrArg (fun l => byte l 1) (show b.entry.take 11 = pad 11 [46, 46] from hfn)
      rw [← byte_take (a := b.entry.take 11) (b := b.entry) (by rw [List.take_take]; rfl) (by decide), this]
      decide
    rw [← hb1, hsplit]
    unfold byte
    rw [List.getD_eq_getElem?_getD, List.getD_eq_getElem?_getD, List.append_assoc, List.getElem?_append_right (by omega), List.getElem?_append_left (by rw [h32, e3.1]; omega), h32]
  rw [if_pos ⟨h1, hdot⟩] at hp
  obtain ⟨e', p1, p2, p3, p4, p5⟩ := put_clust hr.geo (w := b.entry) e3.1 hpcl
  have hst : stClust v m.1.win 32 pcl = some (m.1.win.take 32 ++ e' ++ m.1.win.drop 64) := by
    have := clust_mid (v := v) (a := m.1.win.take 32) (e := b.entry) (c := m.1.win.drop 64) (x := pcl) h32 e3.1
    rw [← hsplit, p1] at this
    exact this
  rw [hst] at hp
  have heq : setWin m.1 (m.1.win.take 32 ++ e' ++ m.1.win.drop 64) = setEnt v m.1 ⟨q.sclust, 32, q.sclust, v.database + v.csize * (q.sclust - 2)⟩ e' := by
    unfold setEnt
    dsimp only
    rw [Nat.mod_eq_of_lt (show 32 < v.ss by omega)]
  dsimp only at hp
  rw [heq] at hp
  have ht20 : e'.take 20 = b.entry.take 20 := take_eq fun k hk => p5 k (.inl hk)
  have ht11 : e'.take 11 = b.entry.take 11 := take_eq fun k hk => p5 k (.inl (by omega))
  have hsf := rep_sfn hd1.rep b hbm
  have hb11 : byte e' 11 = byte b.entry 11 := by
    unfold byte
    rw [List.getD_eq_getElem?_getD, List.getD_eq_getElem?_getD, p5 11 (.inl (by decide))]
  obtain ⟨k1, k2⟩ := base_set hr hb1 (dp := ⟨q.sclust, 32, q.sclust, v.database + v.csize * (q.sclust - 2)⟩) hos (by rw [hpos]; exact hat) h2 ht11
    ⟨by rw [byte_take ht11 (by decide)]; exact hsf.used, by rw [hb11]; exact hsf.attr⟩ ⟨p2, p3 e3.2⟩
  subst hp
  exact .inr ⟨rfl, e', ht20, p4, k1, ha1.trans k2⟩

end Fpm.Tree
