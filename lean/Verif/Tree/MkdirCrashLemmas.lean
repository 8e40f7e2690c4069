import Verif.Tree.MkdirCrashSpec
import Verif.Tree.MoveCrashLemmas
import Verif.Tree.MkdirProps
/-!
# Contents of the device while a directory is made: lemmas
-/
namespace Fpm.Tree
open Fpm.Fat Fpm.Fat.Spec Fpm.FatFile Fpm.FatFile.Spec Fpm.FatBytes Fpm.FatBytes.Spec Fpm.Lfn Fpm.Names Fpm.Names.Spec Fpm.TextIo.Spec Fpm.FatDir Fpm.FatDir.Spec Fpm.Mount Fpm.Mount.Spec Fpm.DirDev Fpm.DirDev.Spec Fpm.Tree.Spec Fpm.FatSync

/-- Every content of the device is an old one, or what was seen. -/
def Unmoved (v : Vol) (s s' : St) : Prop := ∀ d ∈ s'.disk :: s'.past, d ∈ s.disk :: s.past ∨ ∀ n, ¬ Fat2 v n → d n = view s n

theorem Unmoved.refl (v : Vol) (s : St) : Unmoved v s s := fun _ h => .inl h

theorem Unmoved.trans {v : Vol} {a b c : St} (h : Unmoved v a b) (hs : Same v a b) (h' : Unmoved v b c) : Unmoved v a c := by
  intro d hd
  rcases h' d hd with h1 | h1
  · exact h d h1
  · exact .inr fun n n2 => (h1 n n2).trans (hs n n2)

/-- The search for a free cluster changes nothing. -/
theorem search_still {v : Vol} (hg : Geo v) (hs : Sound v) (scl : Nat) : ∀ (k : Nat) {s : St} (ncl : Nat), Inv v s → 1 ≤ ncl → ncl < v.nFatent →
    Inv v (search v scl k s ncl).1 ∧ Same v s (search v scl k s ncl).1 ∧ Unmoved v s (search v scl k s ncl).1 ∧ ∀ c, (search v scl k s ncl).2 = .hit c → 2 ≤ c ∧ c < v.nFatent
  | 0, s, _, hi, _, _ => by
    rw [search.eq_def]
    simp only
    exact ⟨hi, Same.refl _ _, Unmoved.refl _ _, fun c h => by cases h⟩
  | k + 1, s, ncl, hi, h1, hn => by
    rw [search.eq_def]
    simp only
    split
    · exact ⟨hi, Same.refl _ _, Unmoved.refl _ _, fun c h => by cases h⟩
    have hpos := hg.pos
    have hn2 : 2 ≤ nextClst v ncl ∧ nextClst v ncl < v.nFatent := by
      rename_i hw
      unfold nextClst
      split <;> omega
    obtain ⟨s', r, h, i, sm, -, tr, -⟩ := getFat_spec hg hi hn2.1 hn2.2
    have tr : Unmoved v s s' := (tr hs).1
    rw [h]
    simp only
    split
    · refine ⟨i, sm, tr, fun c hc => ?_⟩
      cases hc
      exact hn2
    split
    · exact ⟨i, sm, tr, fun c h => by cases h⟩
    split
    · exact ⟨i, sm, tr, fun c h => by cases h⟩
    · obtain ⟨a1, a2, a3, a4⟩ := search_still hg hs scl k (nextClst v ncl) i (by omega) hn2.2
      exact ⟨a1, sm.trans a2, tr.trans sm a3, a4⟩

/-- While a cluster is taken, the device shows what was seen. -/
theorem create_still {v : Vol} (hg : Geo v) (hs : Sound v) (hst : ∀ c, 2 ≤ c → c < v.nFatent → ¬ Straddle v c) {s : St} (hi : Inv v s) : Unmoved v s (createChain v s 0).1 := by
  have hpos := hg.pos
  unfold createChain
  rw [if_pos rfl]
  split
  · exact Unmoved.refl _ _
  obtain ⟨a1, a2, a3, a4⟩ := search_still hg hs (startNew v s) v.nFatent (startNew v s) hi (by unfold startNew; split <;> omega) (by unfold startNew; split <;> omega)
  generalize search v (startNew v s) v.nFatent s (startNew v s) = p at a1 a2 a3 a4
  unfold place
  split
  · exact a3
  · rename_i ncl hx
    obtain ⟨h2, hn⟩ := a4 ncl hx
    obtain ⟨s2, r2, e2, -, -, tr2, -⟩ := putFat_spec (val := 0xFFFFFFFF) hg a1 h2 hn
    have k : Unmoved v s s2 := a3.trans a2 (tr2 hs (hst ncl h2 hn)).1
    unfold link withPut created
    rw [e2]
    simp only
    repeat' split
    all_goals first | exact k | skip

/-- The zeros of a new directory. -/
theorem clear_still {v : Vol} (z : List Nat) (hs : Sound v) : ∀ (k : Nat) {s : St} {sect : Nat}, ∀ d ∈ (clearLoop v z k s sect).1.disk :: (clearLoop v z k s sect).1.past, d ∈ s.disk :: s.past ∨ ∀ n, n < sect ∨ sect + k ≤ n → d n = s.disk n
  | 0, s, sect, d, hd => .inl hd
  | k + 1, s, sect, d, hd => by
    unfold clearLoop at hd
    have e : diskWrite v s sect z = ({ s with disk := upd s.disk sect z, past := s.disk :: s.past, cnt := s.cnt + 1 }, true) := by
      unfold diskWrite
      rw [show v.io s.cnt = .ok from hs _]
    rw [e] at hd
    simp only [if_true] at hd
    rcases clear_still z hs k d hd with h1 | h1
    · rcases List.mem_cons.mp h1 with h1 | h1
      · refine .inr fun n hn => ?_
        rw [h1]
        exact upd_ne _ _ (by omega)
      · exact .inl h1
    · refine .inr fun n hn => ?_
      rw [h1 n (by omega)]
      exact upd_ne _ _ (by omega)

/-- While a cluster is cleared, all else on the device is what was seen. -/
theorem cleared_still {v : Vol} {i : Info} (hr : Ready v i) (hs : Sound v) {s : St} (hi : Inv v s) {c : Nat} (h2 : 2 ≤ c) (hn : c < v.nFatent) :
    ∀ d ∈ (dirClear v s c).1.disk :: (dirClear v s c).1.past, d ∈ s.disk :: s.past ∨ ∀ n, ¬ Fat2 v n → n ∉ sectors v c → d n = view s n := by
  obtain ⟨a1, a2, a3, a4, a5, a6⟩ := sync_spec hr.geo hi
  have a6 := (a6 hs).1
  unfold dirClear
  generalize syncWindow v s = p at a1 a2 a3 a4 a5 a6
  rcases a5 with ⟨e, hf⟩ | ⟨-, hns⟩
  rotate_left
  · exact absurd hs hns
  rw [if_pos e, clst_sect h2 hn]
  intro d hd
  have hsync : ∀ d ∈ p.1.disk :: p.1.past, d ∈ s.disk :: s.past ∨ ∀ n, ¬ Fat2 v n → n ∉ sectors v c → d n = view s n := fun d hd => (a6 d hd).imp id fun h n h2 _ => h n h2
  rcases clear_still _ hs _ d hd with h1 | h1
  · exact hsync d h1
  · refine .inr fun n n2 nc => ?_
    rw [h1 n (by rw [mem_sectors] at nc; omega)]
    show p.1.disk n = _
    rw [← a2 n n2, view_clean a1 hf n]

/-- While an entry is made, and there is room for it, the device shows the old objects: the short entry, which comes last, is in the window. -/
theorem register_before {v : Vol} {i : Info} (hr : Ready v i) (hs : Sound v) {a b : List (List Nat)} {loc : Loc} {s : St} {dp : Dp} {os : List Obj} (hd : OnDevice true v i a b loc s os) (hst : Starts v i dp.sclust loc)
    {cs : List Nat} {buf fn : List Nat} {fl : Nat} (hf : FileName cs true buf fn fl) (hff : 0xFFFF ∉ cs) (hb : buf.length = 256) (hroom : ¬ NoRoom (entries v i (view s) loc) (fl &&& 2 ≠ 0) (units (trimmed cs)).length)
    {g : Ret} (hg : g = dirRegister v i s dp fn fl buf) (hok : g.res = FR_OK) :
    ∀ d ∈ g.st.disk :: g.st.past, d ∈ s.disk :: s.past ∨ Elsewhere v i loc (view s) d ∧ Directory false (entries v i d loc) os := by
  obtain ⟨-, hholds, hfo, -⟩ := hf.named.name hf.nodot
  have hok8 : Ok83 fn := ⟨hfo.len, hfo.chars⟩
  obtain ⟨-, -, h3⟩ := register_dev hr hd.vol hst (form_bytes hfo) fl (buf := buf) (by omega) (fun z fn' hz => by
    obtain ⟨f2, e, h⟩ := numname_spec hok8 hholds z
    rw [hz] at e
    cases e
    exact ok_bytes h)
  rw [← hg] at h3
  rcases h3 with ⟨-, h3⟩ | h3
  · exact absurd hs h3
  rcases C75_register (growth v a b loc) cs true buf fn fl true _ os hf hff hd.dir (.inl rfl) with ⟨t', e, -⟩ | ⟨t', ws, x, y, o, e, hpre, hroom', -, -, hdir, hcrash⟩
  · rw [e] at h3
    rw [h3.1] at hok
    cases hok
  · rw [e] at h3
    obtain ⟨-, loc', s1, -, -, -, -, c6, -, -, c9⟩ := h3
    obtain rfl := hroom'.resolve_right hroom
    obtain ⟨rfl, q, hbef⟩ := c9 rfl
    have e1 := entries_same hr hd.vol.linked q.same
    have old : Directory false (entries v i (view s) loc') os := dir_loose hd.dir
    intro d hd'
    rcases hbef hs d hd' with h3 | ⟨k, hk, e, h3⟩
    · rcases (q.trace hs).1 d h3 with h4 | h4
      · exact .inl h4
      · refine .inr ⟨fun n a1 _ => h4 n a1, ?_⟩
        rw [entries_congr fun n hn => h4 n (secs_place hr hd.vol.linked hn).2.1]
        exact old
    · refine .inr ⟨fun n a1 a2 => (h3 n a1 a2).trans (q.same n a1), ?_⟩
      rw [e, e1]
      exact hcrash k hk

/-- Sectors of directories are not sectors of a cluster that nothing refers to. -/
theorem dir_away {v : Vol} {i : Info} (hr : Ready v i) {T : List Dir} {F : List (List Nat)} {c : Nat} {s : St} (h : Tree v i T F s) (h2 : 2 ≤ c) (hc : c ∉ (dirChains T).flatten) {e : Dir} (he : e ∈ T) {n : Nat} (hn : n ∈ dirSecs v i e.loc) :
    n ∉ sectors v c := by
  have hl := tree_linked h he
  cases hloc : e.loc with
  | root =>
    rw [hloc] at hn hl
    have := root_secs hr hl hn
    intro hx
    have := (mem_sectors.mp hx).1
    omega
  | chain l =>
    rw [hloc] at hn hl
    exact secs_away hl h2 (fun hx => hc (List.mem_flatten.mpr ⟨l, List.mem_flatMap.mpr ⟨e, he, by rw [hloc]; simp [chainOf]⟩, hx⟩)) hn

/-- While a directory is made, up to the last flush, the device shows the old volume, and perhaps the cluster of the new directory. -/
theorem mkdir_times {v : Vol} {i : Info} (hr : Ready v i) (h64 : 64 ≤ v.ss) (hs : Sound v) (hst : ∀ c, 2 ≤ c → c < v.nFatent → ¬ Straddle v c) {d : Dir} {R : List Dir} {F : List (List Nat)} {f : Fol}
    (h : Tree v i (d :: R) F f.st) (hdp : f.dp.sclust = d.sclust) {cs : List Nat} (hf : FileName cs true f.buf f.fn f.fl) (hff : 0xFFFF ∉ cs) (hb : f.buf.length = 256) (hno : ∀ o ∈ d.os, ¬ Calls cs o)
    (hroom : ¬ NoRoom (entries v i (view f.st) d.loc) (f.fl &&& 2 ≠ 0) (units (trimmed cs)).length) (tm : Nat) {p : St × Nat} (hp : p = mkdirNew v i tm f (createChain v f.st 0)) (hok : p.2 = FR_OK) :
    ∃ s6, Inv v s6 ∧ p = syncFs v i.fsi s6 ∧ ∀ q ∈ s6.disk :: s6.past, q ∈ f.st.disk :: f.st.past ∨
      (∀ l ∈ F, ∀ n ∈ secs v l, q n = view f.st n) ∧ (Shown v i (d :: R) F q ∨ ∃ c, Shown v i (d :: R) ([c] :: F) q) := by
  have hfile : ∀ l ∈ F, ∀ n ∈ secs v l, ¬ Fat1 v n ∧ ¬ Fat2 v n ∧ v.database ≤ n := fun l hl n hn => chain_secs hr (h.chains.chain l (by simp [hl])) hn
  have hcs := create_still hr.geo hs hst h.inv
  obtain ⟨n1, n2⟩ := tree_new hr h (p := createChain v f.st 0) rfl
  generalize createChain v f.st 0 = q at n1 n2 hp hcs
  have hlt := nFatent_lt hr.geo
  rcases n2 with ⟨n2, -, -⟩ | ⟨n2, n3, n4, n5⟩ | ⟨-, n2⟩
  rotate_right
  · exact absurd hs n2
  · have e0 : mkdirNew v i tm f q = (q.1, DirDev.FR_DENIED) := by
      unfold mkdirNew mkdirUndo removeChain
      rw [n2, if_neg (by decide), if_pos rfl, if_pos (by omega)]
    rw [hp, e0] at hok
    cases hok
  obtain ⟨s2, c⟩ := q
  simp only at n1 n2 n3 n4 n5 hcs
  have e0 : mkdirNew v i tm f (s2, c) = mkdirCleared v i tm f c (dirClear v s2 c) := by
    unfold mkdirNew
    simp only
    rw [if_neg (show ¬ c = UB by unfold UB; omega), if_neg (by omega), if_neg (by omega), if_neg (show ¬ c = DERR by unfold DERR; omega)]
  rw [e0] at hp
  clear e0
  have hcd : c ∉ (dirChains (d :: R)).flatten := fun hx => n4 (by rw [List.flatten_append]; exact List.mem_append_left _ hx)
  have hcf : ∀ l ∈ F, c ∉ l := fun l hl hx => n4 (by rw [List.flatten_append]; exact List.mem_append_right _ (List.mem_flatten.mpr ⟨l, hl, hx⟩))
  have hsec : ∀ l ∈ F, ∀ n ∈ secs v l, n ∉ sectors v c := fun l hl n hn => secs_away (h.chains.chain l (by simp [hl])) n2 (hcf l hl) hn
  -- the old volume
  have early : ∀ q : Disk, (∀ n, ¬ Fat2 v n → q n = view f.st n) → (∀ l ∈ F, ∀ n ∈ secs v l, q n = view f.st n) ∧ (Shown v i (d :: R) F q ∨ ∃ c, Shown v i (d :: R) ([c] :: F) q) := by
    intro q hq
    refine ⟨fun l hl n hn => hq n (hfile l hl n hn).2.1, .inl ⟨fun e he => ?_, ?_⟩⟩
    · rw [entries_congr fun n hn => hq n (secs_place hr (tree_linked h he) hn).2.1]
      exact dir_loose (h.dirs e he).dir
    · rw [fat_area fun n hn => hq n (fat1_not2 hn)]
      exact h.chains
  -- and with the cluster
  have late : ∀ q : Disk, (∀ n, ¬ Fat2 v n → n ∉ sectors v c → n ∉ dirSecs v i d.loc → q n = view s2 n) → Directory false (entries v i q d.loc) d.os →
      (∀ l ∈ F, ∀ n ∈ secs v l, q n = view f.st n) ∧ (Shown v i (d :: R) F q ∨ ∃ c, Shown v i (d :: R) ([c] :: F) q) := by
    intro q hq hdq
    refine ⟨fun l hl n hn => ?_, .inr ⟨c, fun e he => ?_, ?_⟩⟩
    · rw [hq n (hfile l hl n hn).2.1 (hsec l hl n hn) (file_secs hr h (by simp) hl hn)]
      exact n1 n (hfile l hl n hn).1 (hfile l hl n hn).2.1
    · by_cases hx : e = d
      · rw [hx]; exact hdq
      · rw [entries_congr fun n hn => hq n (secs_place hr (tree_linked n5 he) hn).2.1 (dir_away hr h n2 hcd he hn) (apart_secs hr h (by simp) he hx hn)]
        exact dir_loose (n5.dirs e he).dir
    · rw [fat_area fun n hn => hq n (fat1_not2 hn) (fun hx => ?_) (fun hx => (secs_place hr (tree_linked h (d := d) (by simp)) hx).1 hn)]
      · exact n5.chains
      · have h1 := hn.2
        have h2 := hr.data.base
        have h3 := hr.geo.nFats
        have : v.fsize ≤ v.nFats * v.fsize := Nat.le_mul_of_pos_left _ (by omega)
        have := (mem_sectors.mp hx).1
        omega
  have hds : ∀ n ∈ dirSecs v i d.loc, ¬ Fat2 v n ∧ n ∉ sectors v c := fun n hn => ⟨(secs_place hr (tree_linked h (d := d) (by simp)) hn).2.1, dir_away hr h n2 hcd (e := d) (by simp) hn⟩
  -- the cluster is cleared
  have hcl := cleared_still hr hs n5.inv n2 n3
  obtain ⟨s3, r3, e3, k1, k2, k3⟩ := clear_spec hr n5.inv n2 n3
  have k3 := k3.resolve_right fun hx => hx.2 hs
  obtain ⟨rfl, k4, k5⟩ := k3
  obtain ⟨w1, w2⟩ := clear_win hr n5.inv n2 n3 (by rw [e3])
  rw [e3] at hp w1 w2 hcl
  have t3 := tree_away hr n5 n2 hcd k4 k1.2.1 k2
  -- the entries `.` and `..`
  obtain ⟨e1, e2, d1, d2, d3, -⟩ := dot_entries hr.geo h64 tm n3 (sclust_lt hr h (d := d) (by simp))
  unfold mkdirCleared at hp
  rw [if_pos rfl, w2, hdp, d1] at hp
  simp only at hp w1 w2 hcl
  have hwsec : Sec v (e1 ++ e2 ++ List.replicate (v.ss - 64) 0) := by
    refine ⟨by simp only [List.length_append, d2.1, d3.1, List.length_replicate]; omega, fun b hb => ?_⟩
    rcases List.mem_append.mp hb with hb | hb
    · rcases List.mem_append.mp hb with hb | hb
      · exact d2.2 b hb
      · exact d3.2 b hb
    · rw [(List.mem_replicate.mp hb).2]; decide
  obtain ⟨u1, u2, u3⟩ := setwin_spec k4 w1 hwsec
  have hbase : v.database + v.csize * (c - 2) ∈ sectors v c := mem_sectors.mpr ⟨Nat.le_refl _, by have := csize_pos hr; omega⟩
  have t4 := tree_away hr (c := c) t3 n2 hcd u1 rfl (fun n _ hn => u2 n (fun e => hn (e ▸ hbase)))
  have v4 : ∀ n, ¬ Fat2 v n → n ∉ sectors v c → view (setWin s3 (e1 ++ e2 ++ List.replicate (v.ss - 64) 0)) n = view s2 n := fun n h1 h2 => (u2 n (fun e => h2 (e ▸ hbase))).trans (k2 n h1 h2)
  have disk4 : (setWin s3 (e1 ++ e2 ++ List.replicate (v.ss - 64) 0)).disk :: (setWin s3 (e1 ++ e2 ++ List.replicate (v.ss - 64) 0)).past = s3.disk :: s3.past := rfl
  generalize setWin s3 (e1 ++ e2 ++ List.replicate (v.ss - 64) 0) = s4 at hp t4 v4 disk4
  clear u1 u2 u3 t3 k2 k5 k1 k4 w1 w2 e3 hwsec
  have hent4 : entries v i (view s4) d.loc = entries v i (view f.st) d.loc := entries_congr fun n hn =>
    (v4 n (hds n hn).1 (hds n hn).2).trans (n1 n (secs_place hr (tree_linked h (d := d) (by simp)) hn).1 (hds n hn).1)
  have times4 : ∀ q ∈ s4.disk :: s4.past, q ∈ f.st.disk :: f.st.past ∨ (∀ l ∈ F, ∀ n ∈ secs v l, q n = view f.st n) ∧ (Shown v i (d :: R) F q ∨ ∃ c, Shown v i (d :: R) ([c] :: F) q) := by
    intro q hq
    rw [disk4] at hq
    rcases hcl q hq with m | m
    · exact (hcs q m).imp id (early q)
    · refine .inr (late q (fun n a1 a2 _ => m n a1 a2) ?_)
      rw [entries_congr fun n hn => m n (hds n hn).1 (hds n hn).2]
      exact dir_loose (n5.dirs d (by simp)).dir
  -- the entry of the directory
  have hbef := register_before hr hs (g := dirRegister v i s4 f.dp f.fn f.fl f.buf) ⟨tree_vol t4 (A := []) rfl, (t4.dirs d (by simp)).dir⟩ (by rw [hdp]; exact (t4.dirs d (by simp)).starts) hf hff hb (by rw [hent4]; exact hroom) rfl
  obtain ⟨-, g2⟩ := register_tree hr t4 hdp hf hff hb hno (g := dirRegister v i s4 f.dp f.fn f.fl f.buf) rfl
  generalize dirRegister v i s4 f.dp f.fn f.fl f.buf = g at g2 hp hbef
  have g2 := g2.resolve_left fun hx => hx.2 hs
  unfold mkdirEnd at hp
  rcases g2 with ⟨g2, -⟩ | ⟨g2, loc, x, o, y, -, -, -, -, g7, g8, g9, g10⟩
  · rw [if_neg (by rw [g2]; decide), g2] at hp
    rw [hp] at hok
    cases hok
  have hbef := hbef g2
  rw [if_pos g2, g9, Option.bind_some] at hp
  have hdir := (g7.dirs _ List.mem_cons_self).dir
  have hob : o.entry.length = 32 ∧ ∀ b ∈ o.entry, b < 256 := hdir.table _ (List.mem_of_getElem? (rep_entry hdir.rep o (by simp)))
  obtain ⟨e', q1, q2, q3, q4, q5, -⟩ := dir_entry hr.geo hob.1 hob.2 tm n3
  rw [q1] at hp
  simp only at hp
  have hsf : Sfn e' := by
    have hsf := rep_sfn hdir.rep o (by simp)
    exact ⟨by rw [byte_take q4 (by decide)]; exact hsf.used, by rw [q5]; decide⟩
  obtain ⟨x1, -, -⟩ := set_tree hr g7 (o := o) (x := x) (y := y) rfl g8 g10 q4 hsf ⟨q2, q3⟩
  refine ⟨_, x1.inv, hp, fun q hq => ?_⟩
  rcases hbef q hq with m | ⟨m1, m2⟩
  · exact times4 q m
  · exact .inr (late q (fun n a1 a2 a3 => (m1 n a1 a3).trans (v4 n a1 a2)) m2)

end Fpm.Tree
