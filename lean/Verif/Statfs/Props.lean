import Verif.Statfs.Lemmas
import Verif.Statfs.Spec
import Verif.Mkfs.Props
import Verif.Tree.Example
/-!
# C89: free space
-/
namespace Fpm.Statfs
open Fpm.Fat Fpm.FatBytes Fpm.Fat.Spec Fpm.DirDev Fpm.Mount Fpm.Mount.Spec Fpm.Statfs.Spec

theorem free_length (v : Vol) (s : St) : freeCount (tab v s) v.nFatent = (freeClusters v s).length := by
  have key : ∀ n, freeCount (tab v s) n = ((List.range n).filter fun c => 2 ≤ c && tab v s c == 0).length := by
    intro n
    induction n with
    | zero => rfl
    | succ n ih =>
      rw [freeCount, ih, List.range_succ, List.filter_append, List.length_append]
      congr 1
      by_cases h : 2 ≤ n ∧ tab v s n = 0
      · rw [if_pos h, List.filter_cons_of_pos (by simpa using h)]; rfl
      · rw [if_neg h, List.filter_cons_of_neg (by simpa using h)]; rfl
  exact key _

/-- `f_statfs` tells the number of free clusters, whether it was known or not, and it is known afterwards; the volume looks the same.  Otherwise the device has failed, or the FAT of a FAT12 volume has an entry 1, and nothing is told. -/
theorem C89_statfs (v : Vol) (i : Info) (hl : Layout v i) (hsz : v.ss * v.csize < 2 ^ 32) (s : St) (hi : Inv v s) (hk : CountOk v s) (hm : v.fsType ≠ 1 → Marked (tab v s)) (r : St × Nat × Option FsInfo) (he : r = statFs v i.totsec s) :
    Inv v r.1 ∧ (∀ n, ¬ Fat2 v n → view r.1 n = view s n) ∧ r.1.lastClst = s.lastClst ∧ CountOk v r.1 ∧
    (r.2 = (FR_DISK_ERR, none) ∧ ¬ Sound v ∨ r.2 = (FR_INT_ERR, none) ∧ v.fsType = 1 ∧ (∃ c, 2 ≤ c ∧ c < v.nFatent ∧ tab v s c = 1) ∨
     r.2.1 = FR_OK ∧ r.1.freeClst = (freeClusters v s).length ∧ ∃ f, r.2.2 = some f ∧ Reported v s f) := by
  have hb : v.ss * v.csize % 2 ^ 32 = v.ss * v.csize := Nat.mod_eq_of_lt hsz
  unfold statFs at he
  by_cases hc : s.freeClst ≤ v.nFatent - 2
  · rw [if_pos hc] at he
    rw [he]
    have e := (hk hc).trans (free_length v s)
    exact ⟨hi, fun _ _ => rfl, rfl, hk, .inr (.inr ⟨rfl, e, _, rfl, rfl, hb, e, rfl⟩)⟩
  · rw [if_neg hc] at he
    unfold statDone at he
    obtain ⟨q, h⟩ := countFree_spec hl.geo hi hm
    rcases h with ⟨h, hns⟩ | ⟨ht, h, hx⟩ | ⟨h, hn⟩
    · rw [if_neg (by rw [h]; decide), h] at he
      rw [he]
      exact ⟨q.inv, q.same, q.rest.1, count_same q.same q.rest hk, .inl ⟨rfl, hns⟩⟩
    · rw [if_neg (by rw [h]; decide), h] at he
      rw [he]
      exact ⟨q.inv, q.same, q.rest.1, count_same q.same q.rest hk, .inr (.inl ⟨rfl, ht, hx⟩)⟩
    · rw [if_pos h] at he
      rw [he]
      have e := hn.trans (free_length v s)
      refine ⟨⟨q.inv.disk, q.inv.win, q.inv.clean, q.inv.dirty, q.inv.fat2⟩, q.same, q.rest.1, fun _ => ?_, .inr (.inr ⟨rfl, e, _, rfl, rfl, hb, e, rfl⟩)⟩
      show (countFree v s).nfree = freeCount (tab v (countFree v s).st) v.nFatent
      rw [hn, tab_same q.same]

/-- The number of all clusters should be told in `f_blocks`, include/fpm/fs.h:78. -/
def C89_full : Prop := ∀ (v : Vol) (i : Info), Layout v i → v.ss * v.csize < 2 ^ 32 → ∀ s, Inv v s → CountOk v s → (v.fsType ≠ 1 → Marked (tab v s)) → ∀ f, (statFs v i.totsec s).2.2 = some f → f.blocks = Mount.Spec.clusters v

theorem blocks_eq {v : Vol} {totsec : Nat} {s : St} {f : FsInfo} (h : (statFs v totsec s).2.2 = some f) : f.blocks = totsec / v.csize := by
  unfold statFs statDone at h
  split at h
  · cases h; rfl
  · split at h
    · cases h; rfl
    · cases h

theorem free_le (v : Vol) (s : St) (hg : Geo v) : (freeClusters v s).length ≤ Mount.Spec.clusters v := by
  rw [← free_length]
  have key : ∀ n, freeCount (tab v s) n ≤ n - 2 := by
    intro n
    induction n with
    | zero => exact Nat.le_refl _
    | succ n ih =>
      rw [freeCount]
      split <;> omega
  exact key _

/-- What is told instead is how many clusters all sectors of the volume would make; there are never fewer than clusters, and so not fewer than free ones. -/
theorem C89_blocks_partial (v : Vol) (i : Info) (hl : Layout v i) (s : St) (f : FsInfo) (h : (statFs v i.totsec s).2.2 = some f) (hr : Reported v s f) :
    f.blocks * v.csize ≤ i.totsec ∧ i.totsec < (f.blocks + 1) * v.csize ∧ f.bfree ≤ Mount.Spec.clusters v ∧ Mount.Spec.clusters v ≤ f.blocks := by
  obtain ⟨k, hk⟩ := hl.data.pow
  have hpos : 0 < v.csize := by rw [hk]; exact Nat.pow_pos (by decide)
  rw [blocks_eq h, hr.bfree]
  refine ⟨Nat.div_mul_le_self _ _, ?_, free_le v s hl.geo, ?_⟩
  · rw [Nat.add_mul, Nat.one_mul]
    exact Nat.lt_div_mul_add hpos
  · rw [Nat.le_div_iff_mul_le hpos]
    have h1 := hl.inside
    have h2 := hl.reserved
    have h3 := hl.data.base
    have : v.fatbase ≤ v.fatbase + v.nFats * v.fsize := Nat.le_add_right _ _
    omega

theorem kbytes_eq {num k : Nat} (h : num * 2 ^ k / 1024 < 2 ^ 32) : kbytes num (2 ^ k) = num * 2 ^ k / 1024 := by
  unfold kbytes
  rw [if_neg (by have := Nat.pow_pos (n := k) (show 0 < 2 by decide); omega)]
  by_cases hk : k < 10
  · rw [if_pos (show 2 ^ k < 2 ^ 10 from Nat.pow_lt_pow_right (by decide) hk)]
    have e : 1024 = 2 ^ k * 2 ^ (10 - k) := by rw [← Nat.pow_add, show k + (10 - k) = 10 by omega]
    rw [e, Nat.mul_div_cancel_left _ (Nat.pow_pos (by decide)), Nat.mul_comm num, Nat.mul_div_mul_left _ _ (Nat.pow_pos (by decide))]
  · have e : 2 ^ k = 2 ^ (k - 10) * 1024 := by rw [show 1024 = 2 ^ 10 by decide, ← Nat.pow_add, show k - 10 + 10 = k by omega]
    have hge : ¬ 2 ^ k < 1024 := by rw [e]; have := Nat.pow_pos (n := k - 10) (show 0 < 2 by decide); omega
    rw [if_neg hge]
    rw [e, ← Nat.mul_assoc, Nat.mul_div_cancel _ (by decide)] at h
    rw [e, Nat.mul_div_cancel _ (by decide), ← Nat.mul_assoc, Nat.mul_div_cancel _ (by decide), Nat.mod_eq_of_lt h]

/-- The command `mount` shows size, the difference of size and free space, and free space in kilobytes, rounded down, and how much per cent of the size is not free, rounded to the nearest number; nothing overflows. -/
theorem C89_shown (v : Vol) (i : Info) (hl : Layout v i) (hp : ∃ k, v.ss = 2 ^ k) (htot : i.totsec < 2 ^ 32) (s : St) (f : FsInfo) (h : (statFs v i.totsec s).2.2 = some f) (hr : Reported v s f) (hlim : f.blocks * f.bsize / 1024 < 2 ^ 32) :
    ∃ pct, shown f = (f.blocks * f.bsize / 1024, (f.blocks - f.bfree) * f.bsize / 1024, f.bfree * f.bsize / 1024, pct) ∧ 0 < f.blocks ∧
      2 * pct * f.blocks ≤ 200 * (f.blocks - f.bfree) + f.blocks ∧ 200 * (f.blocks - f.bfree) + f.blocks < 2 * (pct + 1) * f.blocks := by
  obtain ⟨h1, h2, h3, h4⟩ := C89_blocks_partial v i hl s f h hr
  obtain ⟨k1, hk1⟩ := hl.data.pow
  obtain ⟨k2, hk2⟩ := hp
  have hb : f.bsize = 2 ^ (k2 + k1) := by rw [hr.bsize, hk1, hk2, Nat.pow_add]
  have hlt : f.blocks < 2 ^ 32 := by
    rw [blocks_eq h]
    exact Nat.lt_of_le_of_lt (Nat.div_le_self _ _) htot
  have hpos : 0 < f.blocks := by
    have : 0 < Mount.Spec.clusters v := by unfold Mount.Spec.clusters; have := hl.geo.pos; omega
    omega
  have mono : ∀ n, n ≤ f.blocks → n * 2 ^ (k2 + k1) / 1024 < 2 ^ 32 := by
    intro n hn
    refine Nat.lt_of_le_of_lt (Nat.div_le_div_right (Nat.mul_le_mul_right _ hn)) ?_
    rw [← hb]
    exact hlim
  have e1 : (f.blocks + 2 ^ 32 - f.bfree) % 2 ^ 32 = f.blocks - f.bfree := by omega
  have e2 : (f.bavail + (f.blocks - f.bfree)) % 2 ^ 32 = f.blocks := by rw [hr.bavail]; omega
  refine ⟨((f.blocks - f.bfree) * 200 + f.blocks) / f.blocks / 2, ?_, hpos, ?_, ?_⟩
  · unfold shown
    simp only [e1, e2]
    rw [if_neg (by omega), hr.bavail, hb, kbytes_eq (mono _ (Nat.le_refl _)), kbytes_eq (mono _ (Nat.sub_le _ _)), kbytes_eq (mono _ (by omega))]
  · rw [Nat.mul_comm 200]
    refine Nat.le_trans (Nat.mul_le_mul_right _ (Nat.mul_div_le _ 2)) ?_
    exact Nat.div_mul_le_self _ _
  · rw [Nat.mul_comm 200]
    generalize (f.blocks - f.bfree) * 200 + f.blocks = x
    have h6 := Nat.lt_div_mul_add (a := x) hpos
    have h7 : x / f.blocks + 1 ≤ 2 * (x / f.blocks / 2 + 1) := by omega
    have := Nat.mul_le_mul_right f.blocks h7
    rw [Nat.add_mul, Nat.one_mul] at this
    omega

theorem free_all {f : Nat → Nat} : ∀ n, (∀ c, 2 ≤ c → c < n → f c = 0) → freeCount f n = n - 2 := by
  intro n
  induction n with
  | zero => intro _; rfl
  | succ n ih =>
    intro h
    rw [freeCount, ih fun c h1 h2 => h c h1 (by omega)]
    by_cases h2 : 2 ≤ n
    · rw [if_pos ⟨h2, h n h2 (by omega)⟩]; omega
    · rw [if_neg fun hx => h2 hx.1]; omega

/-- On a volume that has just been formatted and mounted all clusters are free but the one of the root directory on FAT32. -/
theorem C89_formatted (ss : Nat) (io : Nat → Io) (blk size : Nat) (o : Mkfs.Opt) (len vsn : Nat) (s : St) (hd : Dev ss io s) (hs : ∀ n, io n = .ok) (hz : size < 2 ^ 32) (hb : blk ≤ 16) (h : (Mkfs.mkfs ss io blk size o len vsn s).2 = 0)
    (r : Mount.Out) (hm : r = mount ss io (Mkfs.mkfs ss io blk size o len vsn s).1) :
    ∃ v i f, r.vol = some (v, i) ∧ (statFs v i.totsec r.st).2 = (FR_OK, some f) ∧ f.bfree = Mount.Spec.clusters v - (if v.fsType = 3 then 1 else 0) ∧ f.bsize = v.ss * v.csize := by
  have hd' := (Mkfs.C79_safe ss io blk size o len vsn s hd hz).2.2.2.2.2.1
  obtain ⟨v, i, e1, e2, ⟨-, hen⟩, hl, he, -, h4, h5, h6, h7⟩ := Mkfs.C79_mounts_partial ss io blk size o len vsn s hd hs hz hb h
  rw [← hm] at h4 h5 h6 h7
  have htab : tab v r.st = fat v (Mkfs.mkfs ss io blk size o len vsn s).1.disk := by
    unfold tab
    rw [h6]
  have hcs : v.csize < 256 := by
    rw [← hen.spc, FatSync.Spec.field]
    have hlt := num_lt (s := ((((Mkfs.mkfs ss io blk size o len vsn s).1.disk i.volbase).drop 13).take 1)) fun b hb => (hd'.disk i.volbase).2 b (List.mem_of_mem_drop (List.mem_of_mem_take hb))
    exact Nat.lt_of_lt_of_le hlt (show 256 ^ _ ≤ 256 ^ 1 from Nat.pow_le_pow_right (by decide) (by rw [List.length_take]; omega))
  have hss : v.ss ≤ 4096 := by rw [e1]; rcases hd.kind with e | e | e | e <;> omega
  have hsz : v.ss * v.csize < 2 ^ 32 := Nat.lt_of_le_of_lt (Nat.mul_le_mul hss (Nat.le_of_lt_succ hcs)) (by decide)
  have hbits : 16 ≤ 2 ^ bits v := by unfold bits; split <;> (try split) <;> decide
  have hmark : Marked (tab v r.st) := by
    unfold Marked
    rw [htab, he.ends.1, he.ends.2]
    omega
  obtain ⟨-, -, -, -, h8⟩ := C89_statfs v i hl hsz r.st h7.inv h7.count (fun _ => hmark) _ rfl
  rcases h8 with ⟨-, h8⟩ | ⟨-, h8, c, c1, c2, c3⟩ | ⟨h8, h9, f, h10, h11⟩
  · exact absurd (fun n => by rw [e2]; exact hs n) h8
  · rw [htab, he.free c c1 c2 (fun h => by omega)] at c3
    cases c3
  · refine ⟨v, i, f, h4, Prod.ext h8 h10, ?_, h11.bsize⟩
    rw [h11.bfree, ← free_length, htab]
    by_cases h3 : v.fsType = 3
    · obtain ⟨q1, q2, q3⟩ := he.chain h3
      rw [if_pos h3, Mkfs.free_one q1 (by omega) v.nFatent fun c h1 h2 h4 => he.free c h1 h2 fun _ => h4, if_pos q2]
      rfl
    · rw [if_neg h3, free_all _ fun c h1 h2 => he.free c h1 h2 fun h => absurd h h3]
      rfl

/-! ## Examples -/

/-- The number of free clusters is not known. -/
def exS : St := { Tree.trS with freeClst := 0xFFFFFFFF }

theorem ex_inv : Inv Tree.trV exS := ⟨Tree.tr_inv.disk, Tree.tr_inv.win, Tree.tr_inv.clean, Tree.tr_inv.dirty, Tree.tr_inv.fat2⟩

theorem ex_count : CountOk Tree.trV exS := fun h => absurd h (by decide)

/-- The hypotheses of `C89_statfs`, `C89_blocks_partial` and `C89_shown` hold for the example, and those of `C89_formatted` for a card of 40 megabytes. -/
example : Layout Tree.trV Tree.trI ∧ Tree.trV.ss * Tree.trV.csize < 2 ^ 32 ∧ Inv Tree.trV exS ∧ CountOk Tree.trV exS ∧ (Tree.trV.fsType ≠ 1 → Marked (tab Tree.trV exS)) ∧ (∃ k, Tree.trV.ss = 2 ^ k) ∧ Tree.trI.totsec < 2 ^ 32 ∧
    (statFs Tree.trV Tree.trI.totsec exS).2 = (FR_OK, some ⟨1, 64, 10, 1, 1⟩) ∧ (∃ f, (statFs Tree.trV Tree.trI.totsec exS).2.2 = some f ∧ Reported Tree.trV exS f ∧ f.blocks * f.bsize / 1024 < 2 ^ 32) ∧
    (Mkfs.mkfs 512 (fun _ => .ok) 1 81920 Mkfs.Spec.sd 4096 7 Mkfs.exSt).2 = 0 := by
  have he : (statFs Tree.trV Tree.trI.totsec exS).2 = (FR_OK, some ⟨1, 64, 10, 1, 1⟩) := by decide +kernel
  refine ⟨Tree.tr_ready.toLayout, by decide, ex_inv, ex_count, fun h => absurd rfl h, ⟨6, rfl⟩, by decide, he, ?_, ?_⟩
  · obtain ⟨-, -, -, -, h⟩ := C89_statfs Tree.trV Tree.trI Tree.tr_ready.toLayout (by decide) exS ex_inv ex_count (fun h => absurd rfl h) _ rfl
    rw [he] at h
    rcases h with ⟨h, -⟩ | ⟨h, -⟩ | ⟨-, -, f, h1, h2⟩
    · cases h
    · cases h
    · cases h1
      exact ⟨_, rfl, h2, by decide⟩
  · have := Mkfs.C79_sd 81920 4096 7 (fun _ => .ok) Mkfs.exSt (fun _ => rfl) (by decide) (by decide)
    rwa [if_pos (by decide)] at this

/-- A volume of ten sectors, of which six can hold files; `f_statfs` tells ten. -/
theorem C89_violated : ¬ C89_full := by
  intro h
  have he : (statFs Tree.trV Tree.trI.totsec exS).2 = (FR_OK, some ⟨1, 64, 10, 1, 1⟩) := by decide +kernel
  exact absurd (h Tree.trV Tree.trI Tree.tr_ready.toLayout (by decide) exS ex_inv ex_count (fun h => absurd rfl h) _ (by rw [he])) (by decide)

/-- Tables of 16 and 32 bits in two sectors: the last entry counts, the first one is not a cluster but would. -/
def exV (t : Nat) : Vol := { ss := 16, csize := 2, fatbase := 1, fsize := 2, nFats := 1, nFatent := if t = 2 then 11 else 6, fsType := t, database := 3, io := fun _ => .ok }
def exT (a b : List Nat) : St := { disk := fun n => if n = 1 then a else b, past := [], cnt := 0, win := List.replicate 16 9, winsect := none, wflag := false, lastClst := 2, freeClst := 0xFFFFFFFF, fsiFlag := false }

example : (statFs (exV 2) 40 (exT [0xF8, 0xFF, 0xFF, 0xFF, 0, 0, 4, 0, 0, 4, 0xFF, 0xFF, 0, 0, 0, 0] [1, 0, 0, 1, 0, 0, 0, 0, 0, 0, 0, 0, 0, 0, 0, 0])).2 = (FR_OK, some ⟨2, 32, 20, 4, 4⟩) ∧
    (statFs (exV 3) 40 (exT [0xF8, 0xFF, 0xFF, 0xFF, 0xFF, 0xFF, 0xFF, 0xFF, 0, 0, 0, 0x10, 1, 0, 0, 0] [0, 0, 0, 0, 0, 0, 1, 0, 0, 0, 0, 0, 0, 0, 0, 0])).2 = (FR_OK, some ⟨3, 32, 20, 2, 2⟩) ∧
    (statFs (exV 2) 40 (exT [0, 0, 0, 0, 0, 0, 4, 0, 0, 4, 0xFF, 0xFF, 0, 0, 0, 0] [1, 0, 0, 1, 0, 0, 0, 0, 0, 0, 0, 0, 0, 0, 0, 0])).2 = (FR_OK, some ⟨2, 32, 20, 6, 6⟩) ∧
    shown ⟨3, 512, 81857, 80000, 80000⟩ = (40928, 928, 40000, 2) := by decide +kernel

end Fpm.Statfs
