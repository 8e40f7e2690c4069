import Verif.Mkfs.VolumeLemmas
import Verif.Mkfs.RunLemmas
import Verif.Mount.Props
/-!
# C79: making a FAT volume
-/
namespace Fpm.Mkfs
open Fpm.Fat Fpm.Fat.Spec Fpm.FatFile.Spec Fpm.FatSync.Spec Fpm.Mount Fpm.Mount.Spec Fpm.Mkfs.Spec

theorem block_ok (b : Nat) : 0 < block b ∧ block b ≤ 2 ^ 15 ∧ (b ≤ 16 → block b ≤ 16) := by
  unfold block
  split <;> omega

theorem base_ok {o : Opt} {size : Nat} (h : ¬ volSize o size < 128) : volBase o size + volSize o size = size ∧ (if o.sfd = true then volBase o size = 0 else volBase o size = 63) ∧ volBase o size ≤ 63 := by
  unfold volSize volBase at *
  by_cases hs : o.sfd = true
  · rw [if_pos hs, if_neg (fun z => by rw [hs] at z; cases z.1)]
    omega
  · have hs' : o.sfd = false := Bool.eq_false_iff.mpr hs
    rw [if_neg hs]
    by_cases h6 : size > 63
    · rw [if_pos ⟨hs', h6⟩]
      omega
    · rw [if_neg (fun z => h6 z.2)] at h
      omega

theorem pre_ok {o : Opt} {n t : Nat} (h : preType o n = some t) (h4 : t ≠ 4) : t = 3 ∧ o.fat32 = true ∨ t = 2 ∧ o.fat = true := by
  unfold preType at h
  split at h
  · cases h
    exact absurd rfl h4
  · split at h
    · rename_i h1
      cases h
      exact .inl ⟨rfl, h1.1⟩
    · split at h
      · cases h
      · rename_i h1
        cases h
        exact .inr ⟨rfl, by simpa using h1⟩

theorem loop_start {n t : Nat} (h : t = 2 ∨ t = 3) : LoopOk n 0 t := ⟨h, .inl rfl⟩

variable {ss : Nat} {io : Nat → Io} {blk size : Nat} {o : Opt} {len vsn : Nat} {s : St}

/-- Either the request is turned down, or a volume is created. -/
theorem mkfs_cases (hk : ss = 512 ∨ ss = 1024 ∨ ss = 2048 ∨ ss = 4096) (hz : size < 2 ^ 32) :
    (mkfs ss io blk size o len vsn s).1 = s ∧ ((mkfs ss io blk size o len vsn s).2 = FR_NOT_ENOUGH_CORE ∧ len < ss ∨ (mkfs ss io blk size o len vsn s).2 = FR_MKFS_ABORTED ∨
      (mkfs ss io blk size o len vsn s).2 = FR_INVALID_PARAMETER ∧ o.fat = false ∧ o.fat32 = false ∧ o.exfat = false ∨ (mkfs ss io blk size o len vsn s).2 = EXFAT ∧ o.exfat = true) ∨
    ∃ c, mkfs ss io blk size o len vsn s = create (raw ss io) o len size (volBase o size) (volSize o size) vsn c s ∧ Args (raw ss io) o len size (volBase o size) (volSize o size) c (block blk) ∧
      (if c.fsty = 3 then o.fat32 = true else o.fat = true) := by
  unfold mkfs
  by_cases h1 : len / ss = 0
  · rw [if_pos h1]
    refine .inl ⟨rfl, .inl ⟨rfl, ?_⟩⟩
    rcases Nat.div_eq_zero_iff.mp h1 with h | h
    · omega
    · exact h
  rw [if_neg h1]
  by_cases h2 : volSize o size < 128
  · rw [if_pos h2]
    exact .inl ⟨rfl, .inr (.inl rfl)⟩
  rw [if_neg h2]
  obtain ⟨b1, b2, b3⟩ := base_ok h2
  cases h3 : preType o (volSize o size) with
  | none =>
    refine .inl ⟨rfl, .inr (.inr (.inl ⟨rfl, ?_⟩))⟩
    unfold preType at h3
    split at h3
    · cases h3
    · rename_i h4
      split at h3
      · cases h3
      · rename_i h5
        split at h3
        · rename_i h6
          have h7 : o.fat32 = false := Bool.eq_false_iff.mpr fun z => h5 ⟨z, h6⟩
          exact ⟨h6, h7, Bool.eq_false_iff.mpr fun z => h4 ⟨z, .inl ⟨h6, h7⟩⟩⟩
        · cases h3
  | some t =>
    simp only
    by_cases h4 : t = 4
    · rw [if_pos h4]
      refine .inl ⟨rfl, .inr (.inr (.inr ⟨rfl, ?_⟩))⟩
      unfold preType at h3
      split at h3
      · rename_i h5
        exact h5.1
      · split at h3
        · cases h3
          cases h4
        · split at h3
          · cases h3
          · cases h3
            cases h4
    rw [if_neg h4]
    have ht := pre_ok h3 h4
    have hloop := loop_start (n := volSize o size) (t := t) (by omega)
    have hvz : volSize o size < 2 ^ 32 := by omega
    cases h5 : search o ss (block blk) (volBase o size) (volSize o size) 3 0 t with
    | none =>
      exact absurd h5 (search_ends hvz 3 0 t hloop (by unfold left; rw [if_pos rfl]; split <;> omega))
    | some r =>
      cases r with
      | none => exact .inl ⟨rfl, .inr (.inl rfl)⟩
      | some c =>
        obtain ⟨g1, g2, g3⟩ := search_good hk ⟨(block_ok blk).1, (block_ok blk).2.1⟩ hvz b3 3 0 t hloop h5
        refine .inr ⟨c, rfl, ⟨hk, Nat.pos_of_ne_zero h1, g1, b1, hz, by omega, b2⟩, ?_⟩
        by_cases hc : c.fsty = 3
        · rw [if_pos hc]
          rcases g2 hc with h | h
          · rcases ht with ht | ht
            · exact ht.2
            · omega
          · exact h
        · rw [if_neg hc]
          rcases ht with ht | ht
          · exact absurd (g3 ht.1) hc
          · exact ht.2

/-- C79, on any device: there is an end, with a result code.  A request that is turned down leaves the device as it is.  Nothing is ever written beyond the end of the device, and
the transfers are of whole sectors.  The only undefined behaviour is that of a partition table with a buffer of less than 4096 bytes; `FR_DISK_ERR` means that the device failed. -/
theorem C79_safe (ss : Nat) (io : Nat → Io) (blk size : Nat) (o : Opt) (len vsn : Nat) (s : St) (hd : Dev ss io s) (hz : size < 2 ^ 32) :
    (mkfs ss io blk size o len vsn s).2 ∈ [0, 1, 14, 17, 19, EXFAT, UB] ∧ ((mkfs ss io blk size o len vsn s).2 = UB → o.sfd = false ∧ len < 4096) ∧
    ((mkfs ss io blk size o len vsn s).2 ∈ [14, 17, 19, EXFAT] → (mkfs ss io blk size o len vsn s).1 = s) ∧ ((mkfs ss io blk size o len vsn s).2 = 1 → ∃ n j, io n = .fail j) ∧
    (∀ n, size ≤ n → (mkfs ss io blk size o len vsn s).1.disk n = s.disk n) ∧ Dev ss io (mkfs ss io blk size o len vsn s).1 ∧
    ((mkfs ss io blk size o len vsn s).2 = 17 → len < ss) ∧ ((mkfs ss io blk size o len vsn s).2 = 19 → o.fat = false ∧ o.fat32 = false ∧ o.exfat = false) ∧ ((mkfs ss io blk size o len vsn s).2 = EXFAT → o.exfat = true) := by
  rcases mkfs_cases (io := io) (blk := blk) (o := o) (len := len) (vsn := vsn) (s := s) hd.kind hz with ⟨h1, h2⟩ | ⟨c, h1, h2, -⟩
  · rw [h1]
    refine ⟨?_, ?_, fun _ => rfl, ?_, fun _ _ => rfl, hd, ?_, ?_, ?_⟩
    all_goals
      rcases h2 with ⟨h2, h3⟩ | h2 | ⟨h2, h3⟩ | ⟨h2, h3⟩ <;> rw [h2] <;> first | decide | exact fun _ => h3 | (intro z; exact absurd z (by decide))
  · rw [h1]
    obtain ⟨g1, g2, -⟩ := create_in h2 vsn s
    have hun : ¬ Sound (raw ss io) → ∃ n j, io n = .fail j := by
      intro hn
      apply Classical.byContradiction
      intro hx
      refine hn fun n => ?_
      show io n = .ok
      cases e : io n with
      | ok => rfl
      | fail j => exact absurd ⟨n, j, e⟩ hx
    refine ⟨?_, ?_, ?_, ?_, fun n hn => g1.out n (.inr hn), g1.dev hd, ?_, ?_, ?_⟩
    all_goals
      rcases g2 with g2 | ⟨g2, g3⟩ | ⟨g2, g3⟩ <;> rw [g2] <;> first | decide | exact fun _ => g3 | exact fun _ => hun g3 | (intro z; exact absurd z (by decide))

/-- C79 in full: no undefined behaviour, and success means that there is an empty volume of a kind that was asked for, with the right number of free clusters stored. -/
def C79_full : Prop := ∀ (ss : Nat) (io : Nat → Io) (blk size : Nat) (o : Opt) (len vsn : Nat) (s : St), Dev ss io s → size < 2 ^ 32 →
  (mkfs ss io blk size o len vsn s).2 ≠ UB ∧ ((mkfs ss io blk size o len vsn s).2 = 0 →
    ∃ v i, v.ss = ss ∧ v.io = io ∧ i.volbase + i.totsec = size ∧ Asked o v ∧ (if o.sfd = true then i.volbase = 0 else i.volbase = 63 ∧ Single ((mkfs ss io blk size o len vsn s).1.disk 0) 63 size) ∧
      Encodes ((mkfs ss io blk size o len vsn s).1.disk i.volbase) v i ∧ Layout v i ∧ Empty v i (mkfs ss io blk size o len vsn s).1.disk ∧
      (v.fsType = 3 → storedFree (mkfs ss io blk size o len vsn s).1.disk i = Mount.Spec.clusters v - 1))

/-- C79, on any device: success means that the volume is there: boot sector, partition table if there should be one, an empty FAT, an empty root directory; it is of a kind that was
asked for, and extends to the end of the device.  With blocks of up to 16 sectors there are clusters.  Missing from `C79_full`: larger blocks may leave no room for clusters, and the number of
free clusters is known to be stored only if the device did not fail. -/
theorem C79_made_partial (ss : Nat) (io : Nat → Io) (blk size : Nat) (o : Opt) (len vsn : Nat) (s : St) (hd : Dev ss io s) (hz : size < 2 ^ 32) (h : (mkfs ss io blk size o len vsn s).2 = 0) :
    ∃ v i, v.ss = ss ∧ v.io = io ∧ i.volbase + i.totsec = size ∧ Asked o v ∧ (if o.sfd = true then i.volbase = 0 else i.volbase = 63 ∧ Single ((mkfs ss io blk size o len vsn s).1.disk 0) 63 size) ∧
      Encodes ((mkfs ss io blk size o len vsn s).1.disk i.volbase) v i ∧ (blk ≤ 16 → 0 < Mount.Spec.clusters v) ∧ (0 < Mount.Spec.clusters v → Layout v i ∧ Empty v i (mkfs ss io blk size o len vsn s).1.disk) ∧
      (Sound v → v.fsType = 3 → storedFree (mkfs ss io blk size o len vsn s).1.disk i = Mount.Spec.clusters v - 1) := by
  rcases mkfs_cases (io := io) (blk := blk) (o := o) (len := len) (vsn := vsn) (s := s) hd.kind hz with ⟨-, h2⟩ | ⟨c, h1, h2, h3⟩
  · rw [h] at h2
    rcases h2 with ⟨h2, -⟩ | h2 | ⟨h2, -⟩ | ⟨h2, -⟩ <;> exact absurd h2 (by decide)
  · rw [h1] at h ⊢
    obtain ⟨g1, -, g3⟩ := create_in h2 vsn s
    have hw := g3 h
    have hd' := g1.dev hd
    have hcl : Mount.Spec.clusters (newVol ss io (volBase o size) c) = c.nClst := Nat.add_sub_cancel c.nClst 2
    refine ⟨newVol ss io (volBase o size) c, newInfo (volBase o size) (volSize o size) c, rfl, rfl, h2.sum, h3, ?_, new_encodes h2 hw.boot, fun hb => ?_, fun hc => ?_, fun hs ht => ?_⟩
    · have hb := h2.base
      by_cases ho : o.sfd = true
      · rw [if_pos ho] at hb ⊢
        exact hb
      · rw [if_neg ho] at hb ⊢
        refine ⟨hb, ?_⟩
        have := hw.table (Bool.eq_false_iff.mpr ho)
        rw [hb] at this
        rw [hb]
        exact this
    · rw [hcl]
      exact h2.good.some ((block_ok blk).2.2 hb)
    · rw [hcl] at hc
      exact ⟨new_layout h2 hd.junk hc, new_empty h2 hd'.disk hd.junk hc hw⟩
    · have hi := hw.info hs ht
      have hf : (newInfo (volBase o size) (volSize o size) c).fsi = some (volBase o size + 1) := if_pos ht
      unfold storedFree
      rw [hf, hcl]
      simp only
      rw [if_pos ⟨hi.lead, hi.struct, hi.sign⟩, hi.free]

/-- C79: a new volume on a working device is mounted; its table of clusters is well-formed, with no chain but the one of the root directory, and the number of free clusters is right.
Missing: blocks of more than 16 sectors. -/
theorem C79_mounts_partial (ss : Nat) (io : Nat → Io) (blk size : Nat) (o : Opt) (len vsn : Nat) (s : St) (hd : Dev ss io s) (hs : ∀ n, io n = .ok) (hz : size < 2 ^ 32) (hb : blk ≤ 16)
    (h : (mkfs ss io blk size o len vsn s).2 = 0) :
    ∃ v i, v.ss = ss ∧ v.io = io ∧ (Asked o v ∧ Encodes ((mkfs ss io blk size o len vsn s).1.disk i.volbase) v i) ∧ Layout v i ∧ Empty v i (mkfs ss io blk size o len vsn s).1.disk ∧ (mount ss io (mkfs ss io blk size o len vsn s).1).res = 0 ∧
      (mount ss io (mkfs ss io blk size o len vsn s).1).vol = some (v, i) ∧ (mount ss io (mkfs ss io blk size o len vsn s).1).st.disk = (mkfs ss io blk size o len vsn s).1.disk ∧
      view (mount ss io (mkfs ss io blk size o len vsn s).1).st = (mkfs ss io blk size o len vsn s).1.disk ∧ VolOk v (rootChains v i) [] [] (mount ss io (mkfs ss io blk size o len vsn s).1).st := by
  obtain ⟨v, i, e1, e2, -, e4, e5, e6, e7, e8, e9⟩ := C79_made_partial ss io blk size o len vsn s hd hz h
  obtain ⟨hl, he⟩ := e8 (e7 hb)
  have hd' := (C79_safe ss io blk size o len vsn s hd hz).2.2.2.2.2.1
  generalize (mkfs ss io blk size o len vsn s).1 = t at *
  subst e1 e2
  have hat : Located t.disk i.volbase := by
    split at e5
    · exact .inl e5
    · refine .inr ⟨0, by decide, ?_, by rw [e5.1]; decide, fun j hj => absurd hj (Nat.not_lt_zero _)⟩
      rw [e5.1]
      exact e5.2.toTable
  obtain ⟨m1, m2, m3, m4, m5, m6, m7⟩ := C78_accepts t v i hd' hs hat e6 hl
  generalize mount v.ss v.io t = r at *
  have hview : view r.st = t.disk := by
    funext n
    unfold view
    rw [← m4]
    split
    · rename_i hn
      exact m3.clean m5 n hn
    · rfl
  have htab : tab v r.st = fat v t.disk := by
    unfold tab
    rw [hview]
  refine ⟨v, i, rfl, rfl, ⟨e4, e6⟩, hl, he, m1, m2, m4, hview, m3, ?_, fun hc => ?_, fun n hn => ?_⟩
  · show Chains _ _ (rootChains v i ++ [])
    rw [List.append_nil]
    exact empty_chains htab he
  · rw [htab]
    by_cases h3 : v.fsType = 3
    · obtain ⟨q1, q2, q3⟩ := he.chain h3
      rw [m6, e9 hs h3, free_one q1 (by omega) v.nFatent fun c h1 h2 h4 => he.free c h1 h2 fun _ => h4, if_pos q2]
      rfl
    · have hf : i.fsi = none := by
        cases hi : i.fsi with
        | none => rfl
        | some n => exact absurd (hl.fsi n hi).1 h3
      rw [m6] at hc
      unfold storedFree at hc
      rw [hf] at hc
      simp only at hc
      have hk := hl.geo.kind
      omega
  · rintro ⟨c, -, h2⟩
    unfold sectors at h2
    obtain ⟨j, -, h4⟩ := List.mem_map.mp h2
    have hbase := hl.data.base
    have hres := hl.reserved
    rcases m7 with h5 | h5
    · rw [h5] at hn
      cases hn
      omega
    · rw [h5] at hn
      have := hl.fsi n hn
      omega

theorem mkfs_aborts {t : Nat} (hl : ss ≤ len) (h0 : 0 < ss) (ht : preType o (volSize o size) = some t) (h4 : t ≠ 4)
    (h : volSize o size < 128 ∨ search o ss (block blk) (volBase o size) (volSize o size) 3 0 t = some none) : mkfs ss io blk size o len vsn s = (s, FR_MKFS_ABORTED) := by
  unfold mkfs
  rw [if_neg (by have := Nat.div_pos hl h0; omega)]
  by_cases h2 : volSize o size < 128
  · rw [if_pos h2]
  · rw [if_neg h2, ht]
    simp only
    rw [if_neg h4, h.resolve_left h2]

theorem mkfs_works {t : Nat} {c : Cfg} (hs : ∀ n, io n = .ok) (hk : ss = 512 ∨ ss = 1024 ∨ ss = 2048 ∨ ss = 4096) (hz : size < 2 ^ 32) (hl : ss ≤ len) (hl' : o.sfd = true ∨ 4096 ≤ len) (ht : preType o (volSize o size) = some t) (h4 : t ≠ 4)
    (h2 : ¬ volSize o size < 128) (h : search o ss (block blk) (volBase o size) (volSize o size) 3 0 t = some (some c)) : (mkfs ss io blk size o len vsn s).2 = FR_OK := by
  have h0 : 0 < ss := by omega
  have e : mkfs ss io blk size o len vsn s = create (raw ss io) o len size (volBase o size) (volSize o size) vsn c s := by
    unfold mkfs
    rw [if_neg (by have := Nat.div_pos hl h0; omega), if_neg h2, ht]
    simp only
    rw [if_neg h4, h]
  obtain ⟨b1, b2, b3⟩ := base_ok h2
  have hp := pre_ok ht h4
  have hargs : Args (raw ss io) o len size (volBase o size) (volSize o size) c (block blk) :=
    ⟨hk, Nat.div_pos hl h0, (search_good hk ⟨(block_ok blk).1, (block_ok blk).2.1⟩ (by omega) b3 3 0 t (loop_start (by omega)) h).1, b1, hz, by omega, b2⟩
  rw [e]
  obtain ⟨-, g2, -⟩ := create_in hargs vsn s
  rcases g2 with g2 | g2 | ⟨-, g2, g3⟩
  · exact g2
  · exact absurd hs g2.2
  · rcases hl' with h | h
    · rw [g2] at h
      cases h
    · omega

/-- C79: the command `format sd:` on a working card, with its buffer of 4096 bytes: the card must have 66138 sectors or more, 32.3 megabytes; a smaller one is left as it is. -/
theorem C79_sd (size len vsn : Nat) (io : Nat → Io) (s : St) (hs : ∀ n, io n = .ok) (hz : size < 2 ^ 32) (hl : 4096 ≤ len) :
    if 66138 ≤ size then (mkfs 512 io 1 size sd len vsn s).2 = 0 else mkfs 512 io 1 size sd len vsn s = (s, 14) := by
  have hb : block 1 = 1 := by decide
  have hv : volBase sd size = (if size > 63 then 63 else 0) := by
    unfold volBase
    by_cases h : size > 63
    · rw [if_pos ⟨rfl, h⟩, if_pos h]
    · rw [if_neg (fun z => h z.2), if_neg h]
  by_cases hz2 : 66138 ≤ size
  · rw [if_pos hz2]
    rw [if_pos (by omega)] at hv
    have hsize : volSize sd size = size - 63 := by unfold volSize; rw [hv]
    obtain ⟨c, hc⟩ := sd_found (o := sd) (bVol := 63) (szVol := size - 63) (by decide) (by omega) (by omega)
    refine mkfs_works (t := 3) (c := c) hs (.inl rfl) hz (by omega) (.inr hl) rfl (by decide) (by omega) ?_
    rw [hb, hv, hsize]
    exact hc
  · rw [if_neg hz2]
    refine mkfs_aborts (t := 3) (by omega) (by decide) rfl (by decide) ?_
    by_cases h2 : volSize sd size < 128
    · exact .inl h2
    · right
      unfold volSize at h2
      rw [hv] at h2
      have h63 : size > 63 := by
        apply Nat.lt_of_not_le
        intro h
        rw [if_neg (by omega)] at h2
        omega
      rw [if_pos h63] at h2 hv
      have hsize : volSize sd size = size - 63 := by unfold volSize; rw [hv]
      rw [hb, hv, hsize]
      exact sd_not (by decide) (by omega) (by omega)

/-- C79: the command `format flash:` on a working device with sectors of 4096 bytes: from 128 to 8387364 sectors, 512 kilobytes to 32 gigabytes; others are left as they are. -/
theorem C79_flash (size len vsn : Nat) (io : Nat → Io) (s : St) (hs : ∀ n, io n = .ok) (hz : size < 2 ^ 32) (hl : 4096 ≤ len) :
    if 128 ≤ size ∧ size ≤ 8387364 then (mkfs 4096 io 1 size flash len vsn s).2 = 0 else mkfs 4096 io 1 size flash len vsn s = (s, 14) := by
  have hb : block 1 = 1 := by decide
  have hv : volBase flash size = 0 := if_neg (fun z => by cases z.1)
  have hsize : volSize flash size = size := by unfold volSize; rw [hv]; rfl
  by_cases hz2 : 128 ≤ size ∧ size ≤ 8387364
  · rw [if_pos hz2]
    obtain ⟨c, hc⟩ := flash_found (o := flash) (szVol := size) rfl hz2.1 hz2.2
    refine mkfs_works (t := 2) (c := c) hs (.inr (.inr (.inr rfl))) hz hl (.inr hl) rfl (by decide) (by omega) ?_
    rw [hb, hv, hsize]
    exact hc
  · rw [if_neg hz2]
    refine mkfs_aborts (t := 2) hl (by decide) rfl (by decide) ?_
    rw [hb, hv, hsize]
    by_cases h2 : size < 128
    · exact .inl h2
    · exact .inr (flash_not rfl (by omega) hz)

/-! ## Examples -/

/-- A device of zeros. -/
def exSt : St := { disk := fun _ => List.replicate 512 0, past := [], cnt := 0, winsect := none, win := List.replicate 512 0, wflag := false, freeClst := 0, lastClst := 0, fsiFlag := false }

theorem exDev : Dev 512 (fun _ => .ok) exSt where
  kind := .inl rfl
  disk _ := ⟨List.length_replicate, zero_byte _⟩
  win := ⟨List.length_replicate, zero_byte _⟩
  junk n j h := by cases h

/-- The hypotheses of `C79_safe`, `C79_made_partial` and `C79_mounts_partial`: a card of 40 megabytes. -/
example : Dev 512 (fun _ => .ok) exSt ∧ 81920 < 2 ^ 32 ∧ (mkfs 512 (fun _ => .ok) 1 81920 sd 4096 7 exSt).2 = 0 := by
  refine ⟨exDev, by decide, ?_⟩
  have := C79_sd 81920 4096 7 (fun _ => .ok) exSt (fun _ => rfl) (by decide) (by decide)
  rwa [if_pos (by decide)] at this

/-- C79: with blocks of 128 sectors, a volume of 128 sectors without a cluster is made, which is not mounted. -/
theorem C79_no_clusters : (mkfs 512 (fun _ => .ok) 128 128 flash 512 7 exSt).2 = 0 ∧ (mount 512 (fun _ => .ok) (mkfs 512 (fun _ => .ok) 128 128 flash 512 7 exSt).1).res = 13 := by
  decide +kernel

/-- C79: a partition table is made in a buffer of 4096 bytes, whatever the length of the buffer is. -/
theorem C79_small_buffer : (mkfs 512 (fun _ => .ok) 1 200 { fat := true, fat32 := false, exfat := false, sfd := false } 512 7 exSt).2 = UB := by
  decide +kernel

/-- A device of zeros with sectors of 4096 bytes. -/
def exSt4 : St := { disk := fun _ => List.replicate 4096 0, past := [], cnt := 0, winsect := none, win := List.replicate 4096 0, wflag := false, freeClst := 0, lastClst := 0, fsiFlag := false }

/-- A device that fails once, for the fourth transfer. -/
def exIo (n : Nat) : Io := if n = 3 then .fail (List.replicate 4096 0) else .ok

theorem exDev4 : Dev 4096 exIo exSt4 where
  kind := .inr (.inr (.inr rfl))
  disk _ := ⟨List.length_replicate, zero_byte _⟩
  win := ⟨List.length_replicate, zero_byte _⟩
  junk n j h := by
    unfold exIo at h
    split at h
    · cases h
      exact ⟨List.length_replicate, zero_byte _⟩
    · cases h

/-- C79: a failure of the device when the sector for free counts is written is not reported. -/
theorem C79_unreported : (mkfs 4096 exIo 1 66138 { fat := false, fat32 := true, exfat := false, sfd := true } 4096 7 exSt4).2 = 0 ∧
    field ((mkfs 4096 exIo 1 66138 { fat := false, fat32 := true, exfat := false, sfd := true } 4096 7 exSt4).1.disk 1) 0 4 = 0 := by
  decide +kernel

theorem C79_violated : ¬ C79_full := fun h => (h 512 (fun _ => .ok) 1 200 { fat := true, fat32 := false, exfat := false, sfd := false } 512 7 exSt exDev (by decide)).1 C79_small_buffer

end Fpm.Mkfs
