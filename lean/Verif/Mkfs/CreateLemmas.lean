import Verif.Mkfs.FillLemmas
import Verif.Mkfs.SearchLemmas
/-! # What is on the device at the end -/
namespace Fpm.Mkfs
open Fpm.Fat Fpm.Fat.Spec Fpm.FatFile Fpm.FatBytes Fpm.FatSync Fpm.FatSync.Spec Fpm.Mount Fpm.Mount.Spec Fpm.Mkfs.Spec

/-- First byte of the FAT that is zero. -/
def headEnd (fsty : Nat) : Nat := if fsty = 3 then 12 else if fsty = 1 then 3 else 4

theorem headEnd_le (fsty : Nat) : headEnd fsty ≤ 12 := by
  unfold headEnd
  split
  · decide
  · split <;> decide

/-- Sectors of the root directory. -/
def rootSect (c : Cfg) : Nat := if c.fsty = 3 then c.pau else c.szDir

/-- The parts of the new volume. -/
structure Written (v : Vol) (o : Opt) (bVol szVol size : Nat) (c : Cfg) (d : Disk) : Prop where
  boot : Boot v.ss bVol szVol c (d bVol)
  fat : ∀ k, headEnd c.fsty ≤ k → k < c.szFat * v.ss → (d (bVol + c.szRsv + k / v.ss)).getD (k % v.ss) 0 = 0
  last : Headed c.fsty (d (bVol + c.szRsv))
  root : ∀ m, m < rootSect c → d (bVol + c.szRsv + c.szFat + m) = List.replicate v.ss 0
  table : o.sfd = false → Single (d 0) bVol size
  info : Sound v → c.fsty = 3 → Infos v.ss (c.nClst - 1) (d (bVol + 1))

/-- The numbers `create` is called with. -/
structure Args (v : Vol) (o : Opt) (len size bVol szVol : Nat) (c : Cfg) (blk : Nat) : Prop where
  kind : v.ss = 512 ∨ v.ss = 1024 ∨ v.ss = 2048 ∨ v.ss = 4096
  len : 0 < len / v.ss
  good : Good v.ss blk szVol c
  sum : bVol + szVol = size
  lim : size < 2 ^ 32
  min : 128 ≤ szVol
  base : if o.sfd = true then bVol = 0 else bVol = 63

theorem drop_zeros {z : List Nat} {n : Nat} (h : ∀ i, n ≤ i → z.getD i 0 = 0) : z.drop n = List.replicate (z.length - n) 0 := by
  rw [List.eq_replicate_iff]
  refine ⟨List.length_drop, fun x hx => ?_⟩
  obtain ⟨i, hi, e⟩ := List.getElem_of_mem hx
  rw [List.getElem_drop] at e
  have h1 := h (n + i) (by omega)
  rw [List.length_drop] at hi
  rw [List.getD_eq_getElem?_getD, List.getElem?_eq_getElem (by omega), Option.getD_some] at h1
  rw [← e, h1]

theorem Args.ss_pos {v : Vol} {o : Opt} {len size bVol szVol : Nat} {c : Cfg} {blk : Nat} (h : Args v o len size bVol szVol c blk) : 512 ≤ v.ss := by
  rcases h.kind with e | e | e | e <;> omega

theorem Args.root_in {v : Vol} {o : Opt} {len size bVol szVol : Nat} {c : Cfg} {blk : Nat} (h : Args v o len size bVol szVol c blk) : c.szRsv + c.szFat + rootSect c ≤ szVol := by
  unfold rootSect
  have h1 := h.good.sum
  split
  · rename_i h3
    have h2 := h.good.num
    have h4 := h.good.kind
    obtain ⟨k, -, hk⟩ := h.good.pau
    have hp : 0 < c.pau := by rw [hk]; exact Nat.two_pow_pos k
    have h5 : c.nClst * c.pau ≤ szVol - c.szRsv - c.szFat - c.szDir := by rw [h2]; exact Nat.div_mul_le_self _ _
    have h6 : c.pau ≤ c.nClst * c.pau := Nat.le_mul_of_pos_left _ (by omega)
    omega
  · exact h1

theorem sys_ok (fsty szVol : Nat) : 0 < sysId fsty szVol ∧ sysId fsty szVol < 256 := by
  unfold sysId
  split
  · decide
  · split
    · decide
    · split <;> decide

/-- Transfers of `putFat` and later. -/
theorem table_in {v : Vol} {o : Opt} {len size bVol szVol : Nat} {c : Cfg} {blk : Nat} (h : Args v o len size bVol szVol c blk) (s : St) :
    Within v 0 (if o.sfd then 0 else 1) s (putTable v o len size szVol c s).1 ∧
    ((putTable v o len size szVol c s).2 = FR_OK ∧ (o.sfd = false → Single ((putTable v o len size szVol c s).1.disk 0) bVol size) ∨ (putTable v o len size szVol c s).2 = FR_DISK_ERR ∧ ¬ Sound v ∨
      (putTable v o len size szVol c s).2 = UB ∧ o.sfd = false ∧ len < 4096) := by
  have hb := h.base
  have hsum := h.sum
  have hmin := h.min
  have hlim := h.lim
  unfold putTable
  by_cases ho : o.sfd = true
  · rw [if_pos ho, if_pos ho]
    exact ⟨.refl s, .inl ⟨rfl, fun z => by rw [ho] at z; cases z⟩⟩
  · have ho' : o.sfd = false := Bool.eq_false_iff.mpr ho
    rw [if_neg ho, if_neg ho]
    rw [if_neg ho] at hb
    by_cases hlen : 4096 ≤ len
    · obtain ⟨w, e, h1, h2, h3⟩ := mbr_ok (ss := v.ss) (len := len) (size := size) (sys := sysId c.fsty szVol) h.ss_pos hlen (by omega) hlim (sys_ok _ _)
      rw [show size - 63 = szVol by omega] at e
      rw [e]
      simp only
      have hw := write_in v s 0 (b := w) ⟨h1, h2⟩
      by_cases hk : (diskWrite v s 0 w).2 = true
      · rw [if_pos hk]
        refine ⟨hw, .inl ⟨rfl, fun _ => ?_⟩⟩
        show Single ((diskWrite v s 0 w).1.disk 0) bVol size
        rw [write_at hk, hb]
        exact h3
      · rw [if_neg hk]
        exact ⟨hw, .inr (.inl ⟨rfl, fun z => hk (write_sound z _ _ _)⟩)⟩
    · have : mbr v.ss len size szVol (sysId c.fsty szVol) = none := by
        unfold mbr
        rw [if_pos (by omega)]
      rw [this]
      exact ⟨.refl s, .inr (.inr ⟨rfl, ho', by omega⟩)⟩

theorem table_off {o : Opt} {m : Nat} (h : m = 0 → o.sfd = true) : m < 0 ∨ (if o.sfd = true then 0 else 1) ≤ m := by
  split
  · omega
  · rename_i h'
    exact .inr (by cases m with | zero => exact absurd (h rfl) h' | succ m => omega)

/-- How a part of the work ends. -/
def Ends (v : Vol) (o : Opt) (len : Nat) (r : Nat) : Prop := r = FR_OK ∨ r = FR_DISK_ERR ∧ ¬ Sound v ∨ r = UB ∧ o.sfd = false ∧ len < 4096

theorem fill_ends {v : Vol} {z : Nat} (hz : 0 < z) {k : Nat} {s : St} {n : Nat} {b r : List Nat} {c : Nat} (hc : c < k) (h1 : b.length = z * v.ss) (h2 : ∀ x ∈ b, x < 256) (h3 : r.length = z * v.ss) (h4 : ∀ x ∈ r, x < 256) :
    (fill v z k s n b r c).2 = FR_OK ∨ (fill v z k s n b r c).2 = FR_DISK_ERR ∧ ¬ Sound v := by
  rcases (fill_in v hz k s n b r c hc h1 h2 h3 h4).2 with h | h
  · exact .inl h
  · refine .inr ⟨h, fun hs => ?_⟩
    rw [fill_sound hs hz k s n b r c hc] at h
    cases h

/-- From the root directory on. -/
theorem root_in {v : Vol} {o : Opt} {len size bVol szVol : Nat} {c : Cfg} {blk : Nat} (h : Args v o len size bVol szVol c blk) (s : St) :
    (∀ m, (m = 0 → o.sfd = true) → m < bVol + c.szRsv + c.szFat → (putRoot v o len size bVol szVol c s).1.disk m = s.disk m) ∧
    Within v 0 size s (putRoot v o len size bVol szVol c s).1 ∧ Ends v o len (putRoot v o len size bVol szVol c s).2 ∧
    ((putRoot v o len size bVol szVol c s).2 = FR_OK → (∀ m, m < rootSect c → (putRoot v o len size bVol szVol c s).1.disk (bVol + c.szRsv + c.szFat + m) = List.replicate v.ss 0) ∧
      (o.sfd = false → Single ((putRoot v o len size bVol szVol c s).1.disk 0) bVol size)) := by
  have hr := h.root_in
  have hsum := h.sum
  have hl : (List.replicate (len / v.ss * v.ss) 0).length = len / v.ss * v.ss := List.length_replicate
  have hpos := h.good.pos
  have hlen := h.len
  have hmin := h.min
  unfold putRoot
  obtain ⟨n, hn⟩ : ∃ n, n = rootSect c := ⟨_, rfl⟩
  have hn' : (if c.fsty = 3 then c.pau else c.szDir) = n := hn.symm
  rw [hn', ← hn] 
  rw [← hn] at hr
  have f1 := fill_in v hlen (n + 1) s (bVol + c.szRsv + c.szFat) _ _ n (by omega) hl (zero_byte _) hl (zero_byte _)
  have f2 := fill_ends (v := v) hlen (k := n + 1) (s := s) (n := bVol + c.szRsv + c.szFat) (c := n) (by omega) hl (zero_byte _) hl (zero_byte _)
  have f3 := fill_at v hlen (n + 1) s (bVol + c.szRsv + c.szFat) _ n (by omega) hl (zero_byte _)
  have f4 := table_in h (fill v (len / v.ss) (n + 1) s (bVol + c.szRsv + c.szFat) (List.replicate (len / v.ss * v.ss) 0) (List.replicate (len / v.ss * v.ss) 0) n).1
  generalize fill v (len / v.ss) (n + 1) s (bVol + c.szRsv + c.szFat) (List.replicate (len / v.ss * v.ss) 0) (List.replicate (len / v.ss * v.ss) 0) n = r at *
  by_cases hk : r.2 = FR_OK
  · rw [if_pos hk]
    refine ⟨fun m h0 hm => ?_, ?_, ?_, fun he => ⟨fun m hm => ?_, fun ho => ?_⟩⟩
    · rw [f4.1.out m (table_off h0), f1.1.out m (by omega)]
    · exact f1.1.trans f4.1 (by omega) (by omega) (by omega) (by left; split <;> omega)
    · rcases f4.2 with e | e | e
      · exact .inl e.1
      · exact .inr (.inl e)
      · exact .inr (.inr e)
    · rw [f4.1.out _ (by right; split <;> omega)]
      rw [f3 hk (by rw [List.drop_replicate, Nat.sub_mul, Nat.one_mul]) m hm]
      split
      · have := take_zero (n := len / v.ss * v.ss) (k := 0) (ss := v.ss) (Nat.mul_le_mul_right _ (by omega))
        rw [Nat.zero_mul, List.drop_zero] at this
        exact this
      · rfl
    · rcases f4.2 with e | e | e
      · exact e.2 ho
      · rw [e.1] at he
        cases he
      · rw [e.1] at he
        cases he
  · rw [if_neg hk]
    refine ⟨fun m h0 hm => f1.1.out m (by omega), ?_, ?_, fun he => absurd he hk⟩
    · exact f1.1.trans (.refl _) (a' := 0) (b' := 0) (by omega) (by omega) (by omega) (by omega)
    · rcases f2 with e | e
      · exact absurd e hk
      · exact .inr (.inl e)

/-- From the FAT on. -/
theorem fat_in {v : Vol} {o : Opt} {len size bVol szVol : Nat} {c : Cfg} {blk : Nat} (h : Args v o len size bVol szVol c blk) (s : St) :
    (∀ m, (m = 0 → o.sfd = true) → m < bVol + c.szRsv → (putFat v o len size bVol szVol c s).1.disk m = s.disk m) ∧
    Within v 0 size s (putFat v o len size bVol szVol c s).1 ∧ Ends v o len (putFat v o len size bVol szVol c s).2 ∧
    ((putFat v o len size bVol szVol c s).2 = FR_OK →
      (∀ k, headEnd c.fsty ≤ k → k < c.szFat * v.ss → ((putFat v o len size bVol szVol c s).1.disk (bVol + c.szRsv + k / v.ss)).getD (k % v.ss) 0 = 0) ∧
      Headed c.fsty ((putFat v o len size bVol szVol c s).1.disk (bVol + c.szRsv)) ∧
      (∀ m, m < rootSect c → (putFat v o len size bVol szVol c s).1.disk (bVol + c.szRsv + c.szFat + m) = List.replicate v.ss 0) ∧
      (o.sfd = false → Single ((putFat v o len size bVol szVol c s).1.disk 0) bVol size)) := by
  have hr := h.root_in
  have hsum := h.sum
  have hss := h.ss_pos
  have hpos := h.good.pos
  have hlen := h.len
  have hrsv : 0 < c.szRsv := by
    have := h.good.rsv
    omega
  have hbuf : v.ss ≤ len / v.ss * v.ss := Nat.le_mul_of_pos_left _ hlen
  obtain ⟨z, e, hz⟩ := head_ok (n := len / v.ss * v.ss) (by omega) c.fsty
  have hzero : z.drop v.ss = List.replicate ((len / v.ss - 1) * v.ss) 0 := by
    rw [drop_zeros (n := v.ss) (fun i hi => hz.zero i (Nat.le_trans (headEnd_le c.fsty) (by omega))), hz.len, Nat.sub_mul, Nat.one_mul]
  have hrest : List.replicate v.ss 0 ++ z.drop v.ss = List.replicate (len / v.ss * v.ss) 0 := by
    rw [hzero, List.replicate_append_replicate, Nat.sub_mul, Nat.one_mul, Nat.add_sub_cancel' hbuf]
  unfold putFat
  rw [e]
  simp only
  rw [hrest]
  have hl : (List.replicate (len / v.ss * v.ss) 0).length = len / v.ss * v.ss := List.length_replicate
  have f1 := fill_in v hlen (c.szFat + 1) s (bVol + c.szRsv) z (List.replicate (len / v.ss * v.ss) 0) c.szFat (by omega) hz.len hz.byte hl (zero_byte _)
  have f2 := fill_ends (v := v) hlen (k := c.szFat + 1) (s := s) (n := bVol + c.szRsv) (b := z) (r := List.replicate (len / v.ss * v.ss) 0) (c := c.szFat) (by omega) hz.len hz.byte hl (zero_byte _)
  have f3 := fill_at v hlen (c.szFat + 1) s (bVol + c.szRsv) z c.szFat (by omega) hz.len hz.byte
  have f4 := root_in h (fill v (len / v.ss) (c.szFat + 1) s (bVol + c.szRsv) z (List.replicate (len / v.ss * v.ss) 0) c.szFat).1
  generalize fill v (len / v.ss) (c.szFat + 1) s (bVol + c.szRsv) z (List.replicate (len / v.ss * v.ss) 0) c.szFat = r at *
  by_cases hk : r.2 = FR_OK
  · rw [if_pos hk]
    obtain ⟨g1, g2, g3, g4⟩ := f4
    have hsec (m : Nat) (hm : m < c.szFat) : (putRoot v o len size bVol szVol c r.1).1.disk (bVol + c.szRsv + m) = if m = 0 then z.take v.ss else List.replicate v.ss 0 := by
      rw [g1 _ (by omega) (by omega), f3 hk hzero m hm]
    refine ⟨fun m h0 hm => ?_, f1.1.trans g2 (by omega) (by omega) (by omega) (by omega), g3, fun he => ⟨fun k h1 h2 => ?_, ?_, g4 he⟩⟩
    · rw [g1 m h0 (by omega), f1.1.out m (by omega)]
    · rw [hsec _ ((Nat.div_lt_iff_lt_mul (by omega)).mpr h2)]
      split
      · rename_i h0
        have hk' := Nat.div_add_mod k v.ss
        have hm := Nat.mod_lt k (show v.ss > 0 by omega)
        rw [h0, Nat.mul_zero, Nat.zero_add] at hk'
        rw [List.getD_eq_getElem?_getD, List.getElem?_take_of_lt hm, ← List.getD_eq_getElem?_getD, hk']
        exact hz.zero k h1
      · exact getD_zero _ _
    · have := hsec 0 hpos
      rw [Nat.add_zero, if_pos rfl] at this
      rw [this]
      have cut : ∀ p, p + 4 ≤ v.ss → sl (z.take v.ss) p 4 = sl z p 4 := by
        intro p hp
        unfold sl
        rw [List.drop_take, List.take_take, Nat.min_eq_left (by omega)]
      unfold Headed
      rw [cut 0 (by omega), cut 4 (by omega), cut 8 (by omega)]
      exact hz.last
  · rw [if_neg hk]
    refine ⟨fun m h0 hm => f1.1.out m (by omega), f1.1.trans (.refl _) (a' := 0) (b' := 0) (by omega) (by omega) (by omega) (by omega), ?_, fun he => absurd he hk⟩
    rcases f2 with e | e
    · exact absurd e hk
    · exact .inr (.inl e)

/-- Three more sectors. -/
theorem infos_in {v : Vol} {o : Opt} {len size bVol szVol : Nat} {c : Cfg} {blk : Nat} (h : Args v o len size bVol szVol c blk) (s : St) {w : List Nat} (hw : SecOk v.ss w) :
    ∃ t, putInfos v s bVol w c = some t ∧ Within v (bVol + 1) (bVol + c.szRsv) s t ∧ (Sound v → c.fsty = 3 → Infos v.ss (c.nClst - 1) (t.disk (bVol + 1))) := by
  unfold putInfos
  by_cases h3 : c.fsty = 3
  · rw [if_pos h3]
    have hk := h.good.kind
    have hr := h.good.rsv
    obtain ⟨f, e, hf⟩ := infos_ok h.ss_pos (c := c) (by omega) (by omega)
    rw [e]
    have hf' : SecOk v.ss f := ⟨hf.len, hf.byte⟩
    have w1 := write_in v s (bVol + 6) hw
    have w2 := write_in v (diskWrite v s (bVol + 6) w).1 (bVol + 7) hf'
    have w3 := write_in v (diskWrite v (diskWrite v s (bVol + 6) w).1 (bVol + 7) f).1 (bVol + 1) hf'
    refine ⟨_, rfl, (w1.trans w2 (c := bVol + 1) (d := bVol + c.szRsv) (by omega) (by omega) (by omega) (by omega)).trans w3 (by omega) (by omega) (by omega) (by omega), fun hs _ => ?_⟩
    rw [write_at (write_sound hs _ _ _)]
    exact hf
  · rw [if_neg h3]
    exact ⟨s, rfl, .refl s, fun _ z => absurd z h3⟩

/-- All of it. -/
theorem create_in {v : Vol} {o : Opt} {len size bVol szVol : Nat} {c : Cfg} {blk : Nat} (h : Args v o len size bVol szVol c blk) (vsn : Nat) (s : St) :
    Within v 0 size s (create v o len size bVol szVol vsn c s).1 ∧ Ends v o len (create v o len size bVol szVol vsn c s).2 ∧
    ((create v o len size bVol szVol vsn c s).2 = FR_OK → Written v o bVol szVol size c (create v o len size bVol szVol vsn c s).1.disk) := by
  have hr := h.root_in
  have hsum := h.sum
  have hpos := h.good.pos
  have hbase := h.base
  have hrsv : 0 < c.szRsv := by
    have := h.good.rsv
    omega
  obtain ⟨w, e, hw⟩ := boot_ok h.ss_pos bVol szVol vsn c
  have hw' : SecOk v.ss w := ⟨hw.len, hw.byte⟩
  unfold create
  rw [e]
  simp only
  have w1 := write_in v s bVol hw'
  by_cases hk : (diskWrite v s bVol w).2 = true
  · rw [if_pos hk]
    have w2 := write_at hk
    obtain ⟨t, e2, w3, w4⟩ := infos_in h (diskWrite v s bVol w).1 hw'
    generalize diskWrite v s bVol w = r at *
    rw [e2]
    simp only
    obtain ⟨g1, g2, g3, g4⟩ := fat_in h t
    have hb0 : bVol = 0 → o.sfd = true := by
      intro z
      split at hbase
      · assumption
      · omega
    refine ⟨(w1.trans w3 (c := 0) (d := size) (by omega) (by omega) (by omega) (by omega)).trans g2 (by omega) (by omega) (by omega) (by omega), g3, fun he => ?_⟩
    obtain ⟨q1, q2, q3, q4⟩ := g4 he
    refine ⟨?_, q1, q2, q3, q4, fun hs h3 => ?_⟩
    · rw [g1 _ hb0 (by omega), w3.out _ (by omega), w2]
      exact hw
    · have := h.good.rsv
      rw [g1 _ (by omega) (by omega)]
      exact w4 hs h3
  · rw [if_neg hk]
    exact ⟨w1.trans (.refl _) (a' := 0) (b' := 0) (by omega) (by omega) (by omega) (by omega), .inr (.inl ⟨rfl, fun z => hk (write_sound z _ _ _)⟩), fun he => by cases he⟩

end Fpm.Mkfs
