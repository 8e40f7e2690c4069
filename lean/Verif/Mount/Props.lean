import Verif.Mount.AcceptLemmas
/-!
# C78: what `mount_volume` accepts
-/
namespace Fpm.Mount
open Fpm.Fat Fpm.Fat.Spec Fpm.FatBytes Fpm.FatFile.Spec Fpm.FatSync.Spec Fpm.Mount.Spec

variable {ss : Nat} {io : Nat → Io}

/-- What is known after a volume has been accepted. -/
structure Accepted (ss : Nat) (io : Nat → Io) (d : Disk) (o : Out) (v : Vol) (i : Info) : Prop where
  vol : o.vol = some (v, i)
  clear : Clear ss d o.st
  fields : ∃ b p fsi, v = volOf ss io b p ∧ i = infoOf ss b p fsi ∧ Ranges p ∧ Checked ss p ∧ (∀ n, fsi = some n → fmtOf (nclst ss p) = 3 ∧ n = u32 (b + 1)) ∧
    ∀ n, o.st.winsect = some n → n = b ∨ n = u32 (b + 1)
  fresh : o.st.fsiFlag = false

theorem fsi_accepted {s s0 : St} {b : Nat} {p : Bpb} (hd : Dev ss io s0) (h : Clear ss s0.disk s) (hw : ∀ n, s.winsect = some n → n = b) (hr : Ranges p) (hc : Checked ss p)
    (hf : fmtOf (nclst ss p) = 3) (hfl : s.fsiFlag = false) : (withFsi ss io b p s).res = 0 ∧ ∃ v i, Accepted ss io s0.disk (withFsi ss io b p s) v i := by
  have hm := move_clear hd h (u32 (b + 1))
  have hfl' : (moveWindow (raw ss io) s (u32 (b + 1))).1.fsiFlag = false := by
    have e : syncWindow (raw ss io) s = (s, FR_OK) := by
      unfold syncWindow
      rw [h.wflag]
      rfl
    unfold moveWindow
    split
    · exact hfl
    · rw [e]
      show (fillWindow (raw ss io) s (u32 (b + 1))).1.fsiFlag = false
      unfold fillWindow diskReadWin
      split <;> split <;> exact hfl
  unfold withFsi
  split
  · rename_i hok
    have h512 : 512 ≤ (moveWindow (raw ss io) s (u32 (b + 1))).1.win.length := by
      rw [hm.1.win.1]
      rcases hd.kind with rfl | rfl | rfl | rfl <;> decide
    obtain ⟨t, ht, e1, e2, e3, e4, e5⟩ := fsi_some h512
    rw [ht]
    refine ⟨rfl, _, _, rfl, ⟨e1.trans hm.1.disk, e4.trans hm.1.wflag, e2 ▸ hm.1.win, fun n hn => ?_⟩, ⟨b, p, _, rfl, rfl, hr, hc, fun n hn => ⟨hf, by cases hn; rfl⟩, fun n hn => ?_⟩, e5.trans hfl'⟩
    · have hn' : t.winsect = some n := hn
      rw [e3] at hn'
      show t.win = _
      rw [e2]
      exact hm.1.same n hn'
    · have hn' : t.winsect = some n := hn
      rw [e3, hm.2 hok] at hn'
      cases hn'
      exact .inr rfl
  · rename_i hok
    refine ⟨rfl, _, _, rfl, hm.1, ⟨b, p, none, rfl, rfl, hr, hc, (fun n hn => by cases hn), fun n hn => ?_⟩, hfl'⟩
    have hn' : (moveWindow (raw ss io) s (u32 (b + 1))).1.winsect = some n := hn
    have e : syncWindow (raw ss io) s = (s, FR_OK) := by
      unfold syncWindow
      rw [h.wflag]
      rfl
    unfold moveWindow at hn' hok
    split at hn'
    · exact .inl (hw n hn')
    · rename_i hne
      rw [if_neg hne, e] at hok
      rw [e] at hn'
      have hok' : (fillWindow (raw ss io) s (u32 (b + 1))).2 ≠ FR_OK := hok
      have hn2 : (fillWindow (raw ss io) s (u32 (b + 1))).1.winsect = some n := hn'
      unfold fillWindow at hok' hn2
      split at hn2
      · rename_i hx
        rw [if_pos hx] at hok'
        exact absurd rfl hok'
      · cases hn2

theorem at_accepted {s s0 : St} {b : Nat} {p : Bpb} (hd : Dev ss io s0) (h : Clear ss s0.disk s) (hw : ∀ n, s.winsect = some n → n = b) (hr : Ranges p) :
    (mountAt ss io b p s).res = 13 ∧ (mountAt ss io b p s).vol = none ∧ Clear ss s0.disk (mountAt ss io b p s).st ∨
    (mountAt ss io b p s).res = 0 ∧ ∃ v i, Accepted ss io s0.disk (mountAt ss io b p s) v i := by
  unfold mountAt
  split
  · rename_i hok
    have hc := checked_of hr hok.1 hok.2
    have hfr : Clear ss s0.disk (fresh s) := ⟨h.disk, h.wflag, h.win, h.same⟩
    right
    split
    · rename_i hf
      exact fsi_accepted hd hfr hw hr hc hf.1 rfl
    · exact ⟨rfl, _, _, rfl, hfr, ⟨b, p, none, rfl, rfl, hr, hc, (fun n hn => by cases hn), fun n hn => .inl (hw n hn)⟩, rfl⟩
  · exact .inl ⟨rfl, rfl, h⟩

/-- All outcomes: a volume, or one of three codes; nothing is written. -/
theorem mount_cases {s : St} (hd : Dev ss io s) :
    ((mount ss io s).res = FR_DISK_ERR ∨ (mount ss io s).res = FR_NO_FILESYSTEM ∨ (mount ss io s).res = EXFAT) ∧ (mount ss io s).vol = none ∧ Clear ss s.disk (mount ss io s).st ∨
    (mount ss io s).res = FR_OK ∧ ∃ v i, Accepted ss io s.disk (mount ss io s) v i := by
  obtain ⟨h1, h2⟩ := find_clear hd
  unfold mount
  split
  · have h512 : 512 ≤ (findVolume ss io s).1.win.length := by
      rw [h1.win.1]
      rcases hd.kind with rfl | rfl | rfl | rfl <;> decide
    obtain ⟨p, hp, hr⟩ := bpb_some h512 h1.win.2
    unfold mountFound
    rw [hp]
    rcases at_accepted (b := (findVolume ss io s).1.winsect.getD 0xFFFFFFFF) hd h1 (fun n hn => by rw [hn]; rfl) hr with ⟨h3, h4, h5⟩ | h3
    · exact .inl ⟨.inr (.inl h3), h4, h5⟩
    · exact .inr h3
  · exact .inl ⟨.inr (.inr rfl), rfl, h1⟩
  · exact .inl ⟨.inr (.inl rfl), rfl, h1⟩
  · exact .inl ⟨.inr (.inl rfl), rfl, h1⟩
  · exact .inl ⟨.inl rfl, rfl, h1⟩
  · rename_i hk
    exact absurd hk h2

theorem inv_of {s : St} {o : Out} {v : Vol} {i : Info} (hd : Dev ss io s) (h : Accepted ss io s.disk o v i) (hl : Layout v i) : Inv v o.st := by
  obtain ⟨b, p, fsi, rfl, rfl, -, -, -, h6⟩ := h.fields
  refine ⟨fun n => ?_, h.clear.win, fun _ n hn => ?_, fun z => ?_, fun n hn hf2 => ?_⟩
  · rw [h.clear.disk]
    exact hd.disk n
  · rw [h.clear.disk]
    exact h.clear.same n hn
  · rw [h.clear.wflag] at z
    cases z
  · have h7 := hf2.2.1
    have h8 := hl.geo.size
    have h9 := hl.geo.pos
    have hrs : b < (volOf ss io b p).fatbase := hl.reserved
    have hlim : b + total p ≤ 2 ^ 32 := hl.limit
    have hfp : 0 < (volOf ss io b p).fsize := by
      apply Nat.pos_of_ne_zero
      intro z
      rw [z, Nat.zero_mul, Nat.mul_zero] at h8
      have hwd : 0 < width (volOf ss io b p) := by
        unfold width
        repeat' split
        all_goals decide
      have := Nat.mul_pos hwd (show 0 < (volOf ss io b p).nFatent by omega)
      omega
    have hu : u32 (b + 1) ≤ b + 1 := Nat.mod_le _ _
    rcases h6 n hn with rfl | rfl <;> omega

/-- C78 in full: a volume that has been mounted is well formed. -/
def C78_full : Prop :=
  ∀ (ss : Nat) (io : Nat → Io) (s : St) (v : Vol) (i : Info), Dev ss io s → (mount ss io s).res = 0 → (mount ss io s).vol = some (v, i) → Layout v i

/-- C78: mounting, whatever the device contains and however it fails, looks at bytes inside of sectors only, changes nothing, and returns a code of the interface; with code 0
there is a volume, with the sector size of the device. -/
theorem C78_safe (ss : Nat) (io : Nat → Io) (s : St) (hd : Dev ss io s) :
    (mount ss io s).st.disk = s.disk ∧ (mount ss io s).st.wflag = false ∧ (mount ss io s).res ≠ UB ∧
    ((mount ss io s).res = 0 ↔ ∃ v i, (mount ss io s).vol = some (v, i)) ∧ ∀ v i, (mount ss io s).vol = some (v, i) → v.ss = ss ∧ v.io = io := by
  rcases mount_cases hd with ⟨h1, h2, h3⟩ | ⟨h1, v, i, h2⟩
  · refine ⟨h3.disk, h3.wflag, ?_, ⟨fun z => ?_, fun ⟨v, i, z⟩ => by rw [h2] at z; cases z⟩, fun v i z => by rw [h2] at z; cases z⟩
    · rcases h1 with h1 | h1 | h1 <;> rw [h1] <;> decide
    · rcases h1 with h1 | h1 | h1 <;> rw [h1] at z <;> cases z
  · refine ⟨h2.clear.disk, h2.clear.wflag, by rw [h1]; decide, ⟨fun _ => ⟨v, i, h2.vol⟩, fun _ => h1⟩, fun v' i' z => ?_⟩
    rw [h2.vol] at z
    cases z
    obtain ⟨b, p, fsi, rfl, -⟩ := h2.fields
    exact ⟨rfl, rfl⟩

/-- C78: if mounting succeeds, the volume is well formed and the window consistent: all that the properties of files and chains assume about a volume.  Missing
from `C78_full`: sizes of a FAT for which 32 bits are not enough, a volume beyond sector 2^32, and a sector for free counts that is not a reserved one. -/
theorem C78_mount_partial (ss : Nat) (io : Nat → Io) (s : St) (v : Vol) (i : Info) (hd : Dev ss io s) (hv : (mount ss io s).vol = some (v, i))
    (hf : v.fsize < 2 ^ 30) (hb : i.volbase + i.totsec ≤ 2 ^ 32) (hr : i.fsi ≠ none → i.volbase + 1 < v.fatbase) :
    Layout v i ∧ Inv v (mount ss io s).st ∧ (mount ss io s).st.wflag = false ∧ (mount ss io s).st.fsiFlag = false := by
  rcases mount_cases hd with ⟨h1, h2, h3⟩ | ⟨h1, v', i', h2⟩
  · rw [hv] at h2
    cases h2
  · rw [h2.vol] at hv
    cases hv
    obtain ⟨b, p, fsi, rfl, rfl, h3, h4, h5, h6⟩ := h2.fields
    have hb' : b + total p ≤ 2 ^ 32 := hb
    have hfits := h4.fits
    have hrv := h4.rsvd
    have hsome : 1 ≤ total p - sysect ss p := by
      have := h4.some
      unfold nclst at this
      rcases Nat.eq_zero_or_pos (total p - sysect ss p) with z | z
      · rw [z, Nat.zero_div] at this
        exact absurd rfl this
      · exact z
    have hfs : fatSize p < 2 ^ 30 := hf
    have hfa : fatSize p * p.numFats < 2 ^ 31 := by
      rcases h4.nf with e | e <;> rw [e] <;> omega
    have hrt := h3.root
    have hrs := h3.rsvd
    have hrd : p.rootEnt / (ss / 32) ≤ p.rootEnt := Nat.div_le_self _ _
    have hnn := Nat.zero_le (p.rootEnt / (ss / 32))
    have hsys : p.rsvd + fatSize p * p.numFats + p.rootEnt / (ss / 32) = sysect ss p := by
      unfold sysect
      rw [u32_of (n := fatSize p * p.numFats) (by omega), u32_of (n := p.rsvd + _) (by omega), u32_of (by omega)]
    have hb1 : u32 (b + 1) = b + 1 := u32_of (by omega)
    have hl : Layout (volOf ss io b p) (infoOf ss b p fsi) := by
      refine layout_of hd.kind hd.junk h3 h4 hf hb' fsi fun n hn => ?_
      obtain ⟨h7, h8⟩ := h5 n hn
      have h9 : b + 1 < u32 (b + p.rsvd) := hr (by show fsi ≠ none; rw [hn]; exact fun z => by cases z)
      rw [u32_of (by omega)] at h9
      exact ⟨h7, by omega, by omega⟩
    exact ⟨hl, inv_of hd h2 hl, h2.clear.wflag, h2.fresh⟩

/-! ## Volumes that are accepted -/

theorem load_sound (hs : ∀ n, io n = .ok) (s : St) {n : Nat} (hn : n < 2 ^ 32 - 1) :
    ∃ t, load ss io s n = (t, FR_OK) ∧ t.disk = s.disk ∧ t.win = s.disk n ∧ t.winsect = some n ∧ t.wflag = false := by
  unfold load
  rw [if_neg (by omega)]
  unfold moveWindow
  rw [if_neg (fun z => by cases z)]
  unfold syncWindow fillWindow diskReadWin
  have : ∀ n, (raw ss io).io n = .ok := hs
  simp only [this]
  exact ⟨_, rfl, rfl, rfl, rfl, rfl⟩

theorem check_sound (hs : ∀ n, io n = .ok) {s s0 : St} (hd : Dev ss io s0) (he : s.disk = s0.disk) {n : Nat} (hn : n < 2 ^ 32 - 1) :
    ∃ t, checkFs ss io s n = (t, classify (s0.disk n) (fields (s0.disk n))) ∧ t.disk = s0.disk ∧ t.win = s0.disk n ∧ t.winsect = some n ∧ t.wflag = false := by
  obtain ⟨t, h1, h2, h3, h4, h5⟩ := load_sound (ss := ss) hs s hn
  have h512 : 512 ≤ (s0.disk n).length := by
    rw [(hd.disk n).1]
    rcases hd.kind with rfl | rfl | rfl | rfl <;> decide
  unfold checkFs
  rw [h1, he] at *
  simp only
  rw [h3, (bpb_fields h512 (hd.disk n).2).1]
  exact ⟨t, rfl, h2, h3, h4, h5⟩

theorem classify_fat {w : List Nat} {v : Vol} {i : Info} (hs : v.ss = 512 ∨ v.ss = 1024 ∨ v.ss = 2048 ∨ v.ss = 4096) (hr : Ranges (fields w)) (he : Encodes w v i) (hl : Layout v i) :
    classify w (fields w) = .fat := by
  unfold classify
  rw [if_neg fun z => he.notEx z.2, if_pos]
  refine ⟨he.jump, ?_⟩
  by_cases h3 : v.fsType = 3
  · exact .inl ⟨he.sign, (he.large h3).2.2.2.2⟩
  · right
    obtain ⟨hc, h1, h2, hrv⟩ := encodes_ok hs hr he hl
    have hbit : oneBit v.ss = true := by
      rcases hs with e | e | e | e <;> rw [e] <;> decide +kernel
    have hb : (fields w).bytsPerSec = v.ss := he.bps
    have hfz : fatSize (fields w) = v.fsize := congrArg Vol.fsize h1
    have hc2 := checked_iff hc
    have hnf := hc.nf
    simp only [early, Bool.and_eq_true, decide_eq_true_eq, Bool.or_eq_true] at hc2
    have hspc := hc2.1.1.1.1.1.2
    have hspc0 := hc2.1.1.1.1.1.1.2
    have hre : (fields w).rootEnt ≠ 0 := by
      have h4 := (hl.root h3).2.1
      have h5 : (fields w).rootEnt = i.nRoot := he.root
      omega
    have hsm : (fields w).fatSz16 = v.fsize := he.small h3
    have hf0 : (fields w).fatSz16 ≠ 0 := by
      rw [hsm]
      intro z
      have hsz := hl.geo.size
      rw [z, Nat.zero_mul, Nat.mul_zero] at hsz
      have hwd : 0 < width v := by
        unfold width
        repeat' split
        all_goals decide
      have hpos := hl.geo.pos
      have := Nat.mul_pos hwd (show 0 < v.nFatent by omega)
      omega
    have htot : (fields w).totSec16 ≥ 128 ∨ (fields w).totSec32 ≥ 0x10000 := by
      rcases he.total with ⟨h4, h5⟩ | ⟨-, h4, h5⟩
      · left
        show field w 19 2 ≥ 128
        omega
      · right
        show field w 32 4 ≥ 0x10000
        omega
    simp only [looksFat, Bool.and_eq_true, decide_eq_true_eq, Bool.or_eq_true]
    refine ⟨⟨⟨⟨⟨⟨⟨⟨⟨?_, by omega⟩, by omega⟩, hspc0⟩, hspc⟩, hrv⟩, ?_⟩, hre⟩, htot⟩, hf0⟩
    · rw [hb]
      exact hbit
    · unfold u32
      omega

theorem classify_plain {w : List Nat} (hw : 512 ≤ w.length) (hb : ∀ x ∈ w, x < 256) (h : ¬ Jump w) : classify w (fields w) = if (fields w).sign = 0xAA55 then .boot else .other := by
  unfold classify
  rw [if_neg, if_neg fun z => h z.1]
  intro z
  apply h
  left
  have h1 := z.2
  have h2 : w[0]? = some 0xEB := by
    have := congrArg (·[0]?) h1
    simpa [exfatSign] using this
  have h3 := (ld_byte (p := 0) hb (by omega)).1
  rw [h2] at h3
  exact (Option.some.inj h3).symm

theorem classify_table {w : List Nat} {k b : Nat} (hw : 512 ≤ w.length) (hb : ∀ x ∈ w, x < 256) (h : Table w k b) : classify w (fields w) = .boot := by
  rw [classify_plain hw hb h.notBoot, if_pos (show (fields w).sign = 0xAA55 from h.sign)]

/-- Partitions without a volume are passed. -/
theorem try_sound (hs : ∀ n, io n = .ok) {s0 : St} (hd : Dev ss io s0) {b : Nat} (h0 : 0 < b) (hb : b < 2 ^ 32 - 1) (hc : classify (s0.disk b) (fields (s0.disk b)) = .fat) (post : List Nat) :
    ∀ (pre : List Nat) (s : St) (k : Kind), s.disk = s0.disk → (∀ n ∈ pre, Skipped s0.disk n) →
    ∃ t, tryParts ss io (pre ++ b :: post) s k = (t, .fat) ∧ t.disk = s0.disk ∧ t.win = s0.disk b ∧ t.winsect = some b ∧ t.wflag = false
  | [], s, k, he, _ => by
    obtain ⟨t, k1, k2⟩ := check_sound hs hd he hb
    rw [hc] at k1
    refine ⟨t, ?_, k2⟩
    obtain ⟨m, hm⟩ : ∃ m, b = m + 1 := ⟨b - 1, by omega⟩
    rw [hm] at k1 ⊢
    rw [List.nil_append]
    unfold tryParts
    rw [k1]
    rfl
  | 0 :: pre, s, k, he, hp => by
    rw [List.cons_append]
    unfold tryParts
    exact try_sound hs hd h0 hb hc post pre s .other he fun n hn => hp n (List.mem_cons_of_mem _ hn)
  | (m + 1) :: pre, s, k, he, hp => by
    rcases hp (m + 1) List.mem_cons_self with h | ⟨h1, h2⟩
    · omega
    obtain ⟨t, k1, k2, -⟩ := check_sound hs hd he h1
    rw [classify_plain (by rw [(hd.disk _).1]; rcases hd.kind with rfl | rfl | rfl | rfl <;> decide) (hd.disk _).2 h2] at k1
    have hstop : (if (fields (s0.disk (m + 1))).sign = 0xAA55 then Kind.boot else Kind.other).stop = false := by split <;> rfl
    rw [List.cons_append]
    unfold tryParts
    rw [k1]
    simp only
    rw [hstop, if_neg (by decide)]
    exact try_sound hs hd h0 hb hc post pre t _ k2 fun n hn => hp n (List.mem_cons_of_mem _ hn)

/-- C78: every well-formed volume, at the start of a working device or in one of its partitions (the first one with a volume), is mounted, with the numbers its boot sector gives, and with the
number of free clusters that is stored.  The device is not changed. -/
theorem C78_accepts (s : St) (v : Vol) (i : Info) (hd : Dev v.ss v.io s) (hs : Sound v) (hat : Located s.disk i.volbase) (he : Encodes (s.disk i.volbase) v i) (hl : Layout v i) :
    (mount v.ss v.io s).res = 0 ∧ (mount v.ss v.io s).vol = some (v, i) ∧ Inv v (mount v.ss v.io s).st ∧ (mount v.ss v.io s).st.disk = s.disk ∧ (mount v.ss v.io s).st.wflag = false ∧
      (mount v.ss v.io s).st.freeClst = storedFree s.disk i ∧ ((mount v.ss v.io s).st.winsect = some i.volbase ∨ (mount v.ss v.io s).st.winsect = i.fsi) := by
  have h512 (n : Nat) : 512 ≤ (s.disk n).length := by
    rw [(hd.disk n).1]
    rcases hd.kind with e | e | e | e <;> rw [e] <;> decide
  have hr := (bpb_fields (h512 i.volbase) (hd.disk _).2).2
  have hcl := classify_fat hd.kind hr he hl
  have hlt : i.volbase < 2 ^ 32 - 1 := by
    rcases hat with h | h
    · omega
    · obtain ⟨_, -, -, h, -⟩ := h
      exact h
  -- the volume is found
  have hfind : ∃ t, findVolume v.ss v.io s = (t, .fat) ∧ t.disk = s.disk ∧ t.win = s.disk i.volbase ∧ t.winsect = some i.volbase ∧ t.wflag = false := by
    obtain ⟨t, h1, h2, h3, h4, h5⟩ := check_sound hs hd rfl (n := 0) (by decide)
    unfold findVolume
    rcases hat with h0 | ⟨k, hk, h0, -, hskip⟩
    · rw [h0] at hcl ⊢
      rw [hcl] at h1
      rw [h1, if_neg (fun z => by cases z)]
      exact ⟨t, rfl, h2, h3, h4, h5⟩
    · rw [classify_table (h512 0) (hd.disk 0).2 h0] at h1
      rw [h1, if_pos rfl]
      have hp (j : Nat) (hj : j < 4) : partStart t.win j = some (field (s.disk 0) (454 + 16 * j) 4) := by
        rw [h3]
        unfold partStart
        rw [show 446 + j * 16 + 8 = 454 + 16 * j by omega]
        exact (FatSync.ld_dword (p := 454 + 16 * j) (hd.disk 0).2 (by have := h512 0; omega)).1
      unfold scanParts
      simp only [hp 0 (by decide), hp 1 (by decide), hp 2 (by decide), hp 3 (by decide)]
      have hst := h0.start
      rcases (by omega : k = 0 ∨ k = 1 ∨ k = 2 ∨ k = 3) with rfl | rfl | rfl | rfl
      · rw [hst]
        exact try_sound hs hd h0.pos hlt hcl _ [] t .other h2 fun n hn => absurd hn List.not_mem_nil
      · rw [hst]
        exact try_sound hs hd h0.pos hlt hcl _ [_] t .other h2 fun n hn => by
          cases List.mem_singleton.mp hn
          exact hskip 0 (by decide)
      · rw [hst]
        exact try_sound hs hd h0.pos hlt hcl _ [_, _] t .other h2 fun n hn => by
          simp only [List.mem_cons, List.not_mem_nil, or_false] at hn
          rcases hn with rfl | rfl
          · exact hskip 0 (by decide)
          · exact hskip 1 (by decide)
      · rw [hst]
        exact try_sound hs hd h0.pos hlt hcl _ [_, _, _] t .other h2 fun n hn => by
          simp only [List.mem_cons, List.not_mem_nil, or_false] at hn
          rcases hn with rfl | rfl | rfl
          · exact hskip 0 (by decide)
          · exact hskip 1 (by decide)
          · exact hskip 2 (by decide)
  obtain ⟨t, h1, h2, h3, h4, h5⟩ := hfind
  obtain ⟨hc, hv, hi, hrv⟩ := encodes_ok hd.kind hr he hl
  have hall : (mount v.ss v.io s).vol = some (v, i) ∧ (mount v.ss v.io s).st.freeClst = storedFree s.disk i ∧
      ((mount v.ss v.io s).st.winsect = some i.volbase ∨ (mount v.ss v.io s).st.winsect = i.fsi) := by
    unfold mount storedFree
    rw [h1]
    simp only
    unfold mountFound
    rw [h3, (bpb_fields (h512 _) (hd.disk _).2).1, h4]
    simp only [Option.getD_some]
    unfold mountAt
    rw [if_pos (checked_iff hc)]
    have hfm : fmtOf (nclst v.ss (fields (s.disk i.volbase))) = v.fsType := congrArg Vol.fsType hv
    have hfi := he.fsi
    split
    · rename_i hx
      rw [if_pos ⟨hfm ▸ hx.1, hx.2⟩] at hfi
      have hlim := hl.limit
      have hins := hl.inside
      have hres := hl.reserved
      have hbs := hl.data.base
      obtain ⟨-, h6, h7⟩ := hl.fsi _ hfi
      have hu : u32 (i.volbase + 1) = i.volbase + 1 := u32_of (by omega)
      unfold withFsi
      rw [hu]
      have hmv : ∃ u, moveWindow (raw v.ss v.io) (fresh t) (i.volbase + 1) = (u, FR_OK) ∧ u.win = s.disk (i.volbase + 1) ∧ u.winsect = some (i.volbase + 1) ∧ u.freeClst = 0xFFFFFFFF := by
        unfold moveWindow
        rw [if_neg]
        · unfold syncWindow fillWindow diskReadWin
          have hio : ∀ n, (raw v.ss v.io).io n = .ok := hs
          have hwf : (fresh t).wflag = false := h5
          rw [hwf]
          simp only [hio]
          refine ⟨_, rfl, ?_, rfl, rfl⟩
          show t.disk _ = _
          rw [h2]
        · intro z
          have z' : t.winsect = some (i.volbase + 1) := z
          rw [h4] at z'
          have := Option.some.inj z'
          omega
      obtain ⟨u, hu1, hu2, hu3, hu4⟩ := hmv
      rw [hu1]
      obtain ⟨x, hx1, -, -, hx2, -⟩ := fsi_some (s := u) (by rw [hu2]; exact h512 _)
      have hx3 := fsi_free (by rw [hu2]; exact (hd.disk _).2) (by rw [hu2]; exact h512 _) hx1
      rw [hu2, hu4] at hx3
      simp only [if_pos]
      rw [hx1, hv, ← hfi, hi, hfi]
      exact ⟨rfl, hx3, .inr (hx2.trans hu3)⟩
    · rename_i hx
      rw [if_neg (fun z => hx ⟨hfm.trans z.1, z.2⟩)] at hfi
      rw [hv, ← hfi, hi, hfi]
      exact ⟨rfl, rfl, .inl h4⟩
  obtain ⟨hvol, hfree, hwin⟩ := hall
  refine ⟨(C78_safe v.ss v.io s hd).2.2.2.1.mpr ⟨v, i, hvol⟩, hvol, ?_⟩
  rcases mount_cases hd with ⟨-, h6, -⟩ | ⟨-, v', i', h6⟩
  · rw [hvol] at h6
    cases h6
  · have h7 := h6.vol
    rw [hvol] at h7
    cases h7
    exact ⟨inv_of hd h6 hl, h6.clear.disk, h6.clear.wflag, hfree, hwin⟩

/-! ## Examples -/

/-- A sector from some of its bytes. -/
def sector (l : List (Nat × Nat)) : List Nat := (List.range 512).map fun k => ((l.find? fun x => x.1 = k).map (·.2)).getD 0 % 256

theorem sector_ok (l : List (Nat × Nat)) : (sector l).length = 512 ∧ ∀ x ∈ sector l, x < 256 := by
  refine ⟨by unfold sector; simp, fun x hx => ?_⟩
  obtain ⟨k, -, rfl⟩ := List.mem_map.mp hx
  exact Nat.mod_lt _ (by decide)

/-- A device with contents in two sectors. -/
def exDev (n : Nat) (a b : List (Nat × Nat)) : St :=
  { disk := fun k => if k = 0 then sector a else if k = n then sector b else sector [], past := [], cnt := 0, winsect := some 7, win := sector [], wflag := false, freeClst := 0, lastClst := 0, fsiFlag := false }

theorem exDev_ok (n : Nat) (a b : List (Nat × Nat)) : Dev 512 (fun _ => .ok) (exDev n a b) where
  kind := .inl rfl
  disk k := by
    unfold exDev
    show (if k = 0 then sector a else if k = n then sector b else sector []).length = 512 ∧ ∀ x ∈ if k = 0 then sector a else if k = n then sector b else sector [], x < 256
    split
    · exact sector_ok a
    · split
      · exact sector_ok b
      · exact sector_ok []
  win := by
    have := sector_ok []
    unfold exDev
    generalize sector [] = w at this ⊢
    exact this
  junk _ _ h := by cases h

/-- A boot sector of FAT12: one reserved sector, a FAT of two sectors, a root directory of 16 entries, 600 sectors. -/
def exBoot : List (Nat × Nat) :=
  [(0, 0xEB), (11, 0), (12, 2), (13, 1), (14, 1), (16, 1), (17, 16), (19, 600), (20, 600 / 256), (22, 2), (510, 0x55), (511, 0xAA)]

def exV : Vol := { ss := 512, csize := 1, fatbase := 41, fsize := 2, nFats := 1, nFatent := 598, fsType := 1, database := 44, io := fun _ => .ok }
def exI : Info := { volbase := 40, totsec := 600, nRoot := 16, dirbase := 43, fsi := none }

/-- A partition table: a partition at sector 40. -/
def exTable : List (Nat × Nat) := [(450, 1), (454, 30), (466, 1), (470, 40), (510, 0x55), (511, 0xAA)]

theorem exLayout : Layout exV exI where
  geo := by
    refine ⟨by decide, by decide, by decide, by decide, by decide, fun n j h => ?_⟩
    cases h
  data := by
    exact ⟨⟨0, rfl⟩, by decide, by decide⟩
  reserved := by decide
  root _ := by decide +kernel
  root32 h := by cases h
  inside := by decide
  rest := by decide
  limit := by decide
  kind := by decide
  fsi n h := by cases h

theorem exEncodes : Encodes (sector exBoot) exV exI where
  jump := by unfold Jump; decide +kernel
  notEx := by decide +kernel
  sign := by decide +kernel
  bps := by decide +kernel
  spc := by decide +kernel
  rsvd := by decide +kernel
  nf := by decide +kernel
  root := by decide +kernel
  total := by decide +kernel
  small _ := by decide +kernel
  large h := by cases h
  fsi := by decide +kernel

/-- A volume in the second partition of a device, the first one has no volume: the hypotheses of `C78_accepts`, and by it those of `C78_mount_partial`. -/
theorem exAccepts : Dev exV.ss exV.io (exDev 40 exTable exBoot) ∧ Sound exV ∧ Located (exDev 40 exTable exBoot).disk exI.volbase ∧
    Encodes ((exDev 40 exTable exBoot).disk exI.volbase) exV exI ∧ Layout exV exI := by
  refine ⟨exDev_ok _ _ _, fun _ => rfl, .inr ⟨1, by decide, ⟨?_, ?_, ?_, ?_⟩, by decide, fun j hj => ?_⟩, ?_, exLayout⟩
  · unfold Jump; decide +kernel
  · decide +kernel
  · decide +kernel
  · decide
  · cases Nat.lt_one_iff.mp hj
    exact .inr ⟨by decide +kernel, by unfold Jump; decide +kernel⟩
  · have e : (exDev 40 exTable exBoot).disk exI.volbase = sector exBoot := by decide +kernel
    rw [e]
    exact exEncodes

example : ∃ s v i, Dev 512 (fun _ => .ok) s ∧ (mount 512 (fun _ => .ok) s).vol = some (v, i) ∧ v.fsize < 2 ^ 30 ∧ i.volbase + i.totsec ≤ 2 ^ 32 ∧ (i.fsi ≠ none → i.volbase + 1 < v.fatbase) :=
  ⟨_, exV, exI, exAccepts.1, (C78_accepts _ exV exI exAccepts.1 exAccepts.2.1 exAccepts.2.2.1 exAccepts.2.2.2.1 exAccepts.2.2.2.2).2.1, by decide, by decide, fun h => absurd rfl h⟩

/-- A boot sector of FAT32 with a size of the FAT that leaves 0 when it is multiplied by 2. -/
def badBoot : List (Nat × Nat) :=
  [(0, 0xEB), (12, 2), (13, 1), (14, 1), (16, 2), (34, 2), (39, 0x80), (44, 2), (510, 0x55), (511, 0xAA),
   (82, 70), (83, 65), (84, 84), (85, 51), (86, 50), (87, 32), (88, 32), (89, 32)]

/-- A boot sector of FAT32 with a single reserved sector and the sector for free counts in use. -/
def badInfo : List (Nat × Nat) :=
  [(0, 0xEB), (12, 2), (13, 1), (14, 1), (16, 2), (34, 2), (37, 4), (44, 2), (48, 1), (510, 0x55), (511, 0xAA),
   (82, 70), (83, 65), (84, 84), (85, 51), (86, 50), (87, 32), (88, 32), (89, 32)]

/-- C78: a FAT of 2^31 sectors is accepted on a volume of 2^17 sectors; the data starts where the FAT starts. -/
theorem C78_overlap : ∃ s v i, Dev 512 (fun _ => .ok) s ∧ (mount 512 (fun _ => .ok) s).res = 0 ∧ (mount 512 (fun _ => .ok) s).vol = some (v, i) ∧
    v.fsize = 2 ^ 31 ∧ i.totsec = 2 ^ 17 ∧ v.database = v.fatbase := by
  have hk : (mount 512 (fun _ => .ok) (exDev 0 badBoot [])).vol.map (fun x => (x.1.fsize, x.2.totsec, x.1.database, x.1.fatbase)) = some (2 ^ 31, 2 ^ 17, 1, 1) := by decide +kernel
  have hr : (mount 512 (fun _ => .ok) (exDev 0 badBoot [])).res = 0 := by decide +kernel
  obtain ⟨⟨v, i⟩, h1, h2⟩ := Option.map_eq_some_iff.mp hk
  simp only [Prod.mk.injEq] at h2
  exact ⟨_, v, i, exDev_ok _ _ _, hr, h1, h2.1, h2.2.1, h2.2.2.1.trans h2.2.2.2.symm⟩

/-- C78: the sector for free counts may be the first sector of the FAT. -/
theorem C78_info_overlap : ∃ s v i, Dev 512 (fun _ => .ok) s ∧ (mount 512 (fun _ => .ok) s).res = 0 ∧ (mount 512 (fun _ => .ok) s).vol = some (v, i) ∧ i.fsi = some v.fatbase := by
  have hk : (mount 512 (fun _ => .ok) (exDev 0 badInfo [])).vol.map (fun x => (x.2.fsi, x.1.fatbase)) = some (some 1, 1) := by decide +kernel
  have hr : (mount 512 (fun _ => .ok) (exDev 0 badInfo [])).res = 0 := by decide +kernel
  obtain ⟨⟨v, i⟩, h1, h2⟩ := Option.map_eq_some_iff.mp hk
  simp only [Prod.mk.injEq] at h2
  exact ⟨_, v, i, exDev_ok _ _ _, hr, h1, by rw [h2.1, h2.2]⟩

theorem C78_violated : ¬ C78_full := by
  intro h
  obtain ⟨s, v, i, h1, h2, h3, h4⟩ := C78_info_overlap
  have := ((h 512 _ s v i h1 h2 h3).fsi _ h4).2.2
  omega

end Fpm.Mount
