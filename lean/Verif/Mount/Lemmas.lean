import Verif.Mount.Spec
import Verif.FatSync.EntryLemmas
/-!
# Lemmas about mounting
-/
namespace Fpm.Mount
open Fpm.FatSync.Spec Fpm.Fat Fpm.Fat.Spec Fpm.FatBytes Fpm.FatFile.Spec Fpm.Mount.Spec

theorem ldWord_lt {w : List Nat} {p x : Nat} (h : ldWord w p = some x) : x < 2 ^ 16 := by
  unfold ldWord at h
  obtain ⟨b1, -, h⟩ := Option.bind_eq_some_iff.mp h
  obtain ⟨b0, -, h⟩ := Option.bind_eq_some_iff.mp h
  cases h
  exact Nat.mod_lt _ (by decide)

theorem ldDword_lt {w : List Nat} {p x : Nat} (h : ldDword w p = some x) : x < 2 ^ 32 := by
  unfold ldDword at h
  obtain ⟨b3, -, h⟩ := Option.bind_eq_some_iff.mp h
  obtain ⟨b2, -, h⟩ := Option.bind_eq_some_iff.mp h
  obtain ⟨b1, -, h⟩ := Option.bind_eq_some_iff.mp h
  obtain ⟨b0, -, h⟩ := Option.bind_eq_some_iff.mp h
  cases h
  exact Nat.mod_lt _ (by decide)

theorem ldWord_some {w : List Nat} {p : Nat} (h : p + 2 ≤ w.length) : ∃ x, ldWord w p = some x := by
  unfold ldWord
  rw [List.getElem?_eq_getElem (by omega), List.getElem?_eq_getElem (by omega)]
  exact ⟨_, rfl⟩

theorem ldDword_some {w : List Nat} {p : Nat} (h : p + 4 ≤ w.length) : ∃ x, ldDword w p = some x := by
  unfold ldDword
  rw [List.getElem?_eq_getElem (by omega), List.getElem?_eq_getElem (by omega), List.getElem?_eq_getElem (by omega), List.getElem?_eq_getElem (by omega)]
  exact ⟨_, rfl⟩

/-- Ranges of the fields. -/
structure Ranges (p : Bpb) : Prop where
  spc : p.secPerClus < 256
  rsvd : p.rsvd < 2 ^ 16
  nf : p.numFats < 256
  root : p.rootEnt < 2 ^ 16
  t16 : p.totSec16 < 2 ^ 16
  f16 : p.fatSz16 < 2 ^ 16
  t32 : p.totSec32 < 2 ^ 32
  f32 : p.fatSz32 < 2 ^ 32

theorem bpb_some {w : List Nat} (h : 512 ≤ w.length) (hb : ∀ x ∈ w, x < 256) : ∃ p, readBpb w = some p ∧ Ranges p := by
  have hx (i : Nat) (hi : i < 512) : ∃ x, w[i]? = some x ∧ x < 256 := ⟨w[i], List.getElem?_eq_getElem _, hb _ (List.getElem_mem _)⟩
  obtain ⟨a0, h0, -⟩ := hx 0 (by omega)
  obtain ⟨a1, h1⟩ := ldWord_some (w := w) (p := 11) (by omega)
  obtain ⟨a2, h2, b2⟩ := hx 13 (by omega)
  obtain ⟨a3, h3⟩ := ldWord_some (w := w) (p := 14) (by omega)
  obtain ⟨a4, h4, b4⟩ := hx 16 (by omega)
  obtain ⟨a5, h5⟩ := ldWord_some (w := w) (p := 17) (by omega)
  obtain ⟨a6, h6⟩ := ldWord_some (w := w) (p := 19) (by omega)
  obtain ⟨a7, h7⟩ := ldWord_some (w := w) (p := 22) (by omega)
  obtain ⟨a8, h8⟩ := ldDword_some (w := w) (p := 32) (by omega)
  obtain ⟨a9, h9⟩ := ldDword_some (w := w) (p := 36) (by omega)
  obtain ⟨c1, i1⟩ := ldWord_some (w := w) (p := 42) (by omega)
  obtain ⟨c2, i2⟩ := ldDword_some (w := w) (p := 44) (by omega)
  obtain ⟨c3, i3⟩ := ldWord_some (w := w) (p := 48) (by omega)
  obtain ⟨c4, i4⟩ := ldWord_some (w := w) (p := 510) (by omega)
  refine ⟨⟨a0, a1, a2, a3, a4, a5, a6, a7, a8, a9, c1, c2, c3, c4⟩, ?_, b2, ldWord_lt h3, b4, ldWord_lt h5, ldWord_lt h6, ldWord_lt h7, ldDword_lt h8, ldDword_lt h9⟩
  unfold readBpb
  rw [h0, h1, h2, h3, h4, h5, h6, h7, h8, h9, i1, i2, i3, i4]
  rfl

theorem fsi_some {s : St} (h : 512 ≤ s.win.length) : ∃ t, readFsi s = some t ∧ t.disk = s.disk ∧ t.win = s.win ∧ t.winsect = s.winsect ∧ t.wflag = s.wflag ∧ t.fsiFlag = s.fsiFlag := by
  obtain ⟨a, h1⟩ := ldWord_some (w := s.win) (p := 510) (by omega)
  obtain ⟨b, h2⟩ := ldDword_some (w := s.win) (p := 0) (by omega)
  obtain ⟨c, h3⟩ := ldDword_some (w := s.win) (p := 484) (by omega)
  obtain ⟨d, h4⟩ := ldDword_some (w := s.win) (p := 488) (by omega)
  obtain ⟨e, h5⟩ := ldDword_some (w := s.win) (p := 492) (by omega)
  unfold readFsi
  rw [h1, h2, h3, h4, h5]
  refine ⟨_, rfl, ?_⟩
  split <;> exact ⟨rfl, rfl, rfl, rfl, rfl⟩

theorem fsi_free {s t : St} (hw : ∀ x ∈ s.win, x < 256) (h : 512 ≤ s.win.length) (e : readFsi s = some t) :
    t.freeClst = if field s.win 0 4 = 0x41615252 ∧ field s.win 484 4 = 0x61417272 ∧ field s.win 510 2 = 0xAA55 then field s.win 488 4 else s.freeClst := by
  unfold readFsi at e
  rw [(FatSync.ld_word hw (p := 510) (by omega)).1, (FatSync.ld_dword hw (p := 0) (by omega)).1, (FatSync.ld_dword hw (p := 484) (by omega)).1, (FatSync.ld_dword hw (p := 488) (by omega)).1,
    (FatSync.ld_dword hw (p := 492) (by omega)).1] at e
  simp only [Option.bind_some] at e
  have e' := Option.some.inj e
  by_cases hc : field s.win 510 2 = 0xAA55 ∧ field s.win 0 4 = 0x41615252 ∧ field s.win 484 4 = 0x61417272
  · rw [if_pos hc] at e'
    rw [if_pos ⟨hc.2.1, hc.2.2, hc.1⟩, ← e']
  · rw [if_neg hc] at e'
    rw [if_neg (fun z => hc ⟨z.2.2, z.1, z.2.1⟩), ← e']

/-- A clean window over a device. -/
structure Clear (ss : Nat) (d : Disk) (s : St) : Prop where
  disk : s.disk = d
  wflag : s.wflag = false
  win : s.win.length = ss ∧ ∀ x ∈ s.win, x < 256
  same : ∀ n, s.winsect = some n → s.win = d n

variable {ss : Nat} {io : Nat → Io}

theorem fill_clear {s s0 : St} (hd : Dev ss io s0) (h : Clear ss s0.disk s) (n : Nat) : Clear ss s0.disk (fillWindow (raw ss io) s n).1 ∧
    ((fillWindow (raw ss io) s n).2 = FR_OK → (fillWindow (raw ss io) s n).1.winsect = some n) := by
  unfold fillWindow diskReadWin
  have hio : (raw ss io).io s.cnt = io s.cnt := rfl
  rw [hio]
  cases e : io s.cnt with
  | ok =>
    refine ⟨⟨h.disk, h.wflag, ?_, ?_⟩, fun _ => rfl⟩
    · show (s.disk n).length = ss ∧ ∀ x ∈ s.disk n, x < 256
      rw [h.disk]
      exact hd.disk n
    · intro m hm
      have : n = m := by simpa using hm
      show s.disk n = s0.disk m
      rw [this, h.disk]
  | fail j => exact ⟨⟨h.disk, h.wflag, hd.junk _ _ e, fun m hm => by cases hm⟩, fun z => by cases z⟩

theorem move_clear {s s0 : St} (hd : Dev ss io s0) (h : Clear ss s0.disk s) (n : Nat) : Clear ss s0.disk (moveWindow (raw ss io) s n).1 ∧
    ((moveWindow (raw ss io) s n).2 = FR_OK → (moveWindow (raw ss io) s n).1.winsect = some n) := by
  have e : syncWindow (raw ss io) s = (s, FR_OK) := by
    unfold syncWindow
    rw [h.wflag]
    rfl
  unfold moveWindow
  split
  · rename_i hw
    exact ⟨h, fun _ => hw⟩
  · rw [e]
    exact fill_clear hd h n

theorem load_clear {s s0 : St} (hd : Dev ss io s0) (hs : s.disk = s0.disk) (hw : s.win.length = ss ∧ ∀ x ∈ s.win, x < 256) (n : Nat) : Clear ss s0.disk (load ss io s n).1 := by
  have h : Clear ss s0.disk { s with wflag := false, winsect := none } := ⟨hs, rfl, hw, fun m hm => by cases hm⟩
  unfold load
  split
  · exact h
  · exact (move_clear hd h n).1

theorem check_clear {s s0 : St} (hd : Dev ss io s0) (hs : s.disk = s0.disk) (hw : s.win.length = ss ∧ ∀ x ∈ s.win, x < 256) (n : Nat) : Clear ss s0.disk (checkFs ss io s n).1 ∧
    (checkFs ss io s n).2 ≠ .ub := by
  have h := load_clear hd hs hw n
  have h512 : 512 ≤ (load ss io s n).1.win.length := by
    rw [h.win.1]
    rcases hd.kind with rfl | rfl | rfl | rfl <;> decide
  obtain ⟨p, hp, -⟩ := bpb_some h512 h.win.2
  unfold checkFs
  split
  · rw [hp]
    refine ⟨h, ?_⟩
    show classify _ p ≠ .ub
    unfold classify
    split
    · exact fun z => by cases z
    · split
      · exact fun z => by cases z
      · split <;> exact fun z => by cases z
  · exact ⟨h, fun z => by cases z⟩

theorem parts_clear {s0 : St} (hd : Dev ss io s0) : ∀ (l : List Nat) (s : St) (k : Kind), Clear ss s0.disk s → k ≠ .ub → Clear ss s0.disk (tryParts ss io l s k).1 ∧ (tryParts ss io l s k).2 ≠ .ub
  | [], _, _, h, hk => ⟨h, hk⟩
  | 0 :: l, s, k, h, _ => parts_clear hd l s .other h fun z => by cases z
  | (n + 1) :: l, s, k, h, _ => by
    have h1 := check_clear hd h.disk h.win (n + 1)
    unfold tryParts
    split
    · exact h1
    · exact parts_clear hd l _ _ h1.1 h1.2

theorem find_clear {s : St} (hd : Dev ss io s) : Clear ss s.disk (findVolume ss io s).1 ∧ (findVolume ss io s).2 ≠ .ub := by
  have h1 := check_clear hd rfl hd.win 0
  unfold findVolume
  split
  · have h512 : 512 ≤ (checkFs ss io s 0).1.win.length := by
      rw [h1.1.win.1]
      rcases hd.kind with rfl | rfl | rfl | rfl <;> decide
    have h2 (i : Nat) (hi : i < 4) : ∃ x, partStart (checkFs ss io s 0).1.win i = some x := ldDword_some (by omega)
    obtain ⟨a, ha⟩ := h2 0 (by decide)
    obtain ⟨b, hb⟩ := h2 1 (by decide)
    obtain ⟨c, hc⟩ := h2 2 (by decide)
    obtain ⟨d, hd'⟩ := h2 3 (by decide)
    unfold scanParts
    rw [ha, hb, hc, hd']
    exact parts_clear hd _ _ _ h1.1 fun z => by cases z
  · exact h1

theorem oneBit_pow : ∀ x, x < 256 → x ≠ 0 → oneBit x = true → ∃ k, k < 8 ∧ x = 2 ^ k := by decide +kernel

/-- What the checks say. -/
structure Checked (ss : Nat) (p : Bpb) : Prop where
  bps : p.bytsPerSec = ss
  nf : p.numFats = 1 ∨ p.numFats = 2
  spc : ∃ k, k < 8 ∧ p.secPerClus = 2 ^ k
  align : p.rootEnt % (ss / 32) = 0
  rsvd : p.rsvd ≠ 0
  fits : sysect ss p ≤ total p
  some : nclst ss p ≠ 0
  fmt : fmtOf (nclst ss p) ≠ 0
  root32 : fmtOf (nclst ss p) = 3 → p.fsVer = 0 ∧ p.rootEnt = 0
  root : fmtOf (nclst ss p) ≠ 3 → p.rootEnt ≠ 0
  size : u32 (szbfat (fmtOf (nclst ss p)) (nclst ss p + 2) + (ss - 1)) / ss ≤ fatSize p

theorem checked_of {p : Bpb} (hr : Ranges p) (h : early ss p = true) (h' : late ss p (fmtOf (nclst ss p)) = true) : Checked ss p := by
  simp only [early, Bool.and_eq_true, decide_eq_true_eq, Bool.or_eq_true] at h
  obtain ⟨⟨⟨⟨⟨⟨⟨h1, h2⟩, h3⟩, h4⟩, h5⟩, h6⟩, h7⟩, h8⟩ := h
  simp only [late, Bool.and_eq_true, decide_eq_true_eq] at h'
  obtain ⟨⟨h9, h10⟩, h11⟩ := h'
  refine ⟨h1, h2, oneBit_pow _ hr.spc h3 h4, h5, h6, h7, h8, h9, fun z => ?_, fun z => ?_, h11⟩
  · rw [if_pos z] at h10
    simpa using h10
  · rw [if_neg z] at h10
    simpa using h10

theorem checked_iff {p : Bpb} (h : Checked ss p) : early ss p = true ∧ late ss p (fmtOf (nclst ss p)) = true := by
  obtain ⟨k, hk, e⟩ := h.spc
  have h1 : p.secPerClus ≠ 0 ∧ oneBit p.secPerClus = true := by
    rw [e]
    have : ∀ k, k < 8 → 2 ^ k ≠ 0 ∧ oneBit (2 ^ k) = true := by decide +kernel
    exact this k hk
  simp only [early, late, Bool.and_eq_true, decide_eq_true_eq, Bool.or_eq_true]
  refine ⟨⟨⟨⟨⟨⟨⟨⟨h.bps, h.nf⟩, h1.1⟩, h1.2⟩, h.align⟩, h.rsvd⟩, h.fits⟩, h.some⟩, ⟨h.fmt, ?_⟩, h.size⟩
  split
  · rename_i z
    have := h.root32 z
    simp [this.1, this.2]
  · rename_i z
    simpa using h.root z

theorem fmt_cases (n : Nat) (h : fmtOf n ≠ 0) : fmtOf n = 1 ∧ n ≤ 0xFF5 ∨ fmtOf n = 2 ∧ 0xFF5 < n ∧ n ≤ 0xFFF5 ∨ fmtOf n = 3 ∧ 0xFFF5 < n ∧ n ≤ 0x0FFFFFF5 := by
  unfold fmtOf at *
  split
  · exact .inl ⟨rfl, by omega⟩
  · split
    · exact .inr (.inl ⟨rfl, by omega, by omega⟩)
    · split
      · exact .inr (.inr ⟨rfl, by omega, by omega⟩)
      · rename_i h1 h2 h3
        rw [if_neg h1, if_neg h2, if_neg h3] at h
        exact absurd rfl h

end Fpm.Mount
