import Verif.Speed.Spec
/-!
# C132: the command vol
-/
namespace Fpm.Speed
open Fpm.Speed.Spec

/-- The size of a disk of less than a thousand terabytes is shown rounded down to a tenth of a megabyte. -/
theorem C132_size (bytes : Nat) (h : bytes < 10 ^ 15) : Tenths bytes (sizeShown bytes).1 (sizeShown bytes).2 := by
  unfold Tenths sizeShown
  simp only
  rw [Nat.mod_eq_of_lt (show bytes * 10 < 2 ^ 64 by omega), Nat.div_div_eq_div_mul, Nat.div_div_eq_div_mul, Nat.mod_eq_of_lt (show bytes / (1024 * 1024) < 2 ^ 32 by omega)]
  have h1 : bytes * 10 / (1024 * 1024) / 10 = bytes / (1024 * 1024) := by rw [Nat.div_div_eq_div_mul, Nat.mul_div_mul_right _ _ (by decide)]
  omega

example : sizeShown (40 * 1024 * 1024 + 943719) = (40, 9) := by decide

/-- Time and speed are shown rounded down, for at most 8 megabytes in at least two microseconds, and less than thirty years or so (10^15 microseconds). -/
theorem C132_rate (mbytes usec : Nat) (hm : mbytes ≤ 8) (h2 : 2 ≤ usec) (hu : usec < 10 ^ 15) : Millis usec (speedShown mbytes usec).1 (speedShown mbytes usec).2.1 ∧ Rate mbytes usec (speedShown mbytes usec).2.2 := by
  unfold Millis Rate speedShown
  simp only
  have h1 : mbytes * 1024000000 / usec < 2 ^ 32 := by
    apply Nat.div_lt_of_lt_mul
    have : 2 * 2 ^ 32 ≤ usec * 2 ^ 32 := Nat.mul_le_mul_right _ h2
    omega
  have h3 : mbytes * 1024000000 % 2 ^ 64 = mbytes * 1024000000 := Nat.mod_eq_of_lt (by omega)
  rw [h3, Nat.mod_eq_of_lt h1]
  have h4 : mbytes * 1024 * 1000000 = mbytes * 1024000000 := by rw [Nat.mul_assoc]
  rw [h4]
  refine ⟨by omega, Nat.div_mul_le_self _ _, ?_⟩
  rw [Nat.add_mul, Nat.one_mul]
  exact Nat.lt_div_mul_add (by omega)

example : speedShown 8 1234567 = (1, 234, 6635) := by decide

/-- The clock may wrap: the time that has passed is right, but for nothing, which counts as one microsecond. -/
theorem C132_clock (t0 d : Nat) (h0 : t0 < 2 ^ 64) (h1 : 1 ≤ d) (h : d < 2 ^ 64) : elapsed t0 ((t0 + d) % 2 ^ 64) = d ∧ elapsed t0 t0 = 1 := by
  unfold elapsed
  have e : ((t0 + d) % 2 ^ 64 + 2 ^ 64 - t0) % 2 ^ 64 = d := by omega
  have e0 : (t0 + 2 ^ 64 - t0) % 2 ^ 64 = 0 := by omega
  rw [e, e0, if_neg (by omega)]
  exact ⟨rfl, rfl⟩

example : elapsed (2 ^ 64 - 3) 4 = 7 := by decide

theorem write_spec (reply : Nat → Reply) : ∀ (m n : Nat) (s : Run), (writeAll reply m n s).1.wrote ≤ s.wrote + 4096 * m ∧ s.wrote ≤ (writeAll reply m n s).1.wrote ∧ (writeAll reply m n s).1.got = s.got ∧ (writeAll reply m n s).1.isOpen = s.isOpen ∧
    (writeAll reply m n s).1.file = s.file.map (· + ((writeAll reply m n s).1.wrote - s.wrote)) ∧ ((writeAll reply m n s).2 = none → (writeAll reply m n s).1.wrote = s.wrote + 4096 * m) ∧ (∀ e, (writeAll reply m n s).2 = some e → ∃ j, e = .writeError j)
  | 0, n, s => by simp [writeAll]
  | m + 1, n, s => by
    rw [writeAll]
    split
    · refine ⟨?_, ?_, rfl, rfl, ?_, fun h => by simp at h, fun e h => ⟨n, by simpa using h.symm⟩⟩
      · simp only [doWrite]; omega
      · simp only [doWrite]; omega
      · simp only [doWrite]
        rw [Nat.add_sub_cancel_left]
    · rename_i hx
      obtain ⟨a1, a0, a2, a3, a4, a5, a6⟩ := write_spec reply m (n + 1) (doWrite (reply s.k) s)
      have hm : min (reply s.k).n 4096 = 4096 := Decidable.byContradiction fun h => hx (.inr h)
      have hw : (doWrite (reply s.k) s).wrote = s.wrote + 4096 := by unfold doWrite; rw [hm]
      have hf : (doWrite (reply s.k) s).file = s.file.map (· + 4096) := by unfold doWrite; rw [hm]
      have hg : (doWrite (reply s.k) s).got = s.got := rfl
      have ho : (doWrite (reply s.k) s).isOpen = s.isOpen := rfl
      rw [hg] at a2
      rw [ho] at a3
      generalize doWrite (reply s.k) s = s1 at *
      generalize writeAll reply m (n + 1) s1 = w at *
      rw [hw] at a0 a1 a4 a5
      refine ⟨by omega, by omega, a2, a3, ?_, fun h => by have := a5 h; omega, a6⟩
      have key : ∀ y, y + 4096 + (w.1.wrote - (s.wrote + 4096)) = y + (w.1.wrote - s.wrote) := fun y => by omega
      rw [a4, hf]
      cases s.file with
      | none => simp only [Option.map_none]
      | some y => simp only [Option.map_some, key]

theorem read_spec (reply : Nat → Reply) : ∀ (m n : Nat) (s : Run), (readAll reply m n s).1.wrote = s.wrote ∧ (readAll reply m n s).1.isOpen = s.isOpen ∧ (readAll reply m n s).1.file = s.file ∧
    ((readAll reply m n s).2 = none → (readAll reply m n s).1.got = s.got + 4096 * m) ∧ (∀ e, (readAll reply m n s).2 = some e → ∃ j, e = .readError j)
  | 0, n, s => by simp [readAll]
  | m + 1, n, s => by
    rw [readAll]
    split
    · exact ⟨rfl, rfl, rfl, fun h => by simp at h, fun e h => ⟨n, by simpa using h.symm⟩⟩
    · rename_i hx
      obtain ⟨a1, a2, a3, a4, a5⟩ := read_spec reply m (n + 1) (doRead (reply s.k) s)
      have hm : min (reply s.k).n 4096 = 4096 := Decidable.byContradiction fun h => hx (.inr h)
      refine ⟨a1, a2, a3, fun h => ?_, a5⟩
      rw [a4 h]
      simp only [doRead, hm]
      omega

theorem space {bavail bsize : Nat} (h : ¬ freeMbytes bavail bsize < 1) :
    1048576 ≤ 4096 * blocks (dataMbytes (freeMbytes bavail bsize)) ∧ 4096 * blocks (dataMbytes (freeMbytes bavail bsize)) ≤ bavail * bsize ∧ 4096 * blocks (dataMbytes (freeMbytes bavail bsize)) ≤ 8 * 1048576 := by
  unfold blocks dataMbytes
  unfold freeMbytes at *
  generalize bavail * bsize = b at *
  split <;> omega

/-- The test never writes more than is free, and at most 8 megabytes.  It is not made if less than a megabyte is free, of at most 2^52 bytes.  If it comes to its end, it has written and read the same number of bytes, one megabyte at least; with
success the file has been closed and removed. -/
theorem C132_space (bavail bsize : Nat) (reply : Nat → Reply) (file : Option Nat) (x : Run) (e : End) (h : testSpeed bavail bsize reply file = (x, e)) :
    x.wrote ≤ bavail * bsize ∧ x.wrote ≤ 8 * 1048576 ∧ (bavail * bsize < 2 ^ 52 → (e = .noSpace ↔ bavail * bsize < 1048576)) ∧ (Completed e → x.got = x.wrote ∧ 1048576 ≤ x.wrote) ∧ (e = .done → x.file = none ∧ x.isOpen = false) ∧
      (e = .removeError → x.file = some x.wrote) := by
  unfold testSpeed at h
  split at h
  · rename_i hf
    cases h
    refine ⟨by simp, by simp, fun hb => ⟨fun _ => ?_, fun _ => rfl⟩, fun h => (by rcases h with h | h <;> cases h), fun h => (by cases h), fun h => (by cases h)⟩
    unfold freeMbytes at hf
    omega
  · rename_i hf
    obtain ⟨s1, s2, s3⟩ := space hf
    have hfree : ¬ bavail * bsize < 1048576 := by omega
    generalize blocks (dataMbytes (freeMbytes bavail bsize)) = nb at *
    split at h
    · rename_i hok
      unfold fillUp at h
      simp only [doOpen, if_pos hok] at h
      have hw := write_spec reply nb 0 ⟨some 0, true, 0 + 1, 0, 0⟩
      generalize writeAll reply nb 0 ⟨some 0, true, 0 + 1, 0, 0⟩ = w at *
      obtain ⟨w1, w2⟩ := w
      obtain ⟨a1, -, a2, a3, a4, a5, a6⟩ := hw
      simp only at a1 a2 a3 a4 a5 a6
      cases w2 with
      | some e' =>
        cases h
        obtain ⟨j, rfl⟩ := a6 _ rfl
        exact ⟨by omega, by omega, fun _ => ⟨fun h => (by cases h), fun h => absurd h hfree⟩, fun h => (by rcases h with h | h <;> cases h), fun h => (by cases h), fun h => (by cases h)⟩
      | none =>
        have a5 := a5 rfl
        simp only at h
        split at h
        · unfold readBack at h
          have hr := read_spec reply nb 0 { w1 with k := w1.k + 1 }
          generalize readAll reply nb 0 { w1 with k := w1.k + 1 } = q at *
          obtain ⟨q1, q2⟩ := q
          obtain ⟨b1, b2, b3, b4, b5⟩ := hr
          simp only at b1 b2 b3 b4 b5
          cases q2 with
          | some e' =>
            cases h
            obtain ⟨j, rfl⟩ := b5 _ rfl
            exact ⟨by omega, by omega, fun _ => ⟨fun h => (by cases h), fun h => absurd h hfree⟩, fun h => (by rcases h with h | h <;> cases h), fun h => (by cases h), fun h => (by cases h)⟩
          | none =>
            have b4 := b4 rfl
            simp only [finish] at h
            split at h
            · cases h
              exact ⟨by simp only; omega, by simp only; omega, fun _ => ⟨fun h => (by cases h), fun h => absurd h hfree⟩, fun _ => ⟨by simp only; omega, by simp only; omega⟩, fun _ => ⟨rfl, rfl⟩, fun h => (by cases h)⟩
            · cases h
              refine ⟨by simp only; omega, by simp only; omega, fun _ => ⟨fun h => (by cases h), fun h => absurd h hfree⟩, fun _ => ⟨by simp only; omega, by simp only; omega⟩, fun h => (by cases h), fun _ => ?_⟩
              simp only
              rw [b3, a4, b1]
              simp
        · cases h
          exact ⟨by simp only; omega, by simp only; omega, fun _ => ⟨fun h => (by cases h), fun h => absurd h hfree⟩, fun h => (by rcases h with h | h <;> cases h), fun h => (by cases h), fun h => (by cases h)⟩
    · cases h
      rename_i hok
      refine ⟨by simp [doOpen, hok], by simp [doOpen, hok], fun _ => ⟨fun h => (by cases h), fun h => absurd h hfree⟩, fun h => (by rcases h with h | h <;> cases h), fun h => (by cases h), fun h => (by cases h)⟩

/-- The test leaves the disk as it was: the file that it uses is there just if it was before, with the same length, and it is not left open. -/
def C132_full : Prop := ∀ (bavail bsize : Nat) (reply : Nat → Reply) (file : Option Nat), (testSpeed bavail bsize reply file).1.file = file ∧ (testSpeed bavail bsize reply file).1.isOpen = false

/-- A file `diskspeed.data` of the user is overwritten and removed; and when writing fails, the file stays, and stays open. -/
theorem C132_violated : ¬ C132_full := by
  intro h
  have h1 := (h 2048 512 (fun k => ⟨k = 0, 0⟩) none).2
  revert h1
  decide +kernel

theorem C132_overwritten : (testSpeed 2048 512 (fun _ => ⟨true, 4096⟩) (some 5)).1.file = none ∧ (testSpeed 2048 512 (fun _ => ⟨true, 4096⟩) (some 5)).2 = .done := by decide +kernel

/-- It does so if there was no such file, and if it ends well, or does not begin. -/
theorem C132_leaves_partial (bavail bsize : Nat) (reply : Nat → Reply) (file : Option Nat) (x : Run) (e : End) (h : testSpeed bavail bsize reply file = (x, e)) (he : e = .done ∧ file = none ∨ e = .noSpace ∨ e = .cannotCreate) : x.file = file ∧ x.isOpen = false := by
  obtain ⟨-, -, -, -, h2, -⟩ := C132_space bavail bsize reply file x e h
  rcases he with ⟨rfl, rfl⟩ | he
  · exact h2 rfl
  · unfold testSpeed at h
    split at h
    · cases h
      exact ⟨rfl, rfl⟩
    · split at h
      · exfalso
        unfold fillUp at h
        have hw := (write_spec reply (blocks (dataMbytes (freeMbytes bavail bsize))) 0 (doOpen (reply 0) ⟨file, false, 0, 0, 0⟩)).2.2.2.2.2.2
        generalize writeAll reply (blocks (dataMbytes (freeMbytes bavail bsize))) 0 (doOpen (reply 0) ⟨file, false, 0, 0, 0⟩) = w at *
        obtain ⟨w1, w2⟩ := w
        cases w2 with
        | some e' =>
          cases h
          obtain ⟨j, rfl⟩ := hw _ rfl
          rcases he with he | he <;> cases he
        | none =>
          simp only at h
          split at h
          · unfold readBack at h
            have hr := (read_spec reply (blocks (dataMbytes (freeMbytes bavail bsize))) 0 { w1 with k := w1.k + 1 }).2.2.2.2
            generalize readAll reply (blocks (dataMbytes (freeMbytes bavail bsize))) 0 { w1 with k := w1.k + 1 } = q at *
            obtain ⟨q1, q2⟩ := q
            cases q2 with
            | some e' =>
              cases h
              obtain ⟨j, rfl⟩ := hr _ rfl
              rcases he with he | he <;> cases he
            | none =>
              simp only [finish] at h
              split at h <;> cases h <;> rcases he with he | he <;> cases he
          · cases h
            rcases he with he | he <;> cases he
      · rename_i hok
        cases h
        simp [doOpen, hok]

/-- One megabyte in clusters of 512 bytes, and a device without faults. -/
example : testSpeed 2048 512 (fun _ => ⟨true, 4096⟩) none = (⟨none, false, 516, 1048576, 1048576⟩, .done) ∧ (testSpeed 2047 512 (fun _ => ⟨true, 4096⟩) none).2 = .noSpace := by decide +kernel

end Fpm.Speed
