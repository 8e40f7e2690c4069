import Verif.DiskIo.Spec

/-!
# Properties of block access (C41) and of the SD card transfer (C68)
-/
namespace Fpm.DiskIo
open Fpm.DiskIo.Spec

theorem u32_of_lt {n : Nat} (h : n < 2 ^ 32) : u32 n = n := Nat.mod_eq_of_lt h

theorem slice_reads (m : List Nat) (k n : Nat) (h : k + n ≤ m.length) :
    ReadsAt m (slice m k n) k n := by
  refine ⟨by simp [slice]; omega, ?_⟩
  intro j hj
  simp [slice, hj, List.getElem?_drop]

theorem splice_writes (m buf : List Nat) (k n : Nat) (h : k + n ≤ m.length) (hb : n ≤ buf.length) :
    WritesAt m (splice m k (buf.take n)) buf k n := by
  have hz : k - m.length = 0 := by omega
  have hl : (buf.take n).length = n := by simp; omega
  have hk : (m.take k).length = k := by simp; omega
  unfold splice WritesAt
  rw [hz, hl]
  simp only [List.replicate_zero, List.append_nil]
  refine ⟨by simp; omega, ?_, ?_⟩
  · intro j hj
    rw [List.append_assoc, List.getElem?_append_right (by omega), hk, Nat.add_sub_cancel_left,
      List.getElem?_append_left (by omega), List.getElem?_take, if_pos hj]
  · intro i hi
    rcases hi with hi | hi
    · rw [List.append_assoc, List.getElem?_append_left (by omega), List.getElem?_take, if_pos hi]
    · rw [List.getElem?_append_right (by simp; omega), List.getElem?_drop]
      apply congrArg (m[·]?)
      simp only [List.length_append, hk, hl]
      omega

/-! ## C41 Block device access never leaves the medium -/

/-- Full claim for the Unix port: refused unless on the medium. -/
def C41_full : Prop := ∀ (m : List Nat) (sector count : Nat), m.length = 2 * 1024 * 1024 →
  sector < 2 ^ 32 → count < 2 ^ 32 → ¬ OnMedium 4096 (2 * 1024 * 1024) sector count →
  ∀ d, unixRead 4096 (2 * 1024 * 1024) m sector count ≠ .ok d

theorem C41_read_wraps (m : List Nat) :
    unixRead 4096 (2 * 1024 * 1024) m 1048576 1 = .ok (slice m 0 4096) := by
  simp [unixRead, unixRange, u32]

/-- Sector 1048576 of the 512-sector flash is read as sector 0. -/
theorem C41_violated : ¬ C41_full := by
  intro h
  have := h (List.replicate (2 * 1024 * 1024) 0) 1048576 1 (List.length_replicate) (by decide)
    (by decide) (by unfold OnMedium; decide)
  exact this _ (C41_read_wraps _)

/-- The same for writes: a write far outside the medium overwrites the boot sector. -/
theorem C41_write_violated (m buf : List Nat) :
    unixWrite 4096 (2 * 1024 * 1024) m buf 1048576 1 = .ok (splice m 0 (buf.take 4096)) := by
  simp [unixWrite, unixRange, u32]

/-- The flash driver reads or writes unrelated memory: the last sector number before the wrap. -/
theorem C41_flash_violated (m : List Nat) : flashRead 4096 (2 * 1024 * 1024) m 1048575 1 = none := by
  simp [flashRead, u32]

theorem mul_split (a b c : Nat) : (a + b) * c = a * c + b * c := Nat.add_mul a b c

/-- Missing for the full claim: accesses whose byte range is beyond 4 GB.  Below, on every medium
smaller than 2 GB, a read is refused exactly if it is empty or leaves the medium, and delivers the
requested bytes otherwise. -/
theorem C41_unix_read_partial (ss size sector count : Nat) (m : List Nat) (hm : m.length = size)
    (hsize : size < 2 ^ 31) (h : (sector + count) * ss < 2 ^ 32) :
    (count = 0 ∨ ¬ OnMedium ss size sector count → unixRead ss size m sector count = .refused) ∧
    (count ≠ 0 → OnMedium ss size sector count →
      ∃ d, unixRead ss size m sector count = .ok d ∧ ReadsAt m d (sector * ss) (count * ss)) := by
  rw [mul_split] at h
  unfold unixRead unixRange OnMedium
  rw [mul_split, u32_of_lt (show sector * ss < 2 ^ 32 by omega),
    u32_of_lt (show count * ss < 2 ^ 32 by omega), u32_of_lt h]
  constructor
  · rintro (h0 | h0)
    · rw [if_pos h0]
    · by_cases hc : count = 0
      · rw [if_pos hc]
      · rw [if_neg hc, if_pos (by omega)]
  · intro hc ho
    rw [if_neg hc, if_neg (by omega), if_neg (by omega)]
    exact ⟨_, rfl, slice_reads m _ _ (by omega)⟩

theorem C41_unix_write_partial (ss size sector count : Nat) (m buf : List Nat)
    (hm : m.length = size) (hb : count * ss ≤ buf.length)
    (hsize : size < 2 ^ 31) (h : (sector + count) * ss < 2 ^ 32) :
    (count = 0 ∨ ¬ OnMedium ss size sector count → unixWrite ss size m buf sector count = .refused) ∧
    (count ≠ 0 → OnMedium ss size sector count →
      ∃ m', unixWrite ss size m buf sector count = .ok m' ∧
        WritesAt m m' buf (sector * ss) (count * ss)) := by
  rw [mul_split] at h
  unfold unixWrite unixRange OnMedium
  rw [mul_split, u32_of_lt (show sector * ss < 2 ^ 32 by omega),
    u32_of_lt (show count * ss < 2 ^ 32 by omega), u32_of_lt h]
  constructor
  · rintro (h0 | h0)
    · rw [if_pos h0]
    · by_cases hc : count = 0
      · rw [if_pos hc]
      · rw [if_neg hc, if_pos (by omega)]
  · intro hc ho
    rw [if_neg hc, if_neg (by omega), if_neg (by omega)]
    exact ⟨_, rfl, splice_writes m buf _ _ (by omega) hb⟩

/-- Flash disk behind `base` bytes of program: reads are as required, writes never touch the
program. -/
theorem C41_flash_partial (ss base size block count : Nat) (m flash buf : List Nat)
    (hm : m.length = size) (hf : flash.length = base + size) (hb : count * ss ≤ buf.length)
    (hs : 0 < ss) (hsize : base + size < 2 ^ 32) (h : (block + count) * ss < 2 ^ 32) :
    (count = 0 ∨ ¬ OnMedium ss size block count →
      flashRead ss size m block count = some .refused ∧
      flashWrite ss base size flash buf block count = some .refused) ∧
    (count ≠ 0 → OnMedium ss size block count →
      (∃ d, flashRead ss size m block count = some (.ok d) ∧
        ReadsAt m d (block * ss) (count * ss)) ∧
      ∃ f', flashWrite ss base size flash buf block count = some (.ok f') ∧
        WritesAt flash f' buf (base + block * ss) (count * ss)) := by
  rw [mul_split] at h
  unfold flashRead flashWrite OnMedium
  rw [mul_split, u32_of_lt (show block * ss < 2 ^ 32 by omega),
    u32_of_lt (show count * ss < 2 ^ 32 by omega), u32_of_lt h]
  have hz : count * ss = 0 ↔ count = 0 := by
    constructor
    · intro e; rcases Nat.mul_eq_zero.mp e with e | e <;> omega
    · intro e; simp [e]
  constructor
  · rintro (h0 | h0)
    · rw [if_pos h0, if_pos (hz.mpr h0)]; exact ⟨rfl, rfl⟩
    · by_cases hc : count = 0
      · rw [if_pos hc, if_pos (hz.mpr hc)]; exact ⟨rfl, rfl⟩
      · rw [if_neg hc, if_neg (fun e => hc (hz.mp e)), if_pos (by omega), if_pos (by omega)]
        exact ⟨rfl, rfl⟩
  · intro hc ho
    rw [if_neg hc, if_neg (fun e => hc (hz.mp e)), if_neg (by omega), if_pos (by omega),
      if_neg (by omega), if_pos (by omega), u32_of_lt (by omega)]
    exact ⟨⟨_, rfl, slice_reads m _ _ (by omega)⟩, _, rfl,
      splice_writes flash buf _ _ (by omega) hb⟩

example : ∃ ss base size block count : Nat, 0 < ss ∧ base + size < 2 ^ 32 ∧
    (block + count) * ss < 2 ^ 32 ∧ count ≠ 0 ∧ OnMedium ss size block count :=
  ⟨4096, 65536, 2097152, 511, 1, by decide, by decide, by decide, by decide, by
    unfold OnMedium; decide⟩

/-! ### Image tool -/

theorem imageReadLoop_eq (im : Image) (sector n : Nat) (h : sector + n < 2 ^ 32) :
    imageReadLoop im sector n = none ∧ (∃ j < n, im (sector + j) = none) ∨
    ∃ ds : List (List Nat), imageReadLoop im sector n = some ds.flatten ∧ ds.length = n ∧
      ∀ j < n, ds[j]? = im (sector + j) := by
  induction n generalizing sector with
  | zero => right; exact ⟨[], rfl, rfl, by intro j hj; omega⟩
  | succ n ih =>
    rw [imageReadLoop, u32_of_lt (by omega)]
    cases hd : im sector with
    | none => left; exact ⟨rfl, 0, by omega, by simpa using hd⟩
    | some d =>
      rcases ih (sector + 1) (by omega) with ⟨h1, j, h2, h3⟩ | ⟨ds, h1, h2, h3⟩
      · left; rw [h1]; exact ⟨rfl, j + 1, by omega, by rw [← h3]; congr 1; omega⟩
      · right
        rw [h1]
        refine ⟨d :: ds, by simp, by simp [h2], ?_⟩
        intro j hj
        cases j with
        | zero => simpa using hd.symm
        | succ j =>
          rw [List.getElem?_cons_succ, h3 j (by omega)]
          congr 1; omega

theorem imageWriteLoop_eq (ss : Nat) (im : Image) (buf : List Nat) (sector n : Nat)
    (h : sector + n < 2 ^ 32) :
    (∀ j < n, imageWriteLoop ss im buf sector n (sector + j) = some ((buf.drop (j * ss)).take ss)) ∧
    ∀ s, (s < sector ∨ sector + n ≤ s) → imageWriteLoop ss im buf sector n s = im s := by
  induction n generalizing im buf sector with
  | zero => exact ⟨by intro j hj; omega, fun _ _ => rfl⟩
  | succ n ih =>
    rw [imageWriteLoop, u32_of_lt (by omega)]
    obtain ⟨h1, h2⟩ := ih (fun s => if s = sector then some (buf.take ss) else im s)
      (buf.drop ss) (sector + 1) (by omega)
    constructor
    · intro j hj
      cases j with
      | zero =>
        rw [h2 (sector + 0) (by omega)]
        simp
      | succ j =>
        have := h1 j (by omega)
        rw [show sector + (j + 1) = sector + 1 + j by omega, this, List.drop_drop, Nat.succ_mul,
          Nat.add_comm ss]
    · intro s hs
      rw [h2 s (by omega), if_neg (by omega)]

/-- The image tool, for sector numbers that do not wrap around: reads and writes outside the image
are refused, a read delivers the requested sectors (if they exist), and a write replaces exactly
the requested sectors. -/
theorem C41_image_partial (ss size sector count : Nat) (im : Image) (buf : List Nat) (hs : 0 < ss)
    (h : sector + count < 2 ^ 32) :
    (count = 0 ∨ ¬ OnMedium ss size sector count →
      imageRead ss size im sector count = .refused ∧
      imageWrite ss size im buf sector count = .refused) ∧
    (count ≠ 0 → OnMedium ss size sector count →
      (∀ d, imageRead ss size im sector count = .ok d → ∃ ds : List (List Nat), d = ds.flatten ∧
        ds.length = count ∧ ∀ j < count, ds[j]? = im (sector + j)) ∧
      ((∀ j < count, im (sector + j) ≠ none) → ∃ d, imageRead ss size im sector count = .ok d) ∧
      ∃ im', imageWrite ss size im buf sector count = .ok im' ∧
        (∀ j < count, im' (sector + j) = some ((buf.drop (j * ss)).take ss)) ∧
        ∀ s, (s < sector ∨ sector + count ≤ s) → im' s = im s) := by
  have hon : OnMedium ss size sector count ↔ sector + count ≤ size / ss := by
    unfold OnMedium; exact (Nat.le_div_iff_mul_le hs).symm
  unfold imageRead imageWrite
  rw [u32_of_lt h]
  constructor
  · intro h0
    by_cases hc : count = 0
    · rw [if_pos hc, if_pos hc]; exact ⟨rfl, rfl⟩
    · rcases h0 with h0 | h0
      · exact absurd h0 hc
      · rw [hon] at h0
        rw [if_neg hc, if_neg hc, if_pos (by omega), if_pos (by omega)]; exact ⟨rfl, rfl⟩
  · intro hc ho
    rw [hon] at ho
    rw [if_neg hc, if_neg hc, if_neg (by omega), if_neg (by omega)]
    refine ⟨?_, ?_, _, rfl, imageWriteLoop_eq ss im buf sector count h⟩
    · intro d hd
      rcases imageReadLoop_eq im sector count h with ⟨h1, _⟩ | ⟨ds, h1, h2, h3⟩
      · rw [h1] at hd; cases hd
      · rw [h1] at hd
        simp only [Res.ok.injEq] at hd
        exact ⟨ds, hd.symm, h2, h3⟩
    · intro ha
      rcases imageReadLoop_eq im sector count h with ⟨_, j, h2, h3⟩ | ⟨ds, h1, h2, h3⟩
      · exact absurd h3 (ha j h2)
      · rw [h1]; exact ⟨_, rfl⟩

/-- A wrapped sector number is accepted by the image tool and creates a sector outside the image. -/
theorem C41_image_violated (im : Image) (buf : List Nat) :
    ∃ im', imageWrite 4096 (2 * 1024 * 1024) im buf (2 ^ 32 - 1) 1 = .ok im' ∧
      im' (2 ^ 32 - 1) = some (buf.take 4096) := by
  refine ⟨_, by simp [imageWrite, u32]; rfl, by simp [imageWriteLoop]⟩

/-! ## C68 A successful SD card transfer moved all blocks -/

/-- Full claim: a write reported as successful was accepted block by block. -/
def C68_full : Prop := ∀ sectors c sector count, sdWrite sectors c sector count = (.ok (), count) ∨
  ∃ r n, sdWrite sectors c sector count = (r, n) ∧ r ≠ .ok ()

/-- The card rejects the only block (e.g. checksum error on the bus), the driver reports
success: the status of the data response is overwritten by the status command. -/
theorem C68_violated : ¬ C68_full := by
  intro h
  rcases h 100 ⟨true, fun _ => false, true⟩ 0 1 with h | ⟨r, n, h1, h2⟩
  · simp [sdWrite, sdLoop] at h
  · simp [sdWrite, sdLoop] at h1
    exact h2 h1.1.symm

/-- Writing zero blocks sends 2^32 blocks to the card. -/
theorem C68_zero (sectors sector : Nat) (c : Card) (h : sector ≤ sectors) (hc : c.cmdOk = true) :
    (sdWrite sectors c sector 0).2 = (sdLoop c (2 ^ 32) 0).1 := by
  unfold sdWrite
  rw [if_neg (by omega), if_neg (by simp [hc]), if_pos rfl]

theorem sdLoop_eq (c : Card) (n i : Nat) :
    i ≤ (sdLoop c n i).1 ∧ (sdLoop c n i).1 ≤ i + n ∧
    (∀ j, i ≤ j → j < (sdLoop c n i).1 → c.accept j = true) ∧
    ((sdLoop c n i).1 < i + n → c.accept (sdLoop c n i).1 = false) := by
  induction n generalizing i with
  | zero => exact ⟨Nat.le_refl _, Nat.le_refl _, by intro j h1 h2; simp [sdLoop] at h2; omega, by
      intro h; simp [sdLoop] at h⟩
  | succ n ih =>
    rw [sdLoop]
    by_cases h : c.accept i = true
    · rw [if_pos h]
      obtain ⟨h1, h2, h3, h4⟩ := ih (i + 1)
      refine ⟨by omega, by omega, ?_, fun hh => h4 (by omega)⟩
      intro j hj hj2
      by_cases e : j = i
      · rw [e]; exact h
      · exact h3 j (by omega) hj2
    · rw [if_neg h]
      exact ⟨Nat.le_refl _, by simp, by intro j h1 h2; simp at h2; omega, by
        intro _; simpa using h⟩

/-- Missing for the full claim: rejected blocks are not reported.  What holds: writes outside the
card are refused, and if the card accepts every block then all blocks are stored. -/
theorem C68_write_partial (sectors : Nat) (c : Card) (sector count : Nat) :
    (sector + count > sectors → sdWrite sectors c sector count = (.refused, 0)) ∧
    (0 < count → (sdWrite sectors c sector count).1 = .ok () → (∀ i < count, c.accept i = true) →
      sdWrite sectors c sector count = (.ok (), count)) := by
  constructor
  · intro h; simp [sdWrite, h]
  · intro hc hr ha
    unfold sdWrite at hr ⊢
    split at hr
    · simp at hr
    · rename_i h1
      split at hr
      · simp at hr
      · rename_i h2
        split at hr
        · rename_i h3
          rw [if_neg h1, if_neg h2, if_pos h3, if_neg (by omega)]
          obtain ⟨_, h5, _, h7⟩ := sdLoop_eq c count 0
          have : (sdLoop c count 0).1 = count := by
            rcases Nat.lt_or_ge (sdLoop c count 0).1 count with hl | hl
            · have := h7 (by omega)
              rw [ha _ hl] at this; cases this
            · omega
          rw [this]
        · simp at hr

example : ∃ c : Card, (sdWrite 100 c 3 2).1 = .ok () ∧ ∀ i < 2, c.accept i = true :=
  ⟨⟨true, fun _ => true, true⟩, by decide, by decide⟩

/-- A read reported as successful delivers the blocks sent by the card, each with a matching
checksum. -/
theorem C68_read (crc : List Nat → Nat) (sectors : Nat) (c : ReadCard) (sector count : Nat)
    (d : List Nat) (h : sdRead crc sectors c sector count = .ok d) :
    sector + count ≤ sectors ∧ ∃ ds : List (List Nat), d = ds.flatten ∧ ds.length = count ∧
      ∀ i (hi : i < ds.length), c.block i = some (ds[i], crc ds[i]) := by
  have loop : ∀ n i d, sdReadLoop crc c n i = some d → ∃ ds : List (List Nat), d = ds.flatten ∧
      ds.length = n ∧ ∀ j (hj : j < ds.length), c.block (i + j) = some (ds[j], crc ds[j]) := by
    intro n
    induction n with
    | zero => intro i d h; cases h; exact ⟨[], rfl, rfl, by intro j hj; simp at hj⟩
    | succ n ih =>
      intro i d h
      rw [sdReadLoop] at h
      cases hb : c.block i with
      | none => rw [hb] at h; cases h
      | some p =>
        obtain ⟨x, k⟩ := p
        rw [hb] at h
        simp only [] at h
        split at h
        · cases h
        · rename_i hk
          simp only [ne_eq, Decidable.not_not] at hk
          cases hr : sdReadLoop crc c n (i + 1) with
          | none => rw [hr] at h; cases h
          | some e =>
            rw [hr] at h
            simp only [Option.map_some, Option.some.injEq] at h
            obtain ⟨ds, h1, h2, h3⟩ := ih (i + 1) e hr
            refine ⟨x :: ds, by rw [← h, h1]; rfl, by simp [h2], ?_⟩
            intro j hj
            cases j with
            | zero => simp [hb, hk]
            | succ j =>
              have := h3 j (by simp at hj; omega)
              rw [show i + (j + 1) = i + 1 + j by omega, this]
              simp
  unfold sdRead at h
  split at h
  · cases h
  · rename_i h1
    split at h
    · cases h
    · split at h
      · cases h
      · rename_i d' hd
        split at h
        · cases h
        · cases h
          obtain ⟨ds, h3, h4, h5⟩ := loop count 0 d hd
          exact ⟨by omega, ds, h3, h4, fun i hi => by simpa using h5 i hi⟩

example : sdRead (·.sum) 10 ⟨true, fun i => some ([i, 7], i + 7), true⟩ 4 3 =
    .ok [0, 7, 1, 7, 2, 7] := by decide

end Fpm.DiskIo
