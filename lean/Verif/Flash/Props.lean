import Verif.Flash.Spec
/-!
# C95: the flash disk of the Pico is an array of blocks behind the program

The bounds of requests are checked with byte offsets of 32 bits, which wrap: a request for block 2^20 - 1 passes and erases the end of the program.
-/
namespace Fpm.Flash
open Spec

theorem chip_sizes (mf dev : Nat) : chipSize mf dev = 2 ^ 21 ∨ chipSize mf dev = 2 ^ 22 ∨ chipSize mf dev = 2 ^ 23 ∨ chipSize mf dev = 2 ^ 24 := by
  unfold chipSize
  repeat' split
  all_goals simp

theorem mask_64k (n : Nat) (h : n < 2 ^ 32) : n &&& (2 ^ 32 - 2 ^ 16) = n / 65536 * 65536 := by
  have e : (2 ^ 32 - 2 ^ 16 : Nat) = (2 ^ 16 - 1) <<< 16 := by decide
  have e2 : n / 65536 * 65536 = (n >>> 16) <<< 16 := by rw [Nat.shiftLeft_eq, Nat.shiftRight_eq_div_pow]
  rw [e, e2]
  apply Nat.eq_of_testBit_eq
  intro i
  rw [Nat.testBit_and, Nat.testBit_shiftLeft, Nat.testBit_shiftLeft, Nat.testBit_two_pow_sub_one, Nat.testBit_shiftRight]
  by_cases h16 : 16 ≤ i
  · by_cases h32 : i < 32
    · rw [show 16 + (i - 16) = i from by omega]
      simp [h16, show i - 16 < 16 from by omega]
    · have : n.testBit i = false := Nat.testBit_lt_two_pow (Nat.lt_of_lt_of_le h (Nat.pow_le_pow_right (by decide) (by omega)))
      rw [show 16 + (i - 16) = i from by omega]
      simp [this]
  · simp [h16]

theorem probe_eq {mf dev len : Nat} (h : Fits (chipSize mf dev) len) : probe mf dev len = ⟨start len, chipSize mf dev - start len⟩ := by
  have hs : chipSize mf dev ≤ 2 ^ 24 := by rcases chip_sizes mf dev with h | h | h | h <;> rw [h] <;> decide
  unfold Fits start at h
  have hl : len + 0xffff < 2 ^ 32 := by omega
  unfold probe
  rw [Nat.mod_eq_of_lt hl, mask_64k _ hl]
  unfold start
  generalize hb : (len + 65535) / 65536 * 65536 = b at h ⊢
  rw [show chipSize mf dev + 2 ^ 64 - b = (chipSize mf dev - b) + 2 ^ 64 from by omega, Nat.add_mod_right, Nat.mod_eq_of_lt (by omega)]

theorem bytes_append (mem : Nat → Nat) (a n m : Nat) : bytes mem a (n + m) = bytes mem a n ++ bytes mem (a + n) m := by
  unfold bytes
  rw [List.range_add, List.map_append, List.map_map]
  simp only [Function.comp_def, Nat.add_assoc]

theorem bytes_blocks (len : Nat) (mem : Nat → Nat) (b : Nat) : ∀ c, bytes mem (start len + b * 4096) (c * 4096) = (List.range c).flatMap (fun i => block len mem (b + i))
  | 0 => by simp [bytes]
  | c + 1 => by
    have e : bytes mem (start len + b * 4096 + c * 4096) 4096 = block len mem (b + c) := by
      rw [show start len + b * 4096 + c * 4096 = start len + (b + c) * 4096 from by rw [Nat.add_mul]; omega]
      unfold block bytes
      rfl
    rw [show (c + 1) * 4096 = c * 4096 + 4096 from by omega, bytes_append, bytes_blocks len mem b c, e, List.range_succ, List.flatMap_append, List.flatMap_singleton]

theorem read_eq {mf dev len : Nat} (h : Fits (chipSize mf dev) len) (mem : Nat → Nat) {b c : Nat} (hs : b + c < 2 ^ 20) :
    read (chipSize mf dev) (probe mf dev len) mem b c = if c ≠ 0 ∧ b + c ≤ blocks (chipSize mf dev) len then .ok ((List.range c).flatMap (fun i => block len mem (b + i))) else .err DISK_PARERR := by
  rw [probe_eq h]
  unfold read blocks
  have h64 : start len % 65536 = 0 := Nat.mul_mod_left _ _
  have hc : chipSize mf dev % 4096 = 0 := by rcases chip_sizes mf dev with h | h | h | h <;> rw [h]
  unfold Fits at h
  rw [Nat.mod_eq_of_lt (show b * 4096 < 2 ^ 32 from by omega), Nat.mod_eq_of_lt (show c * 4096 < 2 ^ 32 from by omega), Nat.mod_eq_of_lt (show b * 4096 + c * 4096 < 2 ^ 32 from by omega)]
  show (if c = 0 then _ else if b * 4096 + c * 4096 > chipSize mf dev - start len then _ else if start len + b * 4096 + c * 4096 > chipSize mf dev then _ else Out.ok (bytes mem (start len + b * 4096) (c * 4096))) = _
  by_cases h0 : c = 0
  · rw [if_pos h0, if_neg (fun x => x.1 h0)]
  rw [if_neg h0]
  by_cases hb : b + c ≤ (chipSize mf dev - start len) / 4096
  · rw [if_neg (by omega), if_neg (by omega), if_pos ⟨h0, hb⟩, bytes_blocks]
  · rw [if_pos (by omega), if_neg (fun x => hb x.2)]

/-- The chip after a write: the data in the range, and what was there elsewhere. -/
def stored (mem : Nat → Nat) (a n : Nat) (buf : List Nat) : Nat → Nat := fun x => if a ≤ x ∧ x < a + n then buf.getD (x - a) 0 else mem x

theorem getD_byte {buf : List Nat} (hb : ∀ x ∈ buf, x < 256) (i : Nat) : buf.getD i 0 < 256 := by
  rw [List.getD_eq_getElem?_getD]
  cases h : buf[i]? with
  | none => decide
  | some x => exact hb x (List.mem_of_getElem? h)

theorem program_erase (mem : Nat → Nat) (a n : Nat) {buf : List Nat} (hb : ∀ x ∈ buf, x < 256) : program (erase mem a n) a n buf = stored mem a n buf := by
  funext x
  unfold program erase stored
  by_cases h : a ≤ x ∧ x < a + n
  · rw [if_pos h, if_pos h, if_pos h, Nat.and_comm]
    exact (Nat.and_two_pow_sub_one_eq_mod _ 8).trans (Nat.mod_eq_of_lt (getD_byte hb _))
  · rw [if_neg h, if_neg h, if_neg h]

theorem write_eq {mf dev len : Nat} (h : Fits (chipSize mf dev) len) (mem : Nat → Nat) {b c : Nat} {buf : List Nat} (hb : ∀ x ∈ buf, x < 256) (hs : b + c < 2 ^ 20) :
    write (chipSize mf dev) (probe mf dev len) mem buf b c =
      if c ≠ 0 ∧ b + c ≤ blocks (chipSize mf dev) len then .ok (stored mem (start len + b * 4096) (c * 4096) buf) else .err DISK_PARERR := by
  rw [probe_eq h]
  unfold write blocks
  have h64 : start len % 65536 = 0 := Nat.mul_mod_left _ _
  have hz : chipSize mf dev ≤ 2 ^ 24 := by rcases chip_sizes mf dev with h | h | h | h <;> rw [h] <;> decide
  have hc : chipSize mf dev % 4096 = 0 := by rcases chip_sizes mf dev with h | h | h | h <;> rw [h]
  unfold Fits at h
  rw [Nat.mod_eq_of_lt (show b * 4096 < 2 ^ 32 from by omega), Nat.mod_eq_of_lt (show c * 4096 < 2 ^ 32 from by omega), Nat.mod_eq_of_lt (show b * 4096 + c * 4096 < 2 ^ 32 from by omega)]
  simp only [program_erase _ _ _ hb]
  by_cases h0 : c = 0
  · rw [if_pos (Or.inl (by omega)), if_neg (fun x => x.1 h0)]
  by_cases hbn : b + c ≤ (chipSize mf dev - start len) / 4096
  · rw [Nat.mod_eq_of_lt (show start len + b * 4096 < 2 ^ 32 from by omega)]
    rw [if_neg (by omega), if_neg (by omega), if_pos ⟨h0, hbn⟩]
  · rw [if_pos (Or.inr (by omega)), if_neg (fun x => hbn x.2)]

theorem block_stored (len : Nat) (mem : Nat → Nat) {b : Nat} {buf : List Nat} (hw : buf.length % 4096 = 0) (i : Nat) :
    block len (stored mem (start len + b * 4096) (buf.length / 4096 * 4096) buf) i =
      if b ≤ i ∧ i < b + buf.length / 4096 then (buf.drop ((i - b) * 4096)).take 4096 else block len mem i := by
  have hl : buf.length / 4096 * 4096 = buf.length := by omega
  rw [hl]
  by_cases h : b ≤ i ∧ i < b + buf.length / 4096
  · rw [if_pos h]
    have hi : (i - b) * 4096 + 4096 ≤ buf.length := by omega
    apply List.ext_getElem
    · simp [block]
      omega
    · intro j h1 h2
      have hj : j < 4096 := by simpa [block] using h1
      simp only [block, List.getElem_map, List.getElem_range, stored, List.getElem_take, List.getElem_drop]
      rw [if_pos ⟨by omega, by omega⟩, List.getD_eq_getElem?_getD, show start len + i * 4096 + j - (start len + b * 4096) = (i - b) * 4096 + j from by omega,
        List.getElem?_eq_getElem (by omega)]
      rfl
  · rw [if_neg h]
    unfold block
    apply List.map_congr_left
    intro j hj
    rw [List.mem_range] at hj
    unfold stored
    rw [if_neg (by omega)]

/-- What one request does. -/
theorem step_eq {mf dev len : Nat} (h : Fits (chipSize mf dev) len) (mem : Nat → Nat) {o : Op} (ha : Allowed o) (hs : Small o) :
    (step (chipSize mf dev) (probe mf dev len) mem o).2 = (serve (blocks (chipSize mf dev) len) (block len mem) o).2
    ∧ block len (step (chipSize mf dev) (probe mf dev len) mem o).1 = (serve (blocks (chipSize mf dev) len) (block len mem) o).1
    ∧ ∀ a, a < start len ∨ chipSize mf dev ≤ a → (step (chipSize mf dev) (probe mf dev len) mem o).1 a = mem a := by
  cases o with
  | rd b c =>
    simp only [step, read_eq h mem hs, serve]
    refine ⟨?_, ?_⟩
    · split <;> simp [gotRead]
    · simp
  | wr b buf =>
    have hw := ha.2.2.1
    simp only [step, write_eq h mem ha.2.2.2 hs, serve]
    by_cases hc : buf.length / 4096 ≠ 0 ∧ b + buf.length / 4096 ≤ blocks (chipSize mf dev) len
    · rw [if_pos hc, if_pos hc]
      refine ⟨rfl, funext fun i => block_stored len mem hw i, ?_⟩
      intro a hx
      simp only [gotWrite, stored]
      have := hc.2
      unfold blocks at this
      unfold Fits at h
      rw [if_neg (by omega)]
    · rw [if_neg hc, if_neg hc]
      simp only [gotWrite]
      exact ⟨trivial, trivial, fun _ _ => trivial⟩

/-- C95 as it is meant: on every chip with a program that fits, all sequences of requests find an array of blocks of the size that is told, and nothing of the program changes. -/
def C95_full : Prop :=
  ∀ mf dev len mem ops, Fits (chipSize mf dev) len → Bytes mem → (∀ o ∈ ops, Allowed o) →
    (run (chipSize mf dev) (probe mf dev len) mem ops).2 = (serveAll (blocks (chipSize mf dev) len) (block len mem) ops).2
    ∧ block len (run (chipSize mf dev) (probe mf dev len) mem ops).1 = (serveAll (blocks (chipSize mf dev) len) (block len mem) ops).1
    ∧ ∀ a, a < start len ∨ chipSize mf dev ≤ a → (run (chipSize mf dev) (probe mf dev len) mem ops).1 a = mem a

/-- C95, partial: requests must end before block 2^20 - 1.  Missing: requests beyond are not always refused, see `C95_program`.  The size told is that of the array. -/
theorem C95_array_partial {mf dev len : Nat} (h : Fits (chipSize mf dev) len) (ops : List Op) (mem : Nat → Nat) (ha : ∀ o ∈ ops, Allowed o) (hs : ∀ o ∈ ops, Small o) :
    (run (chipSize mf dev) (probe mf dev len) mem ops).2 = (serveAll (blocks (chipSize mf dev) len) (block len mem) ops).2
    ∧ block len (run (chipSize mf dev) (probe mf dev len) mem ops).1 = (serveAll (blocks (chipSize mf dev) len) (block len mem) ops).1
    ∧ ∀ a, a < start len ∨ chipSize mf dev ≤ a → (run (chipSize mf dev) (probe mf dev len) mem ops).1 a = mem a := by
  induction ops generalizing mem with
  | nil =>
    simp only [run, serveAll]
    exact ⟨trivial, trivial, fun _ _ => trivial⟩
  | cons o os ih =>
    obtain ⟨e1, e2, e3⟩ := step_eq h mem (ha o (by simp)) (hs o (by simp))
    obtain ⟨i1, i2, i3⟩ := ih (step (chipSize mf dev) (probe mf dev len) mem o).1 (fun x hx => ha x (by simp [hx])) (fun x hx => hs x (by simp [hx]))
    simp only [run, serveAll, ← e2]
    exact ⟨by rw [e1, i1], i2, fun a hx => (i3 a hx).trans (e3 a hx)⟩

/-- C95: the size told is that of the array, a block at least and at most 4096 blocks; so what lies in the array is never too far for `C95_array_partial`. -/
theorem C95_count {mf dev len : Nat} (h : Fits (chipSize mf dev) len) :
    sectorCount (probe mf dev len) = .ok (blocks (chipSize mf dev) len) ∧ 0 < blocks (chipSize mf dev) len ∧ blocks (chipSize mf dev) len ≤ 4096 := by
  have hz : chipSize mf dev ≤ 2 ^ 24 := by rcases chip_sizes mf dev with h | h | h | h <;> rw [h] <;> decide
  have hc : chipSize mf dev % 4096 = 0 := by rcases chip_sizes mf dev with h | h | h | h <;> rw [h]
  have h64 : start len % 65536 = 0 := Nat.mul_mod_left _ _
  unfold sectorCount blockCount
  rw [probe_eq h]
  unfold Fits at h
  show (if (chipSize mf dev - start len) / 4096 % 2 ^ 32 = 0 then _ else Out.ok ((chipSize mf dev - start len) / 4096 % 2 ^ 32)) = _ ∧ _
  rw [Nat.mod_eq_of_lt (by omega)]
  unfold blocks
  rw [if_neg (by omega)]
  exact ⟨rfl, by omega, by omega⟩

/-- C95: for every chip and program, writing sixteen blocks from block 2^20 - 16 on succeeds, and replaces the last bytes of the program, if there is one. -/
theorem C95_program {mf dev len : Nat} (h : Fits (chipSize mf dev) len) (hl : 0 < len) (mem : Nat → Nat) {buf : List Nat} (hb : ∀ x ∈ buf, x < 256) (hn : buf.length = 65536) :
    ∃ m, step (chipSize mf dev) (probe mf dev len) mem (.wr (2 ^ 20 - 16) buf) = (m, .done)
      ∧ start len - 65536 < len ∧ ∀ i, i < 65536 → m (start len - 65536 + i) = buf.getD i 0 := by
  have hst : 65536 ≤ start len ∧ start len - 65536 < len := by
    unfold start
    omega
  refine ⟨stored mem (start len - 65536) 65536 buf, ?_, hst.2, ?_⟩
  · simp only [step, hn]
    rw [probe_eq h]
    unfold write
    have h64 : start len % 65536 = 0 := Nat.mul_mod_left _ _
    have hz : chipSize mf dev ≤ 2 ^ 24 := by rcases chip_sizes mf dev with h | h | h | h <;> rw [h] <;> decide
    unfold Fits at h
    have e : (start len + (2 ^ 20 - 16) * 4096 % 2 ^ 32) % 2 ^ 32 = start len - 65536 := by omega
    simp only [e]
    rw [if_neg (by simp), if_neg (by omega), show 65536 / 4096 * 4096 % 2 ^ 32 = 65536 from rfl, program_erase _ _ _ hb]
    rfl
  · intro i hi
    unfold stored
    rw [if_pos (by omega), show start len - 65536 + i - (start len - 65536) = i from by omega]

/-- C95 does not hold: a request far outside of the disk is served. -/
theorem C95_violated : ¬ C95_full := by
  intro h
  have hf : Fits (chipSize 0xef 0x4015) 300000 := by unfold Fits; decide
  have := (h 0xef 0x4015 300000 (fun _ => 0) [.rd (2 ^ 20) 1] hf (fun _ => Nat.zero_lt_succ _) (by
    intro o ho
    rw [List.mem_singleton] at ho
    subst ho
    exact ⟨by decide, by decide⟩)).1
  simp only [run, serveAll, serve] at this
  rw [if_neg (by decide)] at this
  have e : read (chipSize 0xef 0x4015) (probe 0xef 0x4015 300000) (fun _ => 0) (2 ^ 20) 1 = .ok (bytes (fun _ => 0) 327680 4096) := by
    rw [probe_eq hf]
    rfl
  simp only [step, e, gotRead] at this
  cases this

/-- A chip of 4 Mbytes with a program of 300 kbytes: block 5 is written, read, and a request that only begins on the disk is refused. -/
example : let o := [Op.wr 5 (List.replicate 4096 7), .rd 5 1, .rd 943 2]
    Fits (chipSize 0xef 0x4016) 300000 ∧ (∀ x ∈ o, Allowed x) ∧ (∀ x ∈ o, Small x) ∧ blocks (chipSize 0xef 0x4016) 300000 = 944
    ∧ (serveAll 944 (fun _ => []) o).2 = [.done, .data (List.replicate 4096 7), .err 4] := by
  have hr : (List.replicate 4096 7).length / 4096 = 1 := by rw [List.length_replicate]
  refine ⟨by unfold Fits; decide, ?_, ?_, by decide, ?_⟩
  · intro x hx
    simp only [List.mem_cons, List.not_mem_nil, or_false] at hx
    rcases hx with rfl | rfl | rfl
    · exact ⟨by decide, by rw [hr]; decide, by rw [List.length_replicate], fun y hy => by rw [List.eq_of_mem_replicate hy]; decide⟩
    · exact ⟨by decide, by decide⟩
    · exact ⟨by decide, by decide⟩
  · intro x hx
    simp only [List.mem_cons, List.not_mem_nil, or_false] at hx
    rcases hx with rfl | rfl | rfl
    · simp only [Small, hr]
      decide
    · unfold Small
      decide
    · unfold Small
      decide
  · simp only [serveAll, serve, hr]
    rw [if_pos ⟨by decide, by decide⟩, if_pos ⟨by decide, by decide⟩, if_neg (by decide), List.range_succ, List.range_zero, List.nil_append, List.flatMap_cons, List.flatMap_nil, List.append_nil]
    simp only [Nat.add_zero]
    rw [if_pos (by decide), Nat.sub_self, Nat.zero_mul, List.drop_zero, List.take_of_length_le (by rw [List.length_replicate]; decide)]
    rfl

/-- `C95_program` with a page of zeros. -/
example : Fits (chipSize 0x1f 0x8601) 262145 ∧ start 262145 = 327680 ∧ (List.replicate 65536 0).length = 65536 ∧ ∀ x ∈ List.replicate 65536 0, x < 256 :=
  ⟨by unfold Fits; decide, by decide, List.length_replicate, fun y hy => by rw [List.eq_of_mem_replicate hy]; decide⟩

end Fpm.Flash
