/-!
# Flashing of UF2 files

After tools/uf2fat/UF2-File-Format.md.
-/
namespace Fpm.Uf2.Spec

/-- Little-endian number. -/
def val : List Nat → Nat
  | [] => 0
  | b :: l => b + 256 * val l

/-- Block number `k` of a file. -/
def block (f : List Nat) (k : Nat) : List Nat := (f.drop (512 * k)).take 512

/-- 32-bit field of a block. -/
def field (b : List Nat) (o : Nat) : Nat := val ((b.drop o).take 4)

/-- Magic numbers. -/
def Magic (b : List Nat) : Prop := field b 0 = 0x0A324655 ∧ field b 4 = 0x9E5D5157 ∧ field b 508 = 0x0AB16F30

/-- Not a comment. -/
def Main (b : List Nat) : Prop := field b 8 % 2 = 0

/-- Is flashed to boards of this family: it has the magic numbers, is no comment, and has no other family. -/
def ForBoard (board : Nat) (b : List Nat) : Prop := Magic b ∧ Main b ∧ (field b 8 / 2 ^ 13 % 2 = 1 → field b 28 = board)

instance (b : List Nat) : Decidable (Magic b) := by unfold Magic; infer_instance
instance (b : List Nat) : Decidable (Main b) := by unfold Main; infer_instance
instance (board : Nat) (b : List Nat) : Decidable (ForBoard board b) := by unfold ForBoard; infer_instance

/-- Flash memory: byte at an address, `none` where nothing is known. -/
abbrev Mem := Nat → Option Nat

/-- The address is written by the block. -/
def Covers (b : List Nat) (a : Nat) : Prop := field b 12 ≤ a ∧ a < field b 12 + field b 16
instance (b : List Nat) (a : Nat) : Decidable (Covers b a) := by unfold Covers; infer_instance

/-- Flash a block. -/
def burn (board : Nat) (b : List Nat) (m : Mem) : Mem :=
  fun a => if ForBoard board b ∧ Covers b a then b[32 + (a - field b 12)]? else m a

/-- Flash the first `n` blocks of a file. -/
def burnN (board : Nat) (f : List Nat) : Nat → Mem → Mem
  | 0, m => m
  | n + 1, m => burn board (block f n) (burnN board f n m)

/-- Flash a file. -/
def burnFile (board : Nat) (f : List Nat) (m : Mem) : Mem := burnN board f (f.length / 512) m

/-- The last block of a program (numbers of 32 bits). -/
def Last (b : List Nat) : Prop := Main b ∧ (field b 20 + 1) % 2 ^ 32 = field b 24

/-- The program in the file: its blocks up to the last one (number `k - 1`). -/
def ProgramBlocks (f : List Nat) (k : Nat) : Prop := 0 < k ∧ 512 * k ≤ f.length ∧ Last (block f (k - 1)) ∧ ∀ j < k - 1, ¬ Last (block f j)

/-- The program has the addresses from `A` up to `E` (not included). -/
def Extent (f : List Nat) (k A E : Nat) : Prop :=
  (∀ j < k, Main (block f j) → A ≤ field (block f j) 12 ∧ field (block f j) 12 + field (block f j) 16 ≤ E) ∧
  (∃ j < k, Main (block f j) ∧ field (block f j) 12 = A) ∧ ∃ j < k, Main (block f j) ∧ field (block f j) 12 + field (block f j) 16 = E

/-- The program is one for the board: no block is for another family. -/
def Suits (f : List Nat) (k board : Nat) : Prop := board ≠ 0 ∧ ∀ j < k, Main (block f j) → field (block f j) 8 / 2 ^ 13 % 2 = 1 → field (block f j) 28 = board

/-- Sectors of 4096 bytes with ascending numbers below `n`. -/
def Image (n : Nat) (image : List (Nat × List Nat)) : Prop :=
  image.Pairwise (fun x y => x.1 < y.1) ∧ ∀ x ∈ image, x.1 < n ∧ x.2.length = 4096 ∧ ∀ b ∈ x.2, b < 256

/-- The flash has the sectors of the image from `start` on, and is otherwise as before. -/
def HasImage (start : Nat) (image : List (Nat × List Nat)) (before after : Mem) : Prop :=
  (∀ x ∈ image, ∀ i < 4096, after (start + 4096 * x.1 + i) = x.2[i]?) ∧
  ∀ a, (∀ x ∈ image, ¬ (start + 4096 * x.1 ≤ a ∧ a < start + 4096 * x.1 + 4096)) → after a = before a

end Fpm.Uf2.Spec
