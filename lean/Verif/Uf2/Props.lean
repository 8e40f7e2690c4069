import Verif.Uf2.Lemmas
/-!
# C60, C76: file systems in UF2 files
-/
namespace Fpm.Uf2
open Fpm.Uf2.Spec

theorem field_lt {f : List Nat} (h : ∀ b ∈ f, b < 256) (j o : Nat) : field (block f j) o < 2 ^ 32 := by
  have hb : ∀ b ∈ ((block f j).drop o).take 4, b < 256 := fun b hb =>
    h b (List.mem_of_mem_drop (List.mem_of_mem_take (List.mem_of_mem_drop (List.mem_of_mem_take hb))))
  have hl : (((block f j).drop o).take 4).length ≤ 4 := by rw [List.length_take]; omega
  unfold field
  revert hb hl
  generalize ((block f j).drop o).take 4 = l
  intro hb hl
  match l, hb, hl with
  | [], _, _ => simp [val]
  | [a], hb, _ => have := hb a (by simp); simp only [val]; omega
  | [a, b], hb, _ => have := hb a (by simp); have := hb b (by simp); simp only [val]; omega
  | [a, b, c], hb, _ => have := hb a (by simp); have := hb b (by simp); have := hb c (by simp); simp only [val]; omega
  | [a, b, c, d], hb, _ => have := hb a (by simp); have := hb b (by simp); have := hb c (by simp); have := hb d (by simp); simp only [val]; omega
  | _ :: _ :: _ :: _ :: _ :: _, _, hl => simp only [List.length_cons] at hl; omega

/-- The scan finds start, end and family of the program. -/
theorem scan_extent {f : List Nat} {k A E : Nat} {l : Loc} (hf : ∀ b ∈ f, b < 256) (hp : ProgramBlocks f k) (he : Extent f k A E) (hE : E < 2 ^ 32) (h : getLocation f = some l) :
    l.flashStart = A ∧ l.progEnd = E := by
  have hs := scan_spec _ f _ l k (kept_program hp) h
  obtain ⟨he1, ⟨ja, hja, hma, rfl⟩, je, hje, hme, rfl⟩ := he
  have hmod : ∀ j < k, Main (block f j) → (field (block f j) 12 + field (block f j) 16) % 2 ^ 32 = field (block f j) 12 + field (block f j) 16 :=
    fun j hj hm => Nat.mod_eq_of_lt (Nat.lt_of_le_of_lt (he1 j hj hm).2 hE)
  constructor
  · have h1 := (hs.all ja hja hma).2.1
    rcases hs.start.2 with e | ⟨j, hj, hm, e⟩
    · have := field_lt hf ja 12
      simp only at e
      omega
    · have := (he1 j hj hm).1
      omega
  · have h1 := (hs.all je hje hme).2.2
    rw [hmod je hje hme] at h1
    rcases hs.stop.2 with e | ⟨j, hj, hm, e⟩
    · simp only at e
      omega
    · rw [hmod j hj hm] at e
      have := (he1 j hj hm).2
      omega

theorem scan_family {f : List Nat} {k board : Nat} {l : Loc} (hp : ProgramBlocks f k) (hb : Suits f k board) (h : getLocation f = some l) : l.family = 0 ∨ l.family = board := by
  have hs := scan_spec _ f _ l k (kept_program hp) h
  rcases hs.family with e | ⟨j, hj, hm, hfl, e⟩
  · exact .inl e
  · exact .inr (e.symm.trans (hb.2 j hj hm hfl))

theorem family_lt {f : List Nat} {k : Nat} {l : Loc} (hf : ∀ b ∈ f, b < 256) (hp : ProgramBlocks f k) (h : getLocation f = some l) : l.family < 2 ^ 32 := by
  have hs := scan_spec _ f _ l k (kept_program hp) h
  rcases hs.family with e | ⟨j, hj, hm, hfl, e⟩
  · rw [e]; simp
  · rw [← e]; exact field_lt hf j 28

theorem place_spec {l : Loc} {fb start size : Nat} (hE : l.progEnd < 2 ^ 32 - 0x10000) (hA : l.flashStart + fb ≤ 2 ^ 32) (h : place l fb = some (start, size)) :
    l.progEnd < start ∧ start ≤ l.progEnd + 0x10000 ∧ start % 0x10000 = 0 ∧ (start + 5 * 4096 < 2 ^ 32 → start + size = l.flashStart + fb ∨ l.flashStart + fb = 2 ^ 32 ∧ start = 0) := by
  unfold place at h
  split at h
  · cases h
  · rename_i hn
    cases h
    unfold fsStart at hn ⊢
    omega

theorem save_program {f : List Nat} {k : Nat} (hp : ProgramBlocks f k) (ip : Bool) (start fam : Nat) (im : List (Nat × List Nat)) :
    saveImage ip f start fam im = some (f.take (512 * k) ++ imageBytes start fam im) := by
  unfold saveImage
  rw [front_program hp, Option.map_some]

theorem format_some {ip : Bool} {f out : List Nat} {fb : Nat} {build : Nat → List (Nat × List Nat)} (h : format ip f fb build = some out) :
    ∃ l start size, getLocation f = some l ∧ place l fb = some (start, size) ∧ saveImage ip f start l.family (build size) = some out := by
  unfold format at h
  generalize getLocation f = g at h ⊢
  cases g with
  | none => cases h
  | some l =>
    simp only at h
    refine ⟨l, ?_⟩
    generalize place l fb = p at h ⊢
    cases p with
    | none => cases h
    | some p => exact ⟨p.1, p.2, rfl, rfl, h⟩

theorem place_size {l : Loc} {fb start size : Nat} (hE : l.progEnd < 2 ^ 32 - 0x20000) (hA : l.flashStart + fb ≤ 2 ^ 32) (h : place l fb = some (start, size)) :
    start + 20480 ≤ l.flashStart + fb ∧ size = l.flashStart + fb - start := by
  obtain ⟨h1, h2, h3, h4⟩ := place_spec (by omega) hA h
  unfold place at h
  split at h
  · cases h
  · rename_i hn
    obtain ⟨hst, hsz⟩ := Prod.mk.inj (Option.some.inj h)
    rw [hst] at hn
    have h5 : start + 20480 ≤ l.flashStart + fb := by
      rw [Nat.mod_eq_of_lt (by omega), Nat.mod_eq_of_lt (by omega)] at hn
      omega
    refine ⟨h5, ?_⟩
    rcases h4 (by omega) with h | h <;> omega

/-- **C60**.  A file with a program for a board, in front of the end of the address space, is formatted for a flash memory of `fb` bytes: the file system starts at an address behind the
program, a multiple of 64 kbytes, at most 64 kbytes away, and extends up to the end of the flash.  The program is kept as it is; flashing the new file gives the program with all sectors
of the file system at their places and nothing else. -/
theorem C60_format_partial {ip : Bool} {f out : List Nat} {k A E fb board : Nat} {build : Nat → List (Nat × List Nat)} (hf : ∀ b ∈ f, b < 256) (hp : ProgramBlocks f k) (he : Extent f k A E)
    (hE : E < 2 ^ 32 - 0x20000) (hA : A + fb ≤ 2 ^ 32) (hb : Suits f k board) (hi : ∀ size, Image (size / 4096) (build size)) (h : format ip f fb build = some out) :
    ∃ start, E < start ∧ start ≤ E + 0x10000 ∧ 0x10000 ∣ start ∧ start < A + fb ∧ out.take (512 * k) = f.take (512 * k) ∧
      ∀ m, HasImage start (build (A + fb - start)) (burnFile board (f.take (512 * k)) m) (burnFile board out m) := by
  obtain ⟨l, start, size, hl, hpl, hs⟩ := format_some h
  obtain ⟨rfl, rfl⟩ := scan_extent hf hp he (by omega) hl
  have hfam := scan_family hp hb hl
  have hfl := family_lt hf hp hl
  obtain ⟨h1, h2, h3, h4⟩ := place_spec (by omega) hA hpl
  obtain ⟨h5, hsize⟩ := place_size hE hA hpl
  rw [save_program hp] at hs
  obtain rfl := Option.some.inj hs
  have hlen : (f.take (512 * k)).length = 512 * k := by
    rw [List.length_take]
    exact Nat.min_eq_left hp.2.1
  refine ⟨start, h1, h2, Nat.dvd_of_mod_eq_zero h3, by omega, List.take_left' hlen, fun m => ?_⟩
  rw [burnFile_append board m hlen, ← hsize]
  exact (imageBytes_burn hfam hfl (build size) (size / 4096) _ (hi size) (by omega)).1

/-- A program whose blocks have the magic numbers is formatted if there is space for the file system. -/
theorem C60_total {ip : Bool} {f : List Nat} {k A E fb : Nat} {build : Nat → List (Nat × List Nat)} (hf : ∀ b ∈ f, b < 256) (hp : ProgramBlocks f k) (he : Extent f k A E)
    (hE : E < 2 ^ 32 - 0x20000) (hA : A + fb ≤ 2 ^ 32) (hm : ∀ j < k, Main (block f j) → Magic (block f j)) (hs : E + 0x10000 + 5 * 4096 ≤ A + fb) : ∃ out, format ip f fb build = some out := by
  obtain ⟨l, hl⟩ := scan_total _ f ⟨2 ^ 32 - 1, 0, 0⟩ k (kept_program hp) hm
  have hl' : getLocation f = some l := hl
  obtain ⟨rfl, rfl⟩ := scan_extent hf hp he (by omega) hl'
  have hpl : ∃ p, place l fb = some p := by
    unfold place
    rw [if_neg (by unfold fsStart; omega)]
    exact ⟨_, rfl⟩
  obtain ⟨p, hpl⟩ := hpl
  refine ⟨f.take (512 * k) ++ imageBytes p.1 l.family (build p.2), ?_⟩
  rw [← save_program hp ip]
  unfold format
  rw [hl']
  simp only
  rw [hpl]

/-- Formatting again is the same as formatting the original: the previous file system leaves no trace. -/
theorem C60_again {ip : Bool} {f out : List Nat} {k fb : Nat} {build : Nat → List (Nat × List Nat)} (hp : ProgramBlocks f k) (h : format ip f fb build = some out)
    (ip' : Bool) (fb' : Nat) (build' : Nat → List (Nat × List Nat)) : format ip' out fb' build' = format ip' f fb' build' := by
  have hlen : (f.take (512 * k)).length = 512 * k := by
    rw [List.length_take]
    exact Nat.min_eq_left hp.2.1
  obtain ⟨l, start, size, _, _, hs⟩ := format_some h
  rw [save_program hp] at hs
  obtain ⟨g, rfl⟩ : ∃ g, out = f.take (512 * k) ++ g := ⟨_, (Option.some.inj hs).symm⟩
  have htake : (f.take (512 * k) ++ g).take (512 * k) = f.take (512 * k) := List.take_left' hlen
  have hblk : ∀ j < k, block (f.take (512 * k) ++ g) j = block f j := by
    intro j hj
    rw [block_append_left (by omega)]
    conv => rhs; rw [← List.take_append_drop (512 * k) f]
    rw [block_append_left (by omega)]
  have hk := hp.1
  have hp' : ProgramBlocks (f.take (512 * k) ++ g) k := by
    refine ⟨hp.1, by rw [List.length_append]; omega, ?_, fun j hj => ?_⟩
    · rw [hblk _ (by omega)]; exact hp.2.2.1
    · rw [hblk _ (by omega)]; exact hp.2.2.2 j hj
  have hloc : getLocation (f.take (512 * k) ++ g) = getLocation f :=
    scan_prefix _ _ _ _ _ k (kept_program hp) (by rw [List.length_append]; omega) htake
  have hsave : ∀ st fam im, saveImage ip' (f.take (512 * k) ++ g) st fam im = saveImage ip' f st fam im := by
    intro st fam im
    rw [save_program hp, save_program hp', htake]
  unfold format
  rw [hloc]
  simp only [hsave]

/-- A program of two blocks. -/
def twoBlocks : List Nat :=
  encode ⟨0x0A324655, 0x9E5D5157, 0x2000, 0x10000000, 256, 0, 2, 0xe48bff56, List.replicate 476 7, 0x0AB16F30⟩ ++ encode ⟨0x0A324655, 0x9E5D5157, 0x2000, 0x10000100, 256, 1, 2, 0xe48bff56, List.replicate 476 9, 0x0AB16F30⟩

theorem twoBlocks_facts : (twoBlocks.all fun b => decide (b < 256)) = true ∧ twoBlocks.length = 1024 ∧
    (∀ j < 2, field (block twoBlocks j) 8 = 0x2000 ∧ field (block twoBlocks j) 12 = 0x10000000 + 256 * j ∧ field (block twoBlocks j) 16 = 256 ∧ field (block twoBlocks j) 20 = j ∧
      field (block twoBlocks j) 24 = 2 ∧ field (block twoBlocks j) 28 = 0xe48bff56 ∧ Magic (block twoBlocks j)) := by decide +kernel

/-- The program and a file system of one sector meet the hypotheses. -/
example : (∀ b ∈ twoBlocks, b < 256) ∧ ProgramBlocks twoBlocks 2 ∧ Extent twoBlocks 2 0x10000000 0x10000200 ∧ Suits twoBlocks 2 0xe48bff56 ∧ (∀ j < 2, Main (block twoBlocks j) → Magic (block twoBlocks j)) ∧
    0x10000200 + 0x10000 + 5 * 4096 ≤ 0x10000000 + 0x200000 ∧ ∀ size, Image (size / 4096) (if 4096 ≤ size then [(0, List.replicate 4096 5)] else []) := by
  obtain ⟨h1, h2, h3⟩ := twoBlocks_facts
  have h0 := h3 0 (by decide)
  have h1' := h3 1 (by decide)
  have hm : ∀ j < 2, Main (block twoBlocks j) := fun j hj => by unfold Main; rw [(h3 j hj).1]
  refine ⟨fun b hb => of_decide_eq_true (List.all_eq_true.mp h1 b hb), ⟨by decide, by omega, ⟨hm 1 (by decide), ?_⟩, fun j hj => ?_⟩, ⟨fun j hj _ => ?_, ⟨0, by decide, hm 0 (by decide), h0.2.1⟩, 1, by decide, hm 1 (by decide), ?_⟩,
    ⟨by decide, fun j hj _ _ => (h3 j hj).2.2.2.2.2.1⟩, fun j hj _ => (h3 j hj).2.2.2.2.2.2, by decide, fun size => ?_⟩
  · rw [h1'.2.2.2.1, h1'.2.2.2.2.1]
  · obtain rfl : j = 0 := by omega
    unfold Last
    rw [h0.2.2.2.1, h0.2.2.2.2.1]
    simp
  · rw [(h3 j hj).2.1, (h3 j hj).2.2.1]
    omega
  · rw [h1'.2.1, h1'.2.2.1]
  · split
    · refine ⟨List.pairwise_singleton _ _, fun x hx => ?_⟩
      obtain rfl := List.mem_singleton.mp hx
      refine ⟨by simp only; omega, List.length_replicate .., fun b hb => ?_⟩
      have := List.eq_of_mem_replicate hb
      omega
    · exact ⟨List.Pairwise.nil, by simp⟩

/-! ## Size on the command line -/

/-- Value of a decimal number. -/
def Spec.decimal (ds : List Nat) : Nat := ds.foldl (fun n d => n * 10 + d) 0

theorem digits_decimal : ∀ (ds r : List Nat) (n : Nat), (∀ d ∈ ds, d < 10) → (∀ c, r.head? = some c → digit 10 c = none) → digits 10 (ds.map (48 + ·) ++ r) n = (ds.foldl (fun n d => n * 10 + d) n, r)
  | [], [], n, _, _ => rfl
  | [], c :: r, n, _, hr => by
    rw [List.map_nil, List.nil_append, digits, hr c rfl]
    rfl
  | d :: ds, r, n, hd, hr => by
    have h := hd d (by simp)
    have : digit 10 (48 + d) = some d := by
      unfold digit
      rw [if_pos (by omega : 48 ≤ 48 + d ∧ 48 + d ≤ 57)]
      simp only
      rw [if_pos (by omega)]
      congr 1
      omega
    rw [List.map_cons, List.cons_append, digits, this]
    exact digits_decimal ds r _ (fun x hx => hd x (by simp [hx])) hr

/-- Suffixes and their meaning. -/
def Spec.Suffix (s : List Nat) (scale : Nat) : Prop := s = [] ∧ scale = 1 ∨ (s = [107] ∨ s = [75]) ∧ scale = 2 ^ 10 ∨ (s = [109] ∨ s = [77]) ∧ scale = 2 ^ 20

/-- A decimal number with a suffix is read as what it says, as long as the size fits into 64 bits. -/
theorem C60_size {d : Nat} {ds s : List Nat} {scale : Nat} (hd : ∀ x ∈ d :: ds, x < 10) (h0 : d ≠ 0) (hs : Suffix s scale) (hfit : decimal (d :: ds) * scale < 2 ^ 64) :
    parseSize ((d :: ds).map (48 + ·) ++ s) = some (decimal (d :: ds) * scale) := by
  have hd0 := hd d (by simp)
  have hnd : ∀ c, s.head? = some c → digit 10 c = none := by
    intro c hc
    rcases hs with ⟨rfl, _⟩ | ⟨rfl | rfl, _⟩ | ⟨rfl | rfl, _⟩ <;> cases hc <;> rfl
  have hst : stoul ((d :: ds).map (48 + ·) ++ s) = some (decimal (d :: ds), s) := by
    have hdig : (digit 10 (48 + d)).isSome = true := by
      unfold digit
      rw [if_pos (by omega : 48 ≤ 48 + d ∧ 48 + d ≤ 57)]
      simp only
      rw [if_pos (by omega)]
      rfl
    unfold stoul
    split
    · rename_i x c r he
      rw [List.map_cons, List.cons_append] at he
      obtain ⟨he, _⟩ := List.cons.inj he
      omega
    · rename_i he
      rw [List.map_cons, List.cons_append] at he
      obtain ⟨he, _⟩ := List.cons.inj he
      omega
    · rename_i c r _ _ he
      rw [List.map_cons, List.cons_append] at he
      obtain ⟨rfl, he⟩ := List.cons.inj he
      rw [if_pos hdig]
      exact congrArg some (digits_decimal (d :: ds) s 0 hd hnd)
    · rename_i he
      cases he
  unfold parseSize
  rw [hst]
  simp only
  have hn : decimal (d :: ds) < 2 ^ 64 := by
    rcases hs with ⟨_, rfl⟩ | ⟨_, rfl⟩ | ⟨_, rfl⟩ <;> omega
  rw [if_neg (by omega)]
  rcases hs with ⟨rfl, rfl⟩ | ⟨rfl | rfl, rfl⟩ | ⟨rfl | rfl, rfl⟩
  · simp
  · exact congrArg some (Nat.mod_eq_of_lt hfit)
  · exact congrArg some (Nat.mod_eq_of_lt hfit)
  · exact congrArg some (Nat.mod_eq_of_lt hfit)
  · exact congrArg some (Nat.mod_eq_of_lt hfit)

/-- The character is the hexadecimal digit of this value. -/
def Spec.HexDigit (c v : Nat) : Prop := v < 10 ∧ c = 48 + v ∨ 10 ≤ v ∧ v < 16 ∧ (c = 97 + (v - 10) ∨ c = 65 + (v - 10))

/-- The text is the hexadecimal number. -/
inductive Spec.Hex : List Nat → Nat → Prop where
  | nil : Hex [] 0
  | snoc {t : List Nat} {n c v : Nat} : Hex t n → HexDigit c v → Hex (t ++ [c]) (16 * n + v)

theorem hexDigit_digit {c v : Nat} (h : HexDigit c v) : digit 16 c = some v := by
  unfold digit
  simp only
  rcases h with ⟨h1, rfl⟩ | ⟨h1, h2, rfl | rfl⟩
  · rw [if_pos (by omega : 48 ≤ 48 + v ∧ 48 + v ≤ 57), if_pos (by omega)]
    congr 1
    omega
  · rw [if_neg (by omega : ¬ (48 ≤ 97 + (v - 10) ∧ 97 + (v - 10) ≤ 57)), if_pos (by omega : 97 ≤ 97 + (v - 10) ∧ 97 + (v - 10) ≤ 122), if_pos (by omega)]
    congr 1
    omega
  · rw [if_neg (by omega : ¬ (48 ≤ 65 + (v - 10) ∧ 65 + (v - 10) ≤ 57)), if_neg (by omega : ¬ (97 ≤ 65 + (v - 10) ∧ 65 + (v - 10) ≤ 122)), if_pos (by omega : 65 ≤ 65 + (v - 10) ∧ 65 + (v - 10) ≤ 90), if_pos (by omega)]
    congr 1
    omega

theorem digits_hex {t : List Nat} {n : Nat} (h : Hex t n) : ∀ r, digits 16 (t ++ r) 0 = digits 16 r n := by
  induction h with
  | nil => intro r; rfl
  | @snoc t n c v _ hd ih =>
    intro r
    rw [List.append_assoc, ih, List.cons_append, List.nil_append, digits, hexDigit_digit hd, Nat.mul_comm]

theorem digits_stop {r : List Nat} {n : Nat} (h : ∀ c, r.head? = some c → digit 16 c = none) : digits 16 r n = (n, r) := by
  cases r with
  | nil => rfl
  | cons c r => rw [digits, h c rfl]

theorem hex_head {t : List Nat} {n : Nat} (h : Hex t n) : ∀ c r, t = c :: r → ∃ v, HexDigit c v := by
  induction h with
  | nil => intro c r h; cases h
  | @snoc t n c v _ hd ih =>
    intro c' r he
    cases t with
    | nil => cases he; exact ⟨v, hd⟩
    | cons a t =>
      obtain ⟨rfl, _⟩ := List.cons.inj he
      exact ih a t rfl

/-- The same for hexadecimal numbers. -/
theorem C60_size_hex {x n scale : Nat} {t s : List Nat} (hx : x = 120 ∨ x = 88) (ht : t ≠ []) (hh : Hex t n) (hs : Suffix s scale) (hfit : n * scale < 2 ^ 64) :
    parseSize (48 :: x :: (t ++ s)) = some (n * scale) := by
  have hnd : ∀ c, s.head? = some c → digit 16 c = none := by
    intro c hc
    rcases hs with ⟨rfl, _⟩ | ⟨rfl | rfl, _⟩ | ⟨rfl | rfl, _⟩ <;> cases hc <;> rfl
  have hst : stoul (48 :: x :: (t ++ s)) = some (n, s) := by
    cases t with
    | nil => exact absurd rfl ht
    | cons c t =>
      obtain ⟨v, hv⟩ := hex_head hh c t rfl
      have := digits_hex hh s
      rw [digits_stop hnd] at this
      unfold stoul
      simp only [List.cons_append] at this ⊢
      rw [if_pos ⟨hx, by rw [hexDigit_digit hv]; rfl⟩, this]
  unfold parseSize
  rw [hst]
  simp only
  have hn : n < 2 ^ 64 := by
    rcases hs with ⟨_, rfl⟩ | ⟨_, rfl⟩ | ⟨_, rfl⟩ <;> omega
  rw [if_neg (by omega)]
  rcases hs with ⟨rfl, rfl⟩ | ⟨rfl | rfl, rfl⟩ | ⟨rfl | rfl, rfl⟩
  · simp
  · exact congrArg some (Nat.mod_eq_of_lt hfit)
  · exact congrArg some (Nat.mod_eq_of_lt hfit)
  · exact congrArg some (Nat.mod_eq_of_lt hfit)
  · exact congrArg some (Nat.mod_eq_of_lt hfit)

/-- "0x1F". -/
example : Hex [49, 70] 31 := .snoc (t := [49]) (n := 1) (v := 15) (.snoc (t := []) (n := 0) (v := 1) .nil (.inl ⟨by decide, rfl⟩)) (.inr ⟨by decide, by decide, .inr rfl⟩)

/-- "16M". -/
example : (∀ x ∈ [1, 6], x < 10) ∧ Suffix [77] (2 ^ 20) ∧ decimal [1, 6] * 2 ^ 20 < 2 ^ 64 := ⟨by decide, .inr (.inr ⟨.inr rfl, rfl⟩), by decide⟩

/-- What is behind the suffix is ignored, and large sizes wrap around: "2kB" is 2048, and 2^54 + 2 times "k" too. -/
theorem C60_size_lax : parseSize [50, 107, 66] = some 2048 ∧ parseSize ([1, 8, 0, 1, 4, 3, 9, 8, 5, 0, 9, 4, 8, 1, 9, 8, 6].map (48 + ·) ++ [107]) = some 2048 := by decide

/-! ## Wrong places -/

/-- The claim for all programs. -/
def C60_full : Prop := ∀ (f : List Nat) (k A E fb : Nat) (build : Nat → List (Nat × List Nat)) (out : List Nat), (∀ b ∈ f, b < 256) → ProgramBlocks f k → Extent f k A E → A + fb ≤ 2 ^ 32 → E ≤ A + fb →
  format false f fb build = some out → ∃ l start size, getLocation f = some l ∧ place l fb = some (start, size) ∧ E < start

/-- A program of one block in front of the end of the address space. -/
def highProgram : List Nat := encode ⟨0x0A324655, 0x9E5D5157, 0, 0xFFFF0000, 256, 0, 1, 0, List.replicate 476 0, 0x0AB16F30⟩

theorem high_fields : field (block highProgram 0) 12 = 0xFFFF0000 ∧ field (block highProgram 0) 16 = 256 ∧ Last (block highProgram 0) := by
  have h : field (block highProgram 0) 12 = 0xFFFF0000 ∧ field (block highProgram 0) 16 = 256 ∧ field (block highProgram 0) 8 % 2 = 0 ∧ (field (block highProgram 0) 20 + 1) % 2 ^ 32 = field (block highProgram 0) 24 := by
    decide +kernel
  exact ⟨h.1, h.2.1, h.2.2.1, h.2.2.2⟩

/-- For such a program the place is in front of the program. -/
theorem C60_violated : ¬ C60_full := by
  intro h
  have hlen : highProgram.length = 512 := by decide +kernel
  obtain ⟨h12, h16, hla⟩ := high_fields
  have hloc : getLocation highProgram = some ⟨0xFFFF0000, 0xFFFF0100, 0⟩ := by decide +kernel
  have hpl : place ⟨0xFFFF0000, 0xFFFF0100, 0⟩ 0x10000 = some (0, 0) := by decide +kernel
  have hfmt : ∃ out, format false highProgram 0x10000 (fun _ => []) = some out := by
    unfold format
    rw [hloc]
    simp only
    rw [hpl]
    simp only
    unfold saveImage front
    cases kept (highProgram.length / 512) highProgram <;> exact ⟨_, rfl⟩
  obtain ⟨out, hout⟩ := hfmt
  have hbytes : (highProgram.all fun b => decide (b < 256)) = true := by decide +kernel
  obtain ⟨l, start, size, h1, h2, h3⟩ := h highProgram 1 0xFFFF0000 0xFFFF0100 0x10000 (fun _ => []) out (fun b hb => of_decide_eq_true (List.all_eq_true.mp hbytes b hb))
    ⟨by decide, by omega, hla, fun j hj => by omega⟩
    ⟨fun j hj _ => by
        obtain rfl : j = 0 := by omega
        omega, ⟨0, by decide, hla.1, h12⟩, 0, by decide, hla.1, by omega⟩ (by decide) (by decide) hout
  rw [hloc] at h1
  cases h1
  rw [hpl] at h2
  cases h2
  omega

/-! ## The firmware -/

/-- The place where the firmware looks for the file system is the one of the tool, for all programs: a program of `len` bytes from a 64-kbyte boundary on is in blocks of 256 bytes. -/
def C76_full : Prop := ∀ A len : Nat, A % 0x10000 = 0 → 0 < len → A + len + 0x20000 < 2 ^ 32 → fsStart (A + (len + 255) / 256 * 256) = A + firmwareOffset len

/-- **C76**: they agree exactly if the last block does not end at a 64-kbyte boundary. -/
theorem C76_place_partial {A len : Nat} (hA : A % 0x10000 = 0) (hl : 0 < len) (h : A + len + 0x20000 < 2 ^ 32) :
    fsStart (A + (len + 255) / 256 * 256) = A + firmwareOffset len ↔ ¬ 0x10000 ∣ (len + 255) / 256 * 256 := by
  unfold fsStart firmwareOffset
  constructor
  · rintro he ⟨q, hq⟩
    omega
  · intro hn
    have : (len + 255) / 256 * 256 % 0x10000 ≠ 0 := fun h => hn (Nat.dvd_of_mod_eq_zero h)
    omega

/-- Otherwise the firmware looks 64 kbytes in front of the file system. -/
theorem C76_off {A len : Nat} (hA : A % 0x10000 = 0) (hl : 0 < len) (h : A + len + 0x20000 < 2 ^ 32) (hd : 0x10000 ∣ (len + 255) / 256 * 256) :
    fsStart (A + (len + 255) / 256 * 256) = A + firmwareOffset len + 0x10000 := by
  unfold fsStart firmwareOffset
  have : (len + 255) / 256 * 256 % 0x10000 = 0 := Nat.mod_eq_zero_of_dvd hd
  omega

/-- A program of 130816 bytes and a bit more: the claim is wrong. -/
theorem C76_violated : ¬ C76_full := fun h => absurd (h 0x10000000 130900 (by decide) (by decide) (by decide)) (by decide)

/-- Programs of 100000 bytes are fine. -/
example : 0x10000000 % 0x10000 = 0 ∧ 0 < 100000 ∧ 0x10000000 + 100000 + 0x20000 < 2 ^ 32 ∧ ¬ 0x10000 ∣ (100000 + 255) / 256 * 256 := by decide

/-- Wherever they agree, what the tool puts there is what the firmware reads as sector `s`: the address of the sector is the same. -/
theorem C76_sector {A len s : Nat} (hA : A % 0x10000 = 0) (hl : 0 < len) (h : A + len + 0x20000 < 2 ^ 32) (hn : ¬ 0x10000 ∣ (len + 255) / 256 * 256) (hs : A + firmwareOffset len + s * 4096 < 2 ^ 32) :
    (fsStart (A + (len + 255) / 256 * 256) + s * 4096) % 2 ^ 32 = A + (firmwareOffset len + s * 4096) := by
  rw [(C76_place_partial hA hl h).mpr hn, Nat.mod_eq_of_lt hs, Nat.add_assoc]

end Fpm.Uf2
