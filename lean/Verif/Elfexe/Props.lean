import Verif.Elfexe.Lemmas
/-!
# C59: linkage stubs of programs
-/
namespace Fpm.Elfexe
open Fpm.Elfexe.Spec

/-- Imports, entries left alone and jumps of x86-64. -/
def Spec.Amd64Table (size : Nat) (c c' : List Nat) (k : Nat) : Prop :=
  Rewritten 16 ((size + 15) / 16) 0 (fun e => Amd64Tracked e ∨ Amd64Simple e) Amd64Preamble (fun e i => JumpAmd64 e (8 * i)) c c' k

/-- The same for arm64, behind a preamble of 32 bytes. -/
def Spec.Arm64Table (size : Nat) (c c' : List Nat) (k : Nat) : Prop :=
  c'.take 32 = c.take 32 ∧ Rewritten 16 ((size - 32 + 15) / 16) 0 Arm64Entry (fun _ => False) (fun e i => JumpArm64 e (8 * i)) (c.drop 32) (c'.drop 32) k

/-- The same for arm32, behind a preamble up to the first import; a slot at offset `4 * i` (`slot i`). -/
def Spec.Arm32Table (slot : Nat → Nat) (size : Nat) (c c' : List Nat) (k : Nat) : Prop :=
  ∃ p, (∀ j < p, ¬ Arm32Entry (c.drop (4 * j))) ∧ c'.take (4 * p) = c.take (4 * p) ∧
    Rewritten 12 ((size - 4 * p + 11) / 12) 0 Arm32Entry (fun _ => False) (fun e i => JumpArm32 e (slot i)) (c.drop (4 * p)) (c'.drop (4 * p)) k

/-- The claim: whenever a table is processed, all imports jump through their slots of the table of pointers. -/
def C59_full : Prop :=
  (∀ size c c' k, size < 2 ^ 32 - 16 → amd64 c size = .ok c' k → Amd64Table size c c' k) ∧
  (∀ size c c' k, size < 2 ^ 32 - 16 → 32 ≤ c.length → arm64 c size = .ok c' k → Arm64Table size c c' k) ∧
  (∀ size c c' k, size < 2 ^ 32 - 12 → arm32 c size = .ok c' k → Arm32Table (4 * ·) size c c' k)

/-- **C59** for x86-64: if the table is processed, its imports are numbered in order, the stub of each jumps through the slot of its number, and nothing else changes. -/
theorem C59_amd64 {size : Nat} {c c' : List Nat} {k : Nat} (hs : size < 2 ^ 32 - 16) (h : amd64 c size = .ok c' k) : Amd64Table size c c' k := by
  unfold amd64 rounds at h
  exact loop_spec amd64_good _ c 0 c' k (by omega) h

/-- Tables in the format of the linker are processed. -/
theorem C59_amd64_total {size : Nat} {c : List Nat} (h : ∀ m < (size + 15) / 16, Amd64Tracked (c.drop (m * 16)) ∨ Amd64Simple (c.drop (m * 16)) ∨ Amd64Preamble (c.drop (m * 16))) :
    ∃ c' k, amd64 c size = .ok c' k := loop_ok (ok := fun e => Amd64Tracked e ∨ Amd64Simple e ∨ Amd64Preamble e) amd64_ok _ c 0 h

/-- **C59** for arm64, up to 512 imports.  Missing: more of them. -/
theorem C59_arm64_partial {size : Nat} {c c' : List Nat} {k : Nat} (hl : 32 ≤ c.length) (hs : size ≤ 32 + 512 * 16) (h : arm64 c size = .ok c' k) : Arm64Table size c c' k := by
  unfold arm64 rounds at h
  obtain ⟨d, hd, rfl⟩ := behind_ok h
  have ht : (c.take 32).length = 32 := by simp; omega
  have hr := loop_spec arm64_good _ _ 0 d k (by omega) hd
  refine ⟨List.take_left' ht, ?_⟩
  rw [List.drop_left' ht]
  exact hr

/-- Tables in the format of the linker are processed, arm64. -/
theorem C59_arm64_total {size : Nat} {c : List Nat} (h : ∀ m < (size - 32 + 15) / 16, Arm64Entry (c.drop (32 + m * 16))) : ∃ c' k, arm64 c size = .ok c' k := by
  obtain ⟨d, k, e⟩ := loop_ok (size := 16) arm64_ok ((size - 32 + 15) / 16) (c.drop 32) 0 fun m hm => by rw [List.drop_drop]; exact h m hm
  refine ⟨c.take 32 ++ d, k, ?_⟩
  unfold arm64 rounds
  rw [show size - 32 + 16 - 1 = size - 32 + 15 by omega, e]
  rfl

/-- For arm32 the stub of import `i` jumps through the bytes at offset `i`, which is the slot of the import only for the first one.  Missing: the other slots. -/
theorem C59_arm32_partial {size : Nat} {c c' : List Nat} {k : Nat} (hs : size ≤ 4096 * 12) (h : arm32 c size = .ok c' k) : Arm32Table (fun i => i) size c c' k := by
  unfold arm32 rounds at h
  split at h
  · cases h
  · rename_i p hp
    obtain ⟨d, hd, rfl⟩ := behind_ok h
    obtain ⟨h1, h2⟩ := preamble32_spec _ _ _ hp
    have hr := loop_spec arm32_good _ _ 0 d k (by omega) hd
    refine ⟨p, h2, ?_⟩
    by_cases hl : 4 * p ≤ c.length
    · have ht : (c.take (4 * p)).length = 4 * p := by simp; omega
      rw [List.take_left' ht, List.drop_left' ht]
      exact ⟨rfl, hr⟩
    · have hc : c.drop (4 * p) = [] := List.drop_of_length_le (by omega)
      rw [hc] at hr ⊢
      have hd : d = [] := List.length_eq_zero_iff.mp hr.1
      subst hd
      rw [List.append_nil, List.take_take, Nat.min_self, List.take_of_length_le (by omega : c.length ≤ 4 * p), hc]
      exact ⟨rfl, hr⟩

/-- With a single import that is what is asked for. -/
theorem C59_arm32_one_partial {size : Nat} {c c' : List Nat} (hs : size ≤ 4096 * 12) (h : arm32 c size = .ok c' 1) : Arm32Table (4 * ·) size c c' 1 := by
  obtain ⟨p, h1, h2, h3, ps, h4, h5, h6, h7, h8, h9⟩ := C59_arm32_partial hs h
  refine ⟨p, h1, h2, h3, ps, h4, h5, h6, h7, fun j m hj => ?_, h9⟩
  have hlt : j < ps.length := (List.getElem?_eq_some_iff.mp hj).1
  have h0 : j = 0 := by omega
  subst h0
  exact h8 0 m hj

/-- An arm32 table with two imports, and an arm64 table with this many. -/
def arm32Example : List Nat := (le32 0xe28fc600 ++ le32 0xe28cca01 ++ le32 0xe5bcfe90) ++ (le32 0xe28fc600 ++ le32 0xe28cca01 ++ le32 0xe5bcfe90)
@[inherit_doc arm32Example] def arm64Example (n : Nat) : List Nat :=
  List.replicate 32 0 ++ (List.replicate n (le32 0x90000110 ++ le32 0xf9400211 ++ le32 0x91000210 ++ le32 0xd61f0220)).flatten

/-- Result of the arm32 example. -/
def arm32Result : List Nat := arm32Stub 0 ++ arm32Stub 1

/-- The claim is wrong: the second import of an arm32 program reads its address from offset 1. -/
theorem C59_violated : ¬ C59_full := by
  intro h
  have hr : arm32 arm32Example 24 = .ok arm32Result 2 := by decide +kernel
  obtain ⟨p, h1, h2, h3, ps, h4, h5, h6, h7, h8, h9⟩ := h.2.2 24 arm32Example arm32Result 2 (by omega) hr
  have hp : p = 0 := by
    cases p with
    | zero => rfl
    | succ p => exact absurd ((arm32_iff _).mp (by decide +kernel)) (h1 0 (by omega))
  subst hp
  match ps, h4 with
  | [a, b], _ =>
    have hb := h6 b (by simp)
    have hab : a < b := by simpa using h5
    have hb1 : b = 1 := by simp at hb; omega
    subst hb1
    have := h8 1 1 rfl
    revert this
    unfold JumpArm32
    decide +kernel

/-- Slot of import 512. -/
def lastSlot : Out → Option Nat
  | .ok c' _ => runArm64 (words ((c'.drop (32 + 512 * 16)).take 16)) (fun _ => .other)
  | _ => none

/-- The offset of import 512 of an arm64 program does not fit into the instruction: it jumps through the first slot. -/
theorem C59_arm64_violated : ∃ c' k, arm64 (arm64Example 513) (32 + 513 * 16) = .ok c' k ∧ JumpArm64 ((c'.drop (32 + 512 * 16)).take 16) 0 := by
  have : ∃ r, arm64 (arm64Example 513) (32 + 513 * 16) = r ∧ lastSlot r = some 0 := by
    refine ⟨_, rfl, ?_⟩
    decide +kernel
  obtain ⟨r, h1, h2⟩ := this
  cases r with
  | ub => cases h2
  | bad => cases h2
  | ok c' k => exact ⟨c', k, h1, h2⟩

/-- Three entries - a preamble, a stub with and one without tracking - are in the format; the second import gets slot 1. -/
example : ∃ c c' : List Nat, amd64 c 48 = .ok c' 2 ∧ c'.drop 32 = [0x65, 0xff, 0x24, 0x25, 8, 0, 0, 0, 0x0f, 0x1f, 0x84, 0, 1, 0, 0, 0] :=
  ⟨[0xff, 0x35, 0, 0, 0, 0, 0xff, 0x25, 0, 0, 0, 0, 0x0f, 0x1f, 0x40, 0, 0xf3, 0x0f, 0x1e, 0xfa, 0xff, 0x25, 1, 2, 3, 4, 0x66, 0x0f, 0x1f, 0x44, 0, 0,
    0xff, 0x25, 9, 9, 9, 9, 0x68, 0, 0, 0, 0, 0xe9, 1, 1, 1, 1],
   [0xff, 0x35, 0, 0, 0, 0, 0xff, 0x25, 0, 0, 0, 0, 0x0f, 0x1f, 0x40, 0, 0xf3, 0x0f, 0x1e, 0xfa, 0x65, 0xff, 0x24, 0x25, 0, 0, 0, 0, 0x0f, 0x1f, 0x04, 0,
    0x65, 0xff, 0x24, 0x25, 8, 0, 0, 0, 0x0f, 0x1f, 0x84, 0, 1, 0, 0, 0], by decide +kernel, by decide +kernel⟩

example : ∃ c' k, arm64 (arm64Example 3) (32 + 3 * 16) = .ok c' k ∧ k = 3 ∧ 32 ≤ (arm64Example 3).length := ⟨_, _, rfl, by decide +kernel, by decide +kernel⟩

example : ∃ c', arm32 (arm32Example.take 12) 12 = .ok c' 1 := ⟨_, rfl⟩

/-! ## The file -/

/-- A field of the file. -/
def Spec.Field (img : List Nat) (o n v : Nat) : Prop := o + n ≤ img.length ∧ val ((img.drop o).take n) = v

/-- The section of this name is at `off` and has this size: fields of `w` bytes, `shoff` at `a`, number of sections at `b`, headers of `s` bytes, in them the offset at `o` and
the size behind it. -/
def Spec.Section (w a b s o : Nat) (img name : List Nat) (off size : Nat) : Prop :=
  ∃ shoff num ndx strings i nm, Field img a w shoff ∧ Field img b 2 num ∧ Field img (b + 2) 2 ndx ∧ Field img (shoff + ndx * s + o) w strings ∧
    i < num ∧ Field img (shoff + i * s) 4 nm ∧ At img (strings + nm) (name ++ [0]) ∧ Field img (shoff + i * s + o) w off ∧ Field img (shoff + i * s + o + w) w size

theorem rd_field {img : List Nat} {o n v : Nat} (h : rd (img.drop o) n = some v) (hn : 0 < n) : Field img o n v := by
  by_cases hl : n ≤ (img.drop o).length
  · rw [rd_val n _ hl] at h
    cases h
    refine ⟨?_, rfl⟩
    simp at hl
    omega
  · rw [rd_none n _ hl] at h
    cases h

theorem strEq_spec : ∀ (c name : List Nat), (∀ x ∈ name, x ≠ 0) → strEq c name = some true → (name ++ [0]) <+: c
  | [], _, _, h => by cases h
  | b :: c, [], _, h => by
    rw [strEq] at h
    have : b = 0 := by simpa using h
    subst this
    exact ⟨c, rfl⟩
  | b :: c, x :: name, hn, h => by
    rw [strEq] at h
    split at h
    · rename_i he
      subst he
      exact List.cons_prefix_cons.mpr ⟨rfl, strEq_spec c name (fun y hy => hn y (by simp [hy])) h⟩
    · cases h

theorem find_spec {L : Layout} {img name : List Nat} {shoff strings : Nat} (hname : ∀ x ∈ name, x ≠ 0) : ∀ (n i sh : Nat), find L img name shoff strings n i = some (some sh) →
    ∃ j nm, j < i + n ∧ sh = shoff + j * L.shdr ∧ Field img sh 4 nm ∧ At img (strings + nm) (name ++ [0])
  | 0, i, sh, h => by cases h
  | n + 1, i, sh, h => by
    rw [find] at h
    split at h
    · cases h
    · rename_i nm hnm
      split at h
      · cases h
      · rename_i he
        cases h
        exact ⟨i, nm, by omega, rfl, rd_field hnm (by omega), strEq_spec _ _ hname he⟩
      · obtain ⟨j, nm, h1, h2⟩ := find_spec hname n (i + 1) sh h
        exact ⟨j, nm, by omega, h2⟩

theorem section_spec {L : Layout} {img name : List Nat} {process : List Nat → Nat → Out} {sh : Nat} {img' : List Nat} {k : Nat} (hname : ∀ x ∈ name, x ≠ 0) (hw : 0 < L.w)
    (hL : L.shSize = L.shOffset + L.w) (hf : findSection L img name = some (some sh)) (h : section_ L img process sh = .done img' k) :
    ∃ off size d, Section L.w L.eShoff L.eShnum L.shdr L.shOffset img name off size ∧ process (img.drop off) size = .ok d k ∧ img' = mark (img.take off ++ d) k := by
  unfold section_ at h
  split at h
  · rename_i off size ho hsz
    cases hp : process (img.drop off) size with
    | ub => rw [hp] at h; cases h
    | bad c => rw [hp] at h; cases h
    | ok d n =>
      rw [hp] at h
      cases h
      refine ⟨off, size, d, ?_, hp, rfl⟩
      unfold findSection at hf
      split at hf
      · rename_i shoff num ndx h1 h2 h3
        split at hf
        · cases hf
        · split at hf
          · cases hf
          · rename_i strings h4
            obtain ⟨i, nm, h5, rfl, h6, h7⟩ := find_spec hname num 0 sh hf
            refine ⟨shoff, num, ndx, strings, i, nm, rd_field h1 hw, rd_field h2 (by omega), rd_field h3 (by omega), rd_field h4 hw, by omega, h6, h7, rd_field ho hw, ?_⟩
            have := rd_field hsz hw
            rwa [hL, ← Nat.add_assoc] at this
      · cases hf
  · cases h

/-- A program in the format that is still to be processed. -/
def Spec.Raw (img : List Nat) (cls mach : Nat) : Prop :=
  At img 0 [0x7f, 0x45, 0x4c, 0x46, cls, 1, 1] ∧ (∃ b, img[7]? = some b ∧ b ≠ 255) ∧ Field img 16 2 3 ∧ Field img 18 2 mach

/-- The table is the section `.plt.sec` or `.plt`, for 32 bits the section `.plt`. -/
def Spec.Plt64 (img : List Nat) (off size : Nat) : Prop :=
  Section 8 40 60 64 24 img [0x2e, 0x70, 0x6c, 0x74, 0x2e, 0x73, 0x65, 0x63] off size ∨ Section 8 40 60 64 24 img [0x2e, 0x70, 0x6c, 0x74] off size
@[inherit_doc Spec.Plt64] def Spec.Plt32 (img : List Nat) (off size : Nat) : Prop := Section 4 32 48 40 16 img [0x2e, 0x70, 0x6c, 0x74] off size

theorem check_raw {img : List Nat} {cls mach : Nat} (h : checkFormat img = some (.inr (cls, mach))) : Raw img cls mach := by
  unfold checkFormat at h
  split at h
  · rename_i ok typ abi c m h1 h2 h3 h4 h5
    cases ok with
    | false => cases h
    | true =>
      rw [if_neg (by simp)] at h
      by_cases ht : typ ≠ 3
      · rw [if_pos ht] at h; cases h
      · rw [if_neg ht] at h
        by_cases ha : abi = 255
        · rw [if_pos ha] at h; cases h
        · rw [if_neg ha] at h
          cases h
          have ht : typ = 3 := by omega
          subst ht
          simp only [same_cons, same_nil, and_true] at h1
          refine ⟨?_, ⟨abi, h3, ha⟩, rd_field h2 (by omega), rd_field h5 (by omega)⟩
          simp only [at_cons, at_nil, and_true]
          exact ⟨h1.1, h1.2.1, h1.2.2.1, h1.2.2.2.1, h4, h1.2.2.2.2.2, h1.2.2.2.2.1⟩
  · cases h

theorem check_end {img : List Nat} {r : Result} (h : checkFormat img = some (.inl r)) : r = .fail img ∨ r = .already := by
  unfold checkFormat at h
  split at h
  · rename_i ok typ abi c m h1 h2 h3 h4 h5
    cases ok with
    | false => cases h; exact .inl rfl
    | true =>
      rw [if_neg (by simp)] at h
      by_cases ht : typ ≠ 3
      · rw [if_pos ht] at h; cases h; exact .inl rfl
      · rw [if_neg ht] at h
        by_cases ha : abi = 255
        · rw [if_pos ha] at h; cases h; exact .inr rfl
        · rw [if_neg ha] at h
          cases h
  · cases h

/-- The tables of the kinds of machines, rewritten as shown above. -/
def Spec.Linked (img : List Nat) (off size : Nat) (d : List Nat) (k : Nat) : Prop :=
  (Raw img 2 62 ∧ Plt64 img off size ∧ (size < 2 ^ 32 - 16 → Amd64Table size (img.drop off) d k)) ∨
  (Raw img 2 183 ∧ Plt64 img off size ∧ (32 ≤ (img.drop off).length → size ≤ 32 + 512 * 16 → Arm64Table size (img.drop off) d k)) ∨
  ((∃ cls, cls ≠ 2 ∧ Raw img cls 40) ∧ Plt32 img off size ∧ (size ≤ 4096 * 12 → Arm32Table (fun i => i) size (img.drop off) d k))

theorem main64_spec {img name : List Nat} {mach sh : Nat} {img' : List Nat} {k : Nat} (hname : ∀ x ∈ name, x ≠ 0) (hraw : Raw img 2 mach)
    (hpl : ∀ off size, Section 8 40 60 64 24 img name off size → Plt64 img off size)
    (hf : findSection elf64 img name = some (some sh)) (h : main64 img mach sh = .done img' k) :
    ∃ off size d, Linked img off size d k ∧ img' = mark (img.take off ++ d) k := by
  unfold main64 at h
  split at h
  · rename_i hm
    subst hm
    obtain ⟨off, size, d, h1, h2, h3⟩ := section_spec hname (by decide) rfl hf h
    exact ⟨off, size, d, .inl ⟨hraw, hpl _ _ h1, fun hs => C59_amd64 hs h2⟩, h3⟩
  · split at h
    · rename_i hm
      subst hm
      obtain ⟨off, size, d, h1, h2, h3⟩ := section_spec hname (by decide) rfl hf h
      exact ⟨off, size, d, .inr (.inl ⟨hraw, hpl _ _ h1, fun hl hs => C59_arm64_partial hl hs h2⟩), h3⟩
    · cases h

/-- **C59** for files: a file that is processed is an ELF file of one of three machines; its linkage table, found by its name, is rewritten as above; everything else is unchanged,
except for the mark set if there are links. -/
theorem C59_file {img img' : List Nat} {k : Nat} (h : elfexe img = .done img' k) :
    ∃ off size d, Linked img off size d k ∧ img' = if k > 0 then (img.take off ++ d).set 7 255 else img.take off ++ d := by
  have hsec : ∀ x ∈ nameSec, x ≠ 0 := by decide
  have hplt : ∀ x ∈ namePlt, x ≠ 0 := by decide
  unfold elfexe at h
  split at h
  · cases h
  · rename_i r hc
    rcases check_end hc with rfl | rfl <;> cases h
  · rename_i cls mach hc
    have hraw := check_raw hc
    split at h
    · rename_i hcls
      subst hcls
      split at h
      · cases h
      · rename_i sh hf
        exact main64_spec hsec hraw (fun _ _ h => .inl h) hf h
      · split at h
        · cases h
        · cases h
        · rename_i sh hf
          exact main64_spec hplt hraw (fun _ _ h => .inr h) hf h
    · rename_i hcls
      split at h
      · cases h
      · cases h
      · rename_i sh hf
        split at h
        · rename_i hm
          subst hm
          obtain ⟨off, size, d, h1, h2, h3⟩ := section_spec hplt (by decide) rfl hf h
          exact ⟨off, size, d, .inr (.inr ⟨⟨cls, hcls, hraw⟩, h1, fun hs => C59_arm32_partial hs h2⟩), h3⟩
        · cases h

theorem cons_of_length {n : Nat} {l : List Nat} (h : n + 1 ≤ l.length) : ∃ a t, l = a :: t ∧ n ≤ t.length := by
  cases l with
  | nil => simp at h
  | cons a t => exact ⟨a, t, rfl, by simpa using h⟩

theorem split20 (img : List Nat) (h : 20 ≤ img.length) : ∃ b0 b1 b2 b3 b4 b5 b6 b7 b8 b9 b10 b11 b12 b13 b14 b15 b16 b17 b18 b19 t, img = b0 :: b1 :: b2 :: b3 :: b4 :: b5 :: b6 :: b7 :: b8 :: b9 :: b10 :: b11 :: b12 :: b13 :: b14 :: b15 :: b16 :: b17 :: b18 :: b19 :: t := by
  obtain ⟨b0, t0, rfl, h0⟩ := cons_of_length h
  obtain ⟨b1, t1, rfl, h1⟩ := cons_of_length h0
  obtain ⟨b2, t2, rfl, h2⟩ := cons_of_length h1
  obtain ⟨b3, t3, rfl, h3⟩ := cons_of_length h2
  obtain ⟨b4, t4, rfl, h4⟩ := cons_of_length h3
  obtain ⟨b5, t5, rfl, h5⟩ := cons_of_length h4
  obtain ⟨b6, t6, rfl, h6⟩ := cons_of_length h5
  obtain ⟨b7, t7, rfl, h7⟩ := cons_of_length h6
  obtain ⟨b8, t8, rfl, h8⟩ := cons_of_length h7
  obtain ⟨b9, t9, rfl, h9⟩ := cons_of_length h8
  obtain ⟨b10, t10, rfl, h10⟩ := cons_of_length h9
  obtain ⟨b11, t11, rfl, h11⟩ := cons_of_length h10
  obtain ⟨b12, t12, rfl, h12⟩ := cons_of_length h11
  obtain ⟨b13, t13, rfl, h13⟩ := cons_of_length h12
  obtain ⟨b14, t14, rfl, h14⟩ := cons_of_length h13
  obtain ⟨b15, t15, rfl, h15⟩ := cons_of_length h14
  obtain ⟨b16, t16, rfl, h16⟩ := cons_of_length h15
  obtain ⟨b17, t17, rfl, h17⟩ := cons_of_length h16
  obtain ⟨b18, t18, rfl, h18⟩ := cons_of_length h17
  obtain ⟨b19, t19, rfl, h19⟩ := cons_of_length h18
  exact ⟨b0, b1, b2, b3, b4, b5, b6, b7, b8, b9, b10, b11, b12, b13, b14, b15, b16, b17, b18, b19, t19, rfl⟩

theorem header {img : List Nat} {cls mach : Nat} (h : Raw img cls mach) : ∃ b7 b8 b9 b10 b11 b12 b13 b14 b15 b18 b19 t,
    img = 0x7f :: 0x45 :: 0x4c :: 0x46 :: cls :: 1 :: 1 :: b7 :: b8 :: b9 :: b10 :: b11 :: b12 :: b13 :: b14 :: b15 :: (img[16]?.getD 0) :: (img[17]?.getD 0) :: b18 :: b19 :: t := by
  obtain ⟨h1, h2, h3, h4⟩ := h
  have hl := h4.1
  obtain ⟨b0, b1, b2, b3, b4, b5, b6, b7, b8, b9, b10, b11, b12, b13, b14, b15, b16, b17, b18, b19, t, rfl⟩ := split20 img hl
  simp only [at_cons, at_nil, and_true] at h1
  simp at h1
  obtain ⟨rfl, rfl, rfl, rfl, rfl, rfl, rfl⟩ := h1
  exact ⟨b7, b8, b9, b10, b11, b12, b13, b14, b15, b18, b19, t, rfl⟩

/-- A file with the mark is left alone. -/
theorem marked_again {img d : List Nat} {cls mach off : Nat} (hr : Raw img cls mach) (ho : 20 ≤ off) : elfexe ((img.take off ++ d).set 7 255) = .already := by
  obtain ⟨b7, b8, b9, b10, b11, b12, b13, b14, b15, b18, b19, t, he⟩ := header hr
  have h16 := hr.2.2.1.2
  obtain ⟨o, rfl⟩ : ∃ o, off = o + 20 := ⟨off - 20, by omega⟩
  generalize img[16]?.getD 0 = x at he
  generalize img[17]?.getD 0 = y at he
  subst he
  have hxy : x + 256 * (y + 256 * 0) = 3 := h16
  have hc : checkFormat ((List.take (o + 20) (0x7f :: 0x45 :: 0x4c :: 0x46 :: cls :: 1 :: 1 :: b7 :: b8 :: b9 :: b10 :: b11 :: b12 :: b13 :: b14 :: b15 :: x :: y :: b18 :: b19 :: t) ++ d).set 7 255)
      = some (.inl .already) := by
    change checkFormat (0x7f :: 0x45 :: 0x4c :: 0x46 :: cls :: 1 :: 1 :: 255 :: b8 :: b9 :: b10 :: b11 :: b12 :: b13 :: b14 :: b15 :: x :: y :: b18 :: b19 :: (t.take o ++ d)) = _
    have : x + 256 * y = 3 := by omega
    simp [checkFormat, same, rd, this]
  unfold elfexe
  rw [hc]

/-- Once a file has been processed with links it is not processed again, as long as the table is behind the header. -/
theorem C59_again {img img' : List Nat} {k : Nat} (h : elfexe img = .done img' k) (hk : 0 < k) (hp : ∀ off size, Plt64 img off size ∨ Plt32 img off size → 20 ≤ off) :
    elfexe img' = .already := by
  obtain ⟨off, size, d, hl, he⟩ := C59_file h
  rw [if_pos hk] at he
  subst he
  rcases hl with ⟨h1, h2, _⟩ | ⟨h1, h2, _⟩ | ⟨⟨cls, _, h1⟩, h2, _⟩
  · exact marked_again h1 (hp _ _ (.inl h2))
  · exact marked_again h1 (hp _ _ (.inl h2))
  · exact marked_again h1 (hp _ _ (.inr h2))

/-- A file with one import. -/
def exampleFile : List Nat := [
  127, 69, 76, 70, 2, 1, 1, 0, 0, 0, 0, 0, 0, 0, 0, 0, 3, 0, 62, 0, 1, 0, 0, 0, 0, 0, 0, 0, 0, 0, 0, 0, 0, 0, 0, 0, 0, 0, 0, 0, 64, 0, 0, 0, 0, 0, 0,
  0, 0, 0, 0, 0, 64, 0, 0, 0, 0, 0, 64, 0, 2, 0, 0, 0, 0, 0, 0, 0, 3, 0, 0, 0, 0, 0, 0, 0, 0, 0, 0, 0, 0, 0, 0, 0, 0, 0, 0, 0, 192, 0, 0, 0, 0, 0, 0,
  0, 16, 0, 0, 0, 0, 0, 0, 0, 0, 0, 0, 0, 0, 0, 0, 0, 0, 0, 0, 0, 0, 0, 0, 0, 0, 0, 0, 0, 0, 0, 0, 0, 1, 0, 0, 0, 1, 0, 0, 0, 0, 0, 0, 0, 0, 0, 0, 0,
  0, 0, 0, 0, 0, 0, 0, 0, 208, 0, 0, 0, 0, 0, 0, 0, 32, 0, 0, 0, 0, 0, 0, 0, 0, 0, 0, 0, 0, 0, 0, 0, 0, 0, 0, 0, 0, 0, 0, 0, 0, 0, 0, 0, 0, 0, 0, 0,
  0, 46, 112, 108, 116, 0, 0, 0, 0, 0, 0, 0, 0, 0, 0, 0, 255, 53, 0, 0, 0, 0, 255, 37, 0, 0, 0, 0, 15, 31, 64, 0, 255, 37, 9, 9, 9, 9, 104, 0, 0, 0,
  0, 233, 1, 1, 1, 1]

/-- The file is processed, and its table is behind the header. -/
example : (∃ img', elfexe exampleFile = .done img' 1) ∧ ∀ off size, Plt64 exampleFile off size ∨ Plt32 exampleFile off size → 20 ≤ off := by
  refine ⟨⟨exampleFile.take 7 ++ [255] ++ (exampleFile.drop 8).take 216 ++ amd64Stub2 0, by decide +kernel⟩, ?_⟩
  have hs : ∀ name off size, Section 8 40 60 64 24 exampleFile name off size → 20 ≤ off := by
    rintro name off size ⟨shoff, num, ndx, strings, i, nm, ⟨_, h1⟩, ⟨_, h2⟩, _, _, hi, _, _, ⟨_, h8⟩, _⟩
    have h1' : shoff = 64 := h1.symm.trans (by decide +kernel)
    have h2' : num = 2 := h2.symm.trans (by decide +kernel)
    subst h1' h2'
    have : ∀ i < 2, 20 ≤ val ((exampleFile.drop (64 + i * 64 + 24)).take 8) := by decide +kernel
    have := this i hi
    omega
  rintro off size ((h | h) | ⟨shoff, num, ndx, strings, i, nm, _, ⟨_, h2⟩, _, _, hi, _⟩)
  · exact hs _ _ _ h
  · exact hs _ _ _ h
  · have h2' : num = 0 := h2.symm.trans (by decide +kernel)
    omega

end Fpm.Elfexe
