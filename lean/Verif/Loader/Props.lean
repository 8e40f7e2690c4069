import Verif.Loader.Spec

/-!
# Properties of the dynamic loader (C39, C67)
-/
namespace Fpm.Loader
open Fpm.Loader.Spec

theorem rd_field (img : List Nat) (off w v : Nat) (h : Field img off w v) : rd img off w = some v := by
  induction w generalizing off v with
  | zero =>
    obtain ⟨h1, _⟩ := h
    simp at h1
    simp [rd, h1]
  | succ n ih =>
    obtain ⟨h1, h2⟩ := h
    have h0 := h2 0 (Nat.zero_lt_succ _)
    simp at h0
    have hn : Field img (off + 1) n (v / 256) := by
      refine ⟨?_, ?_⟩
      · rw [Nat.pow_succ] at h1
        exact Nat.div_lt_of_lt_mul (by rw [Nat.mul_comm]; exact h1)
      · intro k hk
        have := h2 (k + 1) (by omega)
        rw [show off + (k + 1) = off + 1 + k by omega, Nat.pow_succ] at this
        rw [this, Nat.mul_comm, ← Nat.div_div_eq_div_mul]
    rw [rd, h0, ih _ _ hn]
    simp only [Option.some.injEq]
    omega

theorem findSection_eq (L : Layout) (img : List Nat) (shoff shnum type flags : Nat)
    (types fl : Nat → Nat) (ht : ∀ i < shnum, Field img (shoff + i * L.shdr + 4) 4 (types i))
    (hf : ∀ i < shnum, Field img (shoff + i * L.shdr + L.shFlags) L.w (fl i)) (n i : Nat)
    (hn : i + n = shnum) :
    (∀ r, i ≤ r → r < shnum → (types r = type ∧ fl r &&& flags = flags) →
      (∀ j, i ≤ j → j < r → ¬ (types j = type ∧ fl j &&& flags = flags)) →
      findSection L img shoff type flags n i = some (some (shoff + r * L.shdr))) ∧
    ((∀ j, i ≤ j → j < shnum → ¬ (types j = type ∧ fl j &&& flags = flags)) →
      findSection L img shoff type flags n i = some none) := by
  induction n generalizing i with
  | zero =>
    refine ⟨fun r h1 h2 => by omega, fun _ => rfl⟩
  | succ n ih =>
    have := ih (i + 1) (by omega)
    rw [findSection, rd_field _ _ _ _ (ht i (by omega))]
    simp only []
    rw [rd_field _ _ _ _ (hf i (by omega))]
    simp only []
    by_cases hi : types i = type ∧ fl i &&& flags = flags
    · rw [if_pos hi.1, if_pos hi.2]
      refine ⟨?_, ?_⟩
      · intro r h1 h2 h3 h4
        by_cases hr : r = i
        · rw [hr]
        · exact absurd hi (h4 i (Nat.le_refl _) (by omega))
      · intro h; exact absurd hi (h i (Nat.le_refl _) (by omega))
    · have e : (if types i = type then
          if fl i &&& flags = flags then some (some (shoff + i * L.shdr))
          else findSection L img shoff type flags n (i + 1)
        else findSection L img shoff type flags n (i + 1)) =
          findSection L img shoff type flags n (i + 1) := by
        by_cases h1 : types i = type
        · rw [if_pos h1, if_neg (fun h2 => hi ⟨h1, h2⟩)]
        · rw [if_neg h1]
      rw [e]
      refine ⟨?_, ?_⟩
      · intro r h1 h2 h3 h4
        have hr : r ≠ i := by intro e; subst e; exact hi h3
        exact this.1 r (by omega) h2 h3 (fun j h5 h6 => h4 j (by omega) h6)
      · intro h; exact this.2 (fun j h5 h6 => h j (by omega) h6)

theorem cstring_str (img : List Nat) (off : Nat) (s : List Nat) (h : Str img off s) :
    cstring (img.drop off) = some s := by
  obtain ⟨h0, hk⟩ := h
  have step : ∀ (b : Nat) (o : Nat), img[o]? = some b → img.drop o = b :: img.drop (o + 1) := by
    intro b o hb
    obtain ⟨hl, hv⟩ := List.getElem?_eq_some_iff.mp hb
    rw [List.drop_eq_getElem_cons hl, hv]
  induction s generalizing off with
  | nil =>
    have := hk 0 (by simp)
    simp at this
    rw [step _ _ this, cstring, if_pos rfl]
  | cons c s ih =>
    have := hk 0 (by simp)
    simp at this
    rw [step _ _ this, cstring, if_neg (h0 c (by simp)),
      ih (off + 1) (fun d hd => h0 d (by simp [hd])) (by
        intro k hk'
        have := hk (k + 1) (by simp; omega)
        rw [show off + 1 + k = off + (k + 1) by omega, this]
        rfl)]
    rfl

theorem findRel_eq {L : Layout} {img : List Nat} {imps : List Import} (d : Describes L img imps) :
    findRel L img = some (some (d.shoff + d.r * L.shdr)) := by
  have s4 := findSection_eq L img d.shoff d.shnum 4 0x40 d.types d.flags d.htypes d.hflags d.shnum 0
    (by omega)
  have s9 := findSection_eq L img d.shoff d.shnum 9 0x40 d.types d.flags d.htypes d.hflags d.shnum 0
    (by omega)
  unfold findRel
  rw [rd_field _ _ _ _ d.hshoff, rd_field _ _ _ _ d.hshnum]
  simp only []
  rcases d.first with ⟨h1, h2, h3⟩ | ⟨h1, h2, h3, h4⟩
  · rw [s4.1 d.r (Nat.zero_le _) d.hr ⟨h1, h2⟩ (fun j _ h => h3 j h)]
  · rw [s4.2 (fun j _ h => h3 j h)]
    simp only []
    rw [s9.1 d.r (Nat.zero_le _) d.hr ⟨h1, h2⟩ (fun j _ h => h4 j h)]

/-- The context built for a described image. -/
def ctxOf {L : Layout} {img : List Nat} {imps : List Import} (d : Describes L img imps) : Ctx :=
  { relSection := d.shoff + d.r * L.shdr, numLinks := imps.length }

theorem load_eq {L : Layout} {img : List Nat} {imps : List Import} (d : Describes L img imps)
    (hL : 0 < L.rel ∧ 0 < L.rela) : load L img = some (some (ctxOf d)) := by
  have hc : checkHeader L img = some true := by
    unfold checkHeader
    rw [rd_field _ _ _ _ d.magic, rd_field _ _ _ _ d.version, rd_field _ _ _ _ d.data,
      rd_field _ _ _ _ d.cls, rd_field _ _ _ _ d.type, rd_field _ _ _ _ d.machine]
    simp
  unfold load
  rw [hc, findRel_eq d]
  simp only []
  rw [rd_field _ _ _ _ d.hsize, rd_field _ _ _ _ d.hent]
  simp only []
  have hpos : 0 < (if d.types d.r = 4 then L.rela else L.rel) := by split <;> omega
  rw [if_neg (by omega), Nat.mul_div_cancel _ hpos, Nat.mod_eq_of_lt d.count]
  rfl

theorem getName_eq {L : Layout} {img : List Nat} {imps : List Import} (d : Describes L img imps)
    (i : Nat) (hi : i < imps.length) : getName L img (ctxOf d) i = some imps[i] := by
  obtain ⟨r1, r2, r3⟩ := d.hrel i hi
  obtain ⟨s1, s2, s3, s4⟩ := d.hsym i hi
  have hsy : (d.sym i * 2 ^ L.symShift + d.rtype i) >>> L.symShift % 2 ^ 32 = d.sym i := by
    rw [Nat.shiftRight_eq_div_pow, Nat.mul_comm, Nat.mul_add_div (Nat.pow_pos (by decide)),
      Nat.div_eq_of_lt r2, Nat.add_zero, Nat.mod_eq_of_lt r1]
  have hrs : relSym L img (ctxOf d) i = some (d.sym i) := by
    unfold relSym ctxOf
    simp only []
    rw [rd_field _ _ _ _ (d.htypes d.r d.hr), rd_field _ _ _ _ d.hrelOff]
    simp only []
    rw [rd_field _ _ _ _ r3, Option.map_some, hsy]
  have hso : ∀ k o, Field img (d.shoff + k * L.shdr + L.shOffset) L.w o →
      sectionOffset L img k = some o := by
    intro k o h
    unfold sectionOffset
    rw [rd_field _ _ _ _ d.hshoff, Option.bind_some, rd_field _ _ _ _ h]
  have hsl : sectionLink L img d.y = some d.z := by
    unfold sectionLink
    rw [rd_field _ _ _ _ d.hshoff, Option.bind_some, rd_field _ _ _ _ d.hz]
  have hdl : rd img ((ctxOf d).relSection + L.shLink) 4 = some d.y := rd_field _ _ _ _ d.hy
  unfold getName
  simp only [hrs, hdl, hsl, hso _ _ d.hsymOff, hso _ _ d.hstrOff, rd_field _ _ _ _ s1,
    rd_field _ _ _ _ s2, cstring_str _ _ _ s4, Option.bind_eq_bind, Option.bind_some,
    Nat.mod_eq_of_lt s3]

theorem inMap_eq (name : List Nat) (m : Map) :
    inMap name m = (m.find? (fun e => e.1 = name)).map (·.2) := by
  induction m with
  | nil => rfl
  | cons e m ih =>
    obtain ⟨n, a⟩ := e
    rw [inMap, List.find?]
    by_cases h : name = n
    · simp [h]
    · have : ¬ n = name := fun e => h e.symm
      simp [h, this, ih]

theorem findAddress_eq (name : List Nat) (maps : List Map) :
    findAddress name maps = (lookup name maps).getD 0 := by
  induction maps with
  | nil => rfl
  | cons m ms ih =>
    rw [findAddress, inMap_eq]
    unfold lookup at ih ⊢
    rw [List.flatten_cons, List.find?_append]
    cases h : List.find? (fun e => decide (e.1 = name)) m with
    | none => simpa using ih
    | some e => simp

theorem bindLoop_eq {L : Layout} {img : List Nat} {imps : List Import} (d : Describes L img imps)
    (maps : List Map) (n i fails : Nat) (got : List Slot) (hn : i + n = imps.length) :
    ∃ f got', bindLoop L img (ctxOf d) maps n i fails got = some (f, got') ∧
      (f = 0 ↔ fails = 0 ∧ ∀ x ∈ imps.drop i, slot maps x ≠ none) ∧
      (f = 0 → got'.map some = got.map some ++ (imps.drop i).map (slot maps)) := by
  induction n generalizing i fails got with
  | zero =>
    have : imps.drop i = [] := List.drop_eq_nil_of_le (by omega)
    exact ⟨fails, got, rfl, by simp [this], by simp [this]⟩
  | succ n ih =>
    have hi : i < imps.length := by omega
    rw [bindLoop, getName_eq d i hi, List.drop_eq_getElem_cons hi]
    generalize imps[i] = x
    obtain ⟨name, value⟩ := x
    simp only []
    have hfa := findAddress_eq name maps
    by_cases hv : value ≠ 0
    · have hs : slot maps (name, value) = some (.own value) := by simp [slot, hv]
      rw [if_pos hv]
      obtain ⟨f, got', h1, h2, h3⟩ := ih (i + 1) fails (got ++ [.own value]) (by omega)
      refine ⟨f, got', h1, ?_, ?_⟩
      · rw [h2]; simp [hs]
      · intro hf; rw [h3 hf]; simp [hs]
    · rw [if_neg hv]
      have hv0 : value = 0 := by omega
      by_cases hf : findAddress name maps = 0
      · have hs : slot maps (name, value) = none := by
          unfold slot
          rw [if_neg (by simpa using hv0)]
          simp only []
          rw [hf] at hfa
          cases hl : lookup name maps with
          | none => rfl
          | some a =>
            rw [hl] at hfa
            simp at hfa
            simp [← hfa]
        rw [if_pos hf]
        obtain ⟨f, got', h1, h2, h3⟩ := ih (i + 1) (fails + 1) got (by omega)
        have hf0 : f ≠ 0 := by intro e; have := (h2.mp e).1; omega
        refine ⟨f, got', h1, ?_, fun e => absurd e hf0⟩
        constructor
        · intro e; exact absurd e hf0
        · intro e; exact absurd hs (e.2 _ (List.mem_cons_self ..))
      · have hs : slot maps (name, value) = some (.ext (findAddress name maps)) := by
          unfold slot
          rw [if_neg (by simpa using hv0)]
          simp only []
          cases hl : lookup name maps with
          | none => rw [hl] at hfa; simp at hfa; exact absurd hfa hf
          | some a =>
            rw [hl] at hfa
            simp at hfa
            simp only [hfa]
            rw [if_neg (by rw [← hfa]; exact hf)]
        rw [if_neg hf]
        by_cases hz : fails = 0
        · rw [if_pos hz]
          obtain ⟨f, got', h1, h2, h3⟩ := ih (i + 1) fails (got ++ [.ext (findAddress name maps)]) (by omega)
          refine ⟨f, got', h1, ?_, ?_⟩
          · rw [h2]; simp [hs]
          · intro hf; rw [h3 hf]; simp [hs]
        · rw [if_neg hz]
          obtain ⟨f, got', h1, h2, h3⟩ := ih (i + 1) fails got (by omega)
          have hf0 : f ≠ 0 := by intro e; exact hz (h2.mp e).1
          refine ⟨f, got', h1, ?_, fun e => absurd e hf0⟩
          constructor
          · intro e; exact absurd e hf0
          · intro e; exact absurd e.1 hz

/-! ## C39 Dynamic binding is complete and shadowing -/

/-- For every executable and every chain of link maps: the program is entered with a table exactly
if every slot is defined, and then every slot of the table is the required one; otherwise it is
not entered.  No read leaves the image. -/
theorem C39_binding (L : Layout) (hL : L = elf64 ∨ L = elf32) (img : List Nat) (imps : List Import)
    (d : Describes L img imps) (maps : List Map) :
    ∃ ctx, load L img = some (some ctx) ∧ ctx.numLinks = imps.length ∧
      ((∃ x ∈ imps, slot maps x = none) → invoke L img ctx maps = some none) ∧
      ((∀ x ∈ imps, slot maps x ≠ none) →
        ∃ got, invoke L img ctx maps = some (some got) ∧ got.map some = imps.map (slot maps)) := by
  have hp : 0 < L.rel ∧ 0 < L.rela := by rcases hL with rfl | rfl <;> decide
  obtain ⟨f, got', h1, h2, h3⟩ := bindLoop_eq d maps imps.length 0 0 [] (by omega)
  refine ⟨ctxOf d, load_eq d hp, rfl, ?_, ?_⟩
  · rintro ⟨x, hx, hs⟩
    have hf : f ≠ 0 := by
      intro e
      exact (h2.mp e).2 x (by simpa using hx) hs
    unfold invoke
    rw [show (ctxOf d).numLinks = imps.length from rfl, h1, Option.map_some, if_pos (by simp; omega)]
  · intro hs
    have hf : f = 0 := h2.mpr ⟨rfl, by simpa using hs⟩
    refine ⟨got', ?_, by simpa using h3 hf⟩
    unfold invoke
    rw [show (ctxOf d).numLinks = imps.length from rfl, h1, Option.map_some, if_neg (by simp; omega)]

/-- Little-endian bytes, for building an example image. -/
def le (v : Nat) : Nat → List Nat
  | 0 => []
  | w + 1 => v % 256 :: le (v / 256) w

/-- Section header of the example image. -/
def exShdr (type flags off size link ent : Nat) : List Nat :=
  le 0 4 ++ le type 4 ++ le flags 8 ++ le 0 8 ++ le off 8 ++ le size 8 ++ le link 4 ++ le 0 4 ++
    le 8 8 ++ le ent 8

/-- Example: a 64-bit program importing `ab` and defining `c`. -/
def exImage : List Nat :=
  le 0x464c457f 4 ++ [2, 1, 1, 0] ++ le 0 8 ++ le 3 2 ++ le 62 2 ++ le 1 4 ++ le 0 8 ++ le 0 8 ++
    le 64 8 ++ le 0 4 ++ le 64 2 ++ le 0 2 ++ le 0 2 ++ le 64 2 ++ le 4 2 ++ le 3 2 ++
  exShdr 0 0 0 0 0 0 ++ exShdr 3 0 440 6 0 0 ++ exShdr 11 2 368 72 1 24 ++
    exShdr 4 0x42 320 48 2 24 ++
  le 0x1000 8 ++ le (1 * 2 ^ 32 + 7) 8 ++ le 0 8 ++ le 0x1008 8 ++ le (2 * 2 ^ 32 + 7) 8 ++ le 0 8 ++
  le 0 24 ++ le 1 4 ++ [18, 0, 0, 0] ++ le 0 8 ++ le 0 8 ++
    le 4 4 ++ [18, 0, 5, 0] ++ le 0x500 8 ++ le 0 8 ++
  [0, 97, 98, 0, 99, 0]

instance (img : List Nat) (off w v : Nat) : Decidable (Field img off w v) := by
  unfold Field; infer_instance

instance (img : List Nat) (off : Nat) (s : List Nat) : Decidable (Str img off s) :=
  decidable_of_iff ((∀ c ∈ s, c ≠ 0) ∧ ∀ k < s.length + 1, img[off + k]? = (s ++ [0])[k]?)
    (by unfold Str; constructor
        · exact fun h => ⟨h.1, fun k hk => h.2 k (by omega)⟩
        · exact fun h => ⟨h.1, fun k hk => h.2 k (by omega)⟩)

/-- The example image meets the hypotheses of `C39_binding`. -/
def exDescribes : Describes elf64 exImage [([97, 98], 0), ([99], 0x500)] where
  magic := by decide +kernel
  cls := by decide +kernel
  data := by decide +kernel
  version := by decide +kernel
  type := by decide +kernel
  machine := by decide +kernel
  shoff := 64
  shnum := 4
  hshoff := by decide +kernel
  hshnum := by decide +kernel
  types := fun i => [0, 3, 11, 4].getD i 0
  flags := fun i => [0, 0, 2, 0x42].getD i 0
  htypes := by decide +kernel
  hflags := by decide +kernel
  r := 3
  hr := by decide
  first := by left; decide +kernel
  relOff := 320
  hrelOff := by decide +kernel
  hent := by decide +kernel
  hsize := by decide +kernel
  y := 2
  hy := by decide +kernel
  symOff := 368
  hsymOff := by decide +kernel
  z := 1
  hz := by decide +kernel
  strOff := 440
  hstrOff := by decide +kernel
  sym := fun i => i + 1
  rtype := fun _ => 7
  name := fun i => [1, 4].getD i 0
  hrel := by decide +kernel
  hsym := by decide +kernel
  count := by decide

example : ∃ ctx, load elf64 exImage = some (some ctx) ∧
    invoke elf64 exImage ctx [[([97], 10)], [([97, 98], 20), ([97, 98], 30)]] =
      some (some [.ext 20, .own 0x500]) := by
  refine ⟨⟨64 + 3 * 64, 2⟩, ?_, ?_⟩ <;> decide +kernel

/-! ## C67 Loading any file is memory-safe -/

/-- Full claim: whatever file is loaded, no read leaves it. -/
def C67_full : Prop := ∀ (img : List Nat) (maps : List Map), (∀ b ∈ img, b < 256) →
  ∃ r, load elf64 img = some r ∧ ∀ ctx, r = some ctx → invoke elf64 img ctx maps ≠ none

/-- The loader trusts all offsets: a file consisting of a 64-byte header that announces a section
table beyond its end is read outside the mapping. -/
theorem C67_violated : ¬ C67_full := by
  intro h
  obtain ⟨r, hr, _⟩ := h (exImage.take 64) [] (by decide +kernel)
  have : load elf64 (exImage.take 64) = none := by decide +kernel
  rw [this] at hr
  cases hr

/-- Missing for the full claim: only files that consistently describe a program are handled
safely. -/
theorem C67_safe_partial (L : Layout) (hL : L = elf64 ∨ L = elf32) (img : List Nat)
    (imps : List Import) (d : Describes L img imps) (maps : List Map) :
    ∃ ctx, load L img = some (some ctx) ∧ invoke L img ctx maps ≠ none := by
  obtain ⟨ctx, h1, _, h3, h4⟩ := C39_binding L hL img imps d maps
  refine ⟨ctx, h1, ?_⟩
  by_cases h : ∃ x ∈ imps, slot maps x = none
  · rw [h3 h]; simp
  · obtain ⟨got, h5, _⟩ := h4 (fun x hx hn => h ⟨x, hx, hn⟩)
    rw [h5]; simp

/-! ## C70 Only programs for this machine are loaded -/

/-- The first bytes of a file say: shared object for the given class and machine, little-endian, version 1. -/
def Spec.Native (cls machine : Nat) (img : List Nat) : Prop :=
  ∃ abi, abi.length = 9 ∧ [0x7f, 0x45, 0x4c, 0x46, cls, 1, 1] ++ abi ++ [3, 0, machine % 256, machine / 256] <+: img

/-- **C70.** For every file that is long enough for a header: if it is loaded, its header is that of a
program for this machine; otherwise it is refused before anything else of it is looked at. -/
theorem C70_native (L : Layout) (img : List Nat) (hb : ∀ b ∈ img, b < 256) (hl : 20 ≤ img.length) :
    (∀ ctx, load L img = some (some ctx) → Native L.cls L.machine img) ∧
    (¬ Native L.cls L.machine img → load L img = some none) := by
  obtain ⟨b0, b1, b2, b3, b4, b5, b6, r, rfl⟩ : ∃ b0 b1 b2 b3 b4 b5 b6 r, img = b0 :: b1 :: b2 :: b3 :: b4 :: b5 :: b6 :: r := by
    match img, hl with
    | b0 :: b1 :: b2 :: b3 :: b4 :: b5 :: b6 :: r, _ => exact ⟨_, _, _, _, _, _, _, _, rfl⟩
  obtain ⟨abi, s, rfl, habi⟩ : ∃ abi s, r = abi ++ s ∧ abi.length = 9 :=
    ⟨r.take 9, r.drop 9, by simp, by simp at hl ⊢; omega⟩
  obtain ⟨c0, c1, c2, c3, t, rfl⟩ : ∃ c0 c1 c2 c3 t, s = c0 :: c1 :: c2 :: c3 :: t := by
    match s, hl with
    | c0 :: c1 :: c2 :: c3 :: t, _ => exact ⟨_, _, _, _, _, rfl⟩
    | [], hl | [_], hl | [_, _], hl | [_, _, _], hl => simp [habi] at hl
  have g : ∀ k x, (c0 :: c1 :: c2 :: c3 :: t)[k]? = some x → (b0 :: b1 :: b2 :: b3 :: b4 :: b5 :: b6 :: (abi ++ c0 :: c1 :: c2 :: c3 :: t))[16 + k]? = some x := by
    intro k x h
    rw [show 16 + k = 9 + k + 1 + 1 + 1 + 1 + 1 + 1 + 1 from by omega]
    simp only [List.getElem?_cons_succ]
    rw [List.getElem?_append_right (by omega), habi, Nat.add_sub_cancel_left]
    exact h
  have hchk : checkHeader L (b0 :: b1 :: b2 :: b3 :: b4 :: b5 :: b6 :: (abi ++ c0 :: c1 :: c2 :: c3 :: t)) =
      some (decide (b0 + 256 * (b1 + 256 * (b2 + 256 * b3)) = 0x464c457f ∧ b6 = 1 ∧ b5 = 1 ∧ b4 = L.cls ∧ c0 + 256 * c1 = 3 ∧ c2 + 256 * c3 = L.machine)) := by
    have g0 := g 0 c0 rfl
    have g1 := g 1 c1 rfl
    have g2 := g 2 c2 rfl
    have g3 := g 3 c3 rfl
    unfold checkHeader
    simp only [rd]
    rw [g0, g1, g2, g3]
    simp
  have hb' : b0 < 256 ∧ b1 < 256 ∧ b2 < 256 ∧ b3 < 256 ∧ c0 < 256 ∧ c1 < 256 ∧ c2 < 256 ∧ c3 < 256 := by
    refine ⟨?_, ?_, ?_, ?_, ?_, ?_, ?_, ?_⟩ <;> exact hb _ (by simp)
  have hnat : Native L.cls L.machine (b0 :: b1 :: b2 :: b3 :: b4 :: b5 :: b6 :: (abi ++ c0 :: c1 :: c2 :: c3 :: t)) ↔
      b0 + 256 * (b1 + 256 * (b2 + 256 * b3)) = 0x464c457f ∧ b6 = 1 ∧ b5 = 1 ∧ b4 = L.cls ∧ c0 + 256 * c1 = 3 ∧ c2 + 256 * c3 = L.machine := by
    constructor
    · rintro ⟨a, ha, u, hu⟩
      simp only [List.cons_append, List.nil_append, List.append_assoc, List.cons.injEq] at hu
      obtain ⟨h0, h1, h2, h3, h4, h5, h6, hu⟩ := hu
      obtain ⟨-, hu⟩ := List.append_inj hu (by omega)
      simp only [List.cons.injEq] at hu
      obtain ⟨k0, k1, k2, k3, -⟩ := hu
      omega
    · rintro ⟨h0, h6, h5, h4, hc, hm⟩
      refine ⟨abi, habi, t, ?_⟩
      have : b0 = 0x7f ∧ b1 = 0x45 ∧ b2 = 0x4c ∧ b3 = 0x46 ∧ c0 = 3 ∧ c1 = 0 ∧ c2 = L.machine % 256 ∧ c3 = L.machine / 256 := by omega
      obtain ⟨rfl, rfl, rfl, rfl, rfl, rfl, h7, h8⟩ := this
      simp [h4, h5, h6, h7, h8]
  rw [hnat]
  unfold load
  rw [hchk]
  refine ⟨fun ctx h => ?_, fun h => ?_⟩
  · by_cases hp : b0 + 256 * (b1 + 256 * (b2 + 256 * b3)) = 0x464c457f ∧ b6 = 1 ∧ b5 = 1 ∧ b4 = L.cls ∧ c0 + 256 * c1 = 3 ∧ c2 + 256 * c3 = L.machine
    · exact hp
    · rw [decide_eq_false hp] at h; cases h
  · rw [decide_eq_false h]

/-- A script is refused, the example program is accepted. -/
example : load elf64 (List.replicate 64 35) = some none ∧ 20 ≤ exImage.length ∧ ∃ ctx, load elf64 exImage = some (some ctx) := by
  refine ⟨by decide +kernel, by decide +kernel, ⟨64 + 3 * 64, 2⟩, by decide +kernel⟩

end Fpm.Loader
