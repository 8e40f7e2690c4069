import Verif.FatDir.Model
import Verif.FatDir.Spec
import Verif.Lfn.Props
/-!
# Sequences of long name entries
-/
namespace Fpm.FatDir
open Fpm.FatDir.Spec Fpm.Lfn Fpm.Lfn.Spec

theorem llef : ∀ b < 256, (b &&& 0x40 ≠ 0 → b = (b &&& 0xBF) + 0x40) ∧ b &&& 0xBF ≠ 0xFF ∧ (b &&& 0x40 = 0 → b ≠ 0xFF) := by decide +kernel

theorem byte_lt {e : List Nat} (h : ∀ b ∈ e, b < 256) (o : Nat) : byte e o < 256 := by
  unfold byte
  rw [List.getD_eq_getElem?_getD]
  cases hx : e[o]? with
  | none => decide
  | some b => exact h b (List.mem_of_getElem? hx)

/-- A sequence of which `ord` parts are still to come. -/
def PartSeq (b : List (List Nat)) (ord sum : Nat) : Prop :=
  b ≠ [] ∧ ∀ j < b.length, byte (b.getD j []) 0 = ord + b.length - j + (if j = 0 then 0x40 else 0) ∧ byte (b.getD j []) 13 = sum

theorem claims_of {b : List (List Nat)} {sum : Nat} (h : PartSeq b 0 sum) : Claims b sum := ⟨h.1, fun j hj => by have := h.2 j hj; rw [Nat.zero_add] at this; exact this⟩

/-- State of the sequence after the leftovers `j`, which start at index `i`. -/
def Inv (i : Nat) (j : List (List Nat)) (q : Seq) : Prop :=
  q.ord = 0xFF ∨ ∃ a b, j = a ++ b ∧ PartSeq b q.ord q.sum ∧ q.blk = some (i + a.length)

theorem inv_start (i : Nat) (sum : Nat) (blk : Option Nat) : Inv i [] ⟨0xFF, sum, blk⟩ := .inl rfl

theorem inv_ord {i : Nat} {j : List (List Nat)} {q : Seq} (h : Inv i j q) {s : List Nat} (hb : Broken j s) : ¬ (q.ord = 0 ∧ q.sum = sumSfn s) := by
  rintro ⟨h0, hs⟩
  rcases h with h | ⟨a, b, hj, hp, _⟩
  · omega
  · rw [h0, hs] at hp
    exact hb ⟨a, b, hj, claims_of hp⟩

theorem getD_append_self (b : List (List Nat)) (e : List Nat) : (b ++ [e]).getD b.length [] = e := by simp

theorem getD_append_lt {b : List (List Nat)} {e : List (List Nat)} {k : Nat} (h : k < b.length) : (b ++ e).getD k [] = b.getD k [] := by
  simp [List.getD_eq_getElem?_getD, List.getElem?_append_left h]

/-- An accepted entry continues or starts the sequence. -/
theorem inv_step {i : Nat} {j : List (List Nat)} {q : Seq} (h : Inv i j q) {e : List Nat} (he : LfnEntry e) (hb : ∀ b ∈ e, b < 256)
    (h1 : seqOrd e = (seqStart (i + j.length) e q).ord) (h2 : (seqStart (i + j.length) e q).sum = byte e 13) (h3 : byte e 0 &&& 0xBF ≠ 0) :
    Inv i (j ++ [e]) { seqStart (i + j.length) e q with ord := (seqStart (i + j.length) e q).ord - 1 } := by
  have hll := llef _ (byte_lt hb 0)
  right
  by_cases hm : byte e 0 &&& 0x40 ≠ 0
  · unfold seqStart
    rw [if_pos hm]
    simp only
    refine ⟨j, [e], rfl, ⟨by simp, fun k hk => ?_⟩, rfl⟩
    simp at hk
    subst hk
    simp only [List.getD_cons_zero, List.length_singleton, if_true]
    have := hll.1 hm
    exact ⟨by omega, trivial⟩
  · unfold seqStart seqOrd at *
    rw [if_neg hm] at h1 h2 ⊢
    rw [if_neg hm] at h1
    rcases h with h | ⟨a, b, hj, hp, hk⟩
    · have := hll.2.2 (by omega)
      omega
    · refine ⟨a, b ++ [e], by rw [hj]; simp, ⟨by simp, fun k hk' => ?_⟩, hk⟩
      simp only
      have h0 := he.used.1
      by_cases hkb : k < b.length
      · rw [getD_append_lt hkb]
        have := hp.2 k hkb
        refine ⟨?_, this.2⟩
        rw [this.1]
        simp
        omega
      · have hke : k = b.length := by simp at hk'; omega
        subst hke
        rw [getD_append_self]
        have hbl := List.length_pos_iff.mpr hp.1
        rw [if_neg (by omega)]
        refine ⟨?_, h2.symm⟩
        simp
        omega

/-! ## Accepted entries have a number -/

theorem pick_ord {buf e buf' : List Nat} (h : pickLfn buf e = some (some buf')) : byte e 0 &&& 0xBF ≠ 0 := by
  intro h0
  unfold pickLfn at h
  rw [h0] at h
  split at h
  · cases h
  · have : pickLoop e lfnOfs buf (partOfs 0) 1 = some none := by
      unfold lfnOfs
      rw [pickLoop, if_pos (by decide), if_pos (by decide)]
    rw [this] at h
    cases h

theorem cmp_ord {buf e : List Nat} (h : cmpLfn buf e = some true) : byte e 0 &&& 0x3F ≠ 0 := by
  intro h0
  unfold cmpLfn at h
  rw [h0] at h
  split at h
  · cases h
  · have : cmpLoop buf e lfnOfs (partOfs 0) 1 = some none := by
      unfold lfnOfs
      rw [cmpLoop, if_pos (by decide), if_pos (by decide)]
    rw [this] at h
    cases h

theorem mask : ∀ b < 256, b &&& 0x3F ≠ 0 → b &&& 0xBF ≠ 0 := by decide +kernel

theorem attr_lfn {e : List Nat} (h : LfnEntry e) : attr e = 0x0F := h.attr

/-! ## dir_read -/

theorem readLoop_lfn {e : List Nat} {t : List (List Nat)} {i : Nat} {q : Seq} {buf : List Nat} (h : LfnEntry e) :
    readLoop (e :: t) i q buf = match readLfn i e q buf with | none => .ub | some (q, buf) => readLoop t (i + 1) q buf := by
  obtain ⟨h0, h1, h2⟩ := h.used
  rw [readLoop, if_neg h0, if_neg, if_pos (attr_lfn h)]
  · rfl
  · rw [attr_lfn h]
    intro h
    rcases h with h | h | h
    · exact h1 h
    · exact h2 h
    · exact absurd h (by decide)

/-- Leftovers. -/
theorem read_junk {i0 : Nat} {t : List (List Nat)} : ∀ (j done : List (List Nat)) (q : Seq) (buf : List Nat), (∀ e ∈ j, LfnEntry e) → Table j → buf.length = 256 → Inv i0 done q →
    ∃ q' buf', readLoop (j ++ t) (i0 + done.length) q buf = readLoop t (i0 + (done ++ j).length) q' buf' ∧ buf'.length = 256 ∧ Inv i0 (done ++ j) q'
  | [], done, q, buf, _, _, hb, hi => ⟨q, buf, by simp, hb, by simpa using hi⟩
  | e :: j, done, q, buf, hl, ht, hb, hi => by
    have he := hl e (by simp)
    have hte := ht e (by simp)
    rw [List.cons_append, readLoop_lfn he]
    have key : ∃ q' buf', readLfn (i0 + done.length) e q buf = some (q', buf') ∧ buf'.length = 256 ∧ Inv i0 (done ++ [e]) q' := by
      unfold readLfn
      by_cases hc : seqOrd e = (seqStart (i0 + done.length) e q).ord ∧ (seqStart (i0 + done.length) e q).sum = byte e 13
      · rw [if_pos hc]
        obtain ⟨r, e1, h1⟩ := pickLfn_def e buf hb
        rw [e1]
        cases r with
        | none => exact ⟨_, _, rfl, hb, .inl rfl⟩
        | some b => exact ⟨_, _, rfl, h1 b rfl, inv_step hi he hte.2 hc.1 hc.2 (pick_ord e1)⟩
      · rw [if_neg hc]
        exact ⟨_, _, rfl, hb, .inl rfl⟩
    obtain ⟨q', buf', e1, h1, h2⟩ := key
    rw [e1]
    simp only
    have ih := read_junk (i0 := i0) (t := t) j (done ++ [e]) q' buf' (fun x hx => hl x (by simp [hx])) (fun x hx => ht x (by simp [hx])) h1 h2
    rw [show i0 + (done ++ [e]).length = i0 + done.length + 1 by simp; omega] at ih
    simpa using ih

theorem part_entry {n : List Nat} (hn : Name n) {sum j : Nat} {e : List Nat} (hj : j < parts n) (h : Part n sum j e) : LfnEntry e := by
  have h20 := parts_le hn
  have ho := h.ord
  refine ⟨?_, by rw [h.attr]; decide⟩
  rw [ho]
  split <;> omega

theorem part_mark {n : List Nat} (hn : Name n) {sum j : Nat} {e : List Nat} (hj : j < parts n) (h : Part n sum j e) :
    (byte e 0 &&& 0x40 ≠ 0 ↔ j + 1 = parts n) ∧ seqOrd e = j + 1 := by
  obtain ⟨_, h2, h3⟩ := part_ord hn hj h
  refine ⟨h3, ?_⟩
  unfold seqOrd
  by_cases hm : byte e 0 &&& 0x40 ≠ 0
  · rw [if_pos hm, h2]
  · rw [if_neg hm, h.ord, if_neg (fun h => hm (h3.mpr h))]

/-- The parts of a name. -/
theorem read_stored {n : List Nat} (hn : Name n) {sum : Nat} {t : List (List Nat)} : ∀ {k : Nat} {es : List (List Nat)}, Stored n sum k es → k ≤ parts n →
    ∀ (i : Nat) (q : Seq) (buf buf' : List Nat), (k < parts n → q.ord = k ∧ q.sum = sum) → 0 < k ∨ k < parts n → pickAll es buf = some (some buf') →
    readLoop (es ++ t) i q buf = readLoop t (i + es.length) ⟨0, sum, if k = parts n then some i else q.blk⟩ buf'
  | 0, _, .nil, _, i, q, buf, buf', hq, h0, hp => by
    have := hq (by omega)
    cases hp
    rw [if_neg (by omega)]
    obtain ⟨o, s, b⟩ := q
    simp only at this
    obtain ⟨rfl, rfl⟩ := this
    rfl
  | k + 1, _, .cons (e := e) (es := es) h hs, hk, i, q, buf, buf', hq, _, hp => by
    rw [List.cons_append, readLoop_lfn (part_entry hn (by omega) h)]
    rw [pickAll] at hp
    obtain ⟨hm, ho⟩ := part_mark hn (by omega) h
    have hst : seqStart i e q = ⟨k + 1, sum, if k + 1 = parts n then some i else q.blk⟩ := by
      unfold seqStart
      by_cases hl : k + 1 = parts n
      · rw [if_pos (hm.mpr hl), if_pos hl, h.chk, (part_ord hn (by omega) h).2.1]
      · rw [if_neg (fun x => hl (hm.mp x)), if_neg hl]
        have := hq (by omega)
        obtain ⟨o, s, b⟩ := q
        simp only at this
        obtain ⟨rfl, rfl⟩ := this
        rfl
    cases hpe : pickLfn buf e with
    | none => rw [hpe] at hp; cases hp
    | some r =>
      cases r with
      | none => rw [hpe] at hp; cases hp
      | some b =>
        rw [hpe] at hp
        simp only at hp
        have : readLfn i e q buf = some (⟨k, sum, if k + 1 = parts n then some i else q.blk⟩, b) := by
          unfold readLfn
          rw [hst, if_pos ⟨ho, h.chk.symm⟩, hpe]
          rfl
        rw [this]
        simp only
        rw [read_stored hn hs (by omega) (i + 1) _ b buf' (fun _ => ⟨rfl, rfl⟩) (.inr (by omega)) hp]
        rw [if_neg (by omega)]
        congr 1
        simp
        omega

/-! ## dir_find -/

theorem findLoop_lfn {fn buf : List Nat} {fl : Nat} {e : List Nat} {t : List (List Nat)} {i : Nat} {q : Seq} (h : LfnEntry e) :
    findLoop fn fl buf (e :: t) i q = match findLfn i e fl q buf with | none => .ub | some q => findLoop fn fl buf t (i + 1) q := by
  obtain ⟨h0, h1, h2⟩ := h.used
  rw [findLoop, if_neg h0, if_neg, if_pos (attr_lfn h)]
  · rfl
  · rw [attr_lfn h]
    intro h
    rcases h with h | h
    · exact h1 h
    · exact h.2 rfl

/-- The start of the block lies in the leftovers, or there is none. -/
def BlkIn (i j : Nat) (q : Seq) : Prop := q.blk = none ∨ ∃ p, q.blk = some p ∧ i ≤ p ∧ p < j

theorem blk_start {i0 i : Nat} {e : List Nat} {q : Seq} (h : BlkIn i0 i q) (hi : i0 ≤ i) : BlkIn i0 (i + 1) (seqStart i e q) := by
  unfold seqStart
  split
  · exact .inr ⟨i, rfl, hi, by omega⟩
  · rcases h with h | ⟨p, h1, h2, h3⟩
    · exact .inl h
    · exact .inr ⟨p, h1, h2, by omega⟩

theorem find_junk {i0 fl : Nat} {fn buf : List Nat} (hb : buf.length = 256) {t : List (List Nat)} : ∀ (j done : List (List Nat)) (q : Seq), (∀ e ∈ j, LfnEntry e) → Table j → Inv i0 done q → BlkIn i0 (i0 + done.length) q → (fl &&& 0x40 ≠ 0 → q.ord = 0xFF) →
    ∃ q', findLoop fn fl buf (j ++ t) (i0 + done.length) q = findLoop fn fl buf t (i0 + (done ++ j).length) q' ∧ Inv i0 (done ++ j) q' ∧ BlkIn i0 (i0 + (done ++ j).length) q' ∧ (fl &&& 0x40 ≠ 0 → q' = q)
  | [], done, q, _, _, hi, hk, _ => ⟨q, by simp, by simpa using hi, by simpa using hk, fun _ => rfl⟩
  | e :: j, done, q, hl, ht, hi, hk, hno => by
    have he := hl e (by simp)
    have hte := ht e (by simp)
    rw [List.cons_append, findLoop_lfn he]
    have key : ∃ q', findLfn (i0 + done.length) e fl q buf = some q' ∧ Inv i0 (done ++ [e]) q' ∧ BlkIn i0 (i0 + done.length + 1) q' ∧ (fl &&& 0x40 ≠ 0 → q' = q) := by
      unfold findLfn
      by_cases hf : fl &&& 0x40 = 0
      · rw [if_pos hf]
        have hbs := blk_start (e := e) hk (by omega)
        by_cases hc : seqOrd e = (seqStart (i0 + done.length) e q).ord ∧ (seqStart (i0 + done.length) e q).sum = byte e 13
        · rw [if_pos hc]
          obtain ⟨r, e1⟩ := cmpLfn_def e buf hb
          rw [e1]
          simp only
          cases r with
          | false => exact ⟨_, rfl, .inl rfl, hbs, fun h => absurd hf h⟩
          | true => exact ⟨_, rfl, inv_step hi he hte.2 hc.1 hc.2 (mask _ (byte_lt hte.2 0) (cmp_ord e1)), hbs, fun h => absurd hf h⟩
        · rw [if_neg hc]
          exact ⟨_, rfl, .inl rfl, hbs, fun h => absurd hf h⟩
      · rw [if_neg hf]
        refine ⟨q, rfl, ?_, ?_, fun _ => rfl⟩
        · exact .inl (hno hf)
        · rcases hk with h | ⟨p, h1, h2, h3⟩
          · exact .inl h
          · exact .inr ⟨p, h1, h2, by omega⟩
    obtain ⟨q', e1, h1, h2, h3⟩ := key
    rw [e1]
    simp only
    have ih := find_junk (i0 := i0) (fl := fl) (fn := fn) hb (t := t) j (done ++ [e]) q' (fun x hx => hl x (by simp [hx])) (fun x hx => ht x (by simp [hx])) h1 (by simpa [Nat.add_assoc] using h2) (fun h => by rw [h3 h]; exact hno h)
    rw [show i0 + (done ++ [e]).length = i0 + done.length + 1 by simp; omega] at ih
    obtain ⟨q'', a, b, c, d⟩ := ih
    refine ⟨q'', by simpa using a, by simpa using b, by simpa using c, fun h => by rw [d h, h3 h]⟩

/-- After a difference the rest of the parts is passed over. -/
theorem find_rest {n : List Nat} (hn : Name n) {sum fl : Nat} {fn buf : List Nat} (hf : fl &&& 0x40 = 0) {t : List (List Nat)} : ∀ {k : Nat} {es : List (List Nat)}, Stored n sum k es → k < parts n →
    ∀ (i : Nat) (q : Seq), q.ord = 0xFF → findLoop fn fl buf (es ++ t) i q = findLoop fn fl buf t (i + es.length) q
  | 0, _, .nil, _, i, q, _ => rfl
  | k + 1, _, .cons (e := e) (es := es) h hs, hk, i, q, hq => by
    rw [List.cons_append, findLoop_lfn (part_entry hn (by omega) h)]
    obtain ⟨hm, ho⟩ := part_mark hn (by omega) h
    have h20 := parts_le hn
    have hst : seqStart i e q = q := by
      unfold seqStart
      rw [if_neg (fun x => by have := hm.mp x; omega)]
    have : findLfn i e fl q buf = some q := by
      unfold findLfn
      rw [if_pos hf, hst, if_neg (by omega)]
      obtain ⟨o, s, b⟩ := q
      simp only at hq
      subst hq
      rfl
    rw [this]
    simp only
    rw [find_rest hn hf hs (by omega) (i + 1) q hq]
    congr 1
    simp
    omega

/-- The parts of a name. -/
theorem find_stored {n : List Nat} (hn : Name n) {sum fl : Nat} {fn buf : List Nat} (hf : fl &&& 0x40 = 0) {t : List (List Nat)} : ∀ {k : Nat} {es : List (List Nat)}, Stored n sum k es → k ≤ parts n →
    ∀ (i : Nat) (q : Seq) (r : Bool), (k < parts n → q.ord = k ∧ q.sum = sum) → 0 < k ∨ k < parts n → cmpAll buf es = some r →
    findLoop fn fl buf (es ++ t) i q = findLoop fn fl buf t (i + es.length) ⟨if r then 0 else 0xFF, sum, if k = parts n then some i else q.blk⟩
  | 0, _, .nil, _, i, q, r, hq, h0, hp => by
    have := hq (by omega)
    cases hp
    rw [if_neg (by omega : ¬ 0 = parts n)]
    obtain ⟨o, s, b⟩ := q
    simp only at this
    obtain ⟨rfl, rfl⟩ := this
    rfl
  | k + 1, _, .cons (e := e) (es := es) h hs, hk, i, q, r, hq, _, hp => by
    rw [List.cons_append, findLoop_lfn (part_entry hn (by omega) h)]
    rw [cmpAll] at hp
    obtain ⟨hm, ho⟩ := part_mark hn (by omega) h
    have hst : seqStart i e q = ⟨k + 1, sum, if k + 1 = parts n then some i else q.blk⟩ := by
      unfold seqStart
      by_cases hl : k + 1 = parts n
      · rw [if_pos (hm.mpr hl), if_pos hl, h.chk, (part_ord hn (by omega) h).2.1]
      · rw [if_neg (fun x => hl (hm.mp x)), if_neg hl]
        have := hq (by omega)
        obtain ⟨o, s, b⟩ := q
        simp only at this
        obtain ⟨rfl, rfl⟩ := this
        rfl
    cases hpe : cmpLfn buf e with
    | none => rw [hpe] at hp; cases hp
    | some x =>
      have hl : findLfn i e fl q buf = some ⟨if x then k else 0xFF, sum, if k + 1 = parts n then some i else q.blk⟩ := by
        unfold findLfn
        rw [if_pos hf, hst, if_pos ⟨ho, h.chk.symm⟩, hpe]
        rfl
      rw [hl]
      simp only
      rw [hpe] at hp
      cases x with
      | true =>
        simp only at hp
        rw [find_stored hn hf hs (by omega) (i + 1) _ r (fun _ => ⟨rfl, rfl⟩) (.inr (by omega)) hp]
        rw [if_neg (by omega : ¬ k = parts n)]
        congr 1
        simp
        omega
      | false =>
        cases hp
        rw [find_rest hn hf hs (by omega) (i + 1) _ rfl]
        simp only [List.length_cons]
        congr 1
        omega

end Fpm.FatDir
