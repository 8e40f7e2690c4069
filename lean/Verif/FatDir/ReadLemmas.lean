import Verif.FatDir.FindLemmas
import Verif.Names.Props
/-!
# Listing
-/
namespace Fpm.FatDir
open Fpm.FatDir.Spec Fpm.Lfn Fpm.Lfn.Spec Fpm.Names Fpm.Names.Spec Fpm.TextIo.Spec

theorem read_skip {buf : List Nat} {e : List Nat} {t : List (List Nat)} {i : Nat} {q : Seq} (h : Skip e ∨ Sfn e ∧ byte e 0 = 46) (hb : ∀ b ∈ e, b < 256) :
    readLoop (e :: t) i q buf = readLoop t (i + 1) { q with ord := 0xFF } buf := by
  rw [readLoop]
  rcases h with (h | ⟨h0, h⟩) | ⟨_, h⟩
  · rw [if_neg (by omega), if_pos (.inl h)]
  · have := attr_label _ (byte_lt hb 11) h
    rw [if_neg h0, if_pos (.inr (.inr this.2.2))]
  · rw [if_neg (by omega), if_pos (.inr (.inl h))]

theorem read_sfn {buf : List Nat} {e : List Nat} {t : List (List Nat)} {i : Nat} {q : Seq} (h : Sfn e) (hd : byte e 0 ≠ 46) (hb : ∀ b ∈ e, b < 256) :
    readLoop (e :: t) i q buf = .found i (if q.ord ≠ 0 ∨ q.sum ≠ sumSfn e then none else q.blk) buf := by
  have ha := attr_sfn _ (byte_lt hb 11) h.attr
  rw [readLoop, if_neg h.used.1, if_neg, if_neg]
  · exact ha.2.1
  · rintro (h' | h' | h')
    · exact h.used.2 h'
    · exact hd h'
    · exact ha.2.2 h'

/-- What comes before a short entry gives its long name. -/
theorem read_long {buf : List Nat} (hb : buf.length = 256) {i : Nat} {j es : List (List Nat)} {s : List Nat} {long : Option (List Nat)} {t : List (List Nat)} {q : Seq} {c : Bool}
    (hj : Junk c j) (hl : Long j es s long) (ht : Table (j ++ es)) (hq : q.ord = 0xFF) :
    ∃ q' buf', readLoop (j ++ (es ++ s :: t)) i q buf = readLoop (s :: t) (i + j.length + es.length) q' buf' ∧ buf'.length = 256 ∧
      (long = none → ¬ (q'.ord = 0 ∧ q'.sum = sumSfn s)) ∧
      (∀ n, long = some n → q'.ord = 0 ∧ q'.sum = sumSfn s ∧ q'.blk = some (i + j.length) ∧ Name n ∧ Holds buf' n) := by
  obtain ⟨htj, hte⟩ := table_append.mp ht
  obtain ⟨q1, b1, e1, h0, h1⟩ := read_junk (i0 := i) (t := es ++ s :: t) j [] q buf hj.1 htj hb (.inl hq)
  rw [List.length_nil, Nat.add_zero, List.nil_append] at e1
  rw [List.nil_append] at h1
  cases long with
  | none =>
    obtain ⟨rfl, hbr⟩ := hl
    exact ⟨q1, b1, e1, h0, fun _ => inv_ord h1 hbr, fun n h => by cases h⟩
  | some m =>
    obtain ⟨hm, hst⟩ := hl
    obtain ⟨b2, e2, hh⟩ := C56_read m b1 (sumSfn s) es hm hst h0
    have hpos : 0 < parts m := by have := List.length_pos_iff.mpr hm.ne; unfold parts; omega
    rw [read_stored hm hst (Nat.le_refl _) _ q1 b1 b2 (fun h => by omega) (.inl hpos) e2] at e1
    refine ⟨_, b2, e1, hh.1, (fun h => by cases h), fun n hn => ?_⟩
    cases hn
    refine ⟨rfl, rfl, ?_, hm, hh⟩
    simp

/-- The next object is read. -/
theorem read_next {c : Bool} {i : Nat} {t : List (List Nat)} {os : List Obj} (h : Rep c i t os) : ∀ (q : Seq) (buf : List Nat), Table t → q.ord = 0xFF → buf.length = 256 →
    ((∀ o ∈ os, byte o.entry 0 = 46) ∧ readLoop t i q buf = .noFile) ∨
    ∃ a o b blk buf', os = a ++ o :: b ∧ (∀ o' ∈ a, byte o'.entry 0 = 46) ∧ byte o.entry 0 ≠ 46 ∧ readLoop t i q buf = .found o.pos blk buf' ∧ buf'.length = 256 ∧
      (o.long = none → blk = none) ∧ (∀ n, o.long = some n → blk ≠ none ∧ Name n ∧ Holds buf' n) ∧
      ∃ pre post, t = pre ++ o.entry :: post ∧ o.pos = i + pre.length ∧ Rep c (o.pos + 1) post b := by
  induction h with
  | @nil i j hj =>
    intro q buf ht hq hb
    obtain ⟨q1, b1, e1, -⟩ := read_junk (i0 := i) (t := []) j [] q buf hj.1 ht hb (.inl hq)
    rw [List.append_nil, List.length_nil, Nat.add_zero] at e1
    exact .inl ⟨by simp, by rw [e1, readLoop]⟩
  | @fin i j e t hj h0 =>
    intro q buf ht hq hb
    obtain ⟨q1, b1, e1, -⟩ := read_junk (i0 := i) (t := e :: t) j [] q buf hj.1 (table_append.mp ht).1 hb (.inl hq)
    rw [List.length_nil, Nat.add_zero] at e1
    exact .inl ⟨by simp, by rw [e1, readLoop, if_pos h0]⟩
  | @skip i j e t os hj he _ ih =>
    intro q buf ht hq hb
    obtain ⟨htj, ht⟩ := table_append.mp ht
    obtain ⟨hte, ht⟩ := table_cons.mp ht
    obtain ⟨q1, b1, e1, hb1, -⟩ := read_junk (i0 := i) (t := e :: t) j [] q buf hj.1 htj hb (.inl hq)
    rw [List.length_nil, Nat.add_zero, List.nil_append] at e1
    rw [e1, read_skip (.inl he) hte.2]
    rcases ih { q1 with ord := 0xFF } b1 ht rfl hb1 with h | ⟨a, o, b, blk, buf', h1, h2, h3, h4, h5, h6, h7, pre, post, h8, h9, h10⟩
    · exact .inl h
    · exact .inr ⟨a, o, b, blk, buf', h1, h2, h3, h4, h5, h6, h7, j ++ e :: pre, post, by rw [h8]; simp, by rw [h9]; simp; omega, h10⟩
  | @obj i j es s long t os hj hl hs hr ih =>
    intro q buf ht hq hb
    rw [← List.append_assoc] at ht
    obtain ⟨htj, ht⟩ := table_append.mp ht
    obtain ⟨hte, ht⟩ := table_cons.mp ht
    obtain ⟨q1, b1, e1, hb1, hln, hls⟩ := read_long (t := t) (i := i) hb hj hl htj hq
    rw [e1]
    by_cases hd : byte s 0 = 46
    · rw [read_skip (.inr ⟨hs, hd⟩) hte.2]
      rcases ih { q1 with ord := 0xFF } b1 ht rfl hb1 with ⟨h, h'⟩ | ⟨a, o, b, blk, buf', h1, h2, h3, h4, h5, h6, h7, pre, post, h8, h9, h10⟩
      · exact .inl ⟨by simpa using ⟨hd, h⟩, h'⟩
      · exact .inr ⟨⟨i + j.length + es.length, long, s⟩ :: a, o, b, blk, buf', by rw [h1]; rfl, by simpa using ⟨hd, h2⟩, h3, h4, h5, h6, h7, j ++ (es ++ s :: pre), post, by rw [h8]; simp, by rw [h9]; simp; omega, h10⟩
    · rw [read_sfn hs hd hte.2]
      refine .inr ⟨[], ⟨i + j.length + es.length, long, s⟩, os, _, b1, rfl, by simp, hd, rfl, hb1, fun h => ?_, fun n h => ?_, j ++ es, t, by simp, by simp; omega, hr⟩
      · rw [if_pos]
        have := hln h
        omega
      · obtain ⟨h1, h2, h3, h4, h5⟩ := hls n h
        refine ⟨?_, h4, h5⟩
        rw [if_neg (by omega), h3]
        simp

theorem longLoop_def {buf : List Nat} {z : Nat} (hz : buf[z]? = some 0) : ∀ (k si hs : Nat) (out : List Nat), si ≤ z → z - si < k → ∃ r, longLoop buf k si hs out = some r
  | 0, _, _, _, _, h => by omega
  | k + 1, si, hs, out, h1, h2 => by
    rw [longLoop]
    have hlt : si < buf.length := by have := (List.getElem?_eq_some_iff.mp hz).1; omega
    rw [List.getElem?_eq_getElem hlt]
    simp only
    by_cases h0 : buf[si] = 0
    · rw [if_pos h0]; exact ⟨_, rfl⟩
    · have hne : si ≠ z := fun h => by
        subst h
        rw [List.getElem?_eq_getElem hlt] at hz
        exact h0 (Option.some.inj hz)
      rw [if_neg h0]
      split
      · exact longLoop_def hz k (si + 1) _ _ (by omega) (by omega)
      · split
        · exact ⟨_, rfl⟩
        · exact longLoop_def hz k (si + 1) _ _ (by omega) (by omega)

theorem listName_def {buf n : List Nat} (h : Holds buf n) (hn : Name n) (e : List Nat) : ∃ r, listName (some buf) e = some r := by
  have hz := holds_get h (Nat.le_refl n.length)
  rw [spread_end] at hz
  obtain ⟨r, hr⟩ := longLoop_def hz 257 0 0 [] (by omega) (by have := hn.le; omega)
  unfold listName
  simp only
  rw [hr]
  cases r with
  | nil => exact ⟨_, rfl⟩
  | cons b r => exact ⟨_, rfl⟩

/-- The name read for an object is the one to be shown. -/
theorem shown_of {o : Obj} {blk : Option Nat} {buf : List Nat} (h1 : o.long = none → blk = none) (h2 : ∀ n, o.long = some n → blk ≠ none ∧ Name n ∧ Holds buf n) :
    ∃ name, listName (if blk = none then none else some buf) o.entry = some name ∧ Shown o name := by
  cases hl : o.long with
  | none =>
    rw [if_pos (h1 hl)]
    refine ⟨shortName o.entry, rfl, ⟨(fun cs _ h _ => by rw [hl] at h; cases h), fun n body ext h _ hf hb hx hnb hnx => shortName_back h hf hb hx hnb hnx⟩⟩
  | some n =>
    obtain ⟨hb, hn, hh⟩ := h2 n hl
    rw [if_neg hb]
    obtain ⟨r, hr⟩ := listName_def hh hn o.entry
    refine ⟨r, hr, ⟨fun cs hc h hle => ?_, fun m body ext h8 h hf hb hx hnb hnx => ?_⟩⟩
    · rw [hl] at h
      cases h
      have := C74_long cs buf o.entry hc (fun h => hn.ne (by rw [h]; rfl)) hh
      rw [hr, if_pos hle] at this
      exact Option.some.inj this
    · rcases h with h | ⟨cs, hc, h, hle⟩
      · rw [hl] at h; cases h
      · rw [hl] at h
        cases h
        have := C74_long cs buf o.entry hc (fun h => hn.ne (by rw [h]; rfl)) hh
        rw [hr, if_neg (by omega)] at this
        rw [Option.some.inj this]
        exact shortName_back h8 hf hb hx hnb hnx

theorem listing_dots {a : List Obj} {os : List Obj} {l : List (List Nat × List Nat)} (ha : ∀ o ∈ a, byte o.entry 0 = 46) (h : Listing os l) : Listing (a ++ os) l := by
  induction a with
  | nil => exact h
  | cons o a ih => exact .dot (ha o (by simp)) (ih fun o ho => ha o (by simp [ho]))

theorem list_all {c : Bool} {t : List (List Nat)} (ht : Table t) : ∀ (k : Nat) (os : List Obj) (i : Nat) (buf : List Nat), os.length < k → Rep c i (t.drop i) os → buf.length = 256 →
    ∃ l, listAll t k i buf = some l ∧ Listing os l
  | 0, _, _, _, h, _, _ => by omega
  | k + 1, os, i, buf, h, hr, hb => by
    rw [listAll, readDir, dirRead]
    rcases read_next hr ⟨0xFF, 0xFF, none⟩ buf (fun e he => ht e (List.mem_of_mem_drop he)) rfl hb with ⟨h1, h2⟩ | ⟨a, o, b, blk, buf', rfl, h2, h3, h4, h5, h6, h7, pre, post, h8, h9, h10⟩
    · rw [h2]
      refine ⟨[], rfl, ?_⟩
      have := listing_dots h1 .nil
      rwa [List.append_nil] at this
    · rw [h4]
      simp only
      have hget : t.getD o.pos [] = o.entry := by
        rw [List.getD_eq_getElem?_getD, h9, ← List.getElem?_drop, h8, List.getElem?_append_right (by omega), Nat.sub_self]
        rfl
      have hdrop : t.drop (o.pos + 1) = post := by
        rw [h9, Nat.add_assoc, ← List.drop_drop, h8, ← List.drop_drop, List.drop_left]
        rfl
      rw [hget]
      obtain ⟨name, hname, hsh⟩ := shown_of h6 h7
      rw [hname]
      simp only
      rw [← hdrop] at h10
      obtain ⟨l, e1, hl⟩ := list_all ht k b (o.pos + 1) buf' (by simp at h; omega) h10 h5
      rw [e1]
      exact ⟨_, rfl, listing_dots h2 (.cons h3 hsh hl)⟩

end Fpm.FatDir
