import Verif.FatDir.SeqLemmas
/-!
# Searching and reading
-/
namespace Fpm.FatDir
open Fpm.FatDir.Spec Fpm.Lfn Fpm.Lfn.Spec Fpm.Names.Spec Fpm.TextIo.Spec

theorem attr_sfn : ∀ b < 256, b &&& 8 = 0 → (b &&& 0x3F) &&& 8 = 0 ∧ b &&& 0x3F ≠ 0x0F ∧ (b &&& 0x3F) &&& 0x1F ≠ 8 := by decide +kernel
theorem attr_label : ∀ b < 256, b &&& 0x1F = 8 → (b &&& 0x3F) &&& 8 ≠ 0 ∧ b &&& 0x3F ≠ 0x0F ∧ (b &&& 0x3F) &&& 0x1F = 8 := by decide +kernel

/-! ## Parts of tables -/

theorem junk_mono {c c' : Bool} (hc : c = true ∨ c' = false) {j : List (List Nat)} (h : Junk c j) : Junk c' j := by
  refine ⟨h.1, fun h' => ?_⟩
  rcases hc with hc | hc
  · exact h.2 hc
  · rw [hc] at h'; cases h'

theorem junk_nil (c : Bool) : Junk c [] := ⟨(fun _ h => by cases h), fun _ => rfl⟩

/-- Entries at the start of a table, with their objects. -/
def Pre (c : Bool) (i : Nat) (pre : List (List Nat)) (a : List Obj) : Prop :=
  ∀ (c' : Bool) (x : List (List Nat)) (os : List Obj), (c = true ∨ c' = false) → Rep c' (i + pre.length) x os → Rep c' i (pre ++ x) (a ++ os)

theorem pre_nil (c : Bool) (i : Nat) : Pre c i [] [] := fun _ _ _ _ h => h

theorem pre_skip {c : Bool} {i : Nat} {j : List (List Nat)} {e : List Nat} {pre : List (List Nat)} {a : List Obj} (hj : Junk c j) (he : Skip e) (h : Pre c (i + j.length + 1) pre a) :
    Pre c i (j ++ e :: pre) a := fun c' x os hc hr => by
  rw [List.append_assoc, List.cons_append]
  refine .skip (junk_mono hc hj) he (h c' x os hc ?_)
  rw [show i + j.length + 1 + pre.length = i + (j ++ e :: pre).length by simp; omega]
  exact hr

theorem pre_obj {c : Bool} {i : Nat} {j es : List (List Nat)} {s : List Nat} {long : Option (List Nat)} {pre : List (List Nat)} {a : List Obj} (hj : Junk c j) (hl : Long j es s long) (hs : Sfn s)
    (h : Pre c (i + j.length + es.length + 1) pre a) : Pre c i (j ++ (es ++ s :: pre)) (⟨i + j.length + es.length, long, s⟩ :: a) := fun c' x os hc hr => by
  rw [List.append_assoc, List.append_assoc, List.cons_append, List.cons_append]
  refine .obj (junk_mono hc hj) hl hs (h c' x os hc ?_)
  rw [show i + j.length + es.length + 1 + pre.length = i + (j ++ (es ++ s :: pre)).length by simp; omega]
  exact hr

/-- Where an object is, with the entries that belong to it, the first of them at `blk`. -/
def Zip (c : Bool) (i : Nat) (t : List (List Nat)) (a : List Obj) (o : Obj) (b : List Obj) (blk : Option Nat) : Prop :=
  ∃ pre u v post, t = pre ++ (u ++ (v ++ o.entry :: post)) ∧ Pre c i pre a ∧ Junk c u ∧ o.pos = i + pre.length + u.length + v.length ∧
    blk.getD o.pos = i + pre.length + u.length ∧ Sfn o.entry ∧ Rep c (o.pos + 1) post b ∧ (∀ e ∈ v, LfnEntry e) ∧
    ((o.long = none ∧ Broken (u ++ v) o.entry ∧ (c = true → v = [])) ∨ ∃ n, o.long = some n ∧ Name n ∧ Stored n (sumSfn o.entry) (parts n) v)

theorem zip_skip {c : Bool} {i : Nat} {j : List (List Nat)} {e : List Nat} {t : List (List Nat)} {a b : List Obj} {o : Obj} {blk : Option Nat} (hj : Junk c j) (he : Skip e)
    (h : Zip c (i + j.length + 1) t a o b blk) : Zip c i (j ++ e :: t) a o b blk := by
  obtain ⟨pre, u, v, post, rfl, h1, h2, h3, h4, h5, h6, h7⟩ := h
  refine ⟨j ++ e :: pre, u, v, post, by simp, pre_skip hj he h1, h2, ?_, ?_, h5, h6, h7⟩
  · rw [h3]; simp; omega
  · rw [h4]; simp; omega

theorem zip_obj {c : Bool} {i : Nat} {j es : List (List Nat)} {s : List Nat} {long : Option (List Nat)} {t : List (List Nat)} {a b : List Obj} {o : Obj} {blk : Option Nat} (hj : Junk c j) (hl : Long j es s long) (hs : Sfn s)
    (h : Zip c (i + j.length + es.length + 1) t a o b blk) : Zip c i (j ++ (es ++ s :: t)) (⟨i + j.length + es.length, long, s⟩ :: a) o b blk := by
  obtain ⟨pre, u, v, post, rfl, h1, h2, h3, h4, h5, h6, h7⟩ := h
  refine ⟨j ++ (es ++ s :: pre), u, v, post, by simp, pre_obj hj hl hs h1, h2, ?_, ?_, h5, h6, h7⟩
  · rw [h3]; simp; omega
  · rw [h4]; simp; omega

/-! ## dir_find -/

theorem table_append {t u : List (List Nat)} : Table (t ++ u) ↔ Table t ∧ Table u := by
  unfold Table
  constructor
  · exact fun h => ⟨fun e he => h e (by simp [he]), fun e he => h e (by simp [he])⟩
  · intro h e he
    rcases List.mem_append.mp he with he | he
    · exact h.1 e he
    · exact h.2 e he

theorem table_cons {t : List (List Nat)} {e : List Nat} : Table (e :: t) ↔ (e.length = 32 ∧ ∀ b ∈ e, b < 256) ∧ Table t := by
  rw [show e :: t = [e] ++ t from rfl, table_append]
  constructor
  · exact fun h => ⟨h.1 e (by simp), h.2⟩
  · exact fun h => ⟨fun x hx => by rw [List.mem_singleton.mp hx]; exact h.1, h.2⟩

theorem find_skip {fn buf : List Nat} {fl : Nat} {e : List Nat} {t : List (List Nat)} {i : Nat} {q : Seq} (h : Skip e) (hb : ∀ b ∈ e, b < 256) :
    findLoop fn fl buf (e :: t) i q = findLoop fn fl buf t (i + 1) ⟨0xFF, q.sum, none⟩ := by
  rw [findLoop]
  rcases h with h | ⟨h0, h⟩
  · rw [if_neg (by omega), if_pos (.inl h)]
  · have := attr_label _ (byte_lt hb 11) h
    rw [if_neg h0, if_pos (.inr ⟨this.1, this.2.1⟩)]

theorem find_sfn {fn buf : List Nat} {fl : Nat} {e : List Nat} {t : List (List Nat)} {i : Nat} {q : Seq} (h : Sfn e) (hb : ∀ b ∈ e, b < 256) :
    findLoop fn fl buf (e :: t) i q = if q.ord = 0 ∧ q.sum = sumSfn e ∨ fl &&& 1 = 0 ∧ e.take 11 = fn then .found i q.blk buf else findLoop fn fl buf t (i + 1) ⟨0xFF, q.sum, none⟩ := by
  have ha := attr_sfn _ (byte_lt hb 11) h.attr
  rw [findLoop, if_neg h.used.1, if_neg, if_neg]
  · by_cases h1 : q.ord = 0 ∧ q.sum = sumSfn e
    · rw [if_pos h1, if_pos (.inl h1)]
    · rw [if_neg h1]
      by_cases h2 : fl &&& 1 = 0 ∧ e.take 11 = fn
      · rw [if_pos h2, if_pos (.inr h2)]
      · rw [if_neg h2, if_neg (fun h => h.elim h1 h2)]
  · exact ha.2.1
  · rintro (h' | h')
    · exact h.used.2 h'
    · exact h'.1 ha.1

theorem stored_lfn {m : List Nat} (hm : Name m) {sum : Nat} {k : Nat} {es : List (List Nat)} (h : Stored m sum k es) : k ≤ parts m → ∀ e ∈ es, LfnEntry e := by
  induction h with
  | nil => intro _ e he; cases he
  | cons hp _ ih =>
    intro hk e he
    rcases List.mem_cons.mp he with rfl | he
    · exact part_entry hm (by omega) hp
    · exact ih (by omega) e he

/-- What comes before a short entry tells whether the name is its long name, and where that starts. -/
theorem find_long {n fn buf : List Nat} {fl : Nat} (hn : Name n) (hb : Holds buf n) {i : Nat} {j es : List (List Nat)} {s : List Nat} {long : Option (List Nat)} {t : List (List Nat)} {q : Seq} {c : Bool}
    (hj : Junk c j) (hl : Long j es s long) (ht : Table (j ++ es)) (hq : q.ord = 0xFF) (hk : q.blk = none) :
    ∃ q', findLoop fn fl buf (j ++ (es ++ s :: t)) i q = findLoop fn fl buf (s :: t) (i + j.length + es.length) q' ∧
      (q'.ord = 0 ∧ q'.sum = sumSfn s ↔ fl &&& 0x40 = 0 ∧ ∃ m, long = some m ∧ SameName m n) ∧
      (fl &&& 0x40 = 0 → ∃ u v, j ++ es = u ++ v ∧ q'.blk.getD (i + j.length + es.length) = i + u.length ∧ Junk c u ∧ (long = none ∨ v = es)) := by
  obtain ⟨htj, hte⟩ := table_append.mp ht
  obtain ⟨q1, e1, h1, h2, h3⟩ := find_junk (fl := fl) (fn := fn) (i0 := i) hb.1 (t := es ++ s :: t) j [] q hj.1 htj (.inl hq) (.inl hk) (fun _ => hq)
  rw [List.length_nil, Nat.add_zero, List.nil_append] at e1
  rw [List.nil_append] at h1 h2
  cases long with
  | none =>
    obtain ⟨rfl, hbr⟩ := hl
    refine ⟨q1, e1, ?_, fun hf => ?_⟩
    · constructor
      · exact fun h => absurd h (inv_ord h1 hbr)
      · rintro ⟨_, m, hm, _⟩
        cases hm
    · rcases h2 with h2 | ⟨p, hp, hp1, hp2⟩
      · exact ⟨j, [], rfl, by rw [h2]; simp, hj, .inl rfl⟩
      · refine ⟨j.take (p - i), j.drop (p - i), by simp, by rw [hp]; simp; omega, ⟨fun x hx => hj.1 x (List.mem_of_mem_take hx), fun h => by rw [hj.2 h]; simp⟩, .inl rfl⟩
  | some m =>
    obtain ⟨hm, hst⟩ := hl
    by_cases hf : fl &&& 0x40 = 0
    · obtain ⟨r, e2, hr⟩ := C56_compare m n buf (sumSfn s) es hm hn hst hb
      have hpos : 0 < parts m := by have := List.length_pos_iff.mpr hm.ne; unfold parts; omega
      have e3 := find_stored (fl := fl) (fn := fn) (t := s :: t) hm hf hst (Nat.le_refl _) (i + j.length) q1 r (fun h => by omega) (.inl hpos) e2
      rw [e3] at e1
      refine ⟨_, e1, ?_, fun _ => ⟨j, es, rfl, by rw [if_pos rfl]; rfl, hj, .inr rfl⟩⟩
      simp only
      cases r with
      | true => exact ⟨fun _ => ⟨hf, m, rfl, hr.mp rfl⟩, fun _ => ⟨by simp, trivial⟩⟩
      | false =>
        refine ⟨fun h => absurd h.1 (by simp), ?_⟩
        rintro ⟨_, m', hm', hs⟩
        cases hm'
        exact absurd (hr.mpr hs) (by simp)
    · have hle : ∀ e ∈ es, LfnEntry e := by
        have key : ∀ k es, Stored m (sumSfn s) k es → k ≤ parts m → ∀ e ∈ es, LfnEntry e := by
          intro k es h
          induction h with
          | nil => intro _ e he; cases he
          | cons hp _ ih =>
            intro hk e he
            rcases List.mem_cons.mp he with rfl | he
            · exact part_entry hm (by omega) hp
            · exact ih (by omega) e he
        exact key _ _ hst (Nat.le_refl _)
      have hq1 := h3 hf
      subst hq1
      obtain ⟨q2, e2, -, -, h4⟩ := find_junk (fl := fl) (fn := fn) (i0 := i + j.length) hb.1 (t := s :: t) es [] q1 hle hte (.inl hq) (.inl hk) (fun _ => hq)
      rw [List.length_nil, Nat.add_zero, List.nil_append] at e2
      rw [e2] at e1
      have hq2 := h4 hf
      subst hq2
      refine ⟨q2, e1, ?_, fun h => absurd h hf⟩
      constructor
      · intro h; omega
      · exact fun h => absurd h.1 hf

theorem find_none {n fn buf : List Nat} {fl : Nat} (hn : Name n) (hb : Holds buf n) {c : Bool} {i : Nat} {t : List (List Nat)} {os : List Obj} (h : Rep c i t os) :
    ∀ q : Seq, Table t → q.ord = 0xFF → q.blk = none → (∀ o ∈ os, ¬ Hit n fn fl o) → findLoop fn fl buf t i q = .noFile := by
  induction h with
  | @nil i j hj =>
    intro q ht hq hk _
    obtain ⟨q1, e1, -⟩ := find_junk (fl := fl) (fn := fn) (i0 := i) hb.1 (t := []) j [] q hj.1 ht (.inl hq) (.inl hk) (fun _ => hq)
    rw [List.append_nil, List.length_nil, Nat.add_zero] at e1
    rw [e1, findLoop]
  | @fin i j e t hj h0 =>
    intro q ht hq hk _
    obtain ⟨q1, e1, -⟩ := find_junk (fl := fl) (fn := fn) (i0 := i) hb.1 (t := e :: t) j [] q hj.1 (table_append.mp ht).1 (.inl hq) (.inl hk) (fun _ => hq)
    rw [List.length_nil, Nat.add_zero] at e1
    rw [e1, findLoop, if_pos h0]
  | @skip i j e t os hj he _ ih =>
    intro q ht hq hk hos
    obtain ⟨htj, ht⟩ := table_append.mp ht
    obtain ⟨hte, ht⟩ := table_cons.mp ht
    obtain ⟨q1, e1, -⟩ := find_junk (fl := fl) (fn := fn) (i0 := i) hb.1 (t := e :: t) j [] q hj.1 htj (.inl hq) (.inl hk) (fun _ => hq)
    rw [List.length_nil, Nat.add_zero, List.nil_append] at e1
    rw [e1, find_skip he hte.2]
    exact ih _ ht rfl rfl hos
  | @obj i j es s long t os hj hl hs _ ih =>
    intro q ht hq hk hos
    rw [← List.append_assoc] at ht
    obtain ⟨htj, ht⟩ := table_append.mp ht
    obtain ⟨hte, ht⟩ := table_cons.mp ht
    obtain ⟨q1, e1, h1, -⟩ := find_long (fn := fn) (fl := fl) (t := t) (i := i) hn hb hj hl htj hq hk
    have hno := hos ⟨i + j.length + es.length, long, s⟩ (by simp)
    rw [e1, find_sfn hs hte.2, if_neg]
    · exact ih _ ht rfl rfl fun o ho => hos o (by simp [ho])
    · rintro (h | h)
      · exact hno (.inl (h1.mp h))
      · exact hno (.inr h)

/-- How many entries an object has for its long name. -/
def width (o : Obj) : Nat :=
  match o.long with
  | none => 0
  | some n => parts n

theorem stored_size {n : List Nat} {sum k : Nat} {es : List (List Nat)} (h : Stored n sum k es) : es.length = k := by
  induction h with
  | nil => rfl
  | cons _ _ ih => rw [List.length_cons, ih]

/-- Without leftovers, where the long name begins follows from the object. -/
theorem zip_blk {i : Nat} {t : List (List Nat)} {a b : List Obj} {o : Obj} {blk : Option Nat} (h : Zip true i t a o b blk) : blk.getD o.pos = o.pos - width o ∧ width o ≤ o.pos := by
  obtain ⟨pre, u, v, post, -, -, -, h1, h2, -, -, -, h3⟩ := h
  unfold width
  rcases h3 with ⟨h3, -, h4⟩ | ⟨n, h3, -, h4⟩
  · rw [h3, h2, h1, h4 rfl]
    simp
  · rw [h3, h2]
    have := stored_size h4
    dsimp only
    omega

theorem zip_of {i : Nat} {t : List (List Nat)} {os : List Obj} (h : Rep true i t os) : ∀ {a b : List Obj} {o : Obj} {blk : Option Nat}, os = a ++ o :: b → blk.getD o.pos = o.pos - width o → Zip true i t a o b blk := by
  induction h with
  | nil _ => intro a b o blk h; simp at h
  | fin _ _ => intro a b o blk h; simp at h
  | @skip i j e t os hj he _ ih =>
    intro a b o blk hos hb
    exact zip_skip hj he (ih hos hb)
  | @obj i j es s long t os hj hl hs hr ih =>
    intro a b o blk hos hb
    cases a with
    | nil =>
      obtain ⟨rfl, rfl⟩ : (⟨i + j.length + es.length, long, s⟩ : Obj) = o ∧ os = b := by simpa using hos
      have hj0 := hj.2 rfl
      subst hj0
      have hw : es.length = width ⟨i + ([] : List (List Nat)).length + es.length, long, s⟩ := by
        unfold width
        cases long with
        | none => rw [hl.1]; rfl
        | some n => exact stored_size hl.2
      have hlf : ∀ e ∈ es, LfnEntry e := fun e he => by
        cases long with
        | none => rw [hl.1] at he; cases he
        | some m => exact stored_lfn hl.1 hl.2 (Nat.le_refl _) e he
      refine ⟨[], [], es, t, rfl, pre_nil _ _, hj, rfl, ?_, hs, hr, hlf, ?_⟩
      · rw [hb, ← hw]
        simp
      · cases long with
        | none => exact .inl ⟨rfl, by rw [hl.1]; exact hl.2, fun _ => hl.1⟩
        | some n => exact .inr ⟨n, rfl, hl.1, hl.2⟩
    | cons a0 a =>
      rw [List.cons_append] at hos
      obtain ⟨rfl, rfl⟩ := List.cons.inj hos
      exact zip_obj hj hl hs (ih rfl hb)

theorem find_some {n fn buf : List Nat} {fl : Nat} (hn : Name n) (hb : Holds buf n) {c : Bool} {i : Nat} {t : List (List Nat)} {os : List Obj} (h : Rep c i t os) :
    ∀ (q : Seq) (a b : List Obj) (o : Obj), Table t → q.ord = 0xFF → q.blk = none → os = a ++ o :: b → (∀ o' ∈ a, ¬ Hit n fn fl o') → Hit n fn fl o →
    ∃ blk, findLoop fn fl buf t i q = .found o.pos blk buf ∧ (fl &&& 0x40 = 0 → Zip c i t a o b blk) := by
  induction h with
  | nil _ => intro q a b o _ _ _ h; simp at h
  | fin _ _ => intro q a b o _ _ _ h; simp at h
  | @skip i j e t os hj he _ ih =>
    intro q a b o ht hq hk hos ha ho
    obtain ⟨htj, ht⟩ := table_append.mp ht
    obtain ⟨hte, ht⟩ := table_cons.mp ht
    obtain ⟨q1, e1, -⟩ := find_junk (fl := fl) (fn := fn) (i0 := i) hb.1 (t := e :: t) j [] q hj.1 htj (.inl hq) (.inl hk) (fun _ => hq)
    rw [List.length_nil, Nat.add_zero, List.nil_append] at e1
    rw [e1, find_skip he hte.2]
    obtain ⟨blk, e2, h2⟩ := ih ⟨0xFF, q1.sum, none⟩ a b o ht rfl rfl hos ha ho
    exact ⟨blk, e2, fun hf => zip_skip hj he (h2 hf)⟩
  | @obj i j es s long t os hj hl hs hr ih =>
    intro q a b o ht hq hk hos ha ho
    rw [← List.append_assoc] at ht
    obtain ⟨htj, ht⟩ := table_append.mp ht
    obtain ⟨hte, ht⟩ := table_cons.mp ht
    obtain ⟨q1, e1, h1, h2⟩ := find_long (fn := fn) (fl := fl) (t := t) (i := i) hn hb hj hl htj hq hk
    rw [e1, find_sfn hs hte.2]
    cases a with
    | nil =>
      obtain ⟨rfl, rfl⟩ : (⟨i + j.length + es.length, long, s⟩ : Obj) = o ∧ os = b := by simpa using hos
      rw [if_pos]
      · refine ⟨q1.blk, rfl, fun hf => ?_⟩
        obtain ⟨u, v, huv, hblk, hju, hcu⟩ := h2 hf
        have hlen : j.length + es.length = u.length + v.length := by have := congrArg List.length huv; simpa using this
        have hlf : ∀ e ∈ j ++ es, LfnEntry e := fun e he => by
          rcases List.mem_append.mp he with he | he
          · exact hj.1 e he
          · cases long with
            | none => rw [hl.1] at he; cases he
            | some m => exact stored_lfn hl.1 hl.2 (Nat.le_refl _) e he
        refine ⟨[], u, v, t, ?_, pre_nil _ _, hju, ?_, ?_, hs, hr, fun e he => hlf e (by rw [huv]; simp [he]), ?_⟩
        · simp only [List.nil_append]
          rw [← List.append_assoc, huv, List.append_assoc]
        · simp only [List.length_nil]; omega
        · simp only [List.length_nil]; omega
        · cases long with
          | none =>
            refine .inl ⟨rfl, ?_, fun hc => ?_⟩
            · rw [← huv, hl.1, List.append_nil]
              exact hl.2
            · rw [hl.1, hj.2 hc] at huv
              exact (List.append_eq_nil_iff.mp huv.symm).2
          | some m =>
            rcases hcu with h | rfl
            · cases h
            · exact .inr ⟨m, rfl, hl.1, hl.2⟩
      · rcases ho with h | h
        · exact .inl (h1.mpr h)
        · exact .inr h
    | cons a0 a =>
      rw [List.cons_append] at hos
      obtain ⟨rfl, rfl⟩ := List.cons.inj hos
      have hno := ha ⟨i + j.length + es.length, long, s⟩ (by simp)
      rw [if_neg]
      · obtain ⟨blk, e2, h2⟩ := ih ⟨0xFF, q1.sum, none⟩ a b o ht rfl rfl rfl (fun o ho => ha o (by simp [ho])) ho
        exact ⟨blk, e2, fun hf => zip_obj hj hl hs (h2 hf)⟩
      · rintro (h | h)
        · exact hno (.inl (h1.mp h))
        · exact hno (.inr h)

end Fpm.FatDir
