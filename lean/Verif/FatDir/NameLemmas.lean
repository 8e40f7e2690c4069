import Verif.FatDir.RegLemmas
/-!
# Objects and their names; removing objects
-/
namespace Fpm.FatDir
open Fpm.FatDir.Spec Fpm.Lfn Fpm.Lfn.Spec Fpm.Names Fpm.Names.Spec Fpm.TextIo.Spec Fpm.Upcase

/-! ## Names of the form 8.3 -/

theorem same_up {c d : Nat} (hd : d < 128) (h : wtoupper c = wtoupper d) : up c = up d := by
  obtain ⟨w, e1, _, _, h1, h2, _⟩ := C73_upcase c
  obtain ⟨v, e2, _, _, h3, _, _⟩ := C73_upcase d
  rw [e1, e2] at h
  cases h
  have hv := h3 hd
  have hc : c < 128 := Classical.byContradiction fun hn => by
    have := h2 (by omega)
    split at hv <;> omega
  have := h1 hc
  unfold up
  rw [← this, hv]

theorem up_chars {c d : Nat} (hd : Char83 d) (h : up c = up d) : Char83 c := by
  unfold Char83 up at *
  simp only [List.mem_cons, List.not_mem_nil, or_false, not_or] at hd ⊢
  split at h <;> split at h <;> omega

theorem up_chars_list : ∀ {l k : List Nat}, (∀ c ∈ k, Char83 c) → l.map up = k.map up → ∀ c ∈ l, Char83 c
  | [], [], _, _ => by simp
  | c :: l, d :: k, hk, h => by
    obtain ⟨h1, h2⟩ := List.cons.inj (show up c :: l.map up = up d :: k.map up from h)
    intro x hx
    rcases List.mem_cons.mp hx with rfl | hx
    · exact up_chars (hk d (by simp)) h1
    · exact up_chars_list (fun x hx => hk x (by simp [hx])) h2 x hx
  | [], _ :: _, _, h => by cases h
  | _ :: _, [], _, h => by cases h

theorem same_map : ∀ {n m : List Nat}, (∀ d ∈ m, d < 128) → SameName n m → n.map up = m.map up
  | [], [], _, _ => rfl
  | c :: n, d :: m, hm, h => by
    obtain ⟨h1, h2⟩ := List.cons.inj (show wtoupper c :: n.map wtoupper = wtoupper d :: m.map wtoupper from h)
    rw [List.map_cons, List.map_cons, same_up (hm d (by simp)) h1, same_map (fun x hx => hm x (by simp [hx])) h2]
  | [], _ :: _, _, h => by cases h
  | _ :: _, [], _, h => by cases h

/-- Names equal up to case to one of the form 8.3 have this form, and the same short name. -/
theorem same_83 {n m body ext : List Nat} (h : EightThree m body ext) (hs : SameName n m) : ∃ body' ext', EightThree n body' ext' ∧ form body' ext' = form body ext := by
  have hm : ∀ d ∈ m, d < 128 := by
    intro d hd
    rw [h.eq] at hd
    rcases List.mem_append.mp hd with hd | hd
    · have := (h.body_chars d hd).2.1; omega
    · split at hd
      · cases hd
      · rcases List.mem_cons.mp hd with hd | hd
        · omega
        · have := (h.ext_chars d hd).2.1; omega
  have hmap := same_map hm hs
  rw [h.eq, List.map_append] at hmap
  obtain ⟨b', r, rfl, hb, hr⟩ := List.map_eq_append_iff.mp hmap
  have hbl : b'.length = body.length := by have := congrArg List.length hb; simpa using this
  have hbc := up_chars_list h.body_chars hb
  have hbne : b' ≠ [] := fun e => h.ne (List.length_eq_zero_iff.mp (by rw [← hbl, e]; rfl))
  by_cases he : ext = []
  · rw [if_pos he] at hr
    have hr' : r = [] := by simpa using hr
    subst hr'
    refine ⟨b', [], ⟨by simp, hbne, by rw [hbl]; exact h.body8, by simp, hbc, by simp⟩, ?_⟩
    unfold form pad
    rw [hb, he]
  · rw [if_neg he] at hr
    cases r with
    | nil => cases hr
    | cons d r =>
      obtain ⟨h1, h2⟩ := List.cons.inj (show up d :: r.map up = up 46 :: ext.map up from hr)
      have hd : d = 46 := by
        unfold up at h1
        split at h1 <;> simp at h1 <;> omega
      have hl : r.length = ext.length := by have := congrArg List.length h2; simpa using this
      have hrne : r ≠ [] := fun e => he (List.length_eq_zero_iff.mp (by rw [← hl, e]; rfl))
      refine ⟨b', r, ⟨by rw [if_neg hrne, hd], hbne, by rw [hbl]; exact h.body8, by rw [hl]; exact h.ext3, hbc, up_chars_list h.ext_chars h2⟩, ?_⟩
      unfold form pad
      rw [hb, h2]

theorem flags_bits {n : List Nat} {last : Bool} {fl : Nat} (h : Flags n last fl) : fl &&& 0xA0 = 0 ∧ fl &&& 0x40 = 0 ∧ ((∃ body ext, EightThree n body ext) ↔ fl &&& 1 = 0) ∧ (fl &&& 2 = 0 → fl &&& 1 = 0) := by
  by_cases he : ∃ body ext, EightThree n body ext
  · obtain ⟨body, ext, h8⟩ := he
    have := h.short body ext h8
    have key : fl &&& 0xA0 = 0 ∧ fl &&& 0x40 = 0 ∧ fl &&& 1 = 0 := by
      rw [this]
      cases last <;> cases oneCase body <;> cases oneCase ext <;> cases hasLower body <;> cases hasLower ext <;> decide
    exact ⟨key.1, key.2.1, ⟨fun _ => key.2.2, fun _ => ⟨body, ext, h8⟩⟩, fun _ => key.2.2⟩
  · have := h.long he
    have key : fl &&& 0xA0 = 0 ∧ fl &&& 0x40 = 0 ∧ fl &&& 1 ≠ 0 ∧ fl &&& 2 ≠ 0 := by
      rw [this]
      cases last <;> decide
    exact ⟨key.1, key.2.1, ⟨fun h => absurd h he, fun h => absurd h key.2.2.1⟩, fun h => absurd h key.2.2.2⟩

/-- For names, `dir_find` looks for what the name means. -/
theorem hit_means {n fn : List Nat} {last : Bool} {fl : Nat} (hfo : Form n fn) (hfl : Flags n last fl) (o : Obj) : Hit n fn fl o ↔ Means n o := by
  obtain ⟨_, h40, h1, _⟩ := flags_bits hfl
  constructor
  · rintro (h | h)
    · exact .inl h.2
    · obtain ⟨body, ext, h8⟩ := h1.mpr h.1
      exact .inr ⟨body, ext, h8, by rw [h.2]; exact hfo.short body ext h8⟩
  · rintro (h | ⟨body, ext, h8, h⟩)
    · exact .inl ⟨h40, h⟩
    · exact .inr ⟨h1.mp ⟨body, ext, h8⟩, by rw [h]; exact (hfo.short body ext h8).symm⟩

theorem same_symm {n m : List Nat} (h : SameName n m) : SameName m n := Eq.symm h
theorem same_trans {n m k : List Nat} (h : SameName n m) (h' : SameName m k) : SameName n k := Eq.trans h h'

/-- A name cannot mean distinct objects. -/
theorem distinct_means {o o' : Obj} (h : Distinct o o') {n : List Nat} (h1 : Means n o) (h2 : Means n o') : False := by
  rcases h1 with ⟨m, hm, hs⟩ | ⟨body, ext, h8, hf⟩
  · rcases h2 with ⟨m', hm', hs'⟩ | ⟨body', ext', h8', hf'⟩
    · exact h.long m m' hm hm' (same_trans hs (same_symm hs'))
    · exact h.left m n body' ext' hm h8' hf' hs
  · rcases h2 with ⟨m', hm', hs'⟩ | ⟨body', ext', h8', hf'⟩
    · exact h.right m' n body ext hm' h8 hf hs'
    · have : form body ext = form body' ext' := by
        rw [C74_same n body ext n body' ext' h8 h8']
      exact h.short (by rw [hf, hf', this])

theorem new_consistent {n fn : List Nat} {last : Bool} {fl : Nat} (hfo : Form n fn) (hfl : Flags n last fl) {os : List Obj} {o : Obj} (h : NewObj n fn fl os o) : Consistent o := by
  intro m body ext hm h8
  have hl := h.long
  rw [hm] at hl
  split at hl
  · cases hl
    rw [h.same ((flags_bits hfl).2.2.1.mp ⟨body, ext, h8⟩)]
    exact hfo.short body ext h8
  · cases hl

theorem new_distinct {n fn : List Nat} {fl : Nat} {os : List Obj} {o : Obj} (h : NewObj n fn fl os o) {o' : Obj} (ho : o' ∈ os) (hc : Consistent o') (hno : ¬ Means n o') : Distinct o o' := by
  have hl : ∀ m, o.long = some m → m = n := by
    intro m hm
    rw [h.long] at hm
    split at hm
    · cases hm; rfl
    · cases hm
  refine ⟨fun e => hno (h.fresh o' ho e.symm).2, fun m m' hm hm' hs => ?_, fun m k body ext hm h8 hf hs => ?_, fun m k body ext hm h8 hf hs => ?_⟩
  · rw [hl m hm] at hs
    exact hno (.inl ⟨m', hm', same_symm hs⟩)
  · rw [hl m hm] at hs
    obtain ⟨b', e', h8', hf'⟩ := same_83 h8 hs
    exact hno (.inr ⟨b', e', h8', by rw [hf, hf']⟩)
  · obtain ⟨b', e', h8', hf'⟩ := same_83 h8 hs
    refine hno (h.fresh o' ho ?_).2
    rw [hc m b' e' hm h8', hf', hf]

theorem distinct_symm {o o' : Obj} (h : Distinct o o') : Distinct o' o :=
  ⟨fun e => h.short e.symm, fun n n' hn hn' hs => h.long n' n hn' hn (same_symm hs), h.right, h.left⟩

theorem new_names {n fn : List Nat} {last : Bool} {fl : Nat} (hfo : Form n fn) (hfl : Flags n last fl) {a b : List Obj} {o : Obj} (h : NewObj n fn fl (a ++ b) o) (hn : Names (a ++ b)) (hno : ∀ o' ∈ a ++ b, ¬ Means n o') :
    Names (a ++ o :: b) := by
  have hd : ∀ o' ∈ a ++ b, Distinct o o' := fun o' ho => new_distinct h ho (hn.consistent o' ho) (hno o' ho)
  obtain ⟨h1, h2, h3⟩ := List.pairwise_append.mp hn.distinct
  constructor
  · intro o' ho
    simp only [List.mem_append, List.mem_cons] at ho
    rcases ho with ho | ho | ho
    · exact hn.consistent o' (by simp [ho])
    · rw [ho]; exact new_consistent hfo hfl h
    · exact hn.consistent o' (by simp [ho])
  · refine List.pairwise_append.mpr ⟨h1, List.pairwise_cons.mpr ⟨fun o' ho => hd o' (by simp [ho]), h2⟩, fun x hx y hy => ?_⟩
    rcases List.mem_cons.mp hy with rfl | hy
    · exact distinct_symm (hd x (by simp [hx]))
    · exact h3 x hx y hy

/-- The new object is listed under the name it was given. -/
theorem new_shown {cs fn : List Nat} {last : Bool} {fl : Nat} (hc : ∀ c ∈ cs, Scalar c ∧ c ≠ 0) (hfo : Form (units cs) fn) (hfl : Flags (units cs) last fl) {os : List Obj} {o : Obj} (h : NewObj (units cs) fn fl os o)
    (hle : (text cs).length ≤ 255) {name : List Nat} (hs : Shown o name) : name = text cs := by
  by_cases h2 : fl &&& 2 ≠ 0
  · exact hs.1 cs hc (by rw [h.long, if_pos h2]) hle
  · have h2' : fl &&& 2 = 0 := by omega
    obtain ⟨_, _, h8, h21⟩ := flags_bits hfl
    have h1 := h21 h2'
    obtain ⟨body, ext, he⟩ := h8.mpr h1
    have hflag := hfl.short body ext he
    have hone : oneCase body = true ∧ oneCase ext = true := by
      refine Classical.byContradiction fun hno => ?_
      rw [if_neg hno] at hflag
      rw [hflag] at h2'
      cases last <;> exact absurd h2' (by decide)
    rw [if_pos hone] at hflag
    have hb12 := (sfn_ok h.ok fl).2.2.2.1
    rw [show sfnEntry o.fn fl = o.entry from h.entry.symm] at hb12
    rw [← et_units he]
    refine hs.2 (units cs) body ext he (.inl (by rw [h.long, if_neg h2])) (by rw [h.same h1]; exact hfo.short body ext he) hone.1 hone.2 ?_ ?_
    · rw [hb12, hflag]
      cases last <;> cases hasLower body <;> cases hasLower ext <;> decide
    · rw [hb12, hflag]
      cases last <;> cases hasLower body <;> cases hasLower ext <;> decide

/-! ## Names of paths -/

theorem units_ne {cs : List Nat} (h : cs ≠ []) : units cs ≠ [] := by
  cases cs with
  | nil => exact absurd rfl h
  | cons c cs =>
    rw [units_cons]
    unfold unit
    split <;> simp

theorem trimmed_mem {cs : List Nat} {c : Nat} (h : c ∈ trimmed cs) : c ∈ cs := by
  obtain ⟨z, hz, _⟩ := trimmed_append cs
  rw [hz]
  exact List.mem_append_left _ h

theorem units_ffff {cs : List Nat} (hs : ∀ c ∈ cs, NameChar c) (h : 0xFFFF ∉ cs) : 0xFFFF ∉ units cs := by
  intro hm
  obtain ⟨c, hc, hu⟩ := List.mem_flatMap.mp hm
  split at hu
  · rw [List.mem_singleton] at hu
    exact h (by rw [hu]; exact hc)
  · simp only [List.mem_cons, List.not_mem_nil, or_false] at hu
    rename_i hge
    rcases hu with hu | hu
    · have := (hs c hc).1.1
      omega
    · omega

theorem name_of {cs : List Nat} {last : Bool} {buf fn : List Nat} {fl : Nat} (h : FileName cs last buf fn fl) : Name (units (trimmed cs)) := by
  obtain ⟨h1, h2, _, _⟩ := h.named.name h.nodot
  refine ⟨units_ne h1, ?_, fun u hu => ?_⟩
  · have := h2.2.length_le
    have := h2.1
    simp at *
    omega
  · have := units_lfn (fun c hc => h.chars c (trimmed_mem hc)) u hu
    unfold LfnUnit at this
    omega

theorem register_spec {grow : Nat → Nat} {cs : List Nat} {last : Bool} {buf fn : List Nat} {fl : Nat} (h : FileName cs last buf fn fl) (hff : 0xFFFF ∉ cs) {c : Bool} {t : List (List Nat)} {os : List Obj} (hd : Directory c t os)
    (horph : fl &&& 2 ≠ 0 ∨ c = true ∨ ¬ Orphan t (sumSfn fn)) :
    (∃ t', dirRegister grow t fn fl buf = .denied t' ∧ Directory c t' os ∧ t <+: t' ∧ ((grow t'.length = 0 ∧ ∀ u f y, t' = u ++ (f ++ y) → f.length = numEntries fl (units (trimmed cs)).length → ∃ e ∈ f, isFree e = false) ∨ (fl &&& 1 ≠ 0 ∧ ∀ z, 1 ≤ z → z < 100 → ∃ o ∈ os, genNumname fn buf z = some o.fn))) ∨
    ∃ t' ws a b o, dirRegister grow t fn fl buf = .done t' ws o.pos ∧ t <+: t' ∧ (t' = t ∨ ∀ u f y, t = u ++ (f ++ y) → f.length = numEntries fl (units (trimmed cs)).length → ∃ e ∈ f, isFree e = false) ∧ os = a ++ b ∧ NewObj (units (trimmed cs)) fn fl os o ∧ Directory c (writeAll t' ws) (a ++ o :: b) ∧
      ∀ k < ws.length, Directory false (writeAll t' (ws.take k)) os := by
  obtain ⟨h1, hb, hfo, hfl⟩ := h.named.name h.nodot
  have hn := name_of h
  obtain ⟨hA0, _, h8, h21⟩ := flags_bits hfl
  have hff' : 0xFFFF ∉ units (trimmed cs) := units_ffff (fun c hc => h.chars c (trimmed_mem hc)) fun hm => hff (trimmed_mem hm)
  have hlen := lfnLen_spec _ buf 0 hb.2 (fun h0 => by have := (hn.units 0 h0).1; omega)
  rw [Nat.zero_add] at hlen
  have hst : ∀ fn', Ok83 fn' → (fl &&& 1 = 0 → fn' = fn) → (∀ o ∈ os, o.fn = fn' → fl &&& 1 = 0 ∧ Means (units (trimmed cs)) o) →
      (∃ t', store grow t fn' fl buf (units (trimmed cs)).length = .denied t' ∧ Directory c t' os ∧ t <+: t' ∧ grow t'.length = 0 ∧ ∀ u f y, t' = u ++ (f ++ y) → f.length = numEntries fl (units (trimmed cs)).length → ∃ e ∈ f, isFree e = false) ∨
      ∃ t' ws a b o, store grow t fn' fl buf (units (trimmed cs)).length = .done t' ws o.pos ∧ t <+: t' ∧ (t' = t ∨ ∀ u f y, t = u ++ (f ++ y) → f.length = numEntries fl (units (trimmed cs)).length → ∃ e ∈ f, isFree e = false) ∧ os = a ++ b ∧ NewObj (units (trimmed cs)) fn fl os o ∧ Directory c (writeAll t' ws) (a ++ o :: b) ∧
        ∀ k < ws.length, Directory false (writeAll t' (ws.take k)) os := by
    intro fn' hok hsame hfresh
    have horph' : fl &&& 2 ≠ 0 ∨ c = true ∨ ¬ Orphan t (sumSfn fn') := by
      by_cases h2 : fl &&& 2 = 0
      · rw [hsame (h21 h2)]; exact horph
      · exact .inl h2
    rcases store_spec (grow := grow) (fl := fl) hn hb hff' hok hd.rep hd.table hd.ended horph' with ⟨t', e, r1, r2, r3, r4, r5⟩ | ⟨t', ws, a, b, o, e, hab, hl, he, r0, r01, r1, r2, r3, r4⟩
    · exact .inl ⟨t', e, ⟨r2, r1, r3⟩, r4, r5⟩
    · have hofn : o.fn = fn' := by
        unfold Obj.fn
        rw [he]
        exact (sfn_ok hok fl).2.1
      exact .inr ⟨t', ws, a, b, o, e, r0, r01, hab, ⟨hl, by rw [hofn]; exact he, by rw [hofn]; exact hok, fun h => by rw [hofn]; exact hsame h, fun o' ho hf => hfresh o' ho (by rw [hf, hofn])⟩, ⟨r2, r1, r3⟩,
        fun k hk => ⟨(r4 k hk).2.1, (r4 k hk).1, (r4 k hk).2.2⟩⟩
  unfold dirRegister
  rw [if_neg (by omega), hlen]
  simp only
  by_cases hfl1 : fl &&& 1 = 0
  · rw [if_neg (by omega)]
    obtain ⟨body, ext, h83⟩ := h8.mpr hfl1
    rcases hst fn ⟨hfo.len, hfo.chars⟩ (fun _ => rfl) (fun o ho hf => ⟨hfl1, .inr ⟨body, ext, h83, by rw [hf]; exact hfo.short body ext h83⟩⟩) with ⟨t', e, r1, r2, r3⟩ | r
    · exact .inl ⟨t', e, r1, r2, .inl r3⟩
    · exact .inr r
  · rw [if_pos hfl1]
    rcases num_spec hn hb ⟨hfo.len, hfo.chars⟩ hd.rep hd.table 99 1 with ⟨e, hall⟩ | ⟨fn', e, hok, hfresh⟩
    · rw [e]
      exact .inl ⟨t, rfl, hd, List.prefix_refl _, .inr ⟨hfl1, hall⟩⟩
    · rw [e]
      simp only
      rcases hst fn' hok (fun h => absurd h hfl1) (fun o ho hf => absurd hf (hfresh o ho)) with ⟨t', e, r1, r2, r3⟩ | r
      · exact .inl ⟨t', e, r1, r2, .inl r3⟩
      · exact .inr r

/-! ## dir_remove -/

/-- The entry marked as deleted. -/
def del (e : List Nat) : List Nat := e.set 0 0xE5

theorem del_byte {e : List Nat} (h : e.length = 32) : byte (del e) 0 = 0xE5 := by
  cases e with
  | nil => cases h
  | cons b e => rfl

theorem mark_spec (t : List (List Nat)) : ∀ (v : List (List Nat)) (s : List Nat) (x y : List (List Nat)), t = x ++ (v ++ s :: y) → markWrites t x.length v.length = wr x.length ((v ++ [s]).map del)
  | [], s, x, y, h => by
    have hg : t.getD x.length [] = s := by
      rw [h, List.getD_eq_getElem?_getD, List.getElem?_append_right (Nat.le_refl _), Nat.sub_self]
      rfl
    rw [List.length_nil, markWrites, hg]
    rfl
  | v0 :: v, s, x, y, h => by
    have hg : t.getD x.length [] = v0 := by
      rw [h, List.getD_eq_getElem?_getD, List.getElem?_append_right (Nat.le_refl _), Nat.sub_self]
      rfl
    have ih := mark_spec t v s (x ++ [v0]) y (by rw [h]; simp)
    rw [show (x ++ [v0]).length = x.length + 1 by simp] at ih
    rw [List.length_cons, markWrites, hg, ih]
    rfl

/-- Deleted entries behind leftovers. -/
theorem rep_dels {c : Bool} {post : List (List Nat)} {b : List Obj} : ∀ (d : List (List Nat)) (u : List (List Nat)) (i : Nat), d ≠ [] → Junk c u → (∀ e ∈ d, byte e 0 = 0xE5) → Rep c (i + u.length + d.length) post b →
    Rep c i (u ++ (d ++ post)) b
  | [], _, _, h, _, _, _ => absurd rfl h
  | [e], u, i, _, hu, hd, h => .skip hu (.inl (hd e (by simp))) h
  | e :: e' :: d, u, i, _, hu, hd, h => by
    refine .skip hu (.inl (hd e (by simp))) ?_
    exact rep_dels (e' :: d) [] (i + u.length + 1) (by simp) (junk_nil _) (fun x hx => hd x (by simp [hx])) (by
      rw [show i + u.length + 1 + ([] : List (List Nat)).length + (e' :: d).length = i + u.length + (e :: e' :: d).length by simp; omega]
      exact h)

theorem table_dels {v : List (List Nat)} (h : Table v) : Table (v.map del) := fun e he => by
  obtain ⟨x, hx, rfl⟩ := List.mem_map.mp he
  have := h x hx
  exact ⟨by simpa [del] using this.1, bytes_set this.2 (by decide)⟩

/-- Parts of a name without the first ones are no long name. -/
theorem stored_tail {n : List Nat} (hn : Name n) {sum : Nat} {k : Nat} {es : List (List Nat)} (h : Stored n sum k es) : k < parts n → ∀ (a b : List (List Nat)) (s : Nat), es = a ++ b → ¬ Claims b s := by
  induction h with
  | nil =>
    intro _ a b s he hc
    exact hc.1 (List.append_eq_nil_iff.mp he.symm).2
  | @cons k e es hp _ ih =>
    intro hk a b s he hc
    cases a with
    | nil =>
      rw [List.nil_append] at he
      subst he
      have := (hc.2 0 (by simp)).1
      rw [List.getD_cons_zero, hp.ord, if_neg (by omega), if_pos rfl] at this
      have := parts_le hn
      omega
    | cons a0 a =>
      rw [List.cons_append] at he
      exact ih (by omega) a b s (List.cons.inj he).2 hc

theorem stored_drop {n : List Nat} {sum : Nat} : ∀ {k : Nat} {es : List (List Nat)}, Stored n sum k es → ∀ m, Stored n sum (k - m) (es.drop m)
  | _, _, h, 0 => by simpa using h
  | _, _, .nil, m + 1 => by rw [List.drop_nil, Nat.zero_sub]; exact .nil
  | k + 1, _, .cons _ h, m + 1 => by
    rw [List.drop_succ_cons, Nat.add_sub_add_right]
    exact stored_drop h m

/-- Before an entry in use there is no end. -/
theorem ended_before {x y : List (List Nat)} {e : List Nat} (h : Ended (x ++ e :: y)) (he : byte e 0 ≠ 0) : ∀ z ∈ x, byte z 0 ≠ 0 := by
  intro z hz h0
  obtain ⟨a, b, rfl⟩ := List.append_of_mem hz
  exact he (h a z (b ++ e :: y) (by simp) h0 e (by simp))

theorem remove_spec {c : Bool} {t : List (List Nat)} {a b : List Obj} {o : Obj} {blk : Option Nat} (hr : Rep c 0 t (a ++ o :: b)) (h : Zip c 0 t a o b blk) (ht : Table t) (hd : Ended t) :
    Rep c 0 (writeAll t (removeWrites t o.pos blk)) (a ++ b) ∧ Table (writeAll t (removeWrites t o.pos blk)) ∧ Ended (writeAll t (removeWrites t o.pos blk)) ∧
    (∀ k < (removeWrites t o.pos blk).length, Rep false 0 (writeAll t ((removeWrites t o.pos blk).take k)) (a ++ { o with long := if k = 0 then o.long else none } :: b) ∧
      Table (writeAll t ((removeWrites t o.pos blk).take k)) ∧ Ended (writeAll t ((removeWrites t o.pos blk).take k))) := by
  obtain ⟨pre, u, v, post, rfl, hpre, hu, hpos, hblk, hs, hpost, hvl, hlong⟩ := h
  rw [Nat.zero_add] at hpos hblk
  obtain ⟨htp, h1⟩ := table_append.mp ht
  obtain ⟨htu, h2⟩ := table_append.mp h1
  obtain ⟨htv, h3⟩ := table_append.mp h2
  obtain ⟨hts, htpost⟩ := table_cons.mp h3
  have htvs : Table (v ++ [o.entry]) := table_append.mpr ⟨htv, table_cons.mpr ⟨hts, fun e he => by cases he⟩⟩
  have hw : removeWrites (pre ++ (u ++ (v ++ o.entry :: post))) o.pos blk = wr (pre ++ u).length ((v ++ [o.entry]).map del) := by
    unfold removeWrites
    rw [hblk, hpos, show pre.length + u.length + v.length - (pre.length + u.length) = v.length by omega, show pre.length + u.length = (pre ++ u).length by simp]
    exact mark_spec _ v o.entry (pre ++ u) post (by simp)
  rw [hw]
  have hall : ∀ k, k ≤ v.length + 1 → writeAll (pre ++ (u ++ (v ++ o.entry :: post))) (wr (pre ++ u).length (((v ++ [o.entry]).map del).take k)) =
      (pre ++ u) ++ (((v ++ [o.entry]).map del).take k ++ ((v ++ [o.entry]).drop k ++ post)) := by
    intro k hk
    have := wr_write (((v ++ [o.entry]).map del).take k) (v ++ [o.entry]) (pre ++ u) post (by simp; omega)
    rw [show (((v ++ [o.entry]).map del).take k).length = k by simp; omega] at this
    rw [← this]
    congr 1
    simp
  have hdel : ∀ e ∈ (v ++ [o.entry]).map del, byte e 0 = 0xE5 := fun e he => by
    obtain ⟨x, hx, rfl⟩ := List.mem_map.mp he
    exact del_byte (htvs x hx).1
  have hfull := hall (v.length + 1) (Nat.le_refl _)
  rw [List.take_of_length_le (by simp), List.drop_of_length_le (by simp), List.nil_append] at hfull
  have hbef := ended_before (x := pre ++ (u ++ v)) (e := o.entry) (y := post) (by simpa using hd) hs.used.1
  have hdpost : Ended post := ended_append (x := pre ++ (u ++ (v ++ [o.entry]))) (by simpa using hd)
  have hend : ∀ k, Ended ((pre ++ u) ++ (((v ++ [o.entry]).map del).take k ++ ((v ++ [o.entry]).drop k ++ post))) := by
    intro k
    have := ended_used (x := (pre ++ u) ++ (((v ++ [o.entry]).map del).take k ++ (v ++ [o.entry]).drop k)) (y := post) (fun e he => ?_) hdpost
    · simpa using this
    · rcases List.mem_append.mp he with he | he
      · exact hbef e (by simp only [List.mem_append] at he ⊢; exact he.elim .inl fun h => .inr (.inl h))
      · rcases List.mem_append.mp he with he | he
        · rw [hdel e (List.mem_of_mem_take he)]; decide
        · rcases List.mem_append.mp (List.mem_of_mem_drop he) with he | he
          · exact hbef e (by simp [he])
          · rw [List.mem_singleton.mp he]; exact hs.used.1
  refine ⟨?_, ?_, ?_, fun k hk => ?_⟩
  · rw [hfull, List.append_assoc]
    refine hpre c _ _ (by cases c <;> simp) (rep_dels _ u _ (by simp) hu hdel ?_)
    rw [show 0 + pre.length + u.length + ((v ++ [o.entry]).map del).length = o.pos + 1 by simp; omega]
    exact hpost
  · rw [hfull, List.append_assoc]
    exact table_append.mpr ⟨htp, table_append.mpr ⟨htu, table_append.mpr ⟨table_dels htvs, htpost⟩⟩⟩
  · rw [hfull]
    have := hend (v.length + 1)
    rwa [List.take_of_length_le (by simp), List.drop_of_length_le (by simp), List.nil_append] at this
  · rw [wr_length] at hk
    simp only [List.length_map, List.length_append, List.length_singleton] at hk
    rw [wr_take, hall k (by omega)]
    refine ⟨?_, ?_, hend k⟩
    · have hdrop : (v ++ [o.entry]).drop k = v.drop k ++ [o.entry] := by rw [List.drop_append_of_le_length (by omega)]
      have hlen : (((v ++ [o.entry]).map del).take k).length = k := by simp; omega
      rw [hdrop, List.append_assoc (v.drop k), List.singleton_append]
      by_cases h0 : k = 0
      · subst h0
        rw [if_pos rfl, List.take_zero, List.nil_append, List.drop_zero, List.append_assoc]
        exact rep_mono (.inr rfl) hr
      · rw [if_neg h0, List.append_assoc pre]
        refine hpre false _ _ (.inr rfl) ?_
        have hbr : Broken (v.drop k) o.entry := by
          rintro ⟨x, y, he, hcl⟩
          rcases hlong with ⟨_, hbr, -⟩ | ⟨n, _, hn, hst⟩
          · refine hbr ⟨u ++ (v.take k ++ x), y, ?_, hcl⟩
            rw [List.append_assoc, List.append_assoc, ← he, List.take_append_drop]
          · have hpn : 0 < parts n := by have := List.length_pos_iff.mpr hn.ne; unfold parts; omega
            exact stored_tail hn (stored_drop hst k) (by omega) x y _ he hcl
        have hjk : Junk false (v.drop k) := ⟨fun e he => hvl e (List.mem_of_mem_drop he), fun h => by cases h⟩
        refine rep_dels (((v ++ [o.entry]).map del).take k) u (0 + pre.length) (fun h => by rw [h] at hlen; exact h0 hlen.symm) (junk_mono (.inr rfl) hu) (fun e he => hdel e (List.mem_of_mem_take he)) ?_
        rw [hlen]
        have hdl : (v.drop k).length = v.length - k := List.length_drop
        have := Rep.obj (clean := false) (i := 0 + pre.length + u.length + k) (j := v.drop k) (es := []) (s := o.entry) (long := none) (t := post) (os := b) hjk ⟨rfl, hbr⟩ hs
          (rep_mono (c := c) (.inr rfl) (by
            rw [show 0 + pre.length + u.length + k + (v.drop k).length + ([] : List (List Nat)).length + 1 = o.pos + 1 by rw [hdl]; simp; omega]
            exact hpost))
        rw [show 0 + pre.length + u.length + k + (v.drop k).length + ([] : List (List Nat)).length = o.pos by rw [hdl]; simp; omega] at this
        simpa using this
    · exact table_append.mpr ⟨table_append.mpr ⟨htp, htu⟩, table_append.mpr ⟨fun e he => table_dels htvs e (List.mem_of_mem_take he), table_append.mpr ⟨fun e he => htvs e (List.mem_of_mem_drop he), htpost⟩⟩⟩

end Fpm.FatDir
