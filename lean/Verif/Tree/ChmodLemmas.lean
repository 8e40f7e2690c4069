import Verif.Tree.ChmodModel
import Verif.Tree.ChmodSpec
import Verif.Tree.UnlinkLemmas
import Verif.Tree.PathProps
import Verif.Tree.MkdirLemmas
/-!
# Changing attributes and times: lemmas
-/
namespace Fpm.Tree
open Fpm.Fat Fpm.Fat.Spec Fpm.FatFile Fpm.FatFile.Spec Fpm.Lfn Fpm.Names Fpm.Names.Spec Fpm.TextIo.Spec Fpm.FatDir Fpm.FatDir.Spec Fpm.Mount Fpm.Mount.Spec Fpm.DirDev Fpm.DirDev.Spec Fpm.Tree.Spec Fpm.FatSync Fpm.FatBytes Fpm.FatBytes.Spec

/-- The same object, but for attributes and times. -/
structure Twin (v : Vol) (o o' : Obj) : Prop where
  pos : o'.pos = o.pos
  fn : o'.fn = o.fn
  long : o'.long = o.long
  dir : IsDir o' ↔ IsDir o
  first : first v o' = first v o
  size : size o' = size o

theorem Twin.refl (v : Vol) (o : Obj) : Twin v o o := ⟨rfl, rfl, rfl, Iff.rfl, rfl, rfl⟩

theorem Twin.dotted {v : Vol} {o o' : Obj} (h : Twin v o o') : Dotted o' ↔ Dotted o := by
  unfold Dotted
  rw [byte_take (show o'.entry.take 11 = o.entry.take 11 from h.fn) (by decide)]

theorem Twin.calls {v : Vol} {o o' : Obj} (h : Twin v o o') (cs : List Nat) : Calls cs o' ↔ Calls cs o := by
  unfold Calls Means
  rw [h.fn, h.long]

theorem claims_twin {v : Vol} {o o' : Obj} (h : Twin v o o') (y : List Obj) : claims v (o' :: y) = claims v (o :: y) := by
  have hd := h.dotted
  unfold claims
  by_cases hx : Dotted o
  · rw [List.filter_cons_of_neg (by simp [hd, hx]), List.filter_cons_of_neg (by simp [hx])]
  · rw [List.filter_cons_of_pos (by simp [hd, hx]), List.filter_cons_of_pos (by simp [hx]), List.map_cons, List.map_cons, h.first]

/-- Each directory before has one after with the same objects, but for attributes and times. -/
theorem twin_dirs {v : Vol} {d : Dir} {R : List Dir} {x y : List Obj} {o o' : Obj} (hos : d.os = x ++ o :: y) (ht : Twin v o o') :
    ∀ p ∈ d :: R, ∃ p' ∈ { d with os := x ++ o' :: y } :: R, p'.sclust = p.sclust ∧ ∀ a ∈ p.os, ∃ a' ∈ p'.os, Twin v a a' := by
  intro p hp
  rcases List.mem_cons.mp hp with rfl | hp
  · refine ⟨_, List.mem_cons_self, rfl, fun a ha => ?_⟩
    rw [hos] at ha
    simp only [List.mem_append, List.mem_cons] at ha ⊢
    rcases ha with ha | rfl | ha
    · exact ⟨a, .inl ha, .refl _ _⟩
    · exact ⟨o', .inr (.inl rfl), ht⟩
    · exact ⟨a, .inr (.inr ha), .refl _ _⟩
  · exact ⟨p, by simp [hp], rfl, fun a ha => ⟨a, ha, .refl _ _⟩⟩

theorem twin_back {v : Vol} {d : Dir} {R : List Dir} {x y : List Obj} {o o' : Obj} (hos : d.os = x ++ o :: y) (ht : Twin v o o') :
    ∀ p' ∈ { d with os := x ++ o' :: y } :: R, ∃ p ∈ d :: R, p.sclust = p'.sclust ∧ ∀ a' ∈ p'.os, ∃ a ∈ p.os, Twin v a a' := by
  intro p hp
  rcases List.mem_cons.mp hp with rfl | hp
  · refine ⟨d, List.mem_cons_self, rfl, fun a ha => ?_⟩
    rw [hos]
    simp only [List.mem_append, List.mem_cons] at ha ⊢
    rcases ha with ha | rfl | ha
    · exact ⟨a, .inl ha, .refl _ _⟩
    · exact ⟨o, .inr (.inl rfl), ht⟩
    · exact ⟨a, .inr (.inr ha), .refl _ _⟩
  · exact ⟨p, by simp [hp], rfl, fun a ha => ⟨a, ha, .refl _ _⟩⟩

theorem shape_twin {v : Vol} {d : Dir} {R : List Dir} {F : List (List Nat)} (h : Shape v (d :: R) F) {x y : List Obj} {o o' : Obj} (hos : d.os = x ++ o :: y) (ht : Twin v o o') :
    Shape v ({ d with os := x ++ o' :: y } :: R) F := by
  have hmem := twin_dirs (R := R) hos ht
  have hback := twin_back (R := R) hos ht
  refine ⟨?_, h.once, ?_, fun p hp a ha h1 h2 => ?_, fun p hp a ha h1 h2 => ?_, fun p hp a ha h1 => ?_⟩
  · obtain ⟨p, hp, e⟩ := h.root
    obtain ⟨p', hp', e', -⟩ := hmem p hp
    exact ⟨p', hp', e'.trans e⟩
  · have := h.refs
    rw [List.flatMap_cons, hos, claims_append, ← claims_twin ht, ← claims_append] at this
    exact this
  · obtain ⟨q, hq, -, hqo⟩ := hback p hp
    obtain ⟨b, hb, hba⟩ := hqo a ha
    have := h.files q hq b hb (fun hx => h1 (hba.dotted.mpr hx)) (fun hx => h2 (hba.dir.mpr hx))
    unfold FileOk at this ⊢
    rw [hba.first, hba.size]
    exact this
  · obtain ⟨q, hq, -, hqo⟩ := hback p hp
    obtain ⟨b, hb, hba⟩ := hqo a ha
    obtain ⟨e, d', hd', e'⟩ := h.subs q hq b hb (fun hx => h1 (hba.dotted.mpr hx)) (hba.dir.mp h2)
    obtain ⟨d'', hd'', e'', -⟩ := hmem d' hd'
    unfold SubOk
    rw [hba.first]
    exact ⟨e, d'', hd'', e''.trans e'⟩
  · obtain ⟨q, hq, hqs, hqo⟩ := hback p hp
    obtain ⟨b, hb, hba⟩ := hqo a ha
    obtain ⟨e1, e2, e3⟩ := h.dots q hq b hb (hba.dotted.mp h1)
    rw [hqs] at e3
    unfold DotOk
    rw [hba.first, hba.fn, hba.long]
    refine ⟨hba.dir.mpr e1, e2, e3.imp id ?_⟩
    rintro ⟨e4, r, hr, e5, o2, ho2, e6, e7, e8⟩
    obtain ⟨r', hr', er, hro⟩ := hmem r hr
    obtain ⟨o3, ho3, h3⟩ := hro o2 ho2
    exact ⟨e4, r', hr', er.trans e5, o3, ho3, fun hx => e6 (h3.dotted.mp hx), h3.dir.mpr e7, h3.first.trans e8⟩

theorem now_dir {v : Vol} {d d' : Dir} {R : List Dir} {o o' : Obj} {x y : List Obj} (hos : d.os = x ++ o :: y) (hd' : d' = { d with os := x ++ o' :: y }) (q : Dir) (hq : q ∈ d :: R) :
    ∃ q' ∈ d' :: R, NowDir d d' q q' ∧ q'.sclust = q.sclust := by
  by_cases e : q = d
  · exact ⟨d', by simp, .inl ⟨e, rfl⟩, by rw [hd', e]⟩
  · exact ⟨q, .tail _ ((List.mem_cons.mp hq).resolve_left e), .inr ⟨e, rfl⟩, rfl⟩

/-- Objects of a directory before have one after that is called by the same names. -/
theorem now_mem {v : Vol} {d d' : Dir} {o o' : Obj} {x y : List Obj} (hos : d.os = x ++ o :: y) (hd' : d' = { d with os := x ++ o' :: y }) (ht : Twin v o o') {q q' : Dir} (hn : NowDir d d' q q') {a : Obj} (ha : a ∈ q.os) :
    ∃ a' ∈ q'.os, Twin v a a' ∧ (q = d ∧ a = o ∧ q' = d' ∧ a' = o' ∨ ¬ (q = d ∧ a = o) ∧ a' = a) := by
  rcases hn with ⟨rfl, rfl⟩ | ⟨hne, rfl⟩
  · by_cases e : a = o
    · exact ⟨o', by rw [hd']; simp, by rw [e]; exact ht, .inl ⟨rfl, e, rfl, rfl⟩⟩
    · refine ⟨a, ?_, .refl _ _, .inr ⟨fun hx => e hx.2, rfl⟩⟩
      rw [hos] at ha
      rw [hd']
      simp only [List.mem_append, List.mem_cons, e, false_or] at ha ⊢
      exact ha.imp id .inr
  · exact ⟨a, ha, .refl _ _, .inr ⟨fun hx => hne hx.1, rfl⟩⟩

theorem now_none {v : Vol} {d d' : Dir} {o o' : Obj} {x y : List Obj} (hos : d.os = x ++ o :: y) (hd' : d' = { d with os := x ++ o' :: y }) (ht : Twin v o o') {q q' : Dir} (hn : NowDir d d' q q') {cs : List Nat}
    (h : ∀ a ∈ q.os, ¬ Calls cs a) : ∀ a ∈ q'.os, ¬ Calls cs a := by
  intro a ha
  rcases hn with ⟨rfl, rfl⟩ | ⟨-, rfl⟩
  · rw [hd'] at ha
    simp only [List.mem_append, List.mem_cons] at ha
    rcases ha with ha | rfl | ha
    · exact h a (by rw [hos]; simp [ha])
    · exact fun hx => h o (by rw [hos]; simp) ((ht.calls cs).mp hx)
    · exact h a (by rw [hos]; simp [ha])
  · exact h a ha

/-- Paths lead to the same places as before. -/
theorem leads_twin {v : Vol} {T : List Dir} {d d' : Dir} {R : List Dir} {o o' : Obj} {x y : List Obj} (hT : ∀ q ∈ T, q ∈ d :: R) (hos : d.os = x ++ o :: y) (hd' : d' = { d with os := x ++ o' :: y }) (ht : Twin v o o')
    {q : Dir} {l : List (List Nat)} {G : Goal} (h : Leads v T q l G) : ∀ {q' : Dir}, NowDir d d' q q' → ∃ G', SamePlace d d' o o' G G' ∧ Leads v (d' :: R) q' l G' := by
  induction h with
  | bad h => exact fun hn => ⟨_, .badName, .bad h⟩
  | stay h1 h2 _ ih =>
    intro q' hn
    obtain ⟨G', h3, h4⟩ := ih hn
    exact ⟨G', h3, .stay h1 (now_none hos hd' ht hn h2) h4⟩
  | self h1 h2 => exact fun hn => ⟨_, .self hn, .self h1 (now_none hos hd' ht hn h2)⟩
  | free h1 h2 h3 => exact fun hn => ⟨_, .free hn, .free h1 h2 (now_none hos hd' ht hn h3)⟩
  | missing h1 h2 h3 h4 => exact fun hn => ⟨_, .noPath, .missing h1 h2 (now_none hos hd' ht hn h3) h4⟩
  | object h1 h2 h3 =>
    intro q' hn
    obtain ⟨a', h4, h5, h6⟩ := now_mem hos hd' ht hn h2
    refine ⟨.object q' _ a', ?_, .object h1 h4 ((h5.calls _).mpr h3)⟩
    rcases h6 with ⟨rfl, rfl, rfl, rfl⟩ | ⟨h6, rfl⟩
    · exact .this
    · exact .object hn h6
  | noDir h1 h2 h3 h4 h7 =>
    intro q' hn
    obtain ⟨a', h5, h6, -⟩ := now_mem hos hd' ht hn h2
    exact ⟨_, .noPath, .noDir h1 h5 ((h6.calls _).mpr h3) (fun hx => h4 (h6.dir.mp hx)) h7⟩
  | enter h1 h2 h3 h4 h5 h6 _ ih =>
    intro q' hn
    obtain ⟨a', h8, h9, -⟩ := now_mem hos hd' ht hn h2
    obtain ⟨q2, k1, k2, k3⟩ := now_dir (v := v) hos hd' _ (hT _ h5)
    obtain ⟨G', k4, k5⟩ := ih k2
    exact ⟨G', k4, .enter h1 h8 ((h9.calls _).mpr h3) (h9.dir.mpr h4) k1 (k3.trans (h6.trans h9.first.symm)) k5⟩

/-! ## Entries -/

theorem bytes_get {a b : List Nat} (hl : a.length = b.length) {k : Nat} (h : byte a k = byte b k) : a[k]? = b[k]? := by
  unfold byte at h
  rw [List.getD_eq_getElem?_getD, List.getD_eq_getElem?_getD] at h
  by_cases hk : k < a.length
  · rw [List.getElem?_eq_getElem hk, List.getElem?_eq_getElem (by omega)] at h ⊢
    simpa using h
  · rw [List.getElem?_eq_none (by omega), List.getElem?_eq_none (by omega)]

theorem field_same {a b : List Nat} {p k : Nat} (h : ∀ i, i < k → a[p + i]? = b[p + i]?) : FatSync.Spec.field a p k = FatSync.Spec.field b p k := by
  unfold FatSync.Spec.field
  congr 1
  apply List.ext_getElem?
  intro i
  by_cases hi : i < k
  · rw [List.getElem?_take_of_lt hi, List.getElem?_take_of_lt hi, List.getElem?_drop, List.getElem?_drop, h i hi]
  · rw [List.getElem?_take_eq_none (by omega), List.getElem?_take_eq_none (by omega)]

theorem and_bit (x i : Nat) : x &&& 2 ^ i = 0 ↔ x.testBit i = false := by
  constructor
  · intro h
    have := congrArg (Nat.testBit · i) h
    simpa [Nat.testBit_and, Nat.testBit_two_pow_self] using this
  · intro h
    apply Nat.eq_of_testBit_eq
    intro j
    rw [Nat.testBit_and, Nat.zero_testBit, Nat.testBit_two_pow]
    by_cases hj : i = j
    · subst hj
      simp [h]
    · simp [hj]

theorem twin_of {v : Vol} {o o' : Obj} (h1 : o'.pos = o.pos) (h2 : o'.long = o.long) (h3 : o'.entry.length = o.entry.length) (h4 : ∀ k, k < 11 ∨ 20 ≤ k ∧ k < 22 ∨ 26 ≤ k → byte o'.entry k = byte o.entry k)
    (h5 : (byte o'.entry 11).testBit 4 = (byte o.entry 11).testBit 4) : Twin v o o' := by
  have hg : ∀ k, k < 11 ∨ 20 ≤ k ∧ k < 22 ∨ 26 ≤ k → o'.entry[k]? = o.entry[k]? := fun k hk => bytes_get h3 (h4 k hk)
  refine ⟨h1, take_eq fun k hk => hg k (.inl hk), h2, ?_, ?_, field_same fun k hk => hg _ (by omega)⟩
  · unfold IsDir
    rw [show (0x10 : Nat) = 2 ^ 4 from rfl, Ne, Ne, and_bit, and_bit, h5]
  · unfold first FatSync.Spec.first
    rw [field_same (a := o'.entry) (b := o.entry) (p := 0 + 26) (k := 2) fun k hk => hg _ (by omega), field_same (a := o'.entry) (b := o.entry) (p := 0 + 20) (k := 2) fun k hk => hg _ (by omega)]

theorem remarked_twin {v : Vol} {attr mask : Nat} {o o' : Obj} (h : Remarked attr mask o o') : Twin v o o' :=
  twin_of h.pos h.long h.size (fun k hk => h.rest k (by omega)) (by rw [h.bits 4 (by decide), if_neg fun hx => absurd hx.1 (by decide)])

theorem retimed_twin {v : Vol} {date time : Nat} {o o' : Obj} (h : Retimed date time o o') : Twin v o o' :=
  twin_of h.pos h.long h.size (fun k hk => h.rest k (by omega)) (by rw [h.rest 11 (by decide)])

theorem put_bytes {w d w' : List Nat} {p : Nat} (h : Put w p d w') {k : Nat} (hk : k < p ∨ p + d.length ≤ k) : byte w' k = byte w k := by
  unfold byte
  rw [List.getD_eq_getElem?_getD, List.getD_eq_getElem?_getD, h.out k hk]

theorem bits_eq (a m b : Nat) (j : Nat) (hj : j < 8) :
    ((a &&& (m &&& 0x27) ||| b &&& (0xFF ^^^ (m &&& 0x27))) % 256).testBit j = if Settable j ∧ m.testBit j = true then a.testBit j else b.testBit j := by
  rw [show (256 : Nat) = 2 ^ 8 from rfl, Nat.testBit_mod_two_pow, Nat.testBit_or, Nat.testBit_and, Nat.testBit_and, Nat.testBit_and, Nat.testBit_xor, Nat.testBit_and]
  have key : ∀ j < 8, (Nat.testBit 0x27 j = decide (Settable j)) ∧ Nat.testBit 0xFF j = true := by decide
  rw [(key j hj).1, (key j hj).2]
  by_cases hs : Settable j <;> cases m.testBit j <;> cases a.testBit j <;> cases b.testBit j <;> simp [hs, hj]

/-- What the functions do to an entry, `Q` says how the object changes. -/
def Edits (g : List Nat → Option (List Nat)) (Q : Obj → Obj → Prop) : Prop :=
  ∀ o : Obj, o.entry.length = 32 → (∀ b ∈ o.entry, b < 256) → Sfn o.entry → ∃ e, g o.entry = some e ∧ e.length = 32 ∧ (∀ b ∈ e, b < 256) ∧ Sfn e ∧ Q o { o with entry := e }

theorem chmod_edits (attr mask : Nat) : Edits (chmodEntry attr mask) (Remarked attr mask) := by
  intro o hl hb hs
  obtain ⟨e, h1, h2⟩ := put_byte (w := o.entry) (p := 11) (x := attr &&& (mask &&& 0x27) ||| byte o.entry 11 &&& (0xFF ^^^ (mask &&& 0x27))) (by omega)
  have hx : byte e 11 = (attr &&& (mask &&& 0x27) ||| byte o.entry 11 &&& (0xFF ^^^ (mask &&& 0x27))) % 256 := byte_at (h2.at_ 0 (by simp))
  have hr : ∀ k, k ≠ 11 → byte e k = byte o.entry k := fun k hk => put_bytes h2 (by simp; omega)
  refine ⟨e, h1, h2.len.trans hl, h2.byte hb, ⟨?_, ?_⟩, ⟨rfl, rfl, h2.len, hr, fun b hb => ?_⟩⟩
  · rw [hr 0 (by decide)]
    exact hs.used
  · have h3 := hs.attr
    rw [show (8 : Nat) = 2 ^ 3 from rfl, and_bit] at h3 ⊢
    rw [hx, bits_eq _ _ _ 3 (by decide), if_neg fun hx => absurd hx.1 (by decide)]
    exact h3
  · exact (congrArg (Nat.testBit · b) hx).trans (bits_eq _ _ _ b hb)

theorem utime_edits {date time : Nat} (hd : date < 65536) (ht : time < 65536) : Edits (utimeEntry date time) (Retimed date time) := by
  intro o hl hb hs
  obtain ⟨e, h1, h2⟩ := put_dword (w := o.entry) (p := 22) (x := date <<< 16 ||| time) (by omega)
  have hlen : (bytes 4 (date <<< 16 ||| time)).length = 4 := bytes_length _ _
  have hr : ∀ k, k < 22 ∨ 26 ≤ k → byte e k = byte o.entry k := fun k hk => put_bytes h2 (by rw [hlen]; omega)
  refine ⟨e, h1, h2.len.trans hl, h2.byte hb, ⟨?_, ?_⟩, ⟨rfl, rfl, h2.len, hr, ?_⟩⟩
  · rw [hr 0 (by decide)]
    exact hs.used
  · rw [hr 11 (by decide)]
    exact hs.attr
  · have h3 := FatSync.field_eq (w := e) (p := 22) (k := 4) (x := date <<< 16 ||| time) fun i hi => h2.at_ i (by rw [hlen]; exact hi)
    have h4 : date <<< 16 ||| time = date * 65536 + time := by
      rw [← Nat.shiftLeft_add_eq_or_of_lt (by exact ht), Nat.shiftLeft_eq]
    rw [h4, Nat.mod_eq_of_lt (by omega)] at h3
    exact h3

/-- Outcome of both functions. -/
theorem change_spec {v : Vol} {i : Info} (hr : Ready v i) (hbig : i.fsi ≠ none → 512 ≤ v.ss) {T : List Dir} {F : List (List Nat)} {s : St} (h : Tree v i T F s) {cdir : Nat} (hc : ∃ d ∈ T, d.sclust = cdir)
    {g : List Nat → Option (List Nat)} {Q : Obj → Obj → Prop} (hg : Edits g Q) (hQ : ∀ {o o' : Obj}, Q o o' → Twin v o o') {path : List Nat} {abs : Bool} {l : List (List Nat)} (hp : PathOf path abs l) (dp : Dp) {buf : List Nat}
    (hb : buf.length = 256) {G : Goal} (hG : Resolves v T cdir abs l G) {r : St × Nat} (he : r = changeAt v i g (followPath v i cdir path s dp buf)) :
    (r.2 = FR_DISK_ERR ∧ ¬ Sound v ∨ ChangeRefused r.2 G) ∧ Tree v i T F r.1 ∧ (∀ n, ¬ Fat2 v n → view r.1 n = view s n) ∨
    ∃ d cs o o' d' T' s1, G = .object d cs o ∧ ¬ DotName cs ∧ Q o o' ∧ Swapped d o o' T d' T' ∧ Tree v i T' F s1 ∧ r = syncFs v i.fsi s1 ∧ ∀ l ∈ F, ∀ n ∈ secs v l, view s1 n = view s n := by
  obtain ⟨q, h1⟩ := follow_spec hr h hc hp dp hb
  generalize followPath v i cdir path s dp buf = f at q h1 he
  unfold changeAt at he
  rcases h1 with ⟨h1, h1'⟩ | ⟨G', h1, h2⟩
  · rw [if_neg (by rw [h1]; decide)] at he
    subst he
    exact .inl ⟨.inl ⟨h1, h1'⟩, tree_quiet hr q h, q.same⟩
  obtain ⟨G0, -, hun⟩ := C81_place v i T F s h cdir hc abs l
  cases (hun G' h1).trans (hun G hG).symm
  have hqt := tree_quiet hr q h
  cases G with
  | badName =>
    rw [if_neg (by rw [show f.res = _ from h2]; decide)] at he
    subst he
    exact .inl ⟨.inr h2, hqt, q.same⟩
  | noPath =>
    rw [if_neg (by rw [show f.res = _ from h2]; decide)] at he
    subst he
    exact .inl ⟨.inr h2, hqt, q.same⟩
  | free d cs =>
    rw [if_neg (by rw [h2.1]; decide)] at he
    subst he
    exact .inl ⟨.inr h2.1, hqt, q.same⟩
  | self d =>
    obtain ⟨c1, -, c2, c3⟩ := h2
    rw [if_pos c1, c3, if_pos (by decide)] at he
    subst he
    exact .inl ⟨.inr rfl, hqt, q.same⟩
  | object d cs o =>
    obtain ⟨c1, c2, c3, c4, c5, c6, c7, c8, c9, c10, c11, -⟩ := h2
    obtain ⟨-, b1, b2⟩ := named_bits c5
    rw [if_pos c1] at he
    have hfl : f.fl &&& 0xA0 ≠ 0 ↔ DotName cs := by
      rw [← b1]
      have e1 : f.fl &&& 0xA0 = f.fl &&& 0x20 ||| f.fl &&& 0x80 := by rw [show (0xA0 : Nat) = 0x20 ||| 0x80 from rfl, Nat.and_or_distrib_left]
      rw [e1, b2, Nat.or_zero]
    by_cases hdn : DotName cs
    · rw [if_pos (hfl.mpr hdn)] at he
      subst he
      exact .inl ⟨.inr ⟨hdn, rfl⟩, hqt, q.same⟩
    rw [if_neg (fun hx => hdn (hfl.mp hx)), c11] at he
    have hd := hqt.dirs d c2
    have hent := obj_ent hd.dir c7
    obtain ⟨e, k1, k2, k3, k4, k5⟩ := hg o hent.1 hent.2 (rep_sfn hd.dir.rep o c7)
    rw [show (some o.entry).bind g = some e from k1] at he
    dsimp only at he
    have htw := hQ k5
    obtain ⟨A, B, hAB⟩ := List.append_of_mem c2
    have hT : T.Perm (d :: (A ++ B)) := by rw [hAB]; exact List.perm_middle
    obtain ⟨x, y, hos⟩ := List.append_of_mem c7
    have ht := tree_perm hT (.refl _) hqt
    obtain ⟨x1, x2, x3⟩ := set_tree hr ht hos c9 c10 (show e.take 11 = o.entry.take 11 from htw.fn) k4 ⟨k2, k3⟩
    have a6 := (apart_dirs hr ht x2).2
    have htree : Tree v i ({ d with os := x ++ { o with entry := e } :: y } :: (A ++ B)) F (setEnt v f.st f.dp e) := by
      refine tree_of x1.inv x1.count ?_ x3 (shape_twin (tree_shape ht) hos htw)
      have := x1.chains
      rw [allchains_cons (A ++ B) F d d.loc (x ++ { o with entry := e } :: y)] at this
      exact this
    refine .inr ⟨d, cs, o, { o with entry := e }, _, _, setEnt v f.st f.dp e, rfl, hdn, k5, ⟨x, y, A ++ B, hos, rfl, hT, rfl⟩, htree, he, fun l hl n hn => ?_⟩
    exact (a6 l hl n hn).trans (q.same n (chain_secs hr (h.chains.chain l (by simp [hl])) hn).2.1)

end Fpm.Tree
