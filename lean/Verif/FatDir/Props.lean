import Verif.FatDir.ReadLemmas
import Verif.FatDir.NameLemmas
/-!
# C75: directories
-/
namespace Fpm.FatDir
open Fpm.FatDir.Spec Fpm.Lfn Fpm.Lfn.Spec Fpm.Names Fpm.Names.Spec Fpm.TextIo.Spec Fpm.Upcase

/-! A directory with two objects: `a b`, with the short name `AB~1`, and `X.C`; a deleted entry between, free entries behind. -/

def exFn1 : List Nat := [65, 66, 126, 49, 32, 32, 32, 32, 32, 32, 32]
def exFn2 : List Nat := [88, 32, 32, 32, 32, 32, 32, 32, 67, 32, 32]
def exTable : List (List Nat) :=
  [made [97, 32, 98] (sumSfn (sfnEntry exFn1 3)) 0 0x41, sfnEntry exFn1 3, 0xE5 :: List.replicate 31 1, sfnEntry exFn2 0, blank, blank]
def exObj1 : Obj := ⟨1, some [97, 32, 98], sfnEntry exFn1 3⟩
def exObj2 : Obj := ⟨3, none, sfnEntry exFn2 0⟩

theorem ex_space {n body ext : List Nat} (h : EightThree n body ext) : 32 ∉ n := by
  intro hm
  rw [h.eq] at hm
  rcases List.mem_append.mp hm with hm | hm
  · exact absurd (h.body_chars 32 hm) (by decide)
  · split at hm
    · cases hm
    · rcases List.mem_cons.mp hm with hm | hm
      · cases hm
      · exact absurd (h.ext_chars 32 hm) (by decide)

theorem ex_directory : Directory true exTable [exObj1, exObj2] := by
  have hok1 : Ok83 exFn1 := ⟨rfl, by decide⟩
  have hok2 : Ok83 exFn2 := ⟨rfl, by decide⟩
  refine ⟨?_, ?_, ?_⟩
  · unfold Table; decide +kernel
  · have hn : Name [97, 32, 98] := ⟨by decide, by decide, by decide⟩
    refine Rep.obj (i := 0) (j := []) (es := [made [97, 32, 98] (sumSfn (sfnEntry exFn1 3)) 0 0x41]) (s := sfnEntry exFn1 3) (long := some [97, 32, 98]) (junk_nil _)
      ⟨hn, .cons (made_part hn _ 0) .nil⟩ (sfn_ok hok1 3).1 ?_
    refine Rep.skip (j := []) (junk_nil _) (.inl rfl) ?_
    refine Rep.obj (i := 3) (j := []) (es := []) (s := sfnEntry exFn2 0) (long := none) (junk_nil _) (long_nil _) (sfn_ok hok2 0).1 ?_
    exact Rep.fin (j := []) (junk_nil _) rfl
  · intro x e y h he z hz
    have key : ∀ k < exTable.length, byte (exTable.getD k []) 0 = 0 → k = 4 ∨ k = 5 := by decide +kernel
    have hx : x.length = 4 ∨ x.length = 5 := by
      refine key x.length (by rw [h]; simp) ?_
      rw [h, List.getD_eq_getElem?_getD, List.getElem?_append_right (Nat.le_refl _), Nat.sub_self]
      exact he
    have hy : y = exTable.drop (x.length + 1) := by
      rw [h, ← List.drop_drop, List.drop_left]
      rfl
    rw [hy] at hz
    rcases hx with hx | hx
    · rw [hx] at hz
      rw [List.mem_singleton.mp (show z ∈ [blank] from hz)]
      rfl
    · rw [hx] at hz
      cases hz

theorem ex_names : Names [exObj1, exObj2] := by
  refine ⟨fun o ho n body ext hl h8 => ?_, ?_⟩
  · simp only [List.mem_cons, List.not_mem_nil, or_false] at ho
    rcases ho with rfl | rfl
    · cases hl
      exact absurd (by simp) (ex_space h8)
    · cases hl
  · refine List.pairwise_cons.mpr ⟨fun o ho => ?_, List.pairwise_cons.mpr ⟨fun o ho => (by cases ho), List.Pairwise.nil⟩⟩
    rw [List.mem_singleton.mp ho]
    refine ⟨by decide, fun n n' _ h => (by cases h), fun n m body ext h h8 _ hs => ?_, fun n m body ext h => (by cases h)⟩
    cases h
    obtain ⟨b', e', h8', _⟩ := same_83 h8 hs
    exact ex_space h8' (by simp)

theorem ex_name {cs : List Nat} (hc : ∀ c ∈ cs, NameChar c) (hg : Good cs) (hd : ¬ (cs = [46] ∨ cs = [46, 46])) : ∃ buf fn fl, FileName cs true buf fn fl := by
  obtain ⟨buf, fn, fl, -, h⟩ := (C74_text cs [0] [] (List.replicate 256 7) true hc (.fin (by decide)) List.length_replicate).1 hg
  exact ⟨buf, fn, fl, hc, hd, h⟩

/-! ## Listing -/

/-- Reading a directory to its end gives each object but `.` and `..` once, in order, each with its name; also if there are leftovers of
long names, and whatever is behind the end. -/
theorem C75_list (c : Bool) (t : List (List Nat)) (os : List Obj) (buf : List Nat) (k : Nat) (ht : Table t) (h : Rep c 0 t os) (hb : buf.length = 256) (hk : os.length < k) :
    ∃ l, listAll t k 0 buf = some l ∧ Listing os l := list_all ht k os 0 buf hk (by simpa using h) hb

example : Table exTable ∧ Rep true 0 exTable [exObj1, exObj2] ∧ (List.replicate 256 7).length = 256 := ⟨ex_directory.table, ex_directory.rep, List.length_replicate⟩

example : listAll exTable 3 0 (List.replicate 256 7) = some [([97, 32, 98], sfnEntry exFn1 3), ([88, 46, 67], sfnEntry exFn2 0)] := by decide +kernel

/-! ## Finding -/

/-- A name is found just if it means one of the objects, and then it is the first of those. -/
theorem C75_find (cs : List Nat) (last : Bool) (buf fn : List Nat) (fl : Nat) (c : Bool) (t : List (List Nat)) (os : List Obj) (hf : FileName cs last buf fn fl) (ht : Table t) (h : Rep c 0 t os) :
    (dirFind t fn fl buf = .noFile ∧ ∀ o ∈ os, ¬ Means (units (trimmed cs)) o) ∨
    ∃ a o b blk, os = a ++ o :: b ∧ (∀ o' ∈ a, ¬ Means (units (trimmed cs)) o') ∧ Means (units (trimmed cs)) o ∧ dirFind t fn fl buf = .found o.pos blk buf := by
  obtain ⟨_, hb, hfo, hfl⟩ := hf.named.name hf.nodot
  rcases find_all (fn := fn) (fl := fl) (name_of hf) hb h ht with ⟨e, h1⟩ | ⟨a, o, b, blk, he, h1, h2, e, -⟩
  · exact .inl ⟨e, fun o ho hm => h1 o ho ((hit_means hfo hfl o).mpr hm)⟩
  · exact .inr ⟨a, o, b, blk, he, fun o' ho hm => h1 o' ho ((hit_means hfo hfl o').mpr hm), (hit_means hfo hfl o).mp h2, e⟩

example : ∃ buf fn fl, FileName [65, 32, 66] true buf fn fl ∧ Table exTable ∧ Rep true 0 exTable [exObj1, exObj2] ∧ Means (units (trimmed [65, 32, 66])) exObj1 := by
  obtain ⟨buf, fn, fl, h⟩ := ex_name (cs := [65, 32, 66]) (by decide) (by decide) (by decide)
  exact ⟨buf, fn, fl, h, ex_directory.table, ex_directory.rep, .inl ⟨[97, 32, 98], rfl, by unfold SameName; decide +kernel⟩⟩

/-- If each name means one object, that object is found by all of its names. -/
theorem C75_refind (cs : List Nat) (last : Bool) (buf fn : List Nat) (fl : Nat) (c : Bool) (t : List (List Nat)) (os : List Obj) (o : Obj) (hf : FileName cs last buf fn fl) (ht : Table t) (h : Rep c 0 t os)
    (hn : Names os) (ho : o ∈ os) (hm : Means (units (trimmed cs)) o) : ∃ blk, dirFind t fn fl buf = .found o.pos blk buf := by
  rcases C75_find cs last buf fn fl c t os hf ht h with ⟨_, h1⟩ | ⟨a, o', b, blk, he, h1, h2, e⟩
  · exact absurd hm (h1 o ho)
  · refine ⟨blk, ?_⟩
    rw [e]
    rw [he] at ho
    rcases List.mem_append.mp ho with ho | ho
    · exact absurd hm (h1 o ho)
    · rcases List.mem_cons.mp ho with rfl | ho
      · rfl
      · have hd := hn.distinct
        rw [he] at hd
        have := (List.pairwise_cons.mp (List.pairwise_append.mp hd).2.1).1 o ho
        exact (distinct_means this h2 hm).elim

example : Names [exObj1, exObj2] ∧ exObj2 ∈ [exObj1, exObj2] ∧ Means (units (trimmed [120, 46, 99])) exObj2 ∧ ∃ buf fn fl, FileName [120, 46, 99] true buf fn fl :=
  ⟨ex_names, by simp, .inr ⟨[120], [99], ⟨by decide, by decide, by decide, by decide, by decide, by decide⟩, by decide⟩, ex_name (by decide) (by decide) (by decide)⟩

/-- The entries `.` and `..` are found by these names, unless another object has it as its long name. -/
theorem C75_dots (cs : List Nat) (last : Bool) (buf fn : List Nat) (fl : Nat) (c : Bool) (t : List (List Nat)) (os : List Obj) (hd : cs = [46] ∨ cs = [46, 46]) (hn : Named cs last buf fn fl) (ht : Table t) (h : Rep c 0 t os)
    (hl : ∀ o ∈ os, o.long ≠ some cs) :
    (dirFind t fn fl buf = .noFile ∧ ∀ o ∈ os, o.fn ≠ pad 11 cs) ∨
    ∃ a o b blk, os = a ++ o :: b ∧ (∀ o' ∈ a, o'.fn ≠ pad 11 cs) ∧ o.fn = pad 11 cs ∧ dirFind t fn fl buf = .found o.pos blk buf := by
  obtain ⟨hb, hfn, hfl⟩ := hn.dot hd
  have hname : Name cs := by rcases hd with rfl | rfl <;> exact ⟨by decide, by decide, by decide⟩
  have h1 : fl &&& 1 = 0 := by rw [hfl]; cases last <;> decide
  have hsame : ∀ m, SameName m cs → m = cs := by
    intro m hm
    have hc : ∀ d ∈ cs, d = 46 := by rcases hd with rfl | rfl <;> decide
    have hmap := same_map (fun d hd => by rw [hc d hd]; decide) hm
    have : ∀ (m k : List Nat), (∀ d ∈ k, d = 46) → m.map up = k.map up → m = k := by
      intro m
      induction m with
      | nil => intro k _ h; cases k with
        | nil => rfl
        | cons => cases h
      | cons x m ih =>
        intro k hk h
        cases k with
        | nil => cases h
        | cons y k =>
          obtain ⟨e1, e2⟩ := List.cons.inj (show up x :: m.map up = up y :: k.map up from h)
          have hy := hk y (by simp)
          rw [ih k (fun d hd => hk d (by simp [hd])) e2]
          congr 1
          rw [hy] at e1 ⊢
          unfold up at e1
          split at e1 <;> simp at e1 <;> omega
    exact this m cs hc hmap
  have hit : ∀ o ∈ os, Hit cs fn fl o ↔ o.fn = pad 11 cs := by
    intro o ho
    constructor
    · rintro (⟨_, m, hm, hs⟩ | h)
      · exact absurd (by rw [← hsame m hs]; exact hm) (hl o ho)
      · rw [h.2, hfn]
    · exact fun h => .inr ⟨h1, by rw [h, hfn]⟩
  rcases find_all (fn := fn) (fl := fl) hname hb h ht with ⟨e, h1⟩ | ⟨a, o, b, blk, he, h1, h2, e, -⟩
  · exact .inl ⟨e, fun o ho hm => h1 o ho ((hit o ho).mpr hm)⟩
  · exact .inr ⟨a, o, b, blk, he, fun o' ho hm => h1 o' ho ((hit o' (by rw [he]; simp [ho])).mpr hm), (hit o (by rw [he]; simp)).mp h2, e⟩

example : ∃ buf fn fl, Named [46] true buf fn fl ∧ ∀ o ∈ [exObj1, exObj2], o.long ≠ some [46] := by
  obtain ⟨buf, fn, fl, -, h⟩ := (C74_text [46] [0] [] (List.replicate 256 7) true (by decide) (.fin (by decide)) List.length_replicate).1 (by decide)
  exact ⟨buf, fn, fl, h, by decide⟩

/-! ## Creating -/

theorem no_room {t : List (List Nat)} {fl len : Nat} (h : ∀ u f y, t = u ++ (f ++ y) → f.length = numEntries fl len → ∃ e ∈ f, isFree e = false) : NoRoom t (fl &&& 2 ≠ 0) len := by
  intro u f y ht hf
  obtain ⟨e, he, h1⟩ := h u f y ht (by
    rw [hf]
    rfl)
  unfold isFree at h1
  refine ⟨e, he, fun h2 => ?_, fun h2 => ?_⟩ <;> rw [h2] at h1 <;> cases h1

/-- Creating an object.  (Its name may mean one so far: `f_rename` creates the object with its new name before it removes the old one, and the two names may differ only in case.  Even then the short name is another one if it has a number.)  Either it is refused, and the objects are what they were; this happens only if there is no room in the table and it cannot be stretched, or
if 99 numbered names are in use.  Or there is one new object with this name, all others are where they were, the table is stretched only if there was no room, and if not all writes are done the objects are
still the old ones (with leftovers of a long name).  In a table with leftovers there must not be a long name, without its short entry, to which the new short entry would fit by chance. -/
theorem C75_register (grow : Nat → Nat) (cs : List Nat) (last : Bool) (buf fn : List Nat) (fl : Nat) (c : Bool) (t : List (List Nat)) (os : List Obj) (hf : FileName cs last buf fn fl) (hff : 0xFFFF ∉ cs)
    (hd : Directory c t os) (horph : c = true ∨ fl &&& 2 ≠ 0 ∨ ¬ Orphan t (sumSfn fn)) :
    (∃ t', dirRegister grow t fn fl buf = .denied t' ∧ t <+: t' ∧ Directory c t' os ∧ ((grow t'.length = 0 ∧ NoRoom t' (fl &&& 2 ≠ 0) (units (trimmed cs)).length) ∨ ∀ z, 1 ≤ z → z < 100 → ∃ o ∈ os, genNumname fn buf z = some o.fn)) ∨
    ∃ t' ws a b o, dirRegister grow t fn fl buf = .done t' ws o.pos ∧ t <+: t' ∧ (t' = t ∨ NoRoom t (fl &&& 2 ≠ 0) (units (trimmed cs)).length) ∧ os = a ++ b ∧ NewObj (units (trimmed cs)) fn fl os o ∧ Directory c (writeAll t' ws) (a ++ o :: b) ∧
      ∀ k < ws.length, Directory false (writeAll t' (ws.take k)) os := by
  rcases register_spec (grow := grow) hf hff hd (horph.elim (fun h => .inr (.inl h)) fun h => h.elim .inl fun h => .inr (.inr h)) with ⟨t', e, h1, h2, h3⟩ | h
  · exact .inl ⟨t', e, h2, h1, h3.elim (fun h => .inl ⟨h.1, no_room h.2⟩) fun h => .inr h.2⟩
  · obtain ⟨t', ws, a, b, o, h1, h2, h3, h4⟩ := h
    exact .inr ⟨t', ws, a, b, o, h1, h2, h3.elim .inl fun h => .inr (no_room h), h4⟩

theorem ex_new : ∀ o ∈ [exObj1, exObj2], ¬ Means (units (trimmed [97, 32, 99])) o := by
  intro o ho hm
  rcases hm with ⟨m, hm, hs⟩ | ⟨body, ext, h8, _⟩
  · simp only [List.mem_cons, List.not_mem_nil, or_false] at ho
    rcases ho with rfl | rfl
    · cases hm
      exact absurd hs (by unfold SameName; decide +kernel)
    · cases hm
  · exact ex_space h8 (by decide)

example : ∃ buf fn fl, FileName [97, 32, 99] true buf fn fl ∧ 0xFFFF ∉ [97, 32, 99] ∧ Directory true exTable [exObj1, exObj2] ∧ ∀ o ∈ [exObj1, exObj2], ¬ Means (units (trimmed [97, 32, 99])) o := by
  obtain ⟨buf, fn, fl, h⟩ := ex_name (cs := [97, 32, 99]) (by decide) (by decide) (by decide)
  exact ⟨buf, fn, fl, h, by decide, ex_directory, ex_new⟩

/-- Creating keeps names distinct; the new object is found by its name, in any case of letters, and listed with it (if that is not too long for the result). -/
theorem C75_created (grow : Nat → Nat) (cs : List Nat) (last : Bool) (buf fn : List Nat) (fl : Nat) (c : Bool) (t : List (List Nat)) (os : List Obj) (hf : FileName cs last buf fn fl) (hff : 0xFFFF ∉ cs)
    (hd : Directory c t os) (horph : c = true ∨ fl &&& 2 ≠ 0 ∨ ¬ Orphan t (sumSfn fn)) (hn : Names os) (hno : ∀ o ∈ os, ¬ Means (units (trimmed cs)) o)
    (t' : List (List Nat)) (ws : List (Nat × List Nat)) (i : Nat) (hdone : dirRegister grow t fn fl buf = .done t' ws i) :
    ∃ os' o, Directory c (writeAll t' ws) os' ∧ Names os' ∧ o ∈ os' ∧ o.pos = i ∧ (∀ o' ∈ os, o' ∈ os') ∧ os'.length = os.length + 1 ∧
      (∀ cs' last' buf' fn' fl', FileName cs' last' buf' fn' fl' → SameName (units (trimmed cs')) (units (trimmed cs)) → ∃ blk, dirFind (writeAll t' ws) fn' fl' buf' = .found i blk buf') ∧
      ((text (trimmed cs)).length ≤ 255 → ∀ buf' k, buf'.length = 256 → os'.length < k → ∃ l, listAll (writeAll t' ws) k 0 buf' = some l ∧ (text (trimmed cs), o.entry) ∈ l) := by
  obtain ⟨hne, hb, hfo, hfl⟩ := hf.named.name hf.nodot
  rcases C75_register grow cs last buf fn fl c t os hf hff hd horph with ⟨t1, e, _⟩ | ⟨t1, ws1, a, b, o, e, hpre, -, hab, hnew, hd1, _⟩
  · rw [e] at hdone; cases hdone
  · rw [e] at hdone
    cases hdone
    have hnm : Names (a ++ o :: b) := new_names hfo hfl (by rw [← hab]; exact hnew) (by rw [← hab]; exact hn) (by rw [← hab]; exact hno)
    refine ⟨a ++ o :: b, o, hd1, hnm, by simp, rfl, fun o' ho => ?_, by rw [hab]; simp; omega, fun cs' last' buf' fn' fl' hf' hs => ?_, fun hle buf' k hb' hk => ?_⟩
    · rw [hab] at ho
      simp only [List.mem_append, List.mem_cons] at ho ⊢
      exact ho.elim .inl fun h => .inr (.inr h)
    · refine C75_refind cs' last' buf' fn' fl' c _ _ o hf' hd1.table hd1.rep hnm (by simp) ?_
      by_cases h2 : fl &&& 2 ≠ 0
      · exact .inl ⟨_, by rw [hnew.long, if_pos h2], same_symm hs⟩
      · obtain ⟨_, _, h8, h21⟩ := flags_bits hfl
        have h1 := h21 (by omega)
        obtain ⟨body, ext, he⟩ := h8.mpr h1
        obtain ⟨b', e', h8', hform⟩ := same_83 he hs
        exact .inr ⟨b', e', h8', by rw [hnew.same h1, hform]; exact hfo.short body ext he⟩
    · obtain ⟨l, e1, hl⟩ := C75_list c _ _ buf' k hd1.table hd1.rep hb' hk
      refine ⟨l, e1, ?_⟩
      have hdot : byte o.entry 0 ≠ 46 := by
        rw [hnew.entry]
        exact (sfn_ok hnew.ok fl).2.2.2.2.2.2
      have key : ∀ (a : List Obj) (l : List (List Nat × List Nat)), Listing (a ++ o :: b) l → ∃ name, Shown o name ∧ (name, o.entry) ∈ l := by
        intro a
        induction a with
        | nil =>
          intro l hl
          cases hl with
          | dot h => exact absurd h hdot
          | cons _ h _ => exact ⟨_, h, by simp⟩
        | cons x a ih =>
          intro l hl
          cases hl with
          | dot _ h => exact ih l h
          | cons _ _ h =>
            obtain ⟨name, h1, h2⟩ := ih _ h
            exact ⟨name, h1, by simp [h2]⟩
      obtain ⟨name, h1, h2⟩ := key a l hl
      have hsc : ∀ c ∈ trimmed cs, Scalar c ∧ c ≠ 0 := fun c hc => by
        have := hf.chars c (trimmed_mem hc)
        exact ⟨this.1, by have := this.2.1; omega⟩
      rw [← new_shown hsc hfo hfl hnew hle h1]
      exact h2

/-- In the example the file can be created. -/
example : ∃ buf fn fl t' ws, createName [97, 32, 99, 0] (List.replicate 256 7) = .ok buf fn fl [] ∧ dirRegister (fun _ => 0) exTable fn fl buf = .done t' ws 5 ∧ ws.length = 2 := by
  refine ⟨[97, 32, 99, 0] ++ List.replicate 252 7, [65, 67, 32, 32, 32, 32, 32, 32, 32, 32, 32], 7, exTable, _, by decide +kernel, rfl, rfl⟩

theorem sfx_take : ∀ (fn : List Nat) (i : Nat), fn.take (sfxOfs fn i) = (fn.take i).takeWhile (· ≠ 32)
  | _, 0 => by rw [sfxOfs]; simp
  | [], _ + 1 => by simp
  | c :: cs, i + 1 => by
    rw [sfxOfs]
    by_cases h : c = 32
    · rw [if_pos h]; simp [h]
    · rw [if_neg h]
      simp [h, sfx_take cs i]

/-- The first five numbered names: the start of the name, a tilde and the number, with the extension kept. -/
theorem C75_numbered (fn buf : List Nat) (z : Nat) (hfn : Ok83 fn) (h1 : 1 ≤ z) (h5 : z ≤ 5) :
    genNumname fn buf z = some (pad 8 ((fn.take 6).takeWhile (· ≠ 32) ++ [126, 48 + z]) ++ fn.drop 8) := by
  have hd : digits 7 z [] = [48 + z] := by
    match z, h1, h5 with
    | 1, _, _ | 2, _, _ | 3, _, _ | 4, _, _ | 5, _, _ => rfl
  unfold genNumname
  rw [if_neg (by omega)]
  simp only
  rw [hd]
  unfold withSuffix pad
  have hl := sfxOfs_le fn 6
  have : ((fn.take 6).takeWhile (· ≠ 32)).length = sfxOfs fn 6 := by
    rw [← sfx_take, List.length_take]
    have := hfn.1
    omega
  rw [show (8 - [126, 48 + z].length) = 6 from rfl, sfx_take, ← this]
  simp only [List.append_assoc, List.length_append]
  rw [Nat.sub_sub]

example : Ok83 exFn1 ∧ genNumname exFn1 [] 1 = some [65, 66, 126, 49, 126, 49, 32, 32, 32, 32, 32] := ⟨⟨rfl, by decide⟩, by decide⟩

/-! ## Removing -/

/-- What is found by a name can be removed: afterwards the other objects are what they were.  If not all writes are done the object is still there, with its
short name only after the first write. -/
theorem C75_remove (cs : List Nat) (last : Bool) (buf fn : List Nat) (fl : Nat) (c : Bool) (t : List (List Nat)) (os : List Obj) (i : Nat) (blk : Option Nat) (buf' : List Nat) (hf : FileName cs last buf fn fl)
    (hd : Directory c t os) (hfound : dirFind t fn fl buf = .found i blk buf') :
    ∃ a o b, os = a ++ o :: b ∧ o.pos = i ∧ Means (units (trimmed cs)) o ∧ Directory c (writeAll t (removeWrites t i blk)) (a ++ b) ∧ (Names os → Names (a ++ b)) ∧
      ∀ k < (removeWrites t i blk).length, Directory false (writeAll t ((removeWrites t i blk).take k)) (a ++ { o with long := if k = 0 then o.long else none } :: b) := by
  obtain ⟨_, hb, hfo, hfl⟩ := hf.named.name hf.nodot
  rcases find_all (fn := fn) (fl := fl) (name_of hf) hb hd.rep hd.table with ⟨e, h1⟩ | ⟨a, o, b, blk', he, h1, h2, e, hz⟩
  · rw [hfound] at e; cases e
  · rw [hfound] at e
    cases e
    obtain ⟨r1, r2, r3, r4⟩ := remove_spec (by rw [← he]; exact hd.rep) (hz (flags_bits hfl).2.1) hd.table hd.ended
    refine ⟨a, o, b, he, rfl, (hit_means hfo hfl o).mp h2, ⟨r2, r1, r3⟩, fun hn => ?_, fun k hk => ⟨(r4 k hk).2.1, (r4 k hk).1, (r4 k hk).2.2⟩⟩
    have hsub : List.Sublist (a ++ b) os := by rw [he]; exact List.Sublist.append_left (List.sublist_cons_self _ _) _
    exact ⟨fun o ho => hn.consistent o (hsub.subset ho), hn.distinct.sublist hsub⟩

example : ∃ buf fn fl, FileName [65, 32, 66] true buf fn fl ∧ Directory true exTable [exObj1, exObj2] ∧ ∃ blk, dirFind exTable fn fl buf = .found 1 blk buf := by
  obtain ⟨buf, fn, fl, h⟩ := ex_name (cs := [65, 32, 66]) (by decide) (by decide) (by decide)
  exact ⟨buf, fn, fl, h, ex_directory, C75_refind _ _ _ _ _ _ _ _ exObj1 h ex_directory.table ex_directory.rep ex_names (by simp) (.inl ⟨[97, 32, 98], rfl, by unfold SameName; decide +kernel⟩)⟩

/-! ## Exceptions -/

/-- Why nothing may be behind the end: the new entry takes the place of the end mark, no new one is written, and what was behind it comes to light as an object. -/
theorem C75_garbage : ∃ t t' ws, Table t ∧ Rep true 0 t [] ∧ dirRegister (fun _ => 0) t exFn2 0 (List.replicate 256 0) = .done t' ws 0 ∧
    (listAll (writeAll t' ws) 9 0 (List.replicate 256 0)).map (List.map Prod.fst) = some [[88, 46, 67], [65, 66, 126, 49]] := by
  refine ⟨[blank, sfnEntry exFn1 0], [blank, sfnEntry exFn1 0], [(0, sfnEntry exFn2 0)], by unfold Table; decide +kernel, .fin (j := []) (junk_nil _) rfl, rfl, by decide +kernel⟩

/-- A leftover long name before a free entry, with the checksum of the new short name, becomes the name of the new object. -/
theorem C75_orphan : ∃ t t' ws, Directory false t [] ∧ dirRegister (fun _ => 0) t exFn2 0 (List.replicate 256 0) = .done t' ws 1 ∧
    (listAll (writeAll t' ws) 9 0 (List.replicate 256 0)).map (List.map Prod.fst) = some [[97, 32, 98]] := by
  have hn : Name [97, 32, 98] := ⟨by decide, by decide, by decide⟩
  refine ⟨[made [97, 32, 98] (sumSfn exFn2) 0 0x41, blank], [made [97, 32, 98] (sumSfn exFn2) 0 0x41, blank], [(1, sfnEntry exFn2 0)], ⟨by unfold Table; decide +kernel, ?_, ?_⟩, rfl, by decide +kernel⟩
  · refine .fin (j := [made [97, 32, 98] (sumSfn exFn2) 0 0x41]) ⟨fun e he => ?_, fun h => by cases h⟩ rfl
    rw [List.mem_singleton.mp he]
    exact ⟨by decide, by decide⟩
  · intro x e y h he z hz
    cases x with
    | nil =>
      obtain ⟨rfl, _⟩ := List.cons.inj h
      cases he
    | cons x0 x =>
      obtain ⟨_, h⟩ := List.cons.inj h
      cases x with
      | nil =>
        obtain ⟨_, rfl⟩ := List.cons.inj h
        cases hz
      | cons x1 x =>
        obtain ⟨_, h⟩ := List.cons.inj h
        cases x <;> cases h

end Fpm.FatDir
