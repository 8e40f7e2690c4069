import Verif.Cpr.Lemmas

/-!
# Lemmas about copying
-/

namespace Fpm.Cpr
open Spec

/-! ## One file -/

theorem mkdir_eq {e : Env} {fs fs' : FS} {q : Path} (h : mkdir e fs q = some fs') :
    ∃ n p, q = n :: p ∧ fs (n :: p) = none ∧
      make fs (e.pos (n :: p)) n p (.dir []) = some fs' := by
  cases q with
  | nil => simp [mkdir] at h
  | cons n p =>
    simp only [mkdir] at h
    split at h
    · cases h
    · rename_i h1
      split at h
      · cases h
      · exact ⟨n, p, rfl, by simpa using h1, h⟩

/-- What `create` does: the empty file is there. -/
theorem create_eq {e : Env} {free : Nat} {src q : Path} {fs fs' : FS} (hs : Sound fs)
    (hq : ∀ n ∈ q, Good n) (h : create e free src fs q = some fs') :
    fs' q = some (.file []) ∧ Sound fs' ∧ Soft q fs fs' ∧ ∀ a, a ≠ q → a ≠ q.tail → fs' a = fs a := by
  cases q with
  | nil => simp [create] at h
  | cons n p =>
    simp only [create] at h
    split at h
    · cases h
    · split at h
      · cases h
      · rename_i d hd
        split at h
        · cases h
        · cases h
          refine ⟨by simp, ?_, ⟨?_, ?_⟩, ?_⟩
          · refine data_sound hs (q := n :: p) hd (d' := []) (by simp) ?_
            intro a ha; simp [ha]
          · intro a ha _
            have : a ≠ n :: p := fun h5 => ha (h5 ▸ within_self _)
            simp [this]
          · intro a ha
            have : a ≠ n :: p := fun h5 => ha (h5 ▸ within_self _)
            simp [seen, this]
          · intro a ha _; simp [ha]
      · rename_i hd
        obtain ⟨l, h1, h2, h3, h4⟩ := make_eq h
        refine ⟨h2, ?_, make_soft h, ?_⟩
        · exact make_sound hs (hq n List.mem_cons_self) hd (by intro l h; cases h) h
        · intro a ha hb; exact h4 a ha hb

/-- What `copyFile` does to the tree. -/
theorem copyFile_eq (e : Env) (free : Nat) (src dst : List Nat) (fs : FS) (hs : Sound fs) :
    Sound (copyFile e free src dst fs).1 ∧ Soft (place dst) fs (copyFile e free src dst fs).1 ∧
    (∀ a, a ≠ place dst → a ≠ (place dst).tail → (copyFile e free src dst fs).1 a = fs a) ∧
    ((copyFile e free src dst fs).2 = [] → ∃ data, fs (place src) = some (.file data) ∧
      (copyFile e free src dst fs).1 (place dst) = some (.file data)) := by
  have hsame : ∀ m : List Msg, m ≠ [] → Sound (fs, m).1 ∧ Soft (place dst) fs (fs, m).1 ∧
    (∀ a, a ≠ place dst → a ≠ (place dst).tail → (fs, m).1 a = fs a) ∧
    ((fs, m).2 = [] → ∃ data, fs (place src) = some (.file data) ∧
      (fs, m).1 (place dst) = some (.file data)) :=
    fun m hm => ⟨hs, soft_refl _ _, fun _ _ _ => rfl, fun h => absurd h hm⟩
  have hset : ∀ (fs1 : FS) (data : List Nat) (m : List Msg),
      create e (free - 1) (place src) fs (place dst) = some fs1 →
      Sound (fun q => if q = place dst then some (.file data) else fs1 q) ∧
      Soft (place dst) fs (fun q => if q = place dst then some (.file data) else fs1 q) ∧
      (∀ a, a ≠ place dst → a ≠ (place dst).tail →
        (if a = place dst then some (Obj.file data) else fs1 a) = fs a) := by
    intro fs1 data m hc
    obtain ⟨h1, h2, h3, h4⟩ := create_eq hs (place_good dst) hc
    refine ⟨?_, ?_, ?_⟩
    · exact data_sound h2 (q := place dst) h1 (d' := data) (by simp) (fun a ha => by simp [ha])
    · refine soft_trans h3 (strict_soft ?_)
      intro a ha
      have : a ≠ place dst := fun h5 => ha (h5 ▸ within_self _)
      simp [this]
    · intro a ha hb
      rw [if_neg ha]; exact h4 a ha hb
  unfold copyFile
  split
  · exact hsame _ (by simp)
  · split
    · rename_i data hd
      split
      · exact hsame _ (by simp)
      · split
        · exact hsame _ (by simp)
        · rename_i fs1 hc
          split
          · obtain ⟨h1, h2, h3⟩ := hset fs1 data [] hc
            exact ⟨h1, h2, h3, fun _ => ⟨data, hd, by simp⟩⟩
          · rename_i k hk
            obtain ⟨h1, h2, h3⟩ := hset fs1 (data.take k) [] hc
            exact ⟨h1, h2, h3, fun h => by simp at h⟩
    · exact hsame _ (by simp)

/-! ## The directory for the copy -/

theorem target_eq {e : Env} {dst : List Nat} {fs fs' : FS} (hs : Sound fs)
    (h : target e dst fs = .inl fs') :
    Sound fs' ∧ Soft (place dst) fs fs' ∧ seen fs' (place dst) = some none ∧
      ∀ a, a ≠ place dst → a ≠ (place dst).tail → fs' a = fs a := by
  unfold target at h
  split at h
  · split at h
    · rename_i l hl
      cases h
      exact ⟨hs, soft_refl _ _, by simp [seen, hl], fun _ _ _ => rfl⟩
    · cases h
  · split at h
    · cases h
    · rename_i fs1 hm
      cases h
      obtain ⟨n, p, hq, h0, hk⟩ := mkdir_eq hm
      obtain ⟨l, h1, h2, h3, h4⟩ := make_eq hk
      have hg : Good n := place_good dst n (by rw [hq]; exact List.mem_cons_self)
      rw [hq]
      exact ⟨make_sound hs hg h0 (by intro l h; cases h; rfl) hk, make_soft hk, by simp [seen, h2],
        fun a ha hb => h4 a ha hb⟩

/-! ## Nothing outside changes -/

/-- A call keeps the tree in order and changes nothing outside of its destination. -/
def RecOk (rec : List Nat → List Nat → FS → Option (FS × List Msg)) : Prop :=
  ∀ s d fs fs' m, Sound fs → rec s d fs = some (fs', m) → Sound fs' ∧ Soft (place d) fs fs'

/-- One round of the loop. -/
def round (e : Env) (rec : List Nat → List Nat → FS → Option (FS × List Msg)) (free : Nat)
    (src dst : List Nat) (n : Name) (fs : FS) : Option (FS × List Msg) :=
  match fs (n :: place src) with
  | some (.dir _) => rec (join src n) (join dst n) fs
  | _ => some (copyFile e free (join src n) (join dst n) fs)

theorem scan_eq (e : Env) (rec : List Nat → List Nat → FS → Option (FS × List Msg)) (free : Nat)
    (src dst : List Nat) (w i : Nat) (fs : FS) (l : List (Option Name))
    (hl : fs (place src) = some (.dir l)) :
    scan e rec free src dst (w + 1) i fs =
      if e.bad (place src) i then some (fs, [])
      else
        match next (l.drop i) i with
        | none => some (fs, [])
        | some (n, j) =>
          match round e rec free src dst n fs with
          | none => none
          | some (fs1, m1) =>
            match scan e rec free src dst w j fs1 with
            | none => none
            | some (fs2, m2) => some (fs2, m1 ++ m2) := by
  rw [scan.eq_def]
  simp only [hl]
  rfl

theorem round_ok {e : Env} {rec : List Nat → List Nat → FS → Option (FS × List Msg)} {free : Nat}
    {src dst : List Nat} {n : Name} {fs fs' : FS} {m : List Msg} (hr : RecOk rec) (hs : Sound fs)
    (hn : Good n) (h : round e rec free src dst n fs = some (fs', m)) :
    Sound fs' ∧ Soft (n :: place dst) fs fs' := by
  rw [← place_join dst n hn]
  unfold round at h
  split at h
  · exact hr _ _ _ _ _ hs h
  · have h1 := copyFile_eq e free (join src n) (join dst n) fs hs
    rw [Option.some.inj h] at h1
    exact ⟨h1.1, h1.2.1⟩

theorem scan_ok {e : Env} {rec : List Nat → List Nat → FS → Option (FS × List Msg)} {free : Nat}
    {src dst : List Nat} (hr : RecOk rec) : ∀ (w i : Nat) (fs fs' : FS) (m : List Msg), Sound fs →
    scan e rec free src dst w i fs = some (fs', m) → Sound fs' ∧ Strict (place dst) fs fs' := by
  intro w
  induction w with
  | zero => intro i fs fs' m _ h; simp [scan] at h
  | succ w ih =>
    intro i fs fs' m hs h
    by_cases hl : ∃ l, fs (place src) = some (.dir l)
    · obtain ⟨l, hl⟩ := hl
      rw [scan_eq e rec free src dst w i fs l hl] at h
      split at h
      · cases h; exact ⟨hs, strict_refl _ _⟩
      · split at h
        · cases h; exact ⟨hs, strict_refl _ _⟩
        · rename_i n j hnx
          split at h
          · cases h
          · rename_i fs1 m1 hrd
            split at h
            · cases h
            · rename_i fs2 m2 hsc
              cases h
              have hmem : some n ∈ l := by
                obtain ⟨_, _, h3⟩ := next_some _ _ _ _ hnx
                have h4 : n ∈ (l.drop i).filterMap id := by rw [h3]; exact List.mem_cons_self
                obtain ⟨y, hy, hy2⟩ := List.mem_filterMap.mp h4
                simp only [id] at hy2
                subst hy2
                exact List.mem_of_mem_drop hy
              obtain ⟨h1, h2⟩ := round_ok hr hs (hs.good _ _ _ hl hmem) hrd
              obtain ⟨h3, h4⟩ := ih j fs1 _ _ h1 hsc
              exact ⟨h3, strict_trans (soft_up h2) h4⟩
    · rw [scan.eq_def] at h
      simp only at h
      split at h
      · rename_i l hl2; exact absurd ⟨l, hl2⟩ hl
      · cases h; exact ⟨hs, strict_refl _ _⟩

theorem copyRec_ok (e : Env) (w : Nat) : ∀ free, RecOk (copyRec e w free) := by
  intro free
  induction free with
  | zero =>
    intro s d fs fs' m hs h
    unfold copyRec at h
    split at h
    · cases h; exact ⟨hs, soft_refl _ _⟩
    · rename_i fs1 ht
      cases h
      obtain ⟨h1, h2, _⟩ := target_eq hs ht
      exact ⟨h1, h2⟩
  | succ free ih =>
    intro s d fs fs' m hs h
    unfold copyRec at h
    split at h
    · cases h; exact ⟨hs, soft_refl _ _⟩
    · rename_i fs1 ht
      obtain ⟨h1, h2, _⟩ := target_eq hs ht
      split at h
      · cases h; exact ⟨h1, h2⟩
      · obtain ⟨h3, h4⟩ := scan_ok ih w 0 fs1 fs' m h1 h
        exact ⟨h3, soft_trans h2 (strict_soft h4)⟩

/-! ## What is copied -/

/-- A call without messages has copied. -/
def RecDone (rec : List Nat → List Nat → FS → Option (FS × List Msg)) : Prop :=
  ∀ s d fs fs', Sound fs → Apart (place s) (place d) → seen fs (place s) = some none →
    rec s d fs = some (fs', []) → Copied fs fs' (place s) (place d)

theorem seen_dir {fs : FS} {p : Path} (h : seen fs p = some none) : ∃ l, fs p = some (.dir l) := by
  unfold seen at h
  split at h
  · cases h
  · cases h
  · rename_i l hl; exact ⟨l, hl⟩

theorem seen_none {fs : FS} {p : Path} (h : seen fs p = none) : fs p = none := by
  unfold seen at h
  split at h
  · assumption
  · cases h
  · cases h

theorem seen_of_none {fs : FS} {p : Path} (h : fs p = none) : seen fs p = none := by
  unfold seen; rw [h]

theorem seen_congr {fs fs' : FS} {p : Path} (h : fs' p = fs p) : seen fs' p = seen fs p := by
  unfold seen; rw [h]

theorem round_done {e : Env} {rec : List Nat → List Nat → FS → Option (FS × List Msg)} {free : Nat}
    {src dst : List Nat} {n : Name} {fs fs' : FS} (hr : RecDone rec) (hs : Sound fs)
    (hn : Good n) (ha : Apart (place src) (place dst))
    (h : round e rec free src dst n fs = some (fs', [])) :
    Copied fs fs' (n :: place src) (n :: place dst) := by
  unfold round at h
  split at h
  · rename_i l hl
    have h1 := hr (join src n) (join dst n) fs fs' hs
    rw [place_join _ _ hn, place_join _ _ hn] at h1
    exact h1 (apart_cons n n ha) (by simp [seen, hl]) h
  · rename_i hd
    have h1 := copyFile_eq e free (join src n) (join dst n) fs hs
    have h2 := Option.some.inj h
    rw [h2] at h1
    rw [place_join _ _ hn, place_join _ _ hn] at h1
    obtain ⟨_, _, h3, h4⟩ := h1
    obtain ⟨data, h5, h6⟩ := h4 rfl
    replace h6 : fs' (n :: place dst) = some (.file data) := h6
    have hbelow := below hs (p := n :: place src) (fun l => hd l)
    constructor
    · intro r hsome
      rcases List.eq_nil_or_concat r with rfl | ⟨r', m, rfl⟩
      · simp [seen, h5, h6]
      · rw [List.concat_eq_append, List.append_assoc, List.singleton_append,
          seen_of_none (hbelow r' m)] at hsome
        cases hsome
    · intro r hno
      rcases List.eq_nil_or_concat r with rfl | ⟨r', m, rfl⟩
      · simp [seen, h5] at hno
      · rw [List.concat_eq_append, List.append_assoc, List.singleton_append]
        refine seen_congr (h3 _ (sub_ne r' m _) ?_)
        simp only [List.tail_cons]
        intro h7
        have := congrArg List.length h7
        simp only [List.length_append, List.length_cons] at this
        omega

/-- Entries `n` of the rest of the directory. -/
abbrev names (l : List (Option Name)) : List Name := l.filterMap id

theorem names_mem {l : List (Option Name)} {i : Nat} {n : Name} (h : n ∈ names (l.drop i)) :
    some n ∈ l := by
  obtain ⟨y, hy, hy2⟩ := List.mem_filterMap.mp h
  simp only [id] at hy2
  subst hy2
  exact List.mem_of_mem_drop hy

theorem names_nodup {l : List (Option Name)} (h : (names l).Nodup) (i : Nat) :
    (names (l.drop i)).Nodup := by
  have : names l = names (l.take i) ++ names (l.drop i) := by
    rw [← List.filterMap_append, List.take_append_drop]
  rw [this, List.nodup_append] at h
  exact h.2.1

/-- The other parts of the destination stay, and the source. -/
theorem round_rest {n m : Name} {p q : Path} {fs fs1 : FS} (ha : Apart p q)
    (h : Soft (n :: q) fs fs1) (hm : m ≠ n) (r : Path) :
    seen fs1 (r ++ m :: p) = seen fs (r ++ m :: p) ∧
    seen fs1 (r ++ m :: q) = seen fs (r ++ m :: q) := by
  refine ⟨?_, ?_⟩
  · exact seen_congr (soft_up h _ (apart_out ha ⟨r ++ [m], by simp⟩))
  · exact h.2 _ (fun h1 => hm (within_inj h1))

theorem scan_done {e : Env} {rec : List Nat → List Nat → FS → Option (FS × List Msg)} {free : Nat}
    {src dst : List Nat} (hk : RecOk rec) (hr : RecDone rec) (hb : Reads e)
    (ha : Apart (place src) (place dst)) (l : List (Option Name)) :
    ∀ (w i : Nat) (fs fs' : FS), Sound fs → fs (place src) = some (.dir l) →
    scan e rec free src dst w i fs = some (fs', []) →
    (∀ n ∈ names (l.drop i), Copied fs fs' (n :: place src) (n :: place dst)) ∧
    (∀ n, n ∉ names (l.drop i) → ∀ r, seen fs' (r ++ n :: place dst) = seen fs (r ++ n :: place dst)) ∧
    seen fs' (place dst) = seen fs (place dst) := by
  intro w
  induction w with
  | zero => intro i fs fs' _ _ h; simp [scan] at h
  | succ w ih =>
    intro i fs fs' hs hl h
    rw [scan_eq e rec free src dst w i fs l hl, if_neg (by rw [hb]; simp)] at h
    split at h
    · rename_i hnx
      cases h
      rw [show names (l.drop i) = [] from next_none _ _ hnx]
      exact ⟨fun n hn => (by cases hn), fun _ _ _ => rfl, rfl⟩
    · rename_i n j hnx
      split at h
      · cases h
      · rename_i fs1 m1 hrd
        split at h
        · cases h
        · rename_i fs2 m2 hsc
          simp only [Option.some.injEq, Prod.mk.injEq, List.append_eq_nil_iff] at h
          obtain ⟨rfl, rfl, rfl⟩ := h
          obtain ⟨hij, _, h3⟩ := next_some _ _ _ _ hnx
          have hnames : names (l.drop i) = n :: names (l.drop j) := by
            rw [List.drop_drop, show i + (j - i) = j by omega] at h3
            exact h3
          have hmem : some n ∈ l := names_mem (i := i) (by rw [hnames]; exact List.mem_cons_self)
          have hg := hs.good _ _ _ hl hmem
          have hnd : n ∉ names (l.drop j) := by
            have := names_nodup (hs.once _ _ hl) i
            rw [hnames] at this
            exact (List.nodup_cons.mp this).1
          obtain ⟨hs1, hsoft⟩ := round_ok hk hs hg hrd
          have hl1 : fs1 (place src) = some (.dir l) := by
            rw [soft_up hsoft _ ha.2]; exact hl
          have hc := round_done hr hs hg ha hrd
          obtain ⟨h4, h5, h6⟩ := ih j fs1 fs2 hs1 hl1 hsc
          refine ⟨?_, ?_, ?_⟩
          · intro k hk1
            rw [hnames] at hk1
            rcases List.mem_cons.mp hk1 with rfl | hk2
            · constructor
              · intro r hr1
                rw [h5 k hnd r]; exact hc.same r hr1
              · intro r hr1
                rw [h5 k hnd r]; exact hc.rest r hr1
            · have hne : k ≠ n := by rintro rfl; exact hnd hk2
              have h7 := h4 k hk2
              constructor
              · intro r hr1
                have h8 := round_rest ha hsoft hne r
                rw [h7.same r (by rw [h8.1]; exact hr1), h8.1]
              · intro r hr1
                have h8 := round_rest ha hsoft hne r
                rw [h7.rest r (by rw [h8.1]; exact hr1), h8.2]
          · intro k hk1 r
            rw [hnames, List.mem_cons, not_or] at hk1
            rw [h5 k hk1.2 r, (round_rest ha hsoft hk1.1 r).2]
          · rw [h6]
            exact hsoft.2 _ (not_within_up n _)

theorem copyRec_done (e : Env) (w : Nat) (hb : Reads e) : ∀ free, RecDone (copyRec e w free) := by
  intro free
  induction free with
  | zero =>
    intro s d fs fs' hs _ _ h
    unfold copyRec at h
    split at h <;> simp at h
  | succ free ih =>
    intro s d fs fs' hs ha hd h
    unfold copyRec at h
    split at h
    · simp at h
    · rename_i fs1 ht
      obtain ⟨h1, h2, h3, h4⟩ := target_eq hs ht
      split at h
      · simp at h
      · obtain ⟨l, hl⟩ := seen_dir hd
        have hsrc : ∀ r, seen fs1 (r ++ place s) = seen fs (r ++ place s) :=
          fun r => h2.2 _ (apart_out ha (within_sub r _))
        -- the entries of the source do not change, unless the destination is in it
        have hl1 : fs1 (place s) = some (.dir l) := by
          rw [h2.1 _ ha.2 ?_]
          · exact hl
          · intro h5
            apply ha.1
            rw [h5]
            cases hq : place d with
            | nil => exact within_self _
            | cons n p => exact ⟨[n], rfl⟩
        obtain ⟨h5, h6, h7⟩ := scan_done (copyRec_ok e w free) ih hb ha l w 0 fs1 fs' h1 hl1 h
        rw [List.drop_zero] at h5 h6
        have hdst : ∀ r n, seen fs1 (r ++ n :: place d) = seen fs (r ++ n :: place d) := by
          intro r n
          refine seen_congr (h4 _ (sub_ne r n _) ?_)
          intro h8
          have := congrArg List.length h8
          simp only [List.length_append, List.length_cons, List.length_tail] at this
          omega
        have hin : ∀ n r, (seen fs (r ++ n :: place s)).isSome → n ∈ names l := by
          intro n r hsome
          cases hx : fs (n :: place s) with
          | none =>
            exfalso
            rcases List.eq_nil_or_concat r with rfl | ⟨r', m, rfl⟩
            · rw [List.nil_append, seen_of_none hx] at hsome; cases hsome
            · rw [List.concat_eq_append, List.append_assoc, List.singleton_append,
                seen_of_none (below hs (p := n :: place s) (by rw [hx]; simp) r' m)] at hsome
              cases hsome
          | some o =>
            obtain ⟨l2, h8, h9⟩ := hs.listed _ _ _ hx
            rw [hl] at h8; cases h8
            exact List.mem_filterMap.mpr ⟨_, h9, rfl⟩
        constructor
        · intro r hsome
          rcases List.eq_nil_or_concat r with rfl | ⟨r', m, rfl⟩
          · simp only [List.nil_append]
            rw [h7, h3, hd]
          · rw [List.concat_eq_append, List.append_assoc, List.singleton_append] at hsome ⊢
            rw [List.append_assoc, List.singleton_append]
            have hm := hin m r' hsome
            have hs1 := hsrc (r' ++ [m])
            rw [List.append_assoc, List.singleton_append] at hs1
            rw [(h5 m hm).same r' (by rw [hs1]; exact hsome), hs1]
        · intro r hno
          rcases List.eq_nil_or_concat r with rfl | ⟨r', m, rfl⟩
          · rw [List.nil_append, hd] at hno; cases hno
          · rw [List.concat_eq_append, List.append_assoc, List.singleton_append] at hno ⊢
            have hs1 := hsrc (r' ++ [m])
            rw [List.append_assoc, List.singleton_append] at hs1
            by_cases hm : m ∈ names l
            · rw [(h5 m hm).rest r' (by rw [hs1]; exact hno), hdst]
            · rw [h6 m hm r', hdst]

end Fpm.Cpr
