import Verif.Cpr.ScanLemmas

/-!
# Copying comes to an end, and without messages if nothing goes wrong
-/

namespace Fpm.Cpr
open Spec

def RecEnds (w : Nat) (rec : List Nat → List Nat → FS → Option (FS × List Msg)) : Prop :=
  ∀ s d fs, Sound fs → Apart (place s) (place d) → Narrow fs w (place s) → ∃ x, rec s d fs = some x

theorem narrow_child {fs : FS} {w : Nat} {p : Path} (h : Narrow fs w p) (n : Name) :
    Narrow fs w (n :: p) := fun q l hq hl => h q l (within_cons hq) hl

theorem narrow_congr {fs fs' : FS} {w : Nat} {p : Path} (h : Narrow fs w p)
    (hc : ∀ a, Within p a → fs' a = fs a) : Narrow fs' w p :=
  fun q l hq hl => h q l hq (by rw [← hc q hq]; exact hl)

theorem scan_ends {e : Env} {rec : List Nat → List Nat → FS → Option (FS × List Msg)} {free w : Nat}
    {src dst : List Nat} (hk : RecOk rec) (hr : RecEnds w rec)
    (ha : Apart (place src) (place dst)) (l : List (Option Name)) :
    ∀ (k i : Nat) (fs : FS), Sound fs → fs (place src) = some (.dir l) → Narrow fs w (place src) →
    i ≤ l.length → l.length < k + i → ∃ x, scan e rec free src dst k i fs = some x := by
  intro k
  induction k with
  | zero => intro i fs _ _ _ h1 h2; omega
  | succ k ih =>
    intro i fs hs hl hw h1 h2
    rw [scan_eq e rec free src dst k i fs l hl]
    split
    · exact ⟨_, rfl⟩
    · split
      · exact ⟨_, rfl⟩
      · rename_i n j hnx
        obtain ⟨hij, hjl, h3⟩ := next_some _ _ _ _ hnx
        have hmem : some n ∈ l := names_mem (i := i) (by unfold names; rw [h3]; exact List.mem_cons_self)
        have hg := hs.good _ _ _ hl hmem
        have hrd : ∃ x, round e rec free src dst n fs = some x := by
          unfold round
          split
          · refine hr _ _ _ hs ?_ ?_
            · rw [place_join _ _ hg, place_join _ _ hg]; exact apart_cons n n ha
            · rw [place_join _ _ hg]; exact narrow_child hw n
          · exact ⟨_, rfl⟩
        obtain ⟨⟨fs1, m1⟩, hrd⟩ := hrd
        rw [hrd]
        obtain ⟨hs1, hsoft⟩ := round_ok hk hs hg hrd
        have hst := soft_up hsoft
        simp only [List.length_drop] at hjl
        obtain ⟨⟨fs2, m2⟩, h4⟩ := ih j fs1 hs1 (by rw [hst _ ha.2]; exact hl)
          (narrow_congr hw (fun a h => hst a (apart_out ha h))) (by omega) (by omega)
        simp only [h4]
        exact ⟨_, rfl⟩

theorem tail_within (q : Path) : Within q.tail q := by
  cases q with
  | nil => exact within_self _
  | cons n p => exact ⟨[n], rfl⟩

/-- The source stays when the directory for the copy is made. -/
theorem target_src {e : Env} {d : List Nat} {p : Path} {fs fs1 : FS} (hs : Sound fs)
    (ha : Apart p (place d)) (h : target e d fs = .inl fs1) :
    ∀ a, Within p a → fs1 a = fs a := by
  intro a hw
  obtain ⟨_, h2, _, _⟩ := target_eq hs h
  refine h2.1 a (apart_out ha hw) ?_
  rintro rfl
  obtain ⟨r, hr⟩ := hw
  apply ha.1
  obtain ⟨t, ht⟩ := tail_within (place d)
  exact ⟨t ++ r, by rw [ht, hr, List.append_assoc]⟩

theorem copyRec_ends (e : Env) (w : Nat) (hw0 : 0 < w) : ∀ free, RecEnds w (copyRec e w free) := by
  intro free
  induction free with
  | zero =>
    intro s d fs _ _ _
    unfold copyRec
    split <;> exact ⟨_, rfl⟩
  | succ free ih =>
    intro s d fs hs ha hw
    unfold copyRec
    split
    · exact ⟨_, rfl⟩
    · rename_i fs1 ht
      split
      · exact ⟨_, rfl⟩
      · obtain ⟨h1, _⟩ := target_eq hs ht
        have hsrc := target_src hs ha ht
        by_cases hl : ∃ l, fs1 (place s) = some (.dir l)
        · obtain ⟨l, hl⟩ := hl
          have hn := narrow_congr hw hsrc
          exact scan_ends (copyRec_ok e w free) ih ha l w 0 fs1 h1 hl hn (by omega)
            (hn _ l (within_self _) hl)
        · obtain ⟨k, rfl⟩ : ∃ k, w = k + 1 := ⟨w - 1, by omega⟩
          rw [scan.eq_def]
          simp only
          split
          · rename_i l hl2; exact absurd ⟨l, hl2⟩ hl
          · exact ⟨_, rfl⟩

/-! ## No messages -/

def RecQuiet (f : Nat) (rec : List Nat → List Nat → FS → Option (FS × List Msg)) : Prop :=
  ∀ s d fs fs' m, Sound fs → Apart (place s) (place d) → seen fs (place s) = some none →
    Shallow fs f (place s) → Fits fs (place s) (place d) → Parent fs (place d) →
    rec s d fs = some (fs', m) → m = []

theorem copyFile_quiet {e : Env} (hw : Works e) {free : Nat} (hf : 2 ≤ free) {src dst : List Nat}
    {fs : FS} {d : List Nat} (hd : seen fs (place src) = some (some d))
    (hp : Parent fs (place dst)) (hk : seen fs (place dst) ≠ some none)
    (hne : place dst ≠ place src) : (copyFile e free src dst fs).2 = [] := by
  obtain ⟨n, p, hq, hpd⟩ := hp
  have hfile : fs (place src) = some (.file d) := by
    unfold seen at hd
    split at hd
    · cases hd
    · rename_i d2 h; cases hd; exact h
    · cases hd
  have hcr : ∃ fs1, create e (free - 1) (place src) fs (place dst) = some fs1 := by
    rw [hq] at hk hne ⊢
    simp only [create]
    rw [if_neg (by rw [hw.makes]; simp; omega)]
    split
    · rename_i l hl; exact absurd (by simp [seen, hl]) hk
    · rw [if_neg hne]; exact ⟨_, rfl⟩
    · obtain ⟨l, hl⟩ := seen_dir hpd
      unfold make
      rw [hl]; exact ⟨_, rfl⟩
  obtain ⟨fs1, hcr⟩ := hcr
  unfold copyFile
  rw [if_neg (by
    rintro ⟨h1, _, _, h2⟩
    rcases hw.agreed with h | h
    · rw [h] at h1; cases h1
    · rw [h] at h2; cases h2), hfile]
  simp only
  rw [if_neg (by rw [hw.opens]; simp; omega), hcr]
  simp only [hw.room]

theorem round_quiet {e : Env} (hw : Works e)
    {rec : List Nat → List Nat → FS → Option (FS × List Msg)} {free : Nat}
    {src dst : List Nat} {n : Name} {fs fs' : FS} {m : List Msg} (hr : RecQuiet free rec)
    (hs : Sound fs) (hn : Good n) (ha : Apart (place src) (place dst))
    (hsh : Shallow fs (free + 1) (place src))
    (hfit : Fits fs (n :: place src) (n :: place dst)) (hd : seen fs (place dst) = some none)
    (hx : (seen fs (n :: place src)).isSome)
    (h : round e rec free src dst n fs = some (fs', m)) : m = [] := by
  have hsub : Shallow fs free (n :: place src) := by
    constructor
    · intro r d h1
      have := hsh.1 (r ++ [n]) d (by simpa using h1)
      simp only [List.length_append, List.length_singleton] at this
      omega
    · intro r h1
      have := hsh.2 (r ++ [n]) (by simpa using h1)
      simp only [List.length_append, List.length_singleton] at this
      omega
  have hapn := apart_cons n n ha
  unfold round at h
  split at h
  · rename_i l hl
    have h1 := hr (join src n) (join dst n) fs fs' m hs
    rw [place_join _ _ hn, place_join _ _ hn] at h1
    exact h1 hapn (by simp [seen, hl]) hsub hfit ⟨n, _, rfl, hd⟩ h
  · rename_i hno
    have h2 : ∃ d, seen fs (n :: place src) = some (some d) := by
      cases h3 : fs (n :: place src) with
      | none => rw [seen_of_none h3] at hx; cases hx
      | some o =>
        cases o with
        | file d => exact ⟨d, by simp [seen, h3]⟩
        | dir l => exact absurd h3 (hno l)
    obtain ⟨d, h2⟩ := h2
    have h3 := copyFile_quiet hw (free := free) (src := join src n) (dst := join dst n) (fs := fs)
      (d := d) (hsub.1 [] d h2)
    rw [place_join _ _ hn, place_join _ _ hn] at h3
    have h4 := h3 h2 ⟨n, _, rfl, hd⟩ (by
      intro h5
      have := hfit [] (some d) none h2 h5
      cases this) (by
      intro h5
      exact hapn.1 (by rw [h5]; exact within_self _))
    rw [Option.some.inj h] at h4
    exact h4

theorem scan_quiet {e : Env} (hw : Works e)
    {rec : List Nat → List Nat → FS → Option (FS × List Msg)} {free : Nat}
    {src dst : List Nat} (hk : RecOk rec) (hr : RecQuiet free rec)
    (ha : Apart (place src) (place dst)) (l : List (Option Name)) :
    ∀ (w i : Nat) (fs fs' : FS) (m : List Msg), Sound fs → fs (place src) = some (.dir l) →
    Shallow fs (free + 1) (place src) → seen fs (place dst) = some none →
    (∀ n ∈ names (l.drop i), Fits fs (n :: place src) (n :: place dst)) →
    scan e rec free src dst w i fs = some (fs', m) → m = [] := by
  intro w
  induction w with
  | zero => intro i fs fs' m _ _ _ _ _ h; simp [scan] at h
  | succ w ih =>
    intro i fs fs' m hs hl hsh hd hfit h
    rw [scan_eq e rec free src dst w i fs l hl, if_neg (by rw [hw.reads]; simp)] at h
    split at h
    · cases h; rfl
    · rename_i n j hnx
      split at h
      · cases h
      · rename_i fs1 m1 hrd
        split at h
        · cases h
        · rename_i fs2 m2 hsc
          cases h
          obtain ⟨hij, _, h3⟩ := next_some _ _ _ _ hnx
          have hnames : names (l.drop i) = n :: names (l.drop j) := by
            rw [List.drop_drop, show i + (j - i) = j by omega] at h3
            exact h3
          have hin : n ∈ names (l.drop i) := by rw [hnames]; exact List.mem_cons_self
          have hmem : some n ∈ l := names_mem hin
          have hg := hs.good _ _ _ hl hmem
          have hnd : n ∉ names (l.drop j) := by
            have := names_nodup (hs.once _ _ hl) i
            rw [hnames] at this
            exact (List.nodup_cons.mp this).1
          obtain ⟨hs1, hsoft⟩ := round_ok hk hs hg hrd
          have hst := soft_up hsoft
          have hx : (seen fs (n :: place src)).isSome := by
            obtain ⟨o, ho⟩ := hs.there _ _ _ hl hmem
            unfold seen; rw [ho]
            cases o <;> rfl
          have hm1 := round_quiet hw hr hs hg ha hsh (hfit n hin) hd hx hrd
          have hsrc : ∀ r, seen fs1 (r ++ place src) = seen fs (r ++ place src) :=
            fun r => seen_congr (hst _ (apart_out ha (within_sub r _)))
          have hm2 := ih j fs1 fs' m2 hs1 (by rw [hst _ ha.2]; exact hl)
            ⟨fun r d h => hsh.1 r d (by rw [← hsrc]; exact h),
              fun r h => hsh.2 r (by rw [← hsrc]; exact h)⟩
            (by rw [hsoft.2 _ (not_within_up n _)]; exact hd)
            (by
              intro k hk1 r a b h5 h6
              have hne : k ≠ n := by rintro rfl; exact hnd hk1
              obtain ⟨h7, h8⟩ := round_rest ha hsoft hne r
              rw [h7] at h5; rw [h8] at h6
              exact hfit k (by rw [hnames]; exact List.mem_cons_of_mem _ hk1) r a b h5 h6) hsc
          rw [hm1, hm2]; rfl

theorem target_quiet {e : Env} (hw : Works e) {d : List Nat} {fs : FS} (hp : Parent fs (place d))
    (hk : ∀ x, seen fs (place d) ≠ some (some x)) : ∃ fs1, target e d fs = .inl fs1 := by
  obtain ⟨n, p, hq, hpd⟩ := hp
  unfold target
  rw [hq] at hk ⊢
  split
  · rename_i h
    split
    · exact ⟨_, rfl⟩
    · rename_i hno
      cases h3 : fs (n :: p) with
      | none => rw [h3] at h; simp at h
      | some o =>
        cases o with
        | file x => exact absurd (by simp [seen, h3]) (hk x)
        | dir l => exact absurd h3 (hno l)
  · rename_i h
    simp only [ne_eq, reduceCtorEq, not_false_eq_true, true_and] at h
    obtain ⟨l, hl⟩ := seen_dir hpd
    simp only [mkdir]
    rw [if_neg h, if_neg (by rw [hw.makes]; simp)]
    unfold make
    rw [hl]
    exact ⟨_, rfl⟩

theorem copyRec_quiet {e : Env} (hw : Works e) (w : Nat) :
    ∀ free, RecQuiet free (copyRec e w free) := by
  intro free
  induction free with
  | zero =>
    intro s d fs fs' m hs ha hd hsh hfit hp h
    have := hsh.2 [] hd
    omega
  | succ free ih =>
    intro s d fs fs' m hs ha hd hsh hfit hp h
    obtain ⟨fs1, ht⟩ := target_quiet hw (d := d) hp (by
      intro x hx
      have := hfit [] none (some x) hd hx
      cases this)
    unfold copyRec at h
    rw [ht] at h
    simp only at h
    rw [if_neg (by rw [hw.opens]; simp)] at h
    obtain ⟨h1, h2, h3, h4⟩ := target_eq hs ht
    have hsrc := target_src hs ha ht
    obtain ⟨l, hl⟩ := seen_dir hd
    have hss : ∀ r, seen fs1 (r ++ place s) = seen fs (r ++ place s) :=
      fun r => seen_congr (hsrc _ (within_sub r _))
    refine scan_quiet hw (copyRec_ok e w free) ih ha l w 0 fs1 fs' m h1
      (by rw [hsrc _ (within_self _)]; exact hl)
      ⟨fun r d h => hsh.1 r d (by rw [← hss]; exact h),
        fun r h => hsh.2 r (by rw [← hss]; exact h)⟩ h3 ?_ h
    intro n _ r a b h5 h6
    have h7 := hss (r ++ [n])
    rw [List.append_assoc, List.singleton_append] at h7
    rw [h7] at h5
    have h8 : seen fs1 (r ++ n :: place d) = seen fs (r ++ n :: place d) := by
      refine seen_congr (h4 _ (sub_ne r n _) ?_)
      intro h8
      have := congrArg List.length h8
      simp only [List.length_append, List.length_cons, List.length_tail] at this
      omega
    rw [h8] at h6
    exact hfit (r ++ [n]) a b (by simpa using h5) (by simpa using h6)

end Fpm.Cpr
