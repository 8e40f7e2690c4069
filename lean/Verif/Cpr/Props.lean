import Verif.Cpr.EndLemmas
import Verif.Copy.Props

/-!
# C111, C112: `cp -r` copies directories
-/

namespace Fpm.Cpr
open Spec
open Fpm.Copy.Spec (Last)

/-! ## Where the copy goes -/

theorem place_last {src name : List Nat} (h : Last src name []) : ∃ p, place src = name :: p := by
  obtain ⟨pre, rfl, hp, h0, hn, _⟩ := h
  rw [List.append_nil]
  rcases hp with rfl | hp
  · refine ⟨[], ?_⟩
    unfold place
    rw [List.nil_append, split_name name [] hn (by simpa using h0)]
    simp
  · obtain ⟨t, rfl⟩ := List.getLast?_eq_some_iff.mp hp
    refine ⟨place t, ?_⟩
    unfold place
    rw [List.append_assoc, List.singleton_append, split_slash name ⟨h0, hn⟩]
    simp

theorem into_dir {src name : List Nat} (h : Last src name []) (hlen : name.length ≤ 255)
    (dst : List Nat) : Fpm.Copy.copyToDirectory dst [src] = some [(src, join dst name)] := by
  have hb : (Fpm.Copy.base dst).length ≤ dst.length + 1 := by
    unfold Fpm.Copy.base; split <;> simp
  have hp := Fpm.Copy.lastPart_eq src name [] h
  rw [List.append_nil] at hp
  have hne : src.length ≠ 0 ∧ src.getLast? ≠ some 47 := by
    obtain ⟨pre, rfl, _, hn, h47, _⟩ := h
    rcases List.eq_nil_or_concat name with rfl | ⟨q, c, rfl⟩
    · exact absurd rfl hn
    · rw [List.concat_eq_append] at *
      refine ⟨by simp, ?_⟩
      intro e
      simp [← List.append_assoc] at e
      simp [e] at h47
  unfold Fpm.Copy.copyToDirectory
  rw [Fpm.Copy.copyDests.eq_def]; simp only []
  rw [if_neg hne.1, if_pos hne.2, hp, if_neg (by simp [Fpm.Copy.lfnBuf]; omega)]
  rfl

theorem isDir_seen (fs : FS) (p : Path) : isDir fs p = true ↔ seen fs p = some none := by
  unfold isDir seen
  cases fs p with
  | none => simp
  | some o => cases o <;> simp

/-- `cp` with one source that is a directory is one call of `copy_recursive`. -/
theorem cp_one {e : Env} {w : Nat} {src dst name : List Nat} {fs : FS} (h : Last src name [])
    (hlen : name.length ≤ 255) (hd : seen fs (place src) = some none) :
    ∃ d, place d = goal fs src dst ∧ cp e w true [src] dst fs = copyRec e w maxOpen src d fs := by
  obtain ⟨p, hp⟩ := place_last h
  have hgood : Good name := place_good src name (by rw [hp]; exact List.mem_cons_self)
  obtain ⟨l, hl⟩ := seen_dir hd
  have hobj : ∀ d, copyObject e w true src d fs = copyRec e w maxOpen src d fs := by
    intro d
    unfold copyObject
    rw [if_neg (by rw [hp]; simp), hl]
    rfl
  unfold goal cp
  by_cases hg : place dst = [] ∨ seen fs (place dst) = some none
  · refine ⟨join dst name, ?_, ?_⟩
    · rw [if_pos hg, place_join _ _ hgood, hp]; rfl
    · rw [if_pos (by rw [isDir_seen]; exact hg), into_dir h hlen]
      simp only [copyAll]
      rw [hobj]
      cases copyRec e w maxOpen src (join dst name) fs with
      | none => rfl
      | some x => simp
  · refine ⟨dst, ?_, ?_⟩
    · rw [if_neg hg]
    · rw [if_neg (by rw [isDir_seen]; exact hg)]
      exact hobj dst

/-! ## Examples -/

/-- A tree given by its objects. -/
def tree (l : List (Path × Obj)) : FS := fun q => (l.find? (fun x => x.1 == q)).map (·.2)

/-- The conditions of `Sound`, object by object. -/
def check (l : List (Path × Obj)) : Bool :=
  l.all fun x =>
    (match x.1 with
      | [] => true
      | n :: p => match tree l p with
        | some (.dir s) => s.contains (some n)
        | _ => false) &&
    (match x.2 with
      | .file _ => true
      | .dir s => decide (s.filterMap id).Nodup && (s.filterMap id).all fun n =>
          (tree l (n :: x.1)).isSome && !n.isEmpty && !n.contains 47)

theorem tree_mem {l : List (Path × Obj)} {q : Path} {o : Obj} (h : tree l q = some o) :
    (q, o) ∈ l := by
  unfold tree at h
  obtain ⟨x, hx, rfl⟩ := Option.map_eq_some_iff.mp h
  have h1 := List.find?_some hx
  have h2 := List.mem_of_find?_eq_some hx
  simp only [beq_iff_eq] at h1
  subst h1
  exact h2

theorem check_sound {l : List (Path × Obj)} (h : check l = true) : Sound (tree l) := by
  have hc := List.all_eq_true.mp h
  have hdir : ∀ p s, tree l p = some (.dir s) → (s.filterMap id).Nodup ∧
      ∀ n, some n ∈ s → (tree l (n :: p)).isSome ∧ n ≠ [] ∧ 47 ∉ n := by
    intro p s hp
    have := hc _ (tree_mem hp)
    simp only [Bool.and_eq_true, decide_eq_true_eq, List.all_eq_true] at this
    refine ⟨this.2.1, ?_⟩
    intro n hn
    have h2 := this.2.2 n (List.mem_filterMap.mpr ⟨_, hn, rfl⟩)
    simp only [Bool.not_eq_true', List.isEmpty_eq_false_iff, List.contains_eq_mem,
      decide_eq_false_iff_not] at h2
    exact ⟨h2.1.1, h2.1.2, h2.2⟩
  constructor
  · intro p n o ho
    have := hc _ (tree_mem ho)
    simp only [Bool.and_eq_true] at this
    have h1 := this.1
    split at h1
    · rename_i s hs
      exact ⟨s, hs, by simpa using h1⟩
    · cases h1
  · intro p n s hp hn
    exact Option.isSome_iff_exists.mp ((hdir p s hp).2 n hn).1
  · intro p s hp; exact (hdir p s hp).1
  · intro p n s hp hn; exact ((hdir p s hp).2 n hn).2

/-- All works. -/
def fine : Env where
  force := true
  ans := fun _ => false
  makes := fun _ => true
  pos := fun _ => 0
  opens := fun _ => true
  room := fun _ => none
  bad := fun _ _ => false

theorem fine_works : Works fine :=
  ⟨fun _ _ => rfl, .inl rfl, fun _ => rfl, fun _ => rfl, fun _ => rfl⟩

/-- Directory `f` with a file `a` and a directory `d` that has a file `a`; directory `g` with a
file. -/
def example1 : FS := tree
  [([], .dir [some [102], none, some [103]]),
   ([[102]], .dir [none, some [97], some [100]]),
   ([[97], [102]], .file [1, 2, 3]),
   ([[100], [102]], .dir [some [97]]),
   ([[97], [100], [102]], .file [4]),
   ([[103]], .dir [some [120]]),
   ([[120], [103]], .file [9])]

theorem example1_sound : Sound example1 := check_sound (by decide)

/-! ## C111 -/

/-- Whenever all works, the copy is made and there is no message. -/
def C111_full : Prop :=
  ∀ (e : Env) (w : Nat) (src dst name : List Nat) (fs fs' : FS) (m : List Msg), Works e → Sound fs →
    Last src name [] → name.length ≤ 255 → seen fs (place src) = some none →
    Apart (place src) (goal fs src dst) → Fits fs (place src) (goal fs src dst) →
    Parent fs (goal fs src dst) → cp e w true [src] dst fs = some (fs', m) →
    m = [] ∧ Copied fs fs' (place src) (goal fs src dst)

/-- `d` with sixteen directories in each other. -/
def deepTree : FS := tree
  (([], .dir [some [100]]) :: (List.range 17).map fun i =>
    (List.replicate (i + 1) [100], .dir (if i < 16 then [some [100]] else [])))

/-- Nothing is at or below a place without object. -/
theorem nothing {fs : FS} (hs : Sound fs) {p : Path} (hp : fs p = none) (r : Path) :
    seen fs (r ++ p) = none := by
  rcases List.eq_nil_or_concat r with rfl | ⟨r', m, rfl⟩
  · exact seen_of_none hp
  · rw [List.concat_eq_append, List.append_assoc, List.singleton_append]
    exact seen_of_none (below hs (p := p) (by rw [hp]; simp) r' m)

theorem apart_of_ne {n m : Name} (h : n ≠ m) : Apart [n] [m] := by
  constructor
  · rintro ⟨r, hr⟩
    have := List.append_inj' (s₁ := []) (t₁ := [m]) (s₂ := r) (t₂ := [n]) hr rfl
    simp at this
    exact h this.2.symm
  · rintro ⟨r, hr⟩
    have := List.append_inj' (s₁ := []) (t₁ := [n]) (s₂ := r) (t₂ := [m]) hr rfl
    simp at this
    exact h this.2

/-- Directories can be nested too deep: no more than 16 can be open at once. -/
theorem C111_violated : ¬ C111_full := by
  intro h
  have hs : Sound deepTree := check_sound (by decide +kernel)
  have hr : (cp fine 3 true [[100]] [101] deepTree).map (·.2.length) = some 1 := by decide +kernel
  obtain ⟨⟨fs', m⟩, h1, h2⟩ := Option.map_eq_some_iff.mp hr
  have hg : goal deepTree [100] [101] = [[101]] := by decide +kernel
  have hn : deepTree [[101]] = none := by decide +kernel
  have h3 := h fine 3 [100] [101] [100] deepTree fs' m fine_works hs
    ⟨[], rfl, .inl rfl, by decide, by decide, by simp⟩ (by decide) (by decide +kernel)
    (by rw [hg]; exact apart_of_ne (n := [100]) (m := [101]) (by decide))
    (by
      rw [hg]
      intro r a b _ hb
      rw [nothing hs hn r] at hb; cases hb)
    ⟨[101], [], hg, by decide +kernel⟩ h1
  rw [h3.1] at h2
  cases h2

/-- If `f_readdir` fails, part of the directory is left out without any message. -/
theorem C111_silent : ∃ (e : Env) (fs' : FS), Sound example1 ∧
    cp e 10 true [[102]] [104] example1 = some (fs', []) ∧
    seen example1 [[100], [102]] = some none ∧ seen fs' [[100], [104]] = none :=
  ⟨{ fine with bad := fun _ i => i == 2 }, _, example1_sound, rfl, by decide, by decide⟩

/-- `cp` without -r copies no directory: nothing changes, and the user is told. -/
theorem C111_plain (e : Env) (w : Nat) (src dst name : List Nat) (fs : FS)
    (hl : Last src name []) (hlen : name.length ≤ 255) (hd : seen fs (place src) = some none) :
    cp e w false [src] dst fs = some (fs, [.noRecursion src]) := by
  obtain ⟨p, hp⟩ := place_last hl
  obtain ⟨l, hl2⟩ := seen_dir hd
  have hobj : ∀ d, copyObject e w false src d fs = some (fs, [.noRecursion src]) := by
    intro d
    unfold copyObject
    rw [if_neg (by rw [hp]; simp), hl2]
    rfl
  unfold cp
  by_cases hg : place dst = [] ∨ seen fs (place dst) = some none
  · rw [if_pos (by rw [isDir_seen]; exact hg), into_dir hl hlen]
    simp only [copyAll]
    rw [hobj]
    rfl
  · rw [if_neg (by rw [isDir_seen]; exact hg)]
    exact hobj dst

/-- `cp -r` of one directory, to a place that is not in it, comes to an end, whatever goes wrong;
nothing outside of the place of the copy changes, so the source stays; and if there is no message
(and reading directories works), the copy is there. -/
theorem C111_copy (e : Env) (w : Nat) (src dst name : List Nat) (fs : FS) (hs : Sound fs)
    (hl : Last src name []) (hlen : name.length ≤ 255) (hd : seen fs (place src) = some none)
    (ha : Apart (place src) (goal fs src dst)) (hw : Narrow fs w (place src)) :
    ∃ fs' m, cp e w true [src] dst fs = some (fs', m) ∧ Sound fs' ∧
      Outside fs fs' (goal fs src dst) ∧
      (Reads e → m = [] → Copied fs fs' (place src) (goal fs src dst)) := by
  obtain ⟨d, h1, h2⟩ := cp_one (e := e) (w := w) (dst := dst) hl hlen hd
  rw [← h1] at ha ⊢
  obtain ⟨l, hl2⟩ := seen_dir hd
  have hw0 : 0 < w := by
    have := hw _ l (within_self _) hl2
    omega
  obtain ⟨⟨fs', m⟩, h3⟩ := copyRec_ends e w hw0 maxOpen src d fs hs ha hw
  obtain ⟨h4, h5⟩ := copyRec_ok e w maxOpen src d fs fs' m hs h3
  refine ⟨fs', m, by rw [h2, h3], h4, h5.2, ?_⟩
  intro hr hm
  subst hm
  exact copyRec_done e w hr maxOpen src d fs fs' hs ha hd h3

/-- Missing for the full claim: files more than 14 levels down and directories more than 15 levels
down. -/
theorem C111_works_partial (e : Env) (w : Nat) (src dst name : List Nat) (fs fs' : FS)
    (m : List Msg) (he : Works e) (hs : Sound fs) (hl : Last src name []) (hlen : name.length ≤ 255)
    (hd : seen fs (place src) = some none) (ha : Apart (place src) (goal fs src dst))
    (hf : Fits fs (place src) (goal fs src dst)) (hp : Parent fs (goal fs src dst))
    (hsh : Shallow fs 16 (place src)) (h : cp e w true [src] dst fs = some (fs', m)) :
    m = [] ∧ Copied fs fs' (place src) (goal fs src dst) := by
  obtain ⟨d, h1, h2⟩ := cp_one (e := e) (w := w) (dst := dst) hl hlen hd
  rw [h2] at h
  rw [← h1] at ha hf hp ⊢
  have hm := copyRec_quiet he w maxOpen src d fs fs' m hs ha hd hsh hf hp h
  subst hm
  exact ⟨rfl, copyRec_done e w he.reads maxOpen src d fs fs' hs ha hd h⟩

example : ∃ fs', cp fine 10 true [[102]] [103] example1 = some (fs', []) ∧
    seen fs' [[97], [100], [102], [103]] = some (some [4]) ∧ seen fs' [[120], [103]] = some (some [9]) :=
  ⟨_, rfl, by decide, by decide⟩

/-- Hypotheses of `C111_copy` and `C111_works_partial` for `cp -r f g`, where `g` is a directory. -/
example : Sound example1 ∧ Last [102] [102] [] ∧ seen example1 (place [102]) = some none ∧
    goal example1 [102] [103] = [[102], [103]] ∧
    Apart (place [102]) (goal example1 [102] [103]) ∧ Parent example1 (goal example1 [102] [103]) ∧
    Fits example1 (place [102]) (goal example1 [102] [103]) := by
  refine ⟨example1_sound, ⟨[], rfl, .inl rfl, by decide, by decide, by simp⟩, by decide, by decide,
    ?_, ⟨[102], [[103]], by decide, by decide⟩, ?_⟩
  · constructor
    · rintro ⟨r, hr⟩
      have := List.append_inj' (s₁ := [[102]]) (t₁ := [[103]]) (s₂ := r) (t₂ := [[102]]) hr rfl
      exact absurd this.2 (by decide)
    · rintro ⟨r, hr⟩
      have := congrArg List.length hr
      rw [show place [102] = [[102]] by decide, show goal example1 [102] [103] = [[102], [103]] by decide] at this
      simp at this
  · intro r a b _ hb
    rw [show goal example1 [102] [103] = [[102], [103]] by decide,
      nothing example1_sound (by decide) r] at hb
    cases hb

/-! ## C112 -/

/-- A directory is not copied into itself, or the copy holds what was there before. -/
def C112_full : Prop :=
  ∀ (e : Env) (w : Nat) (src dst name : List Nat) (fs fs' : FS) (m : List Msg), Works e → Sound fs →
    Last src name [] → name.length ≤ 255 → seen fs (place src) = some none →
    Within (place src) (goal fs src dst) → cp e w true [src] dst fs = some (fs', m) →
    (∀ q, seen fs' q = seen fs q) ∨
    (∀ r, seen fs' (r ++ goal fs src dst) = seen fs (r ++ place src))

/-- Entries of the loop other than `n` leave what is at `n` in the destination. -/
theorem scan_keeps {e : Env} {rec : List Nat → List Nat → FS → Option (FS × List Msg)} {free : Nat}
    {src dst : List Nat} (hk : RecOk rec) (ho : ¬ Within (place dst) (place src))
    (l : List (Option Name)) (n : Name) : ∀ (w i : Nat) (fs fs' : FS) (m : List Msg), Sound fs →
    fs (place src) = some (.dir l) → n ∉ names (l.drop i) →
    scan e rec free src dst w i fs = some (fs', m) →
    ∀ r, seen fs' (r ++ n :: place dst) = seen fs (r ++ n :: place dst) := by
  intro w
  induction w with
  | zero => intro i fs fs' m _ _ _ h; simp [scan] at h
  | succ w ih =>
    intro i fs fs' m hs hl hn h r
    rw [scan_eq e rec free src dst w i fs l hl] at h
    split at h
    · cases h; rfl
    · split at h
      · cases h; rfl
      · rename_i k j hnx
        split at h
        · cases h
        · rename_i fs1 m1 hrd
          split at h
          · cases h
          · rename_i fs2 m2 hsc
            cases h
            obtain ⟨hij, _, h3⟩ := next_some _ _ _ _ hnx
            have hnames : names (l.drop i) = k :: names (l.drop j) := by
              rw [List.drop_drop, show i + (j - i) = j by omega] at h3
              exact h3
            have hmem : some k ∈ l := names_mem (i := i) (by rw [hnames]; exact List.mem_cons_self)
            obtain ⟨hs1, hsoft⟩ := round_ok hk hs (hs.good _ _ _ hl hmem) hrd
            rw [hnames, List.mem_cons, not_or] at hn
            rw [ih j fs1 _ _ hs1 (by rw [soft_up hsoft _ ho]; exact hl) hn.2 hsc r]
            exact hsoft.2 _ (fun h1 => hn.1 (within_inj h1))

/-- The loop comes to the new directory. -/
theorem scan_nested {e : Env} (he : Works e) {w0 free : Nat} {src dst : List Nat} {n : Name}
    (hq : place dst = n :: place src)
    (hr : ∀ (s d : List Nat) (fs fs' : FS) (m : List Msg), Sound fs → place d = n :: place s →
      seen fs (place s) = some none → fs (n :: place s) = none →
      copyRec e w0 free s d fs = some (fs', m) →
      ∀ k ≤ free, seen fs' (List.replicate (k + 1) n ++ place s) = some none)
    (l : List (Option Name)) : ∀ (w i : Nat) (fs fs' : FS) (m : List Msg), Sound fs →
    fs (place src) = some (.dir l) → n ∈ names (l.drop i) → seen fs (n :: place src) = some none →
    fs (n :: n :: place src) = none →
    scan e (copyRec e w0 free) free src dst w i fs = some (fs', m) →
    ∀ k ≤ free, seen fs' (List.replicate (k + 1) n ++ n :: place src) = some none := by
  have ho : ¬ Within (place dst) (place src) := by rw [hq]; exact not_within_up n _
  intro w
  induction w with
  | zero => intro i fs fs' m _ _ _ _ _ h; simp [scan] at h
  | succ w ih =>
    intro i fs fs' m hs hl hn hd h0 h
    rw [scan_eq e _ free src dst w i fs l hl, if_neg (by rw [he.reads]; simp)] at h
    split at h
    · rename_i hnx
      rw [show names (l.drop i) = [] from next_none _ _ hnx] at hn
      cases hn
    · rename_i k j hnx
      split at h
      · cases h
      · rename_i fs1 m1 hrd
        split at h
        · cases h
        · rename_i fs2 m2 hsc
          cases h
          obtain ⟨hij, _, h3⟩ := next_some _ _ _ _ hnx
          have hnames : names (l.drop i) = k :: names (l.drop j) := by
            rw [List.drop_drop, show i + (j - i) = j by omega] at h3
            exact h3
          have hmem : some k ∈ l := names_mem (i := i) (by rw [hnames]; exact List.mem_cons_self)
          have hg := hs.good _ _ _ hl hmem
          obtain ⟨hs1, hsoft⟩ := round_ok (copyRec_ok e w0 free) hs hg hrd
          have hl1 : fs1 (place src) = some (.dir l) := by rw [soft_up hsoft _ ho]; exact hl
          by_cases hkn : k = n
          · subst hkn
            have hnd : k ∉ names (l.drop j) := by
              have := names_nodup (hs.once _ _ hl) i
              rw [hnames] at this
              exact (List.nodup_cons.mp this).1
            have hkeep := scan_keeps (copyRec_ok e w0 free) ho l k w j fs1 _ _ hs1 hl1 hnd hsc
            obtain ⟨l2, hl2⟩ := seen_dir hd
            unfold round at hrd
            rw [hl2] at hrd
            simp only at hrd
            have h5 := hr (join src k) (join dst k) fs fs1 m1 hs
            rw [place_join _ _ hg, place_join _ _ hg, hq] at h5
            intro t ht
            have h6 := h5 rfl hd h0 hrd t ht
            have h7 := hkeep (List.replicate t k)
            rw [hq] at h7
            have h8 : List.replicate (t + 1) k ++ k :: place src = List.replicate t k ++ k :: k :: place src := by
              rw [List.replicate_succ']; simp
            rw [h8] at h6 ⊢
            rw [h7, h6]
          · rw [hnames] at hn
            rcases List.mem_cons.mp hn with h4 | h4
            · exact absurd h4.symm hkn
            · refine ih j fs1 _ _ hs1 hl1 h4 ?_ ?_ hsc
              · rw [hq] at hsoft
                rw [hsoft.2 _ (not_within_up k _)]; exact hd
              · rw [hq] at hsoft
                have h5 := hsoft.2 ([] ++ n :: (n :: place src)) (fun h6 => hkn (within_inj h6).symm)
                exact seen_none (by rw [List.nil_append] at h5; rw [h5]; exact seen_of_none h0)

theorem copyRec_nested {e : Env} (he : Works e) (w : Nat) (n : Name) : ∀ (free : Nat)
    (s d : List Nat) (fs fs' : FS) (m : List Msg), Sound fs → place d = n :: place s →
      seen fs (place s) = some none → fs (n :: place s) = none →
      copyRec e w free s d fs = some (fs', m) →
      ∀ k ≤ free, seen fs' (List.replicate (k + 1) n ++ place s) = some none := by
  intro free
  induction free with
  | zero =>
    intro s d fs fs' m hs hq hd h0 h k hk
    obtain ⟨fs1, ht⟩ := target_quiet he (d := d) (fs := fs) ⟨n, _, hq, hd⟩ (by
      rw [hq, seen_of_none h0]; simp)
    unfold copyRec at h
    rw [ht] at h
    cases h
    obtain ⟨_, _, h3, _⟩ := target_eq hs ht
    obtain rfl : k = 0 := by omega
    rw [hq] at h3
    exact h3
  | succ free ih =>
    intro s d fs fs' m hs hq hd h0 h k hk
    obtain ⟨fs1, ht⟩ := target_quiet he (d := d) (fs := fs) ⟨n, _, hq, hd⟩ (by
      rw [hq, seen_of_none h0]; simp)
    unfold copyRec at h
    rw [ht] at h
    simp only at h
    rw [if_neg (by rw [he.opens]; simp)] at h
    obtain ⟨h1, h2, h3, h4⟩ := target_eq hs ht
    have hd1 : seen fs1 (place s) = some none := by
      rw [h2.2 _ (by rw [hq]; exact not_within_up n _)]; exact hd
    obtain ⟨l, hl⟩ := seen_dir hd1
    rw [hq] at h3
    have hin : n ∈ names (l.drop 0) := by
      obtain ⟨l2, hl2⟩ := seen_dir h3
      obtain ⟨l3, h5, h6⟩ := h1.listed _ _ _ hl2
      rw [hl] at h5; cases h5
      exact List.mem_filterMap.mpr ⟨_, h6, rfl⟩
    have h00 : fs1 (n :: n :: place s) = none := by
      rw [h4 _ (by rw [hq]; exact cons_ne _ _) (by
        rw [hq]
        intro h5
        have := congrArg List.length h5
        simp at this; omega)]
      exact below hs (p := n :: place s) (by rw [h0]; simp) [] n
    have h5 := scan_nested he hq ih l w 0 fs1 fs' m h1 hl hin h3 h00 h
    cases k with
    | zero =>
      obtain ⟨_, h6⟩ := scan_ok (copyRec_ok e w free) w 0 fs1 fs' m h1 h
      -- the directory is still there
      have h7 := h5 0 (by omega)
      obtain ⟨l2, hl2⟩ := seen_dir h7
      obtain ⟨hs', _⟩ := scan_ok (copyRec_ok e w free) w 0 fs1 fs' m h1 h
      obtain ⟨l3, h8, _⟩ := hs'.listed (n :: place s) n _ hl2
      show seen fs' (n :: place s) = some none
      simp [seen, h8]
    | succ k =>
      have h7 := h5 k (by omega)
      rw [show List.replicate (k + 1 + 1) n ++ place s = List.replicate (k + 1) n ++ n :: place s by
        rw [List.replicate_succ' (n := k + 1)]; simp]
      exact h7

/-- `cp -r` of a directory to a new name `n` in itself makes 17 directories `n` in each other. -/
theorem C112_nested (e : Env) (w : Nat) (src dst name : List Nat) (n : Name) (fs fs' : FS)
    (m : List Msg) (he : Works e) (hs : Sound fs) (hl : Last src name []) (hlen : name.length ≤ 255)
    (hd : seen fs (place src) = some none) (hg : goal fs src dst = n :: place src)
    (h0 : seen fs (n :: place src) = none) (h : cp e w true [src] dst fs = some (fs', m)) :
    ∀ k ≤ 16, seen fs' (List.replicate (k + 1) n ++ place src) = some none := by
  obtain ⟨d, h1, h2⟩ := cp_one (e := e) (w := w) (dst := dst) hl hlen hd
  rw [h2] at h
  rw [hg] at h1
  exact copyRec_nested he w n maxOpen src d fs fs' m hs h1 hd (seen_none h0) h

theorem C112_violated : ¬ C112_full := by
  intro h
  have hr : (cp fine 10 true [[102]] [102, 47, 98] example1).isSome := by decide +kernel
  obtain ⟨⟨fs', m⟩, h1⟩ := Option.isSome_iff_exists.mp hr
  have hl : Last [102] [102] [] := ⟨[], rfl, .inl rfl, by decide, by decide, by simp⟩
  have hg : goal example1 [102] [102, 47, 98] = [98] :: place [102] := by decide
  have h2 := C112_nested fine 10 [102] [102, 47, 98] [102] [98] example1 fs' m fine_works
    example1_sound hl (by decide) (by decide) hg (by decide) h1 1 (by decide)
  rcases h fine 10 [102] [102, 47, 98] [102] example1 fs' m fine_works example1_sound hl (by decide)
    (by decide) (by rw [hg]; exact ⟨[[98]], rfl⟩) h1 with h3 | h3
  · rw [h3] at h2; revert h2; decide
  · have h4 := h3 [[98]]
    rw [hg] at h4
    have h5 : seen example1 ([[98]] ++ place [102]) = none := by decide
    rw [h5] at h4
    have h6 : seen fs' ([[98]] ++ [98] :: place [102]) = some none := h2
    rw [h6] at h4; cases h4

/-- Wherever the copy goes, the tree stays in order and nothing outside of the destination changes.
Missing for the full claim: what is in the destination. -/
theorem C112_outside_partial (e : Env) (w : Nat) (src dst name : List Nat) (fs fs' : FS)
    (m : List Msg) (hs : Sound fs) (hl : Last src name []) (hlen : name.length ≤ 255)
    (hd : seen fs (place src) = some none) (h : cp e w true [src] dst fs = some (fs', m)) :
    Sound fs' ∧ Outside fs fs' (goal fs src dst) := by
  obtain ⟨d, h1, h2⟩ := cp_one (e := e) (w := w) (dst := dst) hl hlen hd
  rw [h2] at h
  rw [← h1]
  obtain ⟨h4, h5⟩ := copyRec_ok e w maxOpen src d fs fs' m hs h
  exact ⟨h4, h5.2⟩

end Fpm.Cpr
