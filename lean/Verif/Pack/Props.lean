import Verif.Pack.Spec
import Verif.Cpr.Props

/-!
# C113: an image holds what the directory holds
-/

namespace Fpm.Pack
open Fpm.Cpr Fpm.Cpr.Spec Fpm.Pack.Spec

theorem mkdir_seen {e : Env} {fs fs' : FS} {p : Path} (h : mkdir e fs p = some fs') :
    seen fs' p = some none ∧ ∀ q, q ≠ p → seen fs' q = seen fs q := by
  obtain ⟨n, t, rfl, h0, hk⟩ := mkdir_eq h
  obtain ⟨l, h1, h2, h3, h4⟩ := make_eq hk
  refine ⟨by simp [seen, h2], ?_⟩
  intro q hq
  by_cases ht : q = t
  · subst ht; simp [seen, h1, h3]
  · exact seen_congr (h4 q hq ht)

theorem create_seen {e : Env} {free : Nat} {src : Path} {fs fs' : FS} {p : Path}
    (h : create e free src fs p = some fs') : ∀ q, q ≠ p → seen fs' q = seen fs q := by
  cases p with
  | nil => simp [create] at h
  | cons n t =>
    simp only [create] at h
    split at h
    · cases h
    · split at h
      · cases h
      · split at h
        · cases h
        · cases h
          intro q hq
          exact seen_congr (by simp [hq])
      · obtain ⟨l, h1, h2, h3, h4⟩ := make_eq h
        intro q hq
        by_cases ht : q = t
        · subst ht; simp [seen, h1, h3]
        · exact seen_congr (h4 q hq ht)

theorem addFile_seen {e : Env} {fs fs' : FS} {p : Path} {d : List Nat}
    (h : addFile e fs p d = some fs') :
    seen fs' p = some (some d) ∧ ∀ q, q ≠ p → seen fs' q = seen fs q := by
  unfold addFile at h
  split at h
  · cases h
  · rename_i fs1 hc
    split at h
    · cases h
      refine ⟨by simp [seen], ?_⟩
      intro q hq
      rw [← create_seen hc q hq]
      exact seen_congr (by simp [hq])
    · cases h

/-- One node: the body of the loop of `add_contents`, tools/uf2fat/format.cpp:110-132. -/
def step (e : Env) (fold : Name → Name) (n : Node) (fs : FS) : Option FS :=
  if n.path = [] then some fs
  else
    match n.kind with
    | .other => some fs
    | .dir => addDirectory e fs (target fold n.path)
    | .file data => addFile e fs (target fold n.path) data

theorem contents_cons (e : Env) (fold : Name → Name) (n : Node) (l : List Node) (fs : FS) :
    addContents e fold (n :: l) fs = (step e fold n fs).bind (addContents e fold l) := by
  obtain ⟨path, kind⟩ := n
  rw [addContents.eq_def]
  simp only [step]
  by_cases hp : path = []
  · rw [if_pos hp, if_pos hp]; rfl
  · rw [if_neg hp, if_neg hp]
    cases kind with
    | other => rfl
    | dir => simp only; cases addDirectory e fs (target fold path) <;> rfl
    | file d => simp only; cases addFile e fs (target fold path) d <;> rfl

theorem step_skip {e : Env} {fold : Name → Name} {n : Node} {fs fs' : FS}
    (hn : ¬ (n.path ≠ [] ∧ n.kind ≠ .other)) (h : step e fold n fs = some fs') : fs' = fs := by
  unfold step at h
  split at h
  · cases h; rfl
  · rename_i h1
    have h2 : n.kind = .other := by
      cases hk : n.kind with
      | other => rfl
      | dir => exact absurd ⟨h1, by rw [hk]; simp⟩ hn
      | file d => exact absurd ⟨h1, by rw [hk]; simp⟩ hn
    rw [h2] at h
    cases h; rfl

theorem step_seen {e : Env} {fold : Name → Name} {n : Node} {fs fs' : FS}
    (hn : n.path ≠ [] ∧ n.kind ≠ .other) (h : step e fold n fs = some fs') :
    seen fs' (target fold n.path) = wanted n ∧
      ∀ q, q ≠ target fold n.path → seen fs' q = seen fs q := by
  unfold step at h
  rw [if_neg hn.1] at h
  split at h
  · rename_i hk; exact absurd hk hn.2
  · rename_i hk
    have := mkdir_seen h
    exact ⟨by rw [this.1]; simp [wanted, hk], this.2⟩
  · rename_i d hk
    have := addFile_seen h
    exact ⟨by rw [this.1]; simp [wanted, hk], this.2⟩

theorem copied_cons (n : Node) (l : List Node) :
    copied (n :: l) = if n.path ≠ [] ∧ n.kind ≠ .other then n :: copied l else copied l := by
  unfold copied
  rw [List.filter_cons]
  by_cases h : n.path ≠ [] ∧ n.kind ≠ .other
  · rw [if_pos h, if_pos (by simp [h])]
  · rw [if_neg h, if_neg (by simpa using h)]

/-- All distinct files that are walked through. -/
theorem contents_seen {e : Env} {fold : Name → Name} (l : List Node) : ∀ fs fs' : FS,
    Distinct fold l → addContents e fold l fs = some fs' →
    (∀ n ∈ copied l, seen fs' (target fold n.path) = wanted n) ∧
    (∀ q, (∀ n ∈ copied l, q ≠ target fold n.path) → seen fs' q = seen fs q) := by
  induction l with
  | nil =>
    intro fs fs' _ h
    cases h
    exact ⟨fun n hn => (by cases hn), fun _ _ => rfl⟩
  | cons n l ih =>
    intro fs fs' hd h
    rw [contents_cons] at h
    obtain ⟨fs1, h1, h2⟩ := Option.bind_eq_some_iff.mp h
    unfold Distinct at hd
    rw [copied_cons] at hd ⊢
    by_cases hn : n.path ≠ [] ∧ n.kind ≠ .other
    · rw [if_pos hn] at hd ⊢
      rw [List.map_cons, List.nodup_cons] at hd
      obtain ⟨h3, h4⟩ := ih fs1 fs' hd.2 h2
      obtain ⟨h5, h6⟩ := step_seen hn h1
      have hne : ∀ m ∈ copied l, target fold n.path ≠ target fold m.path := by
        intro m hm he
        exact hd.1 (List.mem_map.mpr ⟨m, hm, he.symm⟩)
      constructor
      · intro m hm
        rcases List.mem_cons.mp hm with rfl | hm
        · rw [h4 _ hne, h5]
        · exact h3 m hm
      · intro q hq
        rw [h4 q (fun m hm => hq m (List.mem_cons_of_mem _ hm)), h6 q (hq n List.mem_cons_self)]
    · rw [if_neg hn] at hd ⊢
      have := step_skip hn h1
      subst this
      exact ih _ _ hd h2

/-- If the tool does not end with an error, the image holds what the directory holds. -/
def C113_full : Prop :=
  ∀ (e : Env) (fold : Name → Name) (l : List Node) (fs' : FS), Once l → Preorder l →
    addContents e fold l empty = some fs' → Holds fold fs' l

/-- Upper case, for the example (ff_wtoupper on ASCII letters, fatfs/unicode.c). -/
def upper (n : Name) : Name := n.map fun c => if 97 ≤ c ∧ c ≤ 122 then c - 32 else c

/-- Of two files whose names differ only in case one is lost, without a message. -/
theorem C113_lost : ∃ fs', addContents fine upper [⟨[[65]], .file [1]⟩, ⟨[[97]], .file [2]⟩] empty =
    some fs' ∧ seen fs' [[65]] = some (some [2]) := ⟨_, rfl, by decide⟩

theorem C113_violated : ¬ C113_full := by
  intro h
  obtain ⟨fs', h1, h2⟩ := C113_lost
  have h3 := h fine upper _ fs' (by unfold Once; decide) (by
    intro pre n post x p hl hn hp hp0
    have : n ∈ [(⟨[[65]], .file [1]⟩ : Node), ⟨[[97]], .file [2]⟩] := by
      rw [hl]; simp
    simp only [List.mem_cons, List.not_mem_nil, or_false] at this
    rcases this with rfl | rfl <;> simp_all) h1
  have h4 := h3.1 ⟨[[65]], .file [1]⟩ (by decide)
  have h5 : seen fs' [[65]] = some (some [1]) := h4
  rw [h2] at h5
  exact absurd h5 (by decide)

/-- Missing for the full claim: names that differ only in upper and lower case. -/
theorem C113_contents_partial (e : Env) (fold : Name → Name) (l : List Node) (fs' : FS)
    (hd : Distinct fold l) (h : addContents e fold l empty = some fs') : Holds fold fs' l := by
  obtain ⟨h1, h2⟩ := contents_seen l empty fs' hd h
  refine ⟨h1, ?_⟩
  intro q hq hn
  rw [h2 q hn]
  simp [seen, empty, hq]

/-- A parent directory lets objects be made. -/
theorem step_works {e : Env} (he : Works e) {fold : Name → Name} {n : Node} {fs : FS}
    (hp : n.path ≠ [] → Parent fs (target fold n.path))
    (h0 : seen fs (target fold n.path) = none ∨ n.path = [] ∨ n.kind = .other) :
    ∃ fs', step e fold n fs = some fs' := by
  unfold step
  split
  · exact ⟨_, rfl⟩
  · rename_i hne
    obtain ⟨x, p, hq, hpd⟩ := hp hne
    obtain ⟨s, hs⟩ := seen_dir hpd
    split
    · exact ⟨_, rfl⟩
    · rename_i hk
      rcases h0 with h0 | h0 | h0
      · have h1 := seen_none h0
        unfold addDirectory
        rw [hq] at h1 ⊢
        simp only [mkdir]
        rw [if_neg (by rw [h1]; simp), if_neg (by rw [he.makes]; simp)]
        unfold make
        rw [hs]; exact ⟨_, rfl⟩
      · exact absurd h0 hne
      · rw [hk] at h0; cases h0
    · rename_i d hk
      rcases h0 with h0 | h0 | h0
      · have h1 := seen_none h0
        unfold addFile
        have hc : ∃ fs1, create e maxOpen [] fs (target fold n.path) = some fs1 := by
          rw [hq] at h1 ⊢
          simp only [create]
          rw [if_neg (by rw [he.makes]; simp [maxOpen]), h1]
          simp only
          unfold make
          rw [hs]; exact ⟨_, rfl⟩
        obtain ⟨fs1, hc⟩ := hc
        rw [hc]
        simp only [he.room]
        exact ⟨_, rfl⟩
      · exact absurd h0 hne
      · rw [hk] at h0; cases h0

theorem contents_works {e : Env} (he : Works e) {fold : Name → Name} (l : List Node) :
    ∀ (done : List Node) (fs : FS), Distinct fold (done ++ l) → Preorder (done ++ l) →
    (∀ n ∈ copied done, seen fs (target fold n.path) = wanted n) →
    (∀ q, q ≠ [] → (∀ n ∈ copied done, q ≠ target fold n.path) → seen fs q = none) →
    seen fs [] = some none → ∃ fs', addContents e fold l fs = some fs' := by
  induction l with
  | nil => intro _ fs _ _ _ _ _; exact ⟨fs, rfl⟩
  | cons n l ih =>
    intro done fs hd hpre hin hout hroot
    have happ : ∀ a b : List Node, copied (a ++ b) = copied a ++ copied b :=
      fun a b => List.filter_append ..
    rw [contents_cons]
    by_cases hn : n.path ≠ [] ∧ n.kind ≠ .other
    · have hmem : n ∈ copied (done ++ n :: l) := by
        rw [happ, copied_cons, if_pos hn]
        simp
      have hfresh : ∀ m ∈ copied done, target fold n.path ≠ target fold m.path := by
        unfold Distinct at hd
        rw [happ, copied_cons, if_pos hn, List.map_append, List.nodup_append] at hd
        intro m hm heq
        exact hd.2.2 _ (List.mem_map.mpr ⟨m, hm, rfl⟩) _ (List.mem_map.mpr ⟨n, List.mem_cons_self, rfl⟩)
          heq.symm
      have htne : target fold n.path ≠ [] := by
        intro h; exact hn.1 (List.map_eq_nil_iff.mp h)
      have hpar : Parent fs (target fold n.path) := by
        cases hp : n.path with
        | nil => exact absurd hp hn.1
        | cons x p =>
          refine ⟨fold x, target fold p, rfl, ?_⟩
          by_cases hp0 : p = []
          · subst hp0; exact hroot
          · obtain ⟨m, hm, hmp, hmk⟩ := hpre done n l x p rfl hmem hp hp0
            have hmc : m ∈ copied done := by
              unfold copied
              rw [List.mem_filter]
              exact ⟨hm, by rw [hmp, hmk]; simp [hp0]⟩
            have := hin m hmc
            rw [hmp] at this
            rw [this]; simp [wanted, hmk]
      obtain ⟨fs1, h1⟩ := step_works he (fold := fold) (n := n) (fs := fs) (fun _ => hpar)
        (.inl (hout _ htne hfresh))
      obtain ⟨h5, h6⟩ := step_seen hn h1
      rw [h1, Option.bind_some]
      have hc : copied (done ++ [n]) = copied done ++ [n] := by
        rw [happ, copied_cons, if_pos hn]; rfl
      refine ih (done ++ [n]) fs1 (by simpa using hd) (by simpa using hpre) ?_ ?_ ?_
      · intro m hm
        rw [hc] at hm
        rcases List.mem_append.mp hm with hm | hm
        · rw [h6 _ (fun h => hfresh m hm h.symm)]; exact hin m hm
        · simp only [List.mem_singleton] at hm
          subst hm; exact h5
      · intro q hq hno
        rw [hc] at hno
        rw [h6 q (hno n (by simp))]
        exact hout q hq (fun m hm => hno m (by simp [hm]))
      · rw [h6 _ htne.symm]; exact hroot
    · have hstep : step e fold n fs = some fs := by
        unfold step
        split
        · rfl
        · rename_i h1
          cases hk : n.kind with
          | other => rfl
          | dir => exact absurd ⟨h1, by rw [hk]; simp⟩ hn
          | file d => exact absurd ⟨h1, by rw [hk]; simp⟩ hn
      rw [hstep, Option.bind_some]
      have hc : copied (done ++ [n]) = copied done := by
        rw [happ, copied_cons, if_neg hn]; simp [copied]
      exact ih (done ++ [n]) fs (by simpa using hd) (by simpa using hpre)
        (by rw [hc]; exact hin) (by rw [hc]; exact hout) hroot

/-- If there is room for all and the walk is in order, the tool does not end with an error. -/
theorem C113_works (e : Env) (fold : Name → Name) (l : List Node) (he : Works e)
    (hd : Distinct fold l) (hp : Preorder l) :
    ∃ fs', addContents e fold l empty = some fs' ∧ Holds fold fs' l := by
  obtain ⟨fs', h⟩ := contents_works he l [] empty hd hp (by intro n hn; cases hn)
    (by intro q hq _; simp [seen, empty, hq]) (by decide)
  exact ⟨fs', h, C113_contents_partial e fold l fs' hd h⟩

/-- A walk through a directory with a file, a link and a file in it. -/
example : Distinct upper [⟨[], .dir⟩, ⟨[[98]], .dir⟩, ⟨[[97], [98]], .file [7]⟩, ⟨[[99], [98]], .other⟩,
      ⟨[[98]], .other⟩, ⟨[[100]], .file []⟩] ∧
    Preorder [⟨[], .dir⟩, ⟨[[98]], .dir⟩, ⟨[[97], [98]], .file [7]⟩, ⟨[[99], [98]], .other⟩,
      ⟨[[98]], .other⟩, ⟨[[100]], .file []⟩] := by
  refine ⟨by unfold Distinct; decide, ?_⟩
  intro pre n post x p hl hn hp hp0
  have hmem := (List.mem_filter.mp hn).2
  match pre, hl with
  | [], hl => simp only [List.nil_append, List.cons.injEq] at hl; obtain ⟨rfl, _⟩ := hl; cases hp
  | [a], hl =>
    simp only [List.cons_append, List.nil_append, List.cons.injEq] at hl
    obtain ⟨_, rfl, _⟩ := hl; simp at hp; exact absurd hp.2 hp0
  | [a, b], hl =>
    simp only [List.cons_append, List.nil_append, List.cons.injEq] at hl
    obtain ⟨_, rfl, rfl, _⟩ := hl
    simp at hp
    exact ⟨⟨[[98]], .dir⟩, by simp, by simp [hp.2], rfl⟩
  | [a, b, c], hl =>
    simp only [List.cons_append, List.nil_append, List.cons.injEq] at hl
    obtain ⟨_, _, _, rfl, _⟩ := hl; simp at hmem
  | [a, b, c, d], hl =>
    simp only [List.cons_append, List.nil_append, List.cons.injEq] at hl
    obtain ⟨_, _, _, _, rfl, _⟩ := hl; simp at hmem
  | [a, b, c, d, f], hl =>
    simp only [List.cons_append, List.nil_append, List.cons.injEq] at hl
    obtain ⟨_, _, _, _, _, rfl, _⟩ := hl; simp at hp; exact absurd hp.2 hp0
  | a :: b :: c :: d :: f :: g :: r, hl =>
    simp only [List.cons_append, List.cons.injEq] at hl
    obtain ⟨_, _, _, _, _, _, h⟩ := hl
    simp at h

end Fpm.Pack
