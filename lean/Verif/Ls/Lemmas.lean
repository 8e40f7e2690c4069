import Verif.Ls.Spec
import Verif.Dir.Props
/-!
# Lemmas for `ls`
-/
namespace Fpm.Ls
open Fpm.Dir Fpm.Dir.Spec Fpm.Ls.Spec

theorem join_eq (p n : List Nat) : join p n = child p n := by
  unfold join child
  split
  · rfl
  · simp

theorem isDir_iff (x : Item) : x.has AM_DIR = true ↔ IsDir x := by
  rw [has_dir]
  simp [IsDir]

theorem hid_eq (o : Opts) (x : Item) : (!hidden { o with toplevel := false } x) = (o.showhidden || x.attrib / 2 % 2 == 0) := by
  rw [hidden_eq]
  simp [shown]

theorem merge_perm {o : Opts} (as bs : List Item) : ∀ {r}, merge o as bs = some r → r.Perm (as ++ bs) := by
  induction as, bs using merge.induct (o := o) with
  | case1 bs => intro r h; rw [merge] at h; cases h; exact .refl _
  | case2 as h => intro r h'; rw [merge] at h'; cases h'; simp; exact h
  | case3 a as b bs h => intro r h'; rw [merge, h] at h'; cases h'
  | case4 a as b bs c hc h0 ih =>
    intro r h
    rw [merge, hc] at h
    simp only [if_pos h0] at h
    obtain ⟨r', h1, rfl⟩ := Option.map_eq_some_iff.mp h
    exact (ih h1).cons a
  | case5 a as b bs c hc h0 ih =>
    intro r h
    rw [merge, hc] at h
    simp only [if_neg h0] at h
    obtain ⟨r', h1, rfl⟩ := Option.map_eq_some_iff.mp h
    exact ((ih h1).cons b).trans List.perm_middle.symm

theorem sort_perm {o : Opts} (l : List Item) {r : List Item} (hr : sort o l = some r) : r.Perm l := by
  by_cases h : l.length < 2
  · rw [sort, dif_pos h] at hr; cases hr; exact .refl _
  · rw [sort, dif_neg h] at hr
    have hm := midLoop_lt l 0 (by omega)
    split at hr
    · rename_i a b ha hb
      have := (merge_perm _ _ hr).trans ((sort_perm _ ha).append (sort_perm _ hb))
      rwa [List.take_append_drop] at this
    · cases hr
termination_by l.length
decreasing_by
  · simp only [midPoint, List.length_take]; omega
  · simp only [midPoint, List.length_drop]; omega

theorem files_nil (o : Opts) : showFiles o [] = some [] := by
  unfold showFiles
  rw [show sort o [] = some [] from by unfold sort; simp]
  rfl

/-- What `show_files` does. -/
theorem showList_spec {o : Opts} {l l' : List Item} {s s' : St} (h : showList o l s = .ok (l', s')) :
    l'.Perm l ∧ sort { o with toplevel := s.top } l = some l' ∧ ∃ t, showFiles { o with toplevel := s.top } l = some t ∧ s' = { s with out := s.out ++ t, any := s.any || l.any fun x => !hidden { o with toplevel := s.top } x } := by
  unfold showList at h
  split at h
  · rename_i h0
    subst h0
    cases h
    exact ⟨.refl _, by unfold sort; simp, [], files_nil _, by simp⟩
  · split at h
    · rename_i l1 t h1 h2
      cases h
      exact ⟨sort_perm _ h1, h1, t, h2, rfl⟩
    · cases h

theorem showList_ok {o : Opts} {l : List Item} {s : St} {t : List Nat} (h : showFiles { o with toplevel := s.top } l = some t) : ∃ l' s', showList o l s = .ok (l', s') := by
  unfold showList
  split
  · exact ⟨_, _, rfl⟩
  · have : ∃ l', sort { o with toplevel := s.top } l = some l' := by
      unfold showFiles at h
      cases hs : sort { o with toplevel := s.top } l with
      | none => rw [hs] at h; cases h
      | some l' => exact ⟨l', rfl⟩
    obtain ⟨l', h1⟩ := this
    rw [h1, h]
    exact ⟨_, _, rfl⟩

theorem render_append (e : Env) (o : Opts) (a b : List (List Nat × Except Nat (List Item))) (above : Bool) : render e o above (a ++ b) = render e o above a ++ render e o (above || !a.isEmpty) b := by
  induction a generalizing above with
  | nil => simp [render]
  | cons x a ih => simp [render, ih]

/-! ## Order of paths -/

/-- A path at or below the entry `n` of `p`. -/
def Under (p n a : List Nat) : Prop := a = p ++ 47 :: n ∨ ∃ t, a = p ++ 47 :: (n ++ 47 :: t)

theorem below_ext {e : Env} {p q : List Nat} (hp : p ≠ []) (h : Below e p q) : q = p ∨ ∃ t, q = p ++ 47 :: t := by
  induction h with
  | self => exact .inl rfl
  | @sub q l x _ _ _ _ ih =>
    right
    rcases ih with rfl | ⟨t, rfl⟩
    · exact ⟨x.name, by unfold child; rw [if_neg hp]; simp⟩
    · exact ⟨t ++ 47 :: x.name, by unfold child; rw [if_neg (by simp [hp])]; simp⟩

theorem below_under {e : Env} {p n q : List Nat} (hp : p ≠ []) (h : Below e (child p n) q) : Under p n q := by
  have hc : child p n = p ++ 47 :: n := by unfold child; rw [if_neg hp]; simp
  rw [hc] at h
  rcases below_ext (by simp [hp]) h with rfl | ⟨t, rfl⟩
  · exact .inl rfl
  · exact .inr ⟨t, by simp⟩

theorem seg_one {n t : List Nat} (h : 47 ∉ n) : (n ++ 47 :: t).takeWhile (· ≠ 47) = n := by
  induction n with
  | nil => rfl
  | cons a n ih =>
    have : a ≠ 47 := fun hx => h (by simp [hx])
    simp only [List.cons_append, List.takeWhile_cons, ne_eq, this, not_false_eq_true, decide_true, if_true]
    exact congrArg _ (ih fun hx => h (by simp [hx]))

theorem seg_two {n : List Nat} (h : 47 ∉ n) : n.takeWhile (· ≠ 47) = n := by
  induction n with
  | nil => rfl
  | cons a n ih =>
    have : a ≠ 47 := fun hx => h (by simp [hx])
    simp only [List.takeWhile_cons, ne_eq, this, not_false_eq_true, decide_true, if_true]
    exact congrArg _ (ih fun hx => h (by simp [hx]))

theorem under_seg {p n a : List Nat} (h : 47 ∉ n) (hu : Under p n a) : ∃ u, a = p ++ 47 :: u ∧ u.takeWhile (· ≠ 47) = n := by
  rcases hu with rfl | ⟨t, rfl⟩
  · exact ⟨n, rfl, seg_two h⟩
  · exact ⟨_, rfl, seg_one h⟩

theorem under_one {p n m a : List Nat} (hn : 47 ∉ n) (hm : 47 ∉ m) (h1 : Under p n a) (h2 : Under p m a) : n = m := by
  obtain ⟨u, rfl, rfl⟩ := under_seg hn h1
  obtain ⟨w, e, rfl⟩ := under_seg hm h2
  rw [List.cons.inj (List.append_cancel_left e) |>.2]

theorem under_more {p n a : List Nat} (t : List Nat) (h : Under p n a) : Under p n (a ++ 47 :: t) := by
  rcases h with rfl | ⟨t', rfl⟩
  · exact .inr ⟨t, by simp⟩
  · exact .inr ⟨t' ++ 47 :: t, by simp⟩

theorem last_slash {p q x n : List Nat} (hx : 47 ∉ x) (hn : 47 ∉ n) (h : q ++ 47 :: x = p ++ 47 :: n) : q = p ∧ x = n := by
  rcases List.append_eq_append_iff.mp h with ⟨a, h1, h2⟩ | ⟨a, h1, h2⟩ <;> cases a with
  | nil => simp at h1 h2; exact ⟨by simp [h1], by simp [h2]⟩
  | cons b a =>
    obtain ⟨-, rfl⟩ := List.cons.inj h2
    simp at hx hn

theorem sibling {p n a q x : List Nat} (hn : 47 ∉ n) (hx : 47 ∉ x) (hu : Under p n a) (ha : a = q ++ 47 :: x) : q = p ∧ x = n ∨ Under p n q := by
  rcases hu with rfl | ⟨t, rfl⟩
  · exact .inl (last_slash hx hn ha.symm)
  · right
    rw [show p ++ 47 :: (n ++ 47 :: t) = (p ++ 47 :: n) ++ 47 :: t by simp] at ha
    rcases List.append_eq_append_iff.mp ha with ⟨c, h1, h2⟩ | ⟨c, h1, h2⟩
    · cases c with
      | nil => exact .inl (by simpa using h1)
      | cons b c =>
        obtain ⟨rfl, -⟩ := List.cons.inj h2
        exact .inr ⟨c, by rw [h1]; simp⟩
    · cases c with
      | nil => exact .inl (by simpa using h1.symm)
      | cons b c =>
        obtain ⟨-, rfl⟩ := List.cons.inj h2
        simp at hx

theorem parent_before {o : Opts} {p n a : List Nat} (h : Under p n a) : Before o p a := by
  have hl : p.length < a.length := by rcases h with rfl | ⟨t, rfl⟩ <;> simp
  refine ⟨fun hx => ?_, fun ⟨t, ht⟩ => ?_, fun _ q x y hx hy e1 e2 => ?_⟩
  · rw [hx] at hl; omega
  · rw [ht] at hl; simp at hl; omega
  · have ha : ∃ u, a = p ++ 47 :: u := by
      rcases h with rfl | ⟨t, rfl⟩
      · exact ⟨_, rfl⟩
      · exact ⟨_, rfl⟩
    obtain ⟨u, rfl⟩ := ha
    rw [e1] at e2
    unfold child at e2
    split at e2
    · rw [← e2] at hy
      simp at hy
    · have e3 : x ++ 47 :: u = y := by simpa using e2
      rw [← e3] at hy
      simp at hy

theorem before_under {o : Opts} {p : List Nat} (hp : p ≠ []) {x y : Item} (hx : 47 ∉ x.name) (hy : 47 ∉ y.name) (hne : x.name ≠ y.name) (ho : o.timesort = false → NameOrder o.reversesort x y) {a b : List Nat} (ha : Under p x.name a)
    (hb : Under p y.name b) : Before o a b := by
  refine ⟨fun hab => hne (under_one hx hy ha (hab ▸ hb)), fun ⟨t, ht⟩ => hne (under_one hx hy ha (ht ▸ under_more t hb)), fun ht q n m hn hm e1 e2 => ?_⟩
  have hnil : ∀ {n x c : List Nat}, 47 ∉ n → Under p x c → c = child q n → c = q ++ 47 :: n := by
    intro n x c hn hc e
    unfold child at e
    split at e
    · subst e
      rcases hc with rfl | ⟨t, rfl⟩ <;> simp at hn
    · rw [e]; simp
  have e1 := hnil hn ha e1
  have e2 := hnil hm hb e2
  rcases sibling hx hn ha e1 with ⟨rfl, rfl⟩ | hq
  · rcases hb with rfl | ⟨t, rfl⟩
    · have := (List.cons.inj (List.append_cancel_left e2)).2
      rw [← this]
      have ho := ho ht
      unfold NameOrder at ho
      exact ho
    · have := (List.cons.inj (List.append_cancel_left e2)).2
      rw [← this] at hm
      simp at hm
  · exact absurd (under_one hx hy (e2 ▸ under_more m hq) hb) hne

/-- Directories that are listed one after another. -/
structure Shown (e : Env) (o : Opts) (P : List Nat → Prop) (s s' : St) (seen : List (List Nat × Except Nat (List Item))) : Prop where
  log : s'.log = s.log ++ seen
  top : s'.top = false ∨ seen = [] ∧ s'.top = s.top
  any : s'.any = (s.any || !seen.isEmpty)
  out : s'.out = s.out ++ render e o s.any seen
  mem : ∀ q r, (q, r) ∈ seen ↔ P q ∧ r = e.scan q

/-- One directory, without the line with its path. -/
structure ShownOne (e : Env) (o : Opts) (rec : Bool) (p : List Nat) (s s' : St) (seen : List (List Nat × Except Nat (List Item))) : Prop where
  log : s'.log = s.log ++ (p, e.scan p) :: seen
  top : s'.top = false
  any : s'.any = (s.any || Visible o (e.scan p) || !seen.isEmpty)
  out : s'.out = s.out ++ content e o (p, e.scan p) ++ render e o (s.any || Visible o (e.scan p)) seen
  mem : ∀ q r, (q, r) ∈ (p, e.scan p) :: seen ↔ Listed e rec p q ∧ r = e.scan q

/-- A directory comes first, then those below it, in order. -/
def Sorted (e : Env) (o : Opts) (p : List Nat) (seen : List (List Nat × Except Nat (List Item))) : Prop := p ≠ [] → Proper e p → (p :: seen.map (·.1)).Pairwise (Before o)

theorem listed_below {e : Env} {rec : Bool} {p q : List Nat} (h : Listed e rec p q) : Below e p q := by
  unfold Listed at h
  split at h
  · exact h
  · rw [h]; exact .self

theorem header_spec (multi : Bool) (p : List Nat) (s : St) (h : s.any = true ∨ s.top = false ∨ multi = true) :
    header multi p s = { s with any := true, out := s.out ++ ((if s.any then [13, 10] else []) ++ p ++ [58, 13, 10]) } := by
  unfold header crlf
  by_cases h1 : s.any = true
  · rw [if_pos h1, if_pos h1]
    simp [h1]
  · rw [if_neg h1, if_neg h1, if_pos (h.resolve_left h1)]
    simp

theorem below_trans {e : Env} {p q r : List Nat} (h1 : Below e p q) (h2 : Below e q r) : Below e p r := by
  induction h2 with
  | self => exact h1
  | sub _ h3 h4 h5 ih => exact .sub ih h3 h4 h5

/-- The first step down. -/
theorem below_cases {e : Env} {p q : List Nat} (h : Below e p q) : q = p ∨ ∃ l, e.scan p = .ok l ∧ ∃ x ∈ l, IsDir x ∧ Below e (child p x.name) q := by
  induction h with
  | self => exact .inl rfl
  | @sub q l x _ h3 h4 h5 ih =>
    right
    rcases ih with rfl | ⟨l', h1, y, h2, h6, h7⟩
    · exact ⟨l, h3, x, h4, h5, .self⟩
    · exact ⟨l', h1, y, h2, h6, .sub h7 h3 h4 h5⟩

/-- The loop of `show_directories`. -/
theorem dirs_spec {e : Env} {o : Opts} {rec : Bool} {sh : List Nat → St → Except Err St} (hsh : ∀ p s s', sh p s = .ok s' → ∃ seen, ShownOne e o rec p s s' seen ∧ Sorted e o p seen) (multi : Bool) (parent : List Nat) :
    ∀ {l : List Item} {s s' : St}, showDirs sh multi parent l s = .ok s' → (s.any = true ∨ s.top = false ∨ multi = true) →
    ∃ seen, Shown e o (fun q => ∃ x ∈ l, IsDir x ∧ Listed e rec (child parent x.name) q) s s' seen ∧
      (parent ≠ [] → (l.map (·.name)).Nodup → (∀ x ∈ l, 47 ∉ x.name) → (∀ x ∈ l, IsDir x → Proper e (child parent x.name)) → (o.timesort = false → l.Pairwise (NameOrder o.reversesort)) → (seen.map (·.1)).Pairwise (Before o))
  | [], s, s', h, _ => by
    cases h
    exact ⟨[], ⟨by simp, .inr ⟨rfl, rfl⟩, by simp, by simp [render], by simp⟩, fun _ _ _ _ _ => .nil⟩
  | x :: l, s, s', h, hm => by
    unfold showDirs at h
    by_cases hd : x.has AM_DIR = true
    · rw [if_pos hd, header_spec _ _ _ hm, join_eq] at h
      split at h
      · cases h
      · rename_i s1 h1
        obtain ⟨seen1, a1, b1⟩ := hsh _ _ _ h1
        obtain ⟨seen2, a2, b2⟩ := dirs_spec hsh multi parent h (.inr (.inl a1.top))
        have hd := (isDir_iff x).mp hd
        refine ⟨(child parent x.name, e.scan (child parent x.name)) :: seen1 ++ seen2, ⟨?_, ?_, ?_, ?_, fun q r => ?_⟩, fun c1 c2 c3 c4 c5 => ?_⟩
        · rw [a2.log, a1.log]; simp
        · left
          rcases a2.top with h | ⟨-, h⟩
          · exact h
          · rw [h, a1.top]
        · rw [a2.any, a1.any]; simp
        · rw [render_append, a2.out, a1.out, a1.any]
          simp [render]
        · rw [List.mem_append, a1.mem, a2.mem]
          constructor
          · rintro (⟨h1, h2⟩ | ⟨⟨y, hy, h1⟩, h2⟩)
            · exact ⟨⟨x, by simp, hd, h1⟩, h2⟩
            · exact ⟨⟨y, by simp [hy], h1⟩, h2⟩
          · rintro ⟨⟨y, hy, h1, h2⟩, h3⟩
            rcases List.mem_cons.mp hy with rfl | hy
            · exact .inl ⟨h2, h3⟩
            · exact .inr ⟨⟨y, hy, h1, h2⟩, h3⟩
        · obtain ⟨c2, c2'⟩ := List.nodup_cons.mp c2
          rw [List.map_append, List.pairwise_append]
          refine ⟨b1 (by unfold child; rw [if_neg c1]; simp) (c4 x (by simp) hd), b2 c1 c2' (fun y hy => c3 y (by simp [hy])) (fun y hy => c4 y (by simp [hy])) fun ht => (List.pairwise_cons.mp (c5 ht)).2, fun a ha b hb => ?_⟩
          obtain ⟨⟨q, r⟩, hq, rfl⟩ := List.mem_map.mp ha
          obtain ⟨⟨q', r'⟩, hq', rfl⟩ := List.mem_map.mp hb
          obtain ⟨h1, -⟩ := (a1.mem q r).mp hq
          obtain ⟨⟨y, hy, -, h2⟩, -⟩ := (a2.mem q' r').mp hq'
          exact before_under c1 (c3 x (by simp)) (c3 y (by simp [hy])) (fun hx => c2 (List.mem_map.mpr ⟨y, hy, hx.symm⟩)) (fun ht => (List.pairwise_cons.mp (c5 ht)).1 y hy) (below_under c1 (listed_below h1)) (below_under c1 (listed_below h2))
    · rw [if_neg hd] at h
      obtain ⟨seen, a, b⟩ := dirs_spec hsh multi parent h hm
      refine ⟨seen, ⟨a.log, a.top, a.any, a.out, fun q r => ?_⟩, fun c1 c2 c3 c4 c5 => b c1 (List.nodup_cons.mp c2).2 (fun y hy => c3 y (by simp [hy])) (fun y hy => c4 y (by simp [hy])) fun ht => (List.pairwise_cons.mp (c5 ht)).2⟩
      rw [a.mem]
      have hd : ¬ IsDir x := fun hx => hd ((isDir_iff x).mpr hx)
      constructor
      · rintro ⟨⟨y, hy, h1⟩, h2⟩
        exact ⟨⟨y, by simp [hy], h1⟩, h2⟩
      · rintro ⟨⟨y, hy, h1, h2⟩, h3⟩
        rcases List.mem_cons.mp hy with rfl | hy
        · exact absurd h1 hd
        · exact ⟨⟨y, hy, h1, h2⟩, h3⟩

/-- `show_dir`. -/
theorem dir_spec {e : Env} {o : Opts} {rec : Bool} : ∀ (n : Nat) (p : List Nat) (s s' : St), showDir e o rec n p s = .ok s' → ∃ seen, ShownOne e o rec p s s' seen ∧ Sorted e o p seen
  | 0, _, _, _, h => by cases h
  | n + 1, p, s, s', h => by
    unfold showDir at h
    split at h
    · cases h
    rename_i l s1 h1
    obtain ⟨hp, hso, t, ht, rfl⟩ := showList_spec h1
    clear h1
    simp only at h ht
    simp only [hid_eq] at h
    have key : ∀ (s1 : St), s1.top = false → s1.log = s.log ++ [(p, e.scan p)] → s1.any = (s.any || Visible o (e.scan p)) → s1.out = s.out ++ content e o (p, e.scan p) → (∀ x, x ∈ l ↔ ∃ l', e.scan p = .ok l' ∧ x ∈ l') → (l = [] ∨ ∃ l', e.scan p = .ok l' ∧ l.Perm l') →
        (if rec = true then showDirs (showDir e o rec n) (decide (1 < l.length)) p l s1 else .ok s1) = .ok s' → ∃ seen, ShownOne e o rec p s s' seen ∧ Sorted e o p seen := by
      intro s1 k1 k2 k3 k4 k5 k6 h
      split at h
      · rename_i hrec
        obtain ⟨seen, a, b⟩ := dirs_spec (e := e) (o := o) (rec := rec) (fun p s s' => dir_spec n p s s') _ p h (.inr (.inl k1))
        refine ⟨seen, ⟨by rw [a.log, k2]; simp, ?_, by rw [a.any, k3], by rw [a.out, k4, k3], fun q r => ?_⟩, fun c1 c2 => ?_⟩
        · rcases a.top with h | ⟨-, h⟩
          · exact h
          · rw [h, k1]
        · rw [List.mem_cons, a.mem]
          unfold Listed
          rw [if_pos hrec]
          constructor
          · rintro (h | ⟨⟨x, hx, h1, h2⟩, h3⟩)
            · cases h
              exact ⟨.self, rfl⟩
            · obtain ⟨l', e1, e2⟩ := (k5 x).mp hx
              rw [if_pos hrec] at h2
              exact ⟨below_trans (.sub .self e1 e2 h1) h2, h3⟩
          · rintro ⟨h1, h2⟩
            rcases below_cases h1 with rfl | ⟨l', e1, x, e2, e3, e4⟩
            · exact .inl (by rw [h2])
            · exact .inr ⟨⟨x, (k5 x).mpr ⟨l', e1, e2⟩, e3, by rw [if_pos hrec]; exact e4⟩, h2⟩
        · refine List.pairwise_cons.mpr ⟨fun w hw => ?_, ?_⟩
          · obtain ⟨⟨q, r⟩, hq, rfl⟩ := List.mem_map.mp hw
            obtain ⟨⟨x, hx, -, h1⟩, -⟩ := (a.mem q r).mp hq
            have hu := below_under c1 (listed_below h1)
            exact parent_before hu
          · refine b c1 ?_ (fun x hx => ?_) (fun x hx hd => ?_) fun ht => ?_
            · rcases k6 with rfl | ⟨l', e1, e2⟩
              · exact .nil
              · exact (e2.map _).nodup_iff.mpr (c2 p l' .self e1).1
            · obtain ⟨l', e1, e2⟩ := (k5 x).mp hx
              exact (c2 p l' .self e1).2 x e2
            · obtain ⟨l', e1, e2⟩ := (k5 x).mp hx
              exact fun q l1 h1 h2 => c2 q l1 (below_trans (.sub .self e1 e2 hd) h1) h2
            · obtain ⟨l1, h1, -, h2⟩ := C33_sorted { o with toplevel := false } ht (scanDir e p s).1
              cases hso.symm.trans h1
              exact h2
      · rename_i hrec
        cases h
        refine ⟨[], ⟨k2, k1, by rw [k3]; simp, by rw [k4]; simp [render], fun q r => ?_⟩, fun _ _ => List.pairwise_singleton ..⟩
        unfold Listed
        rw [if_neg hrec]
        simp only [List.mem_singleton, Prod.mk.injEq]
        constructor
        · rintro ⟨rfl, rfl⟩; exact ⟨rfl, rfl⟩
        · rintro ⟨rfl, rfl⟩; exact ⟨rfl, rfl⟩
    cases hc : e.scan p with
    | error r =>
      have hsc : scanDir e p s = ([], { s with out := s.out ++ message e p r, log := s.log ++ [(p, .error r)] }) := by unfold scanDir; rw [hc]
      rw [hsc] at hp ht h
      rw [files_nil] at ht
      cases ht
      have hl : l = [] := hp.eq_nil
      refine key _ rfl ?_ ?_ ?_ (fun x => ?_) ?_ h
      · rw [hc]
      · rw [hc]; simp [Visible]
      · rw [hc]; simp [content, message, crlf]
      · rw [hl, hc]; simp
      · exact .inl hl
    | ok l' =>
      have hsc : scanDir e p s = (l', { s with log := s.log ++ [(p, .ok l')] }) := by unfold scanDir; rw [hc]
      rw [hsc] at hp ht h
      refine key _ rfl ?_ ?_ ?_ (fun x => ?_) ?_ h
      · rw [hc]
      · rw [hc]; rfl
      · rw [hc]; simp only [content]; rw [ht]; rfl
      · rw [hc, hp.mem_iff]; simp
      · exact .inr ⟨l', hc, hp⟩

end Fpm.Ls
