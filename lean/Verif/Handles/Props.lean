import Verif.Handles.Spec

/-!
# C114: commands leave nothing open
-/

namespace Fpm.Handles
open Fpm.Handles.Spec

/-- Exactly the objects in the list are open, and they have been numbered. -/
structure Inv (s : St) (c : List Nat) : Prop where
  nodup : c.Nodup
  low : ∀ h, .opened h ∈ s.log → h < s.next
  iff : ∀ h, h ∈ c ↔ Remains s.log h
  proper : Proper s.log

/-- From `c` open to `q a` open, or left with nothing open. -/
def Trip {α : Type} (E : Env → Prop) (c : List Nat) (m : M α) (q : α → List Nat) : Prop :=
  ∀ e s, E e → Inv s c →
    (∀ a s', m e s = .ok a s' → Inv s' (q a)) ∧ (∀ s', m e s = .left s' → Inv s' [])

theorem bind_def {α β : Type} (m : M α) (k : α → M β) (e : Env) (s : St) :
    (m >>= k) e s = match m e s with
      | .ok a s' => k a e s'
      | .left s' => .left s'
      | .more => .more := rfl

theorem pure_def {α : Type} (a : α) (e : Env) (s : St) : (pure a : M α) e s = .ok a s := rfl

theorem trip_pure {α : Type} {E : Env → Prop} {q : α → List Nat} (a : α) :
    Trip E (q a) (pure a) q := by
  intro e s _ hi
  refine ⟨?_, ?_⟩
  · intro a' s' h; rw [pure_def] at h; cases h; exact hi
  · intro s' h; rw [pure_def] at h; cases h

theorem trip_bind {α β : Type} {E : Env → Prop} {c : List Nat} {m : M α} {q : α → List Nat}
    {k : α → M β} {r : β → List Nat} (h1 : Trip E c m q) (h2 : ∀ a, Trip E (q a) (k a) r) :
    Trip E c (m >>= k) r := by
  intro e s he hi
  obtain ⟨h3, h4⟩ := h1 e s he hi
  rw [bind_def]
  cases hm : m e s with
  | ok a s' => exact h2 a e s' he (h3 a s' hm)
  | left s' =>
    refine ⟨fun a t h => (by cases h), fun t h => ?_⟩
    cases h
    exact h4 s' hm
  | more => exact ⟨fun a t h => (by cases h), fun t h => (by cases h)⟩

/-- What is left open is the same. -/
abbrev Keeps {α : Type} (E : Env → Prop) (c : List Nat) (m : M α) : Prop := Trip E c m fun _ => c

theorem keeps_pure {α : Type} {E : Env → Prop} {c : List Nat} (a : α) : Keeps E c (pure a) :=
  trip_pure (q := fun _ => c) a

theorem inv_ask {s : St} {c : List Nat} (h : Inv s c) (n : Nat) : Inv { s with asked := n } c :=
  ⟨h.nodup, h.low, h.iff, h.proper⟩

theorem keeps_ask {E : Env → Prop} {c : List Nat} : Keeps E c ask := by
  intro e s _ hi
  refine ⟨?_, ?_⟩
  · intro a s' h; cases h; exact inv_ask hi _
  · intro s' h; cases h

theorem keeps_more {α : Type} {E : Env → Prop} {c : List Nat} {q : α → List Nat} :
    Trip E c (outOfSteps : M α) q := by
  intro e s _ hi
  exact ⟨fun a s' h => (by cases h), fun s' h => (by cases h)⟩

/-- A prompt while nothing is open. -/
theorem keeps_prompt {E : Env → Prop} {c : List Nat} (hc : c = [] ∨ ∀ e, E e → Undisturbed e) :
    Keeps E c prompt := by
  intro e s he hi
  refine ⟨?_, ?_⟩
  · intro a s' h
    unfold prompt at h
    split at h
    · cases h
    · cases h; exact inv_ask hi _
  · intro s' h
    unfold prompt at h
    split at h
    · rename_i hint
      cases h
      rcases hc with rfl | hc
      · exact hi
      · rw [hc e he s.asked] at hint; cases hint
    · cases h

theorem proper_snoc {log : List Ev} {x : Ev} (h : Proper log)
    (hx : ∀ h ok, x = .closed h ok → .opened h ∈ log ∧ .closed h true ∉ log) :
    Proper (log ++ [x]) := by
  intro pre g ok post heq
  rcases List.eq_nil_or_concat post with rfl | ⟨post', y, rfl⟩
  · have := List.append_inj' heq rfl
    obtain ⟨h1, h2⟩ := this
    subst h1
    exact hx g ok (by simpa using h2)
  · have h0 : log ++ [x] = (pre ++ .closed g ok :: post') ++ [y] := by
      rw [heq]; simp
    obtain ⟨h1, _⟩ := List.append_inj' h0 rfl
    exact h pre g ok post' h1

/-- Opened or not. -/
def more (c : List Nat) : Option Nat → List Nat
  | none => c
  | some h => h :: c

theorem trip_open {E : Env → Prop} {c : List Nat} : Trip E c openObj (more c) := by
  intro e s _ hi
  refine ⟨?_, ?_⟩
  · intro a s' h
    unfold openObj at h
    split at h
    · cases h
      have hnew : Ev.opened s.next ∉ s.log := fun h => Nat.lt_irrefl _ (hi.low _ h)
      have hnc : Ev.closed s.next true ∉ s.log := by
        intro hm
        obtain ⟨pre, post, heq⟩ := List.append_of_mem hm
        have := (hi.proper pre s.next true post heq).1
        exact hnew (by rw [heq]; exact List.mem_append_left _ this)
      refine ⟨?_, ?_, ?_, ?_⟩
      · refine List.nodup_cons.mpr ⟨?_, hi.nodup⟩
        intro hm
        exact hnew ((hi.iff _).mp hm).1
      · intro h hm
        simp only [List.mem_append, List.mem_singleton, Ev.opened.injEq] at hm
        rcases hm with hm | hm
        · exact Nat.lt_succ_of_lt (hi.low h hm)
        · subst hm; exact Nat.lt_succ_self _
      · intro h
        simp only [more, List.mem_cons, Remains, List.mem_append,
          Ev.opened.injEq, reduceCtorEq, or_false, List.not_mem_nil]
        rw [hi.iff h]
        unfold Remains
        constructor
        · rintro (rfl | ⟨h1, h2⟩)
          · exact ⟨.inr rfl, hnc⟩
          · exact ⟨.inl h1, h2⟩
        · rintro ⟨h1 | h1, h2⟩
          · exact .inr ⟨h1, h2⟩
          · exact .inl h1
      · exact proper_snoc hi.proper (by intro h ok hx; cases hx)
    · cases h; exact inv_ask hi _
  · intro s' h
    unfold openObj at h
    split at h <;> cases h

/-- Closing an open object. -/
theorem trip_close {E : Env → Prop} (hE : ∀ e, E e → Closes e) {a b : List Nat} (h : Nat) :
    Trip E (a ++ h :: b) (closeObj h) fun _ => a ++ b := by
  intro e s he hi
  refine ⟨?_, fun s' hs => (by cases hs)⟩
  intro u s' hs
  cases hs
  rw [hE e he s.asked]
  have hd := hi.nodup
  rw [List.nodup_append, List.nodup_cons] at hd
  refine ⟨?_, ?_, ?_, ?_⟩
  · rw [List.nodup_append]
    exact ⟨hd.1, hd.2.1.2, fun x hx y hy => hd.2.2 x hx y (List.mem_cons_of_mem _ hy)⟩
  · intro g hg
    simp only [List.mem_append, List.mem_singleton, reduceCtorEq, or_false] at hg
    exact hi.low g hg
  · intro g
    have := hi.iff g
    simp only [Remains, List.mem_append, List.mem_cons, List.not_mem_nil, or_false, reduceCtorEq,
      Ev.closed.injEq, and_true] at this ⊢
    constructor
    · intro hg
      have hne : g ≠ h := by
        intro hgh
        rw [hgh] at hg
        rcases hg with hg | hg
        · exact hd.2.2 h hg h List.mem_cons_self rfl
        · exact hd.2.1.1 hg
      obtain ⟨h1, h2⟩ := this.mp (hg.elim .inl (fun x => .inr (.inr x)))
      exact ⟨h1, fun hx => hx.elim h2 hne⟩
    · rintro ⟨h1, h2⟩
      rcases this.mpr ⟨h1, fun hx => h2 (.inl hx)⟩ with hg | hg | hg
      · exact .inl hg
      · exact absurd (.inr hg) h2
      · exact .inr hg
  · refine proper_snoc hi.proper ?_
    intro g ok hx
    cases hx
    exact (hi.iff h).mp (by simp)

theorem trip_close_top {E : Env → Prop} (hE : ∀ e, E e → Closes e) {c : List Nat} (h : Nat) :
    Trip E (h :: c) (closeObj h) fun _ => c := trip_close hE (a := []) h

theorem trip_if {α : Type} {E : Env → Prop} {c : List Nat} {p : Prop} [Decidable p] {m m' : M α}
    {q : α → List Nat} (h1 : p → Trip E c m q) (h2 : ¬ p → Trip E c m' q) :
    Trip E c (if p then m else m') q := by
  split
  · exact h1 ‹_›
  · exact h2 ‹_›

theorem keeps_loop {α : Type} {E : Env → Prop} {c : List Nat} {body : M (Option α)}
    (h : Keeps E c body) : ∀ n, Keeps E c (loop n body) := by
  intro n
  induction n with
  | zero => exact keeps_more
  | succ n ih =>
    unfold loop
    refine trip_bind h fun a => ?_
    cases a with
    | none => exact ih
    | some a => exact keeps_pure a

theorem keeps_each {α : Type} {E : Env → Prop} {c : List Nat} {f : α → M Unit}
    (h : ∀ a, Keeps E c (f a)) : ∀ l, Keeps E c (each l f) := by
  intro l
  induction l with
  | nil => exact keeps_pure ()
  | cons a l ih =>
    unfold each
    exact trip_bind (h a) fun _ => ih

/-- Open, use, close. -/
theorem keeps_use {α : Type} {E : Env → Prop} {c : List Nat} {k : Option Nat → M α}
    (h0 : Keeps E c (k none)) (h1 : ∀ h, Trip E (h :: c) (k (some h)) fun _ => c) :
    Keeps E c (openObj >>= k) := by
  refine trip_bind trip_open fun o => ?_
  cases o with
  | none => exact h0
  | some h => exact h1 h

theorem keeps_displayFile {E : Env → Prop} (hE : ∀ e, E e → Closes e) (n : Nat) (c : List Nat) :
    Keeps E c (displayFile n) := by
  unfold displayFile
  refine keeps_use (keeps_pure _) fun h => ?_
  refine trip_bind (keeps_loop (trip_bind keeps_ask fun _ => keeps_pure _) n) fun _ => ?_
  exact trip_close_top hE h

theorem keeps_copyFile {E : Env → Prop} (hE : ∀ e, E e → Closes e) (n : Nat) (force : Bool)
    {c : List Nat} (hc : c = [] ∨ ∀ e, E e → Undisturbed e) : Keeps E c (copyFile n force) := by
  unfold copyFile
  refine trip_bind (q := fun _ => c) ?_ fun go => ?_
  · refine trip_if (fun _ => keeps_pure _) fun _ => ?_
    refine trip_bind keeps_ask fun r => ?_
    exact trip_if (fun _ => trip_bind (keeps_prompt hc) fun _ => keeps_pure _) fun _ => keeps_pure _
  · refine trip_if (fun _ => ?_) fun _ => keeps_pure _
    refine keeps_use (keeps_pure _) fun src => ?_
    refine trip_bind trip_open fun o => ?_
    cases o with
    | none => exact trip_close_top hE src
    | some dest =>
      refine trip_bind (q := fun _ => dest :: src :: c) (keeps_loop ?_ n) fun _ => ?_
      · refine trip_bind keeps_ask fun r => ?_
        refine trip_if (fun _ => keeps_pure _) fun _ => trip_if (fun _ => keeps_pure _) fun _ => ?_
        exact trip_bind keeps_ask fun _ => keeps_pure _
      · exact trip_bind (trip_close hE (a := [dest]) src) fun _ => trip_close_top hE dest

theorem keeps_copyRecursive {E : Env → Prop} (hE : ∀ e, E e → Closes e)
    (hU : ∀ e, E e → Undisturbed e) (force : Bool) :
    ∀ n c, Keeps E c (copyRecursive force n) := by
  intro n
  induction n with
  | zero => intro c; exact keeps_more
  | succ n ih =>
    intro c
    unfold copyRecursive
    refine trip_bind keeps_ask fun st => trip_bind (q := fun _ => c) ?_ fun made => ?_
    · exact trip_if (fun _ => keeps_pure _) fun _ => trip_if (fun _ => keeps_pure _) fun _ =>
        trip_bind keeps_ask fun _ => keeps_pure _
    · refine trip_if (fun _ => keeps_pure _) fun _ => ?_
      refine keeps_use (keeps_pure _) fun dir => ?_
      refine trip_bind (q := fun _ => dir :: c) (keeps_loop ?_ n) fun _ => trip_close_top hE dir
      refine trip_bind keeps_ask fun d => ?_
      refine trip_if (fun _ => keeps_pure _) fun _ => trip_if (fun _ => ?_) fun _ => ?_
      · exact trip_bind (ih (dir :: c)) fun _ => keeps_pure _
      · exact trip_bind (keeps_copyFile hE n force (.inr hU)) fun _ => keeps_pure _

theorem keeps_copyObject {E : Env → Prop} (hE : ∀ e, E e → Closes e) (n : Nat) (force rec : Bool)
    (hU : rec = false ∨ ∀ e, E e → Undisturbed e) : Keeps E [] (copyObject n force rec) := by
  unfold copyObject
  refine trip_bind keeps_ask fun st => trip_if (fun _ => keeps_pure _) fun _ => ?_
  refine trip_bind keeps_ask fun d => trip_if (fun _ => trip_if (fun hr => ?_) fun _ => keeps_pure _)
    fun _ => keeps_copyFile hE n force (.inl rfl)
  rcases hU with hU | hU
  · rw [hU] at hr; cases hr
  · exact keeps_copyRecursive hE hU force n []

theorem keeps_cp {E : Env → Prop} (hE : ∀ e, E e → Closes e) (n : Nat) (force rec : Bool)
    (sources : Nat) (hU : rec = false ∨ ∀ e, E e → Undisturbed e) :
    Keeps E [] (cp n force rec sources) := by
  unfold cp
  refine trip_bind keeps_ask fun d => trip_if (fun _ => trip_if (fun _ => keeps_pure _) fun _ => ?_)
    fun _ => ?_
  · exact keeps_copyObject hE n force rec hU
  · exact keeps_each (fun _ => keeps_copyObject hE n force rec hU) _

theorem keeps_removeRecursive {E : Env → Prop} (hE : ∀ e, E e → Closes e) :
    ∀ n c, Keeps E c (removeRecursive n) := by
  intro n
  induction n with
  | zero => intro c; exact keeps_more
  | succ n ih =>
    intro c
    unfold removeRecursive
    refine trip_bind keeps_ask fun u => trip_if (fun _ => keeps_pure _) fun _ => ?_
    refine keeps_use (keeps_pure _) fun dir => ?_
    refine trip_bind (q := fun _ => dir :: c) (keeps_loop ?_ n) fun result => ?_
    · refine trip_bind keeps_ask fun d => ?_
      refine trip_if (fun _ => keeps_pure _) fun _ => trip_if (fun _ => keeps_pure _) fun _ =>
        trip_if (fun _ => ?_) fun _ => ?_
      · exact trip_bind (ih (dir :: c)) fun _ => keeps_pure _
      · exact trip_bind keeps_ask fun _ => keeps_pure _
    · refine trip_bind (trip_close_top hE dir) fun _ => ?_
      exact trip_if (fun _ => trip_bind keeps_ask fun _ => keeps_pure _) fun _ => keeps_pure _

theorem keeps_rm {E : Env → Prop} (hE : ∀ e, E e → Closes e) (n : Nat) (args : List (Bool × Bool)) :
    Keeps E [] (rm n args) := by
  unfold rm
  refine keeps_each (fun a => ?_) _
  unfold removeObject
  refine trip_bind keeps_ask fun st => trip_if (fun _ => keeps_pure _) fun _ => ?_
  refine trip_bind keeps_ask fun d => trip_if (fun _ => ?_) fun _ => ?_
  · unfold removeDirectory
    refine trip_if (fun _ => ?_) fun _ => keeps_pure _
    refine trip_bind (keeps_prompt (.inl rfl)) fun r => trip_if (fun _ => ?_) fun _ => keeps_pure _
    exact trip_bind (keeps_removeRecursive hE n []) fun _ => keeps_pure _
  · unfold removeFile
    refine trip_bind (q := fun _ => []) ?_ fun go => ?_
    · exact trip_if (fun _ => keeps_pure _) fun _ =>
        trip_bind (keeps_prompt (.inl rfl)) fun _ => keeps_pure _
    · exact trip_if (fun _ => trip_bind keeps_ask fun _ => keeps_pure _) fun _ => keeps_pure _

theorem keeps_scanLoop {E : Env → Prop} (c : List Nat) :
    ∀ n l, Keeps E c (scanDirectory.scanLoop n l) := by
  intro n
  induction n with
  | zero => intro l; exact keeps_more
  | succ n ih =>
    intro l
    unfold scanDirectory.scanLoop
    exact trip_bind keeps_ask fun d => trip_if (fun _ => keeps_pure _) fun _ =>
      trip_if (fun _ => ih _) fun _ => ih _

theorem keeps_showDir {E : Env → Prop} (hE : ∀ e, E e → Closes e) (rec : Bool) :
    ∀ n c, Keeps E c (showDir rec n) := by
  intro n
  induction n with
  | zero => intro c; exact keeps_more
  | succ n ih =>
    intro c
    unfold showDir
    refine trip_bind (q := fun _ => c) ?_ fun l => ?_
    · unfold scanDirectory
      refine keeps_use (keeps_pure _) fun dir => ?_
      refine trip_bind (keeps_scanLoop _ n []) fun l => ?_
      exact trip_bind (trip_close_top hE dir) fun _ => keeps_pure _
    · exact trip_if (fun _ => keeps_each (fun _ => ih c) _) fun _ => keeps_pure _

theorem keeps_ls {E : Env → Prop} (hE : ∀ e, E e → Closes e) (n : Nat) (rec : Bool) (args : Nat) :
    Keeps E [] (ls n rec args) := by
  unfold ls
  exact keeps_each (fun _ => trip_bind keeps_ask fun _ =>
    trip_if (fun _ => keeps_showDir hE rec n []) fun _ => keeps_pure _) _

theorem keeps_cat {E : Env → Prop} (hE : ∀ e, E e → Closes e) (n : Nat) (args : Nat) :
    Keeps E [] (cat n args) := by
  unfold cat
  exact keeps_each (fun _ => keeps_displayFile hE n []) _

/-- Commands leave nothing open and close nothing twice, whatever the file system and the user answer. -/
def C114_full : Prop :=
  ∀ (n : Nat) (c : Command) (e : Env) (log : List Ev), Ends (run n c) e log → Clean log

/-- `vol -t` on a drive with 1 Mbyte that cannot be written. -/
def readOnly : Env := ⟨fun k => if k = 2 ∨ k = 4 then 1 else 0, fun _ => false, fun _ => true⟩

/-- The test file stays open after an error. -/
theorem C114_vol : testSpeed readOnly start = .ok () ⟨5, 1, [.opened 0]⟩ := by
  have hb : ∀ n, blocks (n + 1) readOnly ⟨4, 1, [.opened 0]⟩ = .ok false ⟨5, 1, [.opened 0]⟩ :=
    fun n => rfl
  have h256 : min 1 8 * 1024 / 4 = 255 + 1 := rfl
  unfold testSpeed
  rw [bind_def]
  have h0 : ask readOnly start = .ok 0 ⟨1, 0, []⟩ := rfl
  have h1 : ask readOnly ⟨1, 0, []⟩ = .ok 0 ⟨2, 0, []⟩ := rfl
  have h2 : ask readOnly ⟨2, 0, []⟩ = .ok 1 ⟨3, 0, []⟩ := rfl
  have h3 : openObj readOnly ⟨3, 0, []⟩ = .ok (some 0) ⟨4, 1, [.opened 0]⟩ := rfl
  rw [h0]
  simp only [ne_eq, not_true, if_false]
  rw [bind_def, h1]
  simp only [ne_eq, not_true, if_false]
  rw [bind_def, h2]
  simp only [Nat.lt_irrefl, if_false]
  rw [bind_def, h3]
  simp only
  rw [bind_def, h256, hb]
  simp only [Bool.false_eq_true, if_false]
  rfl

theorem C114_violated : ¬ C114_full := by
  intro h
  have hr : run 0 (.vol true) = testSpeed := by simp only [run, if_true]
  have := (h 0 (.vol true) readOnly [.opened 0] ⟨⟨5, 1, [.opened 0]⟩, rfl, .inl (by
    rw [hr]; exact C114_vol)⟩).1 0
  exact this ⟨by simp, by simp⟩

/-- `cp -r` of a directory with a file that exists at the destination, ^C at the question. -/
def typed : Env := ⟨fun k => if k = 5 then 2 else 0, fun k => k = 7, fun _ => true⟩

/-- A directory stays open when ^C is typed at a question of `cp -r`. -/
theorem C114_interrupted :
    run 3 (.cp false true 1) typed start = .left ⟨7, 1, [.opened 0]⟩ := rfl

/-- `cat` of a file on a disk that fails when the file is closed. -/
theorem C114_unclosed : run 3 (.cat 1) ⟨fun _ => 0, fun _ => false, fun _ => false⟩ start =
    .ok () ⟨3, 1, [.opened 0, .closed 0 false]⟩ := rfl

/-- A command that is not `vol -t` and, if ^C can be typed, not `cp -r`. -/
def Safe (e : Env) : Command → Prop
  | .cp _ recursive _ => recursive = false ∨ Undisturbed e
  | .vol test => test = false
  | _ => True

theorem inv_start : Inv start [] := by
  refine ⟨List.nodup_nil, ?_, ?_, ?_⟩
  · intro h hm; cases hm
  · intro h
    exact ⟨fun hm => (by cases hm), fun hm => (by cases hm.1)⟩
  · intro pre h ok post heq
    simp [start] at heq

theorem inv_clean {s : St} (h : Inv s []) : Clean s.log :=
  ⟨fun g hg => (by cases (h.iff g).mpr hg), h.proper⟩

/-- Missing for the full claim: a file whose `f_close` fails stays open; `vol -t` returns from errors without
closing its file; and ^C at a question of `cp -r` leaves the directories open. -/
theorem C114_clean_partial (n : Nat) (c : Command) (e : Env) (log : List Ev) (hc : Closes e)
    (hs : Safe e c) (h : Ends (run n c) e log) : Clean log := by
  obtain ⟨s, rfl, h⟩ := h
  have key : Keeps (· = e) [] (run n c) := by
    have hE : ∀ e', e' = e → Closes e' := fun e' he => he ▸ hc
    cases c with
    | cat args => exact keeps_cat hE n args
    | cp f r k =>
      refine keeps_cp hE n f r k ?_
      rcases hs with hs | hs
      · exact .inl hs
      · exact .inr fun e' he => he ▸ hs
    | rm args => exact keeps_rm hE n args
    | ls r k => exact keeps_ls hE n r k
    | vol t =>
      have : t = false := hs
      subst this
      exact keeps_pure ()
  obtain ⟨h1, h2⟩ := key e start rfl inv_start
  rcases h with h | h
  · exact inv_clean (h1 () s h)
  · exact inv_clean (h2 s h)

/-- `cp -r` of a directory with a file in it: three objects are opened and closed. -/
example : run 4 (.cp true true 1) ⟨fun k => [0, 0, 0, 0, 0, 2, 0, 0, 5, 0, 1, 0, 0, 0].getD k 0,
    fun _ => false, fun _ => true⟩ start = .ok () ⟨15, 3, [.opened 0, .opened 1, .opened 2,
      .closed 1 true, .closed 2 true, .closed 0 true]⟩ := by decide +kernel

theorem blocks_all (n : Nat) (e : Env) (h : ∀ k, 3 < k → e.ans k = 0) : ∀ s : St, 3 < s.asked →
    blocks n e s = .ok true { s with asked := s.asked + n } := by
  induction n with
  | zero => intro s _; rfl
  | succ n ih =>
    intro s hs
    unfold blocks
    rw [bind_def]
    have h1 : ask e s = .ok 0 { s with asked := s.asked + 1 } := by
      unfold ask; rw [h s.asked hs]
    rw [h1]
    simp only [if_true]
    rw [ih _ (Nat.lt_succ_of_lt hs)]
    simp [Nat.add_comm, Nat.add_left_comm]

/-- `vol -t` closes its file if nothing fails. -/
theorem C114_vol_partial (n : Nat) (e : Env) (log : List Ev) (hc : Closes e)
    (hok : ∀ k, 3 < k → e.ans k = 0) (h : Ends (run n (.vol true)) e log) : Clean log := by
  obtain ⟨s, rfl, h⟩ := h
  have key : ∃ t : St, testSpeed e start = .ok () t ∧
      (t.log = [] ∨ t.log = [.opened 0, .closed 0 true]) := by
    unfold testSpeed
    rw [bind_def]
    simp only [ask]
    split
    · exact ⟨_, rfl, .inl rfl⟩
    · rw [bind_def]
      simp only [ask]
      split
      · exact ⟨_, rfl, .inl rfl⟩
      · rw [bind_def]
        simp only [ask]
        split
        · exact ⟨_, rfl, .inl rfl⟩
        · rw [bind_def]
          simp only [openObj]
          by_cases h3 : e.ans (start.asked + 1 + 1 + 1) = 0
          · rw [if_pos h3]
            simp only
            rw [bind_def, blocks_all _ e hok _ (by simp [start])]
            simp only [if_true]
            rw [bind_def]
            simp only [ask]
            rw [hok _ (by simp [start]; omega), if_neg (by simp), bind_def,
              blocks_all _ e hok _ (by simp [start]; omega)]
            simp only [if_true]
            rw [bind_def]
            simp only [closeObj]
            rw [hc]
            exact ⟨_, rfl, .inr rfl⟩
          · rw [if_neg h3]
            exact ⟨_, rfl, .inl rfl⟩
  obtain ⟨t, ht, hlog⟩ := key
  have hst : s = t := by
    have hr : run n (.vol true) = testSpeed := by simp only [run, if_true]
    have h' : testSpeed e start = .ok () s ∨ testSpeed e start = .left s := by rw [← hr]; exact h
    rw [ht] at h'
    rcases h' with h' | h'
    · cases h'; rfl
    · cases h'
  subst hst
  rcases hlog with hl | hl
  · rw [hl]; exact inv_clean inv_start
  · rw [hl]
    refine ⟨?_, ?_⟩
    · rintro g ⟨h1, h2⟩
      simp only [List.mem_cons, List.not_mem_nil, or_false, reduceCtorEq, Ev.opened.injEq] at h1
      subst h1
      exact h2 (by simp)
    · intro pre g ok post heq
      match pre, heq with
      | [], heq => simp at heq
      | [x], heq =>
        simp only [List.cons_append, List.nil_append, List.cons.injEq, Ev.closed.injEq] at heq
        obtain ⟨rfl, ⟨rfl, rfl⟩, _⟩ := heq
        exact ⟨by simp, by simp⟩
      | x :: y :: z, heq => simp at heq

/-- Nothing fails on a drive with 3 Mbytes. -/
example : Closes ⟨fun k => if k = 2 then 3 else 0, fun _ => false, fun _ => true⟩ ∧
    ∀ k, 3 < k → (if k = 2 then 3 else 0) = 0 :=
  ⟨fun _ => rfl, fun k hk => if_neg (by omega)⟩

theorem blocks_some (e : Env) : ∀ (n : Nat) (s : St),
    ((∀ k, s.asked ≤ k → k < s.asked + n → e.ans k = 0) ∧
      blocks n e s = .ok true { s with asked := s.asked + n }) ∨
    ((∃ k, s.asked ≤ k ∧ k < s.asked + n ∧ e.ans k ≠ 0) ∧
      ∃ a, blocks n e s = .ok false { s with asked := a })
  | 0, s => .inl ⟨fun k h1 h2 => absurd h1 (by omega), rfl⟩
  | n + 1, s => by
    have hb : blocks (n + 1) e s = if e.ans s.asked = 0 then
        blocks n e { s with asked := s.asked + 1 } else .ok false { s with asked := s.asked + 1 } := by
      rw [blocks, bind_def]
      simp only [ask]
      split
      · rfl
      · rfl
    rw [hb]
    by_cases h : e.ans s.asked = 0
    · rw [if_pos h]
      rcases blocks_some e n { s with asked := s.asked + 1 } with ⟨h1, h2⟩ | ⟨⟨k, h1, h3, h4⟩, h2⟩
      · refine .inl ⟨fun k hk hk2 => ?_, ?_⟩
        · by_cases hs : k = s.asked
          · rw [hs]; exact h
          · exact h1 k (by simp only; omega) (by simp only; omega)
        · rw [h2]
          simp [Nat.add_comm, Nat.add_left_comm]
      · exact .inr ⟨⟨k, by simp only at h1; omega, by simp only at h3; omega, h4⟩, h2⟩
    · rw [if_neg h]
      exact .inr ⟨⟨s.asked, by omega, by omega, h⟩, _, rfl⟩

/-- When the file of `vol -t` stays open: a test writes and reads 256 blocks for each free megabyte (at most
8), with a rewind between, and the file stays open if and only if one of these calls fails. -/
theorem C114_vol_exact (n : Nat) (e : Env) (log : List Ev) (hc : Closes e)
    (h : Ends (run n (.vol true)) e log) (hopen : .opened 0 ∈ log) :
    Remains log 0 ↔ ∃ k, 4 ≤ k ∧ k ≤ 4 + 2 * (256 * min (e.ans 2) 8) ∧ e.ans k ≠ 0 := by
  obtain ⟨s, rfl, h⟩ := h
  have hn : min (e.ans 2) 8 * 1024 / 4 = 256 * min (e.ans 2) 8 := by omega
  have key : ∃ t : St, testSpeed e start = .ok () t ∧ (.opened 0 ∈ t.log →
      ((t.log = [.opened 0] ∧ ∃ k, 4 ≤ k ∧ k ≤ 4 + 2 * (256 * min (e.ans 2) 8) ∧ e.ans k ≠ 0) ∨
      (t.log = [.opened 0, .closed 0 true] ∧
        ∀ k, 4 ≤ k → k ≤ 4 + 2 * (256 * min (e.ans 2) 8) → e.ans k = 0))) := by
    unfold testSpeed
    rw [bind_def]
    simp only [ask]
    split
    · exact ⟨_, rfl, fun h => by cases h⟩
    · rw [bind_def]
      simp only [ask]
      split
      · exact ⟨_, rfl, fun h => by cases h⟩
      · rw [bind_def]
        simp only [ask]
        split
        · exact ⟨_, rfl, fun h => by cases h⟩
        · rw [bind_def]
          simp only [openObj]
          by_cases h3 : e.ans (start.asked + 1 + 1 + 1) = 0
          · rw [if_pos h3]
            simp only [start, Nat.zero_add, Nat.reduceAdd, List.nil_append]
            rw [hn, bind_def]
            rcases blocks_some e (256 * min (e.ans 2) 8) ⟨4, 1, [.opened 0]⟩ with
              ⟨h4, h5⟩ | ⟨⟨k, h4, h6, h7⟩, a, h5⟩
            · rw [h5]
              simp only [if_true] at h4 ⊢
              rw [bind_def]
              simp only [ask]
              by_cases h8 : e.ans (4 + 256 * min (e.ans 2) 8) = 0
              · rw [if_neg (by simpa using h8), bind_def]
                rcases blocks_some e (256 * min (e.ans 2) 8)
                  ⟨4 + 256 * min (e.ans 2) 8 + 1, 1, [.opened 0]⟩ with
                  ⟨h9, h10⟩ | ⟨⟨k, h9, h11, h12⟩, a, h10⟩
                · rw [h10]
                  simp only [if_true] at h9 ⊢
                  rw [bind_def]
                  simp only [closeObj]
                  rw [hc]
                  refine ⟨_, rfl, fun _ => .inr ⟨rfl, fun k hk hk2 => ?_⟩⟩
                  by_cases h11 : k < 4 + 256 * min (e.ans 2) 8
                  · exact h4 k hk h11
                  · by_cases h12 : k = 4 + 256 * min (e.ans 2) 8
                    · rw [h12]; exact h8
                    · exact h9 k (by omega) (by omega)
                · rw [h10]
                  simp only [Bool.false_eq_true, if_false] at h9 h11 ⊢
                  exact ⟨_, rfl, fun _ => .inl ⟨rfl, k, by omega, by omega, h12⟩⟩
              · rw [if_pos h8]
                exact ⟨_, rfl, fun _ => .inl ⟨rfl, _, by omega, by omega, h8⟩⟩
            · rw [h5]
              simp only [Bool.false_eq_true, if_false] at h4 h6 ⊢
              exact ⟨_, rfl, fun _ => .inl ⟨rfl, k, h4, by omega, h7⟩⟩
          · rw [if_neg h3]
            exact ⟨_, rfl, fun h => by cases h⟩
  obtain ⟨t, ht, hlog⟩ := key
  have hst : s = t := by
    have hr : run n (.vol true) = testSpeed := by simp only [run, if_true]
    have h' : testSpeed e start = .ok () s ∨ testSpeed e start = .left s := by rw [← hr]; exact h
    rw [ht] at h'
    rcases h' with h' | h'
    · cases h'; rfl
    · cases h'
  subst hst
  rcases hlog hopen with ⟨hl, hk⟩ | ⟨hl, hk⟩
  · exact ⟨fun _ => hk, fun _ => by rw [hl]; exact ⟨by simp, by simp⟩⟩
  · refine ⟨fun hr => ?_, fun ⟨k, h1, h2, h3⟩ => absurd (hk k h1 h2) h3⟩
    rw [hl] at hr
    exact absurd (by simp) hr.2

/-- The file is opened on a drive that is write protected. -/
example : Closes readOnly ∧ Ends (run 0 (.vol true)) readOnly [.opened 0] :=
  ⟨fun _ => rfl, _, rfl, .inl (by
    rw [show run 0 (.vol true) = testSpeed by simp only [run, if_true]]; exact C114_vol)⟩

end Fpm.Handles
