import Verif.Fat.Spec
/-!
# The window hides nothing
-/
namespace Fpm.Fat
open Fpm.Fat.Spec

/-- Same contents seen, except in the second FAT. -/
def Same (v : Vol) (s s' : St) : Prop := ∀ n, ¬ Fat2 v n → view s' n = view s n

/-- Every disk content is an old one or what was seen. -/
def Trace (v : Vol) (s s' : St) : Prop :=
  (∀ d ∈ s'.disk :: s'.past, d ∈ s.disk :: s.past ∨ ∀ n, ¬ Fat2 v n → d n = view s n) ∧ (s'.disk = s.disk ∨ ∀ n, ¬ Fat2 v n → s'.disk n = view s n)

/-- Fields not touched by the window. -/
def Rest (s s' : St) : Prop := s'.lastClst = s.lastClst ∧ s'.freeClst = s.freeClst ∧ s'.fsiFlag = s.fsiFlag

theorem Same.refl (v : Vol) (s : St) : Same v s s := fun _ _ => rfl
theorem Same.trans {v : Vol} {a b c : St} (h : Same v a b) (h' : Same v b c) : Same v a c := fun n hn => (h' n hn).trans (h n hn)
theorem Trace.refl (v : Vol) (s : St) : Trace v s s := ⟨fun _ hd => .inl hd, .inl rfl⟩
theorem Trace.trans {v : Vol} {a b c : St} (h : Trace v a b) (hs : Same v a b) (h' : Trace v b c) : Trace v a c := by
  refine ⟨fun d hd => ?_, ?_⟩
  · rcases h'.1 d hd with h1 | h1
    · exact h.1 d h1
    · exact .inr fun n hn => (h1 n hn).trans (hs n hn)
  · rcases h'.2 with h1 | h1
    · rw [h1]; exact h.2
    · exact .inr fun n hn => (h1 n hn).trans (hs n hn)
theorem Rest.refl (s : St) : Rest s s := ⟨rfl, rfl, rfl⟩
theorem Rest.trans {a b c : St} (h : Rest a b) (h' : Rest b c) : Rest a c := ⟨h'.1.trans h.1, h'.2.1.trans h.2.1, h'.2.2.trans h.2.2⟩

theorem upd_same (d : Disk) (n : Nat) (b : List Nat) : upd d n b n = b := by simp [upd]
theorem upd_ne (d : Disk) {n m : Nat} (b : List Nat) (h : m ≠ n) : upd d n b m = d m := by simp [upd, h]

theorem sec_upd {v : Vol} {d : Disk} (hd : ∀ n, Sec v (d n)) {b : List Nat} (hb : Sec v b) (n : Nat) : ∀ m, Sec v (upd d n b m) := by
  intro m
  by_cases h : m = n
  · subst h; rw [upd_same]; exact hb
  · rw [upd_ne _ _ h]; exact hd m

theorem fat1_add {v : Vol} {w : Nat} (h : v.fatbase ≤ w ∧ w - v.fatbase < v.fsize) (h2 : v.nFats = 2) : Fat2 v (w + v.fsize) := by
  refine ⟨h2, ?_, ?_⟩ <;> omega

/-- The mirror writes only the second FAT. -/
theorem mirror_spec {v : Vol} (hg : Geo v) {s : St} (hi : Inv v s) (w : Nat) (hf : s.wflag = false) :
    Inv v (mirror v s w) ∧ Same v s (mirror v s w) ∧ (mirror v s w).wflag = false ∧ (mirror v s w).winsect = s.winsect ∧
    (mirror v s w).win = s.win ∧ Rest s (mirror v s w) ∧
    (∀ d ∈ (mirror v s w).disk :: (mirror v s w).past, d ∈ s.disk :: s.past ∨ ∀ n, ¬ Fat2 v n → d n = s.disk n) ∧
    ∀ n, ¬ Fat2 v n → (mirror v s w).disk n = s.disk n := by
  unfold mirror
  split
  · rename_i h
    split
    · rename_i h2
      have h2' := fat1_add h h2
      have key : ∀ b : List Nat, Sec v b →
          Inv v { s with disk := upd s.disk (w + v.fsize) b, past := s.disk :: s.past, cnt := s.cnt + 1 } ∧
          Same v s { s with disk := upd s.disk (w + v.fsize) b, past := s.disk :: s.past, cnt := s.cnt + 1 } ∧
          (∀ d ∈ upd s.disk (w + v.fsize) b :: s.disk :: s.past, d ∈ s.disk :: s.past ∨ ∀ n, ¬ Fat2 v n → d n = s.disk n) ∧
          ∀ n, ¬ Fat2 v n → upd s.disk (w + v.fsize) b n = s.disk n := by
        intro b hb
        have hne : ∀ n, ¬ Fat2 v n → upd s.disk (w + v.fsize) b n = s.disk n := fun n hn => upd_ne _ _ (fun h => hn (h ▸ h2'))
        refine ⟨⟨sec_upd hi.disk hb _, hi.win, fun _ n hn => ?_, hi.dirty, hi.fat2⟩, fun n hn => ?_, fun d hd => ?_, hne⟩
        · simp only
          rw [hne n (hi.fat2 n hn)]
          exact hi.clean hf n hn
        · simp only [view, hne n hn]
        · rcases List.mem_cons.mp hd with rfl | hd
          · exact .inr hne
          · exact .inl hd
      unfold diskWrite
      cases hio : v.io s.cnt with
      | ok => obtain ⟨a, b, c⟩ := key s.win hi.win; exact ⟨a, b, hf, rfl, rfl, ⟨rfl, rfl, rfl⟩, c⟩
      | fail j => obtain ⟨a, b, c⟩ := key j (hg.junk _ _ hio); exact ⟨a, b, hf, rfl, rfl, ⟨rfl, rfl, rfl⟩, c⟩
    · exact ⟨hi, .refl v s, hf, rfl, rfl, .refl s, fun d hd => .inl hd, fun _ _ => rfl⟩
  · exact ⟨hi, .refl v s, hf, rfl, rfl, .refl s, fun d hd => .inl hd, fun _ _ => rfl⟩

/-- What `sync_window` does. -/
theorem sync_spec {v : Vol} (hg : Geo v) {s : St} (hi : Inv v s) :
    Inv v (syncWindow v s).1 ∧ Same v s (syncWindow v s).1 ∧ Rest s (syncWindow v s).1 ∧ (syncWindow v s).1.winsect = s.winsect ∧
    ((syncWindow v s).2 = FR_OK ∧ (syncWindow v s).1.wflag = false ∨ (syncWindow v s).2 = FR_DISK_ERR ∧ ¬ Sound v) ∧
    (Sound v → Trace v s (syncWindow v s).1) := by
  unfold syncWindow
  by_cases hf : s.wflag = true
  rotate_left
  · rw [if_neg hf]
    exact ⟨hi, .refl v s, .refl s, rfl, .inl ⟨rfl, by simpa using hf⟩, fun _ => .refl v s⟩
  rw [if_pos hf]
  cases hw : s.winsect with
  | none => exact absurd hw (hi.dirty hf)
  | some w =>
    simp only
    unfold diskWrite
    cases hio : v.io s.cnt with
    | ok =>
      simp only [if_true]
      have hi' : Inv v { s with disk := upd s.disk w s.win, past := s.disk :: s.past, cnt := s.cnt + 1, wflag := false } := by
        refine ⟨sec_upd hi.disk hi.win _, hi.win, fun _ n hn => ?_, (fun h => by cases h), hi.fat2⟩
        simp only at hn ⊢
        rw [hw] at hn
        cases hn
        rw [upd_same]
      have hv : ∀ n, upd s.disk w s.win n = view s n := by
        intro n
        unfold view upd
        rw [hw]
        by_cases h : n = w
        · subst h; simp
        · rw [if_neg h, if_neg (by simpa using fun h' => h h'.symm)]
      have hs' : Same v s { s with disk := upd s.disk w s.win, past := s.disk :: s.past, cnt := s.cnt + 1, wflag := false } := by
        intro n _
        by_cases h : s.winsect = some n
        · simp only [view, h, if_true]
        · have h1 := hv n
          unfold view
          simp only [h, if_false]
          rw [h1, view, if_neg h]
      obtain ⟨a, b, c, d, _, f, g, g'⟩ := mirror_spec hg hi' w rfl
      have hrest : Rest s { s with disk := upd s.disk w s.win, past := s.disk :: s.past, cnt := s.cnt + 1, wflag := false } := ⟨rfl, rfl, rfl⟩
      rw [hw] at *
      refine ⟨a, hs'.trans b, hrest.trans f, d, .inl ⟨trivial, c⟩, fun _ => ⟨fun x hx => ?_, .inr fun n hn => (g' n hn).trans (hv n)⟩⟩
      rcases g x hx with h1 | h1
      · rcases List.mem_cons.mp h1 with rfl | h1
        · exact .inr fun n _ => hv n
        · exact .inl h1
      · exact .inr fun n hn => (h1 n hn).trans (hv n)
    | fail j =>
      simp only [Bool.false_eq_true, if_false]
      have hj := hg.junk _ _ hio
      refine ⟨⟨sec_upd hi.disk hj _, hi.win, fun h => ?_, hi.dirty, hi.fat2⟩, fun n _ => ?_, ⟨rfl, rfl, rfl⟩, hw, .inr ⟨trivial, fun h => ?_⟩, fun h => ?_⟩
      · simp only at h
        rw [hf] at h; cases h
      · unfold view
        simp only [hw]
        by_cases h : n = w
        · subst h; simp
        · rw [if_neg (by simpa using fun h' => h h'.symm), if_neg (by simpa using fun h' => h h'.symm), upd_ne _ _ h]
      · rw [h s.cnt] at hio; cases hio
      · rw [h s.cnt] at hio; cases hio

/-- What `move_window` does. -/
theorem move_spec {v : Vol} (hg : Geo v) {s : St} (hi : Inv v s) {sect : Nat} (hn2 : ¬ Fat2 v sect) :
    Inv v (moveWindow v s sect).1 ∧ Same v s (moveWindow v s sect).1 ∧ Rest s (moveWindow v s sect).1 ∧
    ((moveWindow v s sect).2 = FR_OK ∧ (moveWindow v s sect).1.winsect = some sect ∨ (moveWindow v s sect).2 = FR_DISK_ERR ∧ ¬ Sound v) ∧
    (Sound v → Trace v s (moveWindow v s sect).1) := by
  unfold moveWindow
  by_cases hs : s.winsect = some sect
  · rw [if_pos hs]
    exact ⟨hi, .refl v s, .refl s, .inl ⟨rfl, hs⟩, fun _ => .refl v s⟩
  rw [if_neg hs]
  obtain ⟨a, b, c, d, e, f⟩ := sync_spec hg hi
  rcases e with ⟨e1, e2⟩ | ⟨e1, e2⟩
  rotate_left
  · rw [if_neg (by rw [e1]; decide)]
    exact ⟨a, b, c, .inr ⟨e1, e2⟩, fun h => absurd h e2⟩
  rw [if_pos e1]
  generalize (syncWindow v s).1 = t at *
  have key : ∀ (b : List Nat) (w : Option Nat), Sec v b → (w = some sect ∧ b = t.disk sect ∨ w = none) →
      Inv v { t with win := b, cnt := t.cnt + 1, winsect := w } ∧ Same v t { t with win := b, cnt := t.cnt + 1, winsect := w } := by
    intro b w hb hw
    have hview : ∀ n, view t n = t.disk n := by
      intro n
      unfold view
      split
      · rename_i h; exact a.clean e2 n h
      · rfl
    refine ⟨⟨a.disk, hb, fun _ n hn => ?_, fun h => ?_, fun n hn => ?_⟩, fun n _ => ?_⟩
    · simp only at hn ⊢
      rcases hw with ⟨rfl, rfl⟩ | rfl
      · cases hn; rfl
      · cases hn
    · simp only at h; rw [e2] at h; cases h
    · simp only at hn
      rcases hw with ⟨rfl, -⟩ | rfl
      · cases hn; exact hn2
      · cases hn
    · rw [hview n]
      unfold view
      simp only
      split
      · rename_i h
        rcases hw with ⟨rfl, rfl⟩ | rfl
        · cases h; rfl
        · cases h
      · rfl
  unfold fillWindow diskReadWin
  cases hio : v.io t.cnt with
  | ok =>
    simp only [if_true]
    obtain ⟨k1, k2⟩ := key (t.disk sect) (some sect) (a.disk sect) (.inl ⟨rfl, rfl⟩)
    exact ⟨k1, b.trans k2, c, .inl ⟨trivial, trivial⟩, fun h => f h⟩
  | fail j =>
    simp only [Bool.false_eq_true, if_false]
    obtain ⟨k1, k2⟩ := key j none (hg.junk _ _ hio) (.inr rfl)
    refine ⟨k1, b.trans k2, c, .inr ⟨trivial, fun h => ?_⟩, fun h => f h⟩
    rw [h t.cnt] at hio; cases hio

/-- Using the window: either the device failed, or the sector is there. -/
theorem window_spec {v : Vol} (hg : Geo v) {s : St} (hi : Inv v s) {sect : Nat} (hn2 : ¬ Fat2 v sect) (err : Nat) (k : St → St × Nat) :
    (∃ s', window v s sect err k = (s', err) ∧ Inv v s' ∧ Same v s s' ∧ Rest s s' ∧ ¬ Sound v ∧ s.winsect ≠ some sect) ∨
    (∃ s', window v s sect err k = k s' ∧ Inv v s' ∧ Same v s s' ∧ Rest s s' ∧ (Sound v → Trace v s s') ∧ s'.winsect = some sect ∧ s'.win = view s sect ∧ (s.winsect = some sect → s' = s)) := by
  obtain ⟨a, b, c, d, e⟩ := move_spec hg hi hn2
  unfold window
  rcases d with ⟨d1, d2⟩ | ⟨d1, d2⟩
  · right
    rw [if_pos d1]
    refine ⟨_, rfl, a, b, c, e, d2, ?_, fun h => by unfold moveWindow; rw [if_pos h]⟩
    have := b sect hn2
    rw [view, if_pos d2] at this
    exact this
  · left
    rw [if_neg (by rw [d1]; decide)]
    refine ⟨_, rfl, a, b, c, d2, fun h => ?_⟩
    unfold moveWindow at d1
    rw [if_pos h] at d1
    exact absurd (show FR_OK = FR_DISK_ERR from d1) (by decide)

end Fpm.Fat
