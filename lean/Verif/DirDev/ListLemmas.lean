import Verif.DirDev.RegLemmas
/-!
# Lemmas: listing
-/
namespace Fpm.DirDev
open Fpm.Fat Fpm.Fat.Spec Fpm.Lfn Fpm.Names Fpm.FatFile Fpm.FatFile.Spec Fpm.FatDir Fpm.FatDir.Spec Fpm.Mount Fpm.Mount.Spec Fpm.DirDev.Spec

/-- At an entry, or behind the last one. -/
def Pos (v : Vol) (i : Info) (loc : Loc) (j : Nat) (dp : Dp) : Prop := At v i loc j dp ∨ dp.sect = 0 ∧ total v i loc ≤ j

theorem readEnd_sect (w : Walked (Option (Option Nat × List Nat))) (h : (readEnd w).res = FR_NO_FILE) (hw : w.val ≠ none → w.res = FR_OK) : (readEnd w).dp.sect = 0 := by
  unfold readEnd at h ⊢
  split
  · rename_i hv
    rw [hv] at h
    have := hw (by rw [hv]; exact fun h => by cases h)
    have h : w.res = FR_NO_FILE := h
    rw [this] at h
    cases h
  · rfl
  · rfl

theorem walk_val {σ ρ : Type} {v : Vol} {i : Info} {st : Bool} {f : Nat → List Nat → σ → Step σ ρ} : ∀ (k : Nat) (s : St) (dp : Dp) (q : σ), (walk v i st f k s dp q).val ≠ none → (walk v i st f k s dp q).res = FR_OK
  | 0, _, _, _, h => (h rfl).elim
  | k + 1, s, dp, q, h => by
    unfold walk at h ⊢
    split
    · rename_i h1
      rw [if_pos h1] at h
      generalize dirEnt v (moveWindow v s dp.sect).1 dp = o at h ⊢
      cases o with
      | none => exact (h rfl).elim
      | some e =>
        simp only at h ⊢
        generalize f dp.dptr e q = x at h ⊢
        cases x with
        | ub => exact (h rfl).elim
        | stop r => rfl
        | go q =>
          simp only at h ⊢
          split
          · rename_i h2
            rw [if_pos h2] at h
            exact walk_val k _ _ q h
          · rename_i h2
            rw [if_neg h2] at h
            exact (h rfl).elim
    · rename_i h1
      rw [if_neg h1] at h
      exact (h rfl).elim

theorem read_sect {v : Vol} {i : Info} {s : St} {dp : Dp} {buf : List Nat} (h : (dirRead v i s dp buf).res = FR_NO_FILE) : (dirRead v i s dp buf).dp.sect = 0 := by
  unfold dirRead at h ⊢
  split
  · assumption
  · rename_i h1
    rw [if_neg h1] at h
    exact readEnd_sect _ h (walk_val _ _ _ _)

theorem next_end {v : Vol} {i : Info} {st : Bool} {s : St} {dp : Dp} (h : dp.sect = 0) : dirNext v i st s dp = ⟨s, { dp with sect := 0 }, FR_NO_FILE⟩ := by
  unfold dirNext
  rw [if_pos (.inr h)]

theorem readDir_end {t : List (List Nat)} {j : Nat} {buf : List Nat} (h : t.length ≤ j) : readDir t j buf = some none := by
  unfold readDir FatDir.dirRead
  rw [List.drop_eq_nil_of_le h]
  rfl

/-- Outcome of reading one entry. -/
def ReadOut (v : Vol) (i : Info) (loc : Loc) (r : Item) : Option (Option (List Nat × List Nat × Nat × List Nat)) → Prop
  | none => r.res = UB
  | some none => r.res = FR_OK ∧ r.item = none
  | some (some (name, e, j, buf)) => r.res = FR_OK ∧ r.item = some (name, e) ∧ Pos v i loc j r.dp ∧ r.buf = buf

theorem readdir_dev {v : Vol} {i : Info} (hr : Ready v i) {s : St} (hi : Inv v s) {loc : Loc} (hl : Linked v (tab v s) loc) {j : Nat} {dp : Dp} (h : Pos v i loc j dp) (buf : List Nat) :
    Quiet v s (readdir v i s dp buf).st ∧ ((readdir v i s dp buf).res = FR_DISK_ERR ∧ ¬ Sound v ∨ ReadOut v i loc (readdir v i s dp buf) (readDir (entries v i (view s) loc) j buf)) := by
  unfold readdir
  rcases h with h | ⟨h0, hj⟩
  rotate_left
  · rw [readDir_end (by rw [entries_length]; exact hj)]
    unfold dirRead
    rw [if_pos h0]
    unfold readInfo
    rw [if_pos rfl]
    unfold readNext
    rw [next_end h0]
    exact ⟨.refl hi, .inr ⟨rfl, rfl⟩⟩
  obtain ⟨q, -, h1⟩ := read_spec hr hi hl h buf
  have hse := fun hh => read_sect (v := v) (i := i) (s := s) (dp := dp) (buf := buf) hh
  unfold readDir
  generalize dirRead v i s dp buf = g at q h1 hse
  unfold readInfo
  rcases h1 with ⟨her, hns⟩ | h1
  · rw [if_neg (by rw [her]; decide), if_neg (by rw [her]; decide)]
    exact ⟨q, .inl ⟨her, hns⟩⟩
  cases hF : FatDir.dirRead (entries v i (view s) loc) j buf with
  | ub =>
    rw [hF] at h1
    have h1 : g.res = UB := h1
    rw [if_neg (by rw [h1]; decide), if_neg (by rw [h1]; decide)]
    exact ⟨q, .inr h1⟩
  | noFile =>
    rw [hF] at h1
    have h1 : g.res = FR_NO_FILE := h1
    rw [if_pos h1]
    unfold readNext
    rw [next_end (hse h1)]
    exact ⟨q, .inr ⟨rfl, rfl⟩⟩
  | found k blk bf =>
    rw [hF] at h1
    obtain ⟨c1, c2, c3, c4, c5⟩ := h1
    rw [if_neg (by rw [c1]; decide), if_pos c1]
    obtain ⟨e, he, hg, -⟩ := ent_entry hr q.inv c4 c5
    rw [entries_same hr hl q.same] at hg
    have hgd : (entries v i (view s) loc).getD k [] = e := by rw [List.getD_eq_getElem?_getD, hg]; rfl
    have hblk : (if g.blk = none then none else some g.buf) = (if blk = none then none else some bf) := by
      rw [c2, c3]
      cases blk <;> rfl
    rw [he, hblk]
    simp only [hgd]
    generalize listName (if blk = none then none else some bf) e = o
    cases o with
    | none => exact ⟨q, .inr rfl⟩
    | some name =>
      simp only
      unfold readNext
      have hm := next_spec hr q.inv (linked_same hl q.same) c4
      generalize dirNext v i false g.st g.dp = r at hm
      refine ⟨q.trans hm.quiet, ?_⟩
      rcases hm.cases with ⟨hok, hat⟩ | ⟨hno, htot, hz⟩ | ⟨her, hns⟩
      · exact .inr ⟨by show (if r.res = FR_NO_FILE then FR_OK else r.res) = FR_OK; rw [hok]; rfl, rfl, .inl hat, c3⟩
      · exact .inr ⟨if_pos hno, rfl, .inr ⟨hz, by omega⟩, c3⟩
      · exact .inl ⟨by show (if r.res = FR_NO_FILE then FR_OK else r.res) = FR_DISK_ERR; rw [her]; rfl, hns⟩

theorem listLoop_dev {v : Vol} {i : Info} (hr : Ready v i) {loc : Loc} : ∀ (k : Nat) {s : St} {j : Nat} {dp : Dp} (buf : List Nat), Inv v s → Linked v (tab v s) loc → Pos v i loc j dp → ∀ l,
    listAll (entries v i (view s) loc) k j buf = some l →
    Quiet v s (listLoop v i k s dp buf).st ∧ ((listLoop v i k s dp buf).res = FR_DISK_ERR ∧ ¬ Sound v ∨ (listLoop v i k s dp buf).res = FR_OK ∧ (listLoop v i k s dp buf).items = l)
  | 0, s, j, dp, buf, _, _, _, l, h => by cases h
  | k + 1, s, j, dp, buf, hi, hl, hp, l, h => by
    obtain ⟨q, h1⟩ := readdir_dev hr hi hl hp buf
    unfold listLoop
    unfold listAll at h
    generalize readdir v i s dp buf = r at q h1
    rcases h1 with ⟨her, hns⟩ | h1
    · rw [if_neg (by rw [her]; decide)]
      exact ⟨q, .inl ⟨her, hns⟩⟩
    cases hR : readDir (entries v i (view s) loc) j buf with
    | none => rw [hR] at h; cases h
    | some o =>
      rw [hR] at h h1
      cases o with
      | none =>
        cases h
        rw [if_pos h1.1, h1.2]
        exact ⟨q, .inr ⟨rfl, rfl⟩⟩
      | some x =>
        obtain ⟨name, e, j', bf⟩ := x
        obtain ⟨c1, c2, c3, c4⟩ := h1
        simp only at h
        rw [if_pos c1, c2, c4]
        simp only
        cases hL : listAll (entries v i (view s) loc) k j' bf with
        | none => rw [hL] at h; cases h
        | some l' =>
          rw [hL] at h
          cases h
          obtain ⟨q2, h2⟩ := listLoop_dev hr k bf q.inv (linked_same hl q.same) c3 l' (by rw [entries_same hr hl q.same]; exact hL)
          refine ⟨q.trans q2, ?_⟩
          rcases h2 with h2 | ⟨h2, h3⟩
          · exact .inl h2
          · exact .inr ⟨h2, by rw [h3]⟩

theorem list_dev {v : Vol} {i : Info} (hr : Ready v i) {s : St} (hi : Inv v s) {loc : Loc} (hl : Linked v (tab v s) loc) {dp : Dp} (hst : Starts v i dp.sclust loc) (k : Nat) (buf : List Nat)
    {l : List (List Nat × List Nat)} (h : listAll (entries v i (view s) loc) k 0 buf = some l) :
    Quiet v s (list v i s dp k buf).st ∧ ((list v i s dp k buf).res = FR_DISK_ERR ∧ ¬ Sound v ∨ (list v i s dp k buf).res = FR_OK ∧ (list v i s dp k buf).items = l) := by
  have hs := sdi_spec hr hi hl hst (j := 0) (total_pos hr hl)
  unfold list
  rw [show 32 * 0 = 0 from rfl] at hs
  generalize dirSdi v i s dp 0 = r at hs
  rcases hs.cases with ⟨hok, hat⟩ | ⟨her, hns⟩
  · rw [if_pos hok]
    obtain ⟨q, h1⟩ := listLoop_dev hr k buf hs.quiet.inv (linked_same hl hs.quiet.same) (.inl hat) l (by rw [entries_same hr hl hs.quiet.same]; exact h)
    exact ⟨hs.quiet.trans q, h1⟩
  · rw [if_neg (by rw [her]; decide)]
    exact ⟨hs.quiet, .inl ⟨her, hns⟩⟩

end Fpm.DirDev
