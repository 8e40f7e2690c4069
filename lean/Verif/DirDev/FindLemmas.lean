import Verif.DirDev.SeekLemmas
/-!
# Lemmas: reading and finding on the device agree with those on the list of entries
-/
namespace Fpm.DirDev
open Fpm.Fat Fpm.Fat.Spec Fpm.Lfn Fpm.Names Fpm.FatFile Fpm.FatFile.Spec Fpm.FatDir Fpm.FatDir.Spec Fpm.Mount Fpm.Mount.Spec Fpm.DirDev.Spec

/-- Offsets for indices. -/
def sc (q : Seq) : Seq := { q with blk := q.blk.map (32 * ·) }

theorem seqStart_sc (j : Nat) (e : List Nat) (q : Seq) : seqStart (32 * j) e (sc q) = sc (seqStart j e q) := by
  unfold seqStart
  split <;> rfl

theorem readLfn_sc (j : Nat) (e : List Nat) (q : Seq) (buf : List Nat) : readLfn (32 * j) e (sc q) buf = (readLfn j e q buf).map fun p => (sc p.1, p.2) := by
  unfold readLfn
  rw [seqStart_sc]
  show (if seqOrd e = (seqStart j e q).ord ∧ (seqStart j e q).sum = byte e 13 then _ else _) = _
  split
  · cases pickLfn buf e with
    | none => rfl
    | some x => cases x <;> rfl
  · rfl

theorem findLfn_sc (j : Nat) (e : List Nat) (fl : Nat) (q : Seq) (buf : List Nat) : findLfn (32 * j) e fl (sc q) buf = (findLfn j e fl q buf).map sc := by
  unfold findLfn
  rw [seqStart_sc]
  split
  · show (if seqOrd e = (seqStart j e q).ord ∧ (seqStart j e q).sum = byte e 13 then _ else _) = _
    split
    · cases cmpLfn buf e <;> rfl
    · rfl
  · rfl

/-- Outcomes of the loop of `dir_read`. -/
def ReadAs (x : Run (Option (Option Nat × List Nat))) : FatDir.Found → Prop
  | .ub => x = .ub
  | .noFile => x = .fin ∨ ∃ j, x = .stop j none
  | .found k blk buf => x = .stop k (some (blk.map (32 * ·), buf))

theorem read_run : ∀ (t : List (List Nat)) (j : Nat) (q : Seq) (buf : List Nat), ReadAs (run readStep t j (sc q, buf)) (FatDir.readLoop t j q buf)
  | [], _, _, _ => .inl rfl
  | e :: t, j, q, buf => by
    unfold run FatDir.readLoop readStep
    by_cases h0 : byte e 0 = 0
    · rw [if_pos h0, if_pos h0]
      exact .inr ⟨j, rfl⟩
    rw [if_neg h0, if_neg h0]
    by_cases h1 : byte e 0 = 0xE5 ∨ byte e 0 = 46 ∨ attr e &&& 0x1F = 8
    · rw [if_pos h1, if_pos h1]
      exact read_run t (j + 1) { q with ord := 0xFF } buf
    rw [if_neg h1, if_neg h1]
    by_cases h2 : attr e = 0x0F
    · rw [if_pos h2, if_pos h2, readLfn_sc]
      cases readLfn j e q buf with
      | none => rfl
      | some p => exact read_run t (j + 1) p.1 p.2
    · rw [if_neg h2, if_neg h2]
      show Run.stop j (some (if q.ord ≠ 0 ∨ q.sum ≠ sumSfn e then none else (sc q).blk, buf)) = Run.stop j (some ((if q.ord ≠ 0 ∨ q.sum ≠ sumSfn e then none else q.blk).map (32 * ·), buf))
      split <;> rfl

/-- Outcomes of the loop of `dir_find`. -/
def FindAs (x : Run (Option (Option Nat))) : FatDir.Found → Prop
  | .ub => x = .ub
  | .noFile => x = .fin ∨ ∃ j, x = .stop j none
  | .found k blk _ => x = .stop k (some (blk.map (32 * ·)))

theorem find_run (fn : List Nat) (fl : Nat) (buf : List Nat) : ∀ (t : List (List Nat)) (j : Nat) (q : Seq), FindAs (run (findStep fn fl buf) t j (sc q)) (findLoop fn fl buf t j q)
  | [], _, _ => .inl rfl
  | e :: t, j, q => by
    unfold run findLoop findStep
    by_cases h0 : byte e 0 = 0
    · rw [if_pos h0, if_pos h0]
      exact .inr ⟨j, rfl⟩
    rw [if_neg h0, if_neg h0]
    by_cases h1 : byte e 0 = 0xE5 ∨ (attr e &&& 8 ≠ 0 ∧ attr e ≠ 0x0F)
    · rw [if_pos h1, if_pos h1]
      exact find_run fn fl buf t (j + 1) ⟨0xFF, q.sum, none⟩
    rw [if_neg h1, if_neg h1]
    by_cases h2 : attr e = 0x0F
    · rw [if_pos h2, if_pos h2, findLfn_sc]
      cases findLfn j e fl q buf with
      | none => rfl
      | some p => exact find_run fn fl buf t (j + 1) p
    rw [if_neg h2, if_neg h2]
    by_cases h3 : q.ord = 0 ∧ q.sum = sumSfn e
    · rw [if_pos (show (sc q).ord = 0 ∧ (sc q).sum = sumSfn e from h3), if_pos h3]
      rfl
    rw [if_neg (show ¬ ((sc q).ord = 0 ∧ (sc q).sum = sumSfn e) from h3), if_neg h3]
    by_cases h4 : fl &&& 1 = 0 ∧ e.take 11 = fn
    · rw [if_pos h4, if_pos h4]
      rfl
    · rw [if_neg h4, if_neg h4]
      exact find_run fn fl buf t (j + 1) ⟨0xFF, q.sum, none⟩

/-- The answer from the device is the one for the list of entries. -/
def Answers (v : Vol) (i : Info) (loc : Loc) (g : Got) : FatDir.Found → Prop
  | .ub => g.res = UB
  | .noFile => g.res = FR_NO_FILE
  | .found k blk buf => g.res = FR_OK ∧ g.blk = blk.map (32 * ·) ∧ g.buf = buf ∧ At v i loc k g.dp ∧ g.st.winsect = some g.dp.sect

theorem read_spec {v : Vol} {i : Info} (hr : Ready v i) {s : St} (hi : Inv v s) {loc : Loc} (hl : Linked v (tab v s) loc) {j : Nat} {dp : Dp} (h : At v i loc j dp) (buf : List Nat) :
    Quiet v s (dirRead v i s dp buf).st ∧ (dirRead v i s dp buf).dp.sclust = dp.sclust ∧
      ((dirRead v i s dp buf).res = FR_DISK_ERR ∧ ¬ Sound v ∨ Answers v i loc (dirRead v i s dp buf) (FatDir.dirRead (entries v i (view s) loc) j buf)) := by
  unfold dirRead FatDir.dirRead
  rw [if_neg (at_place hr hl h).2.2]
  obtain ⟨h1, h2, h3⟩ := walk_spec hr readStep ROUNDS (q := (⟨0xFF, 0xFF, none⟩, buf)) hi hl h (rounds_enough v i loc j)
  have h4 := read_run ((entries v i (view s) loc).drop j) j ⟨0xFF, 0xFF, none⟩ buf
  rw [show sc ⟨0xFF, 0xFF, none⟩ = ⟨0xFF, 0xFF, none⟩ from rfl] at h4
  generalize walk v i false readStep ROUNDS s dp (⟨0xFF, 0xFF, none⟩, buf) = w at h1 h2 h3
  generalize run readStep ((entries v i (view s) loc).drop j) j (⟨0xFF, 0xFF, none⟩, buf) = x at h3 h4
  generalize FatDir.readLoop ((entries v i (view s) loc).drop j) j ⟨0xFF, 0xFF, none⟩ buf = F at h4
  have eq : (readEnd w).st = w.st ∧ (readEnd w).dp.sclust = w.dp.sclust := by
    unfold readEnd
    split <;> exact ⟨rfl, rfl⟩
  refine ⟨by rw [eq.1]; exact h1, by rw [eq.2]; exact h2, ?_⟩
  have hnone : w.val = none → (readEnd w).res = w.res := by
    intro hv
    unfold readEnd
    rw [hv]
  have hub : w.val = none ∨ w.res = w.res := .inr rfl
  rcases h3 with ⟨a, b, c⟩ | ⟨a, b, c⟩ | ⟨a, b, c, d⟩ | ⟨k, r, a, b, c, d, e⟩
  · exact .inl ⟨(hnone b).trans a, c⟩
  · subst a
    cases F with
    | ub => exact .inr ((hnone c).trans b)
    | noFile => rcases h4 with h4 | ⟨_, h4⟩ <;> cases h4
    | found => cases h4
  · subst a
    cases F with
    | ub => cases h4
    | noFile => exact .inr ((hnone c).trans b)
    | found => cases h4
  · subst a
    cases F with
    | ub => cases h4
    | noFile =>
      rcases h4 with h4 | ⟨_, h4⟩
      · cases h4
      · cases h4
        right
        show (readEnd w).res = FR_NO_FILE
        unfold readEnd
        rw [c]
    | found k' blk buf' =>
      cases h4
      right
      unfold readEnd
      rw [c]
      exact ⟨b, rfl, rfl, d, e⟩

theorem find_spec {v : Vol} {i : Info} (hr : Ready v i) {s : St} (hi : Inv v s) {loc : Loc} (hl : Linked v (tab v s) loc) {dp : Dp} (hst : Starts v i dp.sclust loc) (fn : List Nat) (fl : Nat) (buf : List Nat) :
    Quiet v s (dirFind v i s dp fn fl buf).st ∧ (dirFind v i s dp fn fl buf).dp.sclust = dp.sclust ∧
      ((dirFind v i s dp fn fl buf).res = FR_DISK_ERR ∧ ¬ Sound v ∨ Answers v i loc (dirFind v i s dp fn fl buf) (FatDir.dirFind (entries v i (view s) loc) fn fl buf)) := by
  have hs := sdi_spec hr hi hl hst (j := 0) (total_pos hr hl)
  unfold dirFind FatDir.dirFind
  rw [show 32 * 0 = 0 from rfl] at hs
  generalize dirSdi v i s dp 0 = r at hs
  obtain ⟨q1, hsc, hcs⟩ := hs
  rcases hcs with ⟨hok, hat⟩ | ⟨her, hns⟩
  rotate_left
  · rw [if_neg (by rw [her]; decide)]
    exact ⟨q1, hsc, .inl ⟨her, hns⟩⟩
  rw [if_pos hok]
  obtain ⟨h1, h2, h3⟩ := walk_spec hr (findStep fn fl buf) ROUNDS (q := ⟨0xFF, 0xFF, none⟩) q1.inv (linked_same hl q1.same) hat (rounds_enough v i loc 0)
  rw [entries_same hr hl q1.same, List.drop_zero] at h3
  have h4 := find_run fn fl buf (entries v i (view s) loc) 0 ⟨0xFF, 0xFF, none⟩
  have hbuf : ∀ (t : List (List Nat)) (j : Nat) (q : Seq), ∀ k blk b, findLoop fn fl buf t j q = .found k blk b → b = buf := by
    intro t
    induction t with
    | nil => intro j q k blk b h; cases h
    | cons e t ih =>
      intro j q k blk b h
      unfold findLoop at h
      split at h
      · cases h
      · split at h
        · exact ih _ _ _ _ _ h
        · split at h
          · split at h
            · cases h
            · exact ih _ _ _ _ _ h
          · split at h
            · cases h; rfl
            · split at h
              · cases h; rfl
              · exact ih _ _ _ _ _ h
  have hbuf := hbuf (entries v i (view s) loc) 0 ⟨0xFF, 0xFF, none⟩
  rw [show sc ⟨0xFF, 0xFF, none⟩ = ⟨0xFF, 0xFF, none⟩ from rfl] at h4
  generalize walk v i false (findStep fn fl buf) ROUNDS r.st r.dp ⟨0xFF, 0xFF, none⟩ = w at h1 h2 h3
  generalize run (findStep fn fl buf) (entries v i (view s) loc) 0 ⟨0xFF, 0xFF, none⟩ = x at h3 h4
  generalize findLoop fn fl buf (entries v i (view s) loc) 0 ⟨0xFF, 0xFF, none⟩ = F at h4 hbuf
  have eq : (findEnd buf w).st = w.st ∧ (findEnd buf w).dp = w.dp := by
    unfold findEnd
    split <;> exact ⟨rfl, rfl⟩
  refine ⟨by rw [eq.1]; exact q1.trans h1, by rw [eq.2]; exact h2.trans hsc, ?_⟩
  have hnone : w.val = none → (findEnd buf w).res = w.res := by
    intro hv
    unfold findEnd
    rw [hv]
  rcases h3 with ⟨a, b, c⟩ | ⟨a, b, c⟩ | ⟨a, b, c, d⟩ | ⟨k, r, a, b, c, d, e⟩
  · exact .inl ⟨(hnone b).trans a, c⟩
  · subst a
    cases F with
    | ub => exact .inr ((hnone c).trans b)
    | noFile => rcases h4 with h4 | ⟨_, h4⟩ <;> cases h4
    | found => cases h4
  · subst a
    cases F with
    | ub => cases h4
    | noFile => exact .inr ((hnone c).trans b)
    | found => cases h4
  · subst a
    cases F with
    | ub => cases h4
    | noFile =>
      rcases h4 with h4 | ⟨_, h4⟩
      · cases h4
      · cases h4
        right
        show (findEnd buf w).res = FR_NO_FILE
        unfold findEnd
        rw [c]
    | found k' blk buf' =>
      cases h4
      right
      have := hbuf _ _ _ rfl
      subst this
      unfold findEnd
      rw [c]
      exact ⟨b, rfl, rfl, d, e⟩

end Fpm.DirDev
