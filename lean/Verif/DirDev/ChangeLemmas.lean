import Verif.DirDev.RegLemmas
/-!
# Lemmas: registering and removing
-/
namespace Fpm.DirDev
open Fpm.Fat Fpm.Fat.Spec Fpm.Lfn Fpm.Names Fpm.FatFile Fpm.FatFile.Spec Fpm.FatDir Fpm.FatDir.Spec Fpm.Mount Fpm.Mount.Spec Fpm.DirDev.Spec

/-- Numbered names: outcomes. -/
def Numbered (r : Ret × List Nat) : Option (Option (List Nat)) → Prop
  | none => r.1.res = UB
  | some none => r.1.res = FR_DENIED
  | some (some fn) => r.1.res = FR_OK ∧ r.2 = fn

theorem num_dev {v : Vol} {i : Info} (hr : Ready v i) {loc : Loc} (fn buf : List Nat) : ∀ (k n : Nat) {s : St} {dp : Dp}, Inv v s → Linked v (tab v s) loc → Starts v i dp.sclust loc →
    Quiet v s (numLoop v i fn buf k n s dp).1.st ∧ (numLoop v i fn buf k n s dp).1.dp.sclust = dp.sclust ∧
      ((numLoop v i fn buf k n s dp).1.res = FR_DISK_ERR ∧ ¬ Sound v ∨ Numbered (numLoop v i fn buf k n s dp) (FatDir.numLoop (entries v i (view s) loc) fn buf k n))
  | 0, n, s, dp, hi, _, _ => ⟨.refl hi, rfl, .inr rfl⟩
  | k + 1, n, s, dp, hi, hl, hst => by
    unfold numLoop FatDir.numLoop
    cases hg : genNumname fn buf n with
    | none => exact ⟨.refl hi, rfl, .inr rfl⟩
    | some fn' =>
      simp only
      obtain ⟨q, h2, h3⟩ := find_spec hr hi hl hst fn' 0x40 buf
      generalize dirFind v i s dp fn' 0x40 buf = g at q h2 h3
      rcases h3 with ⟨her, hns⟩ | h3
      · rw [if_neg (by rw [her]; decide), if_neg (by rw [her]; decide)]
        exact ⟨q, h2, .inl ⟨her, hns⟩⟩
      cases hF : FatDir.dirFind (entries v i (view s) loc) fn' 0x40 buf with
      | ub =>
        rw [hF] at h3
        have h3 : g.res = UB := h3
        rw [if_neg (by rw [h3]; decide), if_neg (by rw [h3]; decide)]
        exact ⟨q, h2, .inr h3⟩
      | noFile =>
        rw [hF] at h3
        have h3 : g.res = FR_NO_FILE := h3
        rw [if_neg (by rw [h3]; decide), if_pos h3]
        exact ⟨q, h2, .inr ⟨rfl, rfl⟩⟩
      | found p blk bf =>
        rw [hF] at h3
        rw [if_pos h3.1]
        obtain ⟨b1, b2, b3⟩ := num_dev hr fn buf k (n + 1) q.inv (linked_same hl q.same) (by rw [h2]; exact hst)
        rw [entries_same hr hl q.same] at b3
        exact ⟨q.trans b1, b2.trans h2, b3⟩

theorem num_name {t : List (List Nat)} {fn buf : List Nat} : ∀ (k n : Nat) {fn' : List Nat}, FatDir.numLoop t fn buf k n = some (some fn') → ∃ z, genNumname fn buf z = some fn'
  | 0, n, fn', h => by cases h
  | k + 1, n, fn', h => by
    unfold FatDir.numLoop at h
    split at h
    · cases h
    · rename_i f hg
      split at h
      · cases h
      · cases h
        exact ⟨n, hg⟩
      · exact num_name k (n + 1) h

theorem lfnLen_lt : ∀ (buf : List Nat) (k len : Nat), lfnLen buf k = some len → len < k + buf.length
  | [], _, _, h => by cases h
  | w :: buf, k, len, h => by
    unfold lfnLen at h
    split at h
    · cases h
      rw [List.length_cons]
      omega
    · have := lfnLen_lt buf (k + 1) len h
      rw [List.length_cons]
      omega

/-- `dir_register` on the device. -/
theorem register_dev {v : Vol} {i : Info} (hr : Ready v i) {a b : List (List Nat)} {loc : Loc} {s : St} {dp : Dp} (hv : DirVol v a b loc s) (hst : Starts v i dp.sclust loc) {fn : List Nat}
    (hfn : fn.length = 11 ∧ ∀ x ∈ fn, x < 256) (fl : Nat) {buf : List Nat} (hbuf : buf.length ≤ 256) (hnum : ∀ z fn', genNumname fn buf z = some fn' → fn'.length = 11 ∧ ∀ x ∈ fn', x < 256) :
    Apart v i a b loc s (dirRegister v i s dp fn fl buf).st ∧ (dirRegister v i s dp fn fl buf).dp.sclust = dp.sclust ∧
      ((dirRegister v i s dp fn fl buf).res = FR_DISK_ERR ∧ ¬ Sound v ∨
        Registered v i a b loc s (dirRegister v i s dp fn fl buf) (FatDir.dirRegister (growth v a b loc) (entries v i (view s) loc) fn fl buf)) := by
  have hap0 := apart_quiet (i := i) hv (.refl hv.inv)
  unfold dirRegister FatDir.dirRegister
  by_cases h1 : fl &&& 0xA0 ≠ 0
  · rw [if_pos h1, if_pos h1]
    exact ⟨hap0, rfl, .inr ⟨rfl, rfl⟩⟩
  rw [if_neg h1, if_neg h1]
  cases hl : lfnLen buf 0 with
  | none => exact ⟨hap0, rfl, .inr rfl⟩
  | some len =>
    simp only
    have hlen := lfnLen_lt buf 0 len hl
    by_cases h2 : fl &&& 1 ≠ 0
    rotate_left
    · rw [if_neg h2, if_neg h2]
      exact store_dev hr hv hst hfn fl buf (by omega)
    rw [if_pos h2, if_pos h2]
    obtain ⟨q, h3, h4⟩ := num_dev hr fn buf 99 1 hv.inv hv.linked hst
    generalize numLoop v i fn buf 99 1 s dp = R at q h3 h4
    have hv1 := dirvol_same hv q
    rcases h4 with ⟨her, hns⟩ | h4
    · rw [if_neg (by rw [her]; decide)]
      exact ⟨apart_quiet hv q, h3, .inl ⟨her, hns⟩⟩
    cases hN : FatDir.numLoop (entries v i (view s) loc) fn buf 99 1 with
    | none =>
      rw [hN] at h4
      have h4 : R.1.res = UB := h4
      rw [if_neg (by rw [h4]; decide)]
      exact ⟨apart_quiet hv q, h3, .inr h4⟩
    | some x =>
      cases x with
      | none =>
        rw [hN] at h4
        have h4 : R.1.res = FR_DENIED := h4
        rw [if_neg (by rw [h4]; decide)]
        exact ⟨apart_quiet hv q, h3, .inr ⟨h4, loc, .refl loc, hv1, entries_same hr hv.linked q.same⟩⟩
      | some fn' =>
        rw [hN] at h4
        obtain ⟨z, hz⟩ := num_name 99 1 hN
        rw [if_pos h4.1, h4.2]
        obtain ⟨b1, b2, b3⟩ := store_dev hr hv1 (dp := R.1.dp) (by rw [h3]; exact hst) (hnum z fn' hz) fl buf (len := len) (by omega)
        rw [entries_same hr hv.linked q.same] at b3
        refine ⟨(apart_quiet hv q).trans (.refl loc) b1, b2.trans h3, ?_⟩
        simp only
        rcases b3 with b3 | b3
        · exact .inl b3
        · right
          generalize store v i R.1.st R.1.dp fn' fl buf len = S at b3
          have hni : FatDir.store (growth v a b loc) (entries v i (view s) loc) fn' fl buf len ≠ .invalid := by
            unfold FatDir.store
            split
            · exact fun h => by cases h
            · split <;> exact fun h => by cases h
          generalize FatDir.store (growth v a b loc) (entries v i (view s) loc) fn' fl buf len = X at b3 hni
          cases X with
          | ub => exact b3
          | invalid => exact (hni rfl).elim
          | denied t => exact b3
          | done t ws p =>
            obtain ⟨c1, loc', s1, c2, c3, c4, c5, c6, c7, c8, c9⟩ := b3
            refine ⟨c1, loc', s1, c2, c3, c4, c5, c6, c7, c8, fun h => ?_⟩
            have := c9 (by rw [entries_same hr hv.linked q.same]; exact h)
            exact ⟨this.1, q.trans this.2.1, this.2.2⟩

/-! ## Removing -/

theorem del_ent {e : List Nat} (h : Ent e) : Ent (e.set 0 0xE5) := by
  refine ⟨by rw [List.length_set]; exact h.1, fun x hx => ?_⟩
  rcases List.mem_or_eq_of_mem_set hx with h1 | h1
  · exact h.2 x h1
  · omega

theorem markWrites_set (t : List (List Nat)) (e : List Nat) {j : Nat} : ∀ (k j' : Nat), j < j' → markWrites (t.set j e) j' k = markWrites t j' k
  | 0, j', h => by
    unfold markWrites
    rw [List.getD_eq_getElem?_getD, List.getElem?_set_ne (by omega), ← List.getD_eq_getElem?_getD]
  | k + 1, j', h => by
    unfold markWrites
    rw [List.getD_eq_getElem?_getD, List.getElem?_set_ne (by omega), ← List.getD_eq_getElem?_getD, markWrites_set t e k (j' + 1) (by omega)]

/-- Marking entries on the device. -/
theorem mark_dev {v : Vol} {i : Info} (hr : Ready v i) {a b : List (List Nat)} {loc : Loc} : ∀ (k kk : Nat) {s : St} {dp : Dp} {j : Nat}, DirVol v a b loc s →
    At v i loc j dp → j + k < total v i loc → k < kk → Stored v i a b loc (some (markWrites (entries v i (view s) loc) j k)) (j + k) s dp (markLoop v i (32 * (j + k)) kk s dp)
  | k, 0, s, dp, j, hv, ha, _, hkk => by omega
  | k, kk + 1, s, dp, j, hv, ha, hlt, hkk => by
    have hpl := at_place hr hv.linked ha
    obtain ⟨q1, h1⟩ := move_quiet hr.geo hv.inv hpl.2.1
    unfold markLoop
    have hv1 := dirvol_same hv q1
    have w1 := Written.quiet hr hv.linked q1
    rcases h1 with ⟨h1, hw⟩ | ⟨h1, hns⟩
    rotate_left
    · rw [if_neg (by rw [h1]; decide)]
      exact ⟨hv1, rfl, .inl ⟨h1, hns, _, w1⟩⟩
    rw [if_pos h1]
    generalize (moveWindow v s dp.sect).1 = s1 at q1 hw hv1 w1
    obtain ⟨e, he, hg, hent⟩ := ent_entry hr q1.inv ha hw
    have he1 := entries_same hr hv.linked q1.same
    rw [he1] at hg
    rw [he]
    simp only
    have hgd : (entries v i (view s) loc).getD j [] = e := by rw [List.getD_eq_getElem?_getD, hg]; rfl
    obtain ⟨hv2, w2, hw2⟩ := set_spec hr hv1 ha hw (del_ent hent)
    generalize setEnt v s1 dp (e.set 0 0xE5) = s2 at hv2 w2 hw2
    have w12 := w1.trans w2
    rw [List.nil_append] at w12
    rw [ha.dptr]
    cases k with
    | zero =>
      rw [if_pos (by omega)]
      unfold markWrites
      rw [hgd]
      exact ⟨hv2, rfl, .inr (.inr ⟨_, rfl, rfl, ha, w12⟩)⟩
    | succ k =>
      rw [if_neg (by omega)]
      unfold markWrites
      rw [hgd]
      have hm := next_spec hr hv2.inv hv2.linked ha
      generalize dirNext v i false s2 dp = r at hm
      have hv3 := dirvol_same hv2 hm.quiet
      have w3 := w12.trans (.quiet hr hv2.linked hm.quiet)
      rw [List.append_nil] at w3
      rcases hm.cases with ⟨hok, hat⟩ | ⟨hno, htot, hz⟩ | ⟨her, hns⟩
      · rw [if_pos hok]
        have ih := mark_dev hr k kk hv3 hat (by omega) (by omega)
        rw [show entries v i (view r.st) loc = (entries v i (view s) loc).set j (e.set 0 0xE5) from by rw [w3.ents]; rfl, markWrites_set _ _ _ _ (by omega), show j + 1 + k = j + (k + 1) from by omega] at ih
        generalize markLoop v i (32 * (j + (k + 1))) kk r.st r.dp = R at ih
        refine ⟨ih.vol, ih.sclust.trans hm.sclust, ?_⟩
        rcases ih.cases with ⟨c1, c2, ws, c3⟩ | ⟨c1, c2, ws, c3⟩ | ⟨ws, c1, c2, c3, c4⟩
        · exact .inl ⟨c1, c2, _, w3.trans c3⟩
        · cases c1
        · cases c1
          exact .inr (.inr ⟨_, rfl, c2, c3, w3.trans c4⟩)
      · omega
      · rw [if_neg (by rw [her]; decide)]
        exact ⟨hv3, hm.sclust, .inl ⟨her, hns, _, w3⟩⟩

/-- `dir_remove` on the device. -/
theorem remove_dev {v : Vol} {i : Info} (hr : Ready v i) {a b : List (List Nat)} {loc : Loc} {s : St} {dp : Dp} (hv : DirVol v a b loc s) (hst : Starts v i dp.sclust loc) {p : Nat} (ha : At v i loc p dp)
    {blk : Option Nat} (hb : ∀ x, blk = some x → x ≤ p) :
    Stored v i a b loc (some (removeWrites (entries v i (view s) loc) p blk)) p s dp (dirRemove v i s dp (blk.map (32 * ·))) := by
  have hlt := at_lt hr ha
  have ht : total v i loc ≤ 65536 := by unfold total; omega
  have fin : ∀ {R : Ret} {x : Option (List (Nat × List Nat))} {s0 : St} {d : Dp}, Stored v i a b loc x p s0 d R → Stored v i a b loc x p s0 d (endRemove R) := by
    intro R x s0 d h
    unfold endRemove
    rw [if_neg]
    · exact h
    · rcases h.cases with ⟨c, _⟩ | ⟨_, c, _⟩ | ⟨_, _, c, _⟩ <;> rw [c] <;> decide
  unfold removeWrites dirRemove
  cases blk with
  | none =>
    simp only [Option.map_none, Option.getD_none, Nat.sub_self]
    have := mark_dev hr 0 ROUNDS hv ha (by omega) (by unfold ROUNDS; omega)
    rw [ha.dptr]
    exact fin this
  | some x =>
    have hx := hb x rfl
    simp only [Option.map_some, Option.getD_some]
    have hsd := sdi_spec hr hv.inv hv.linked hst (j := x) (by omega)
    generalize dirSdi v i s dp (32 * x) = d at hsd
    have hvd := dirvol_same hv hsd.quiet
    have w0 := Written.quiet hr hv.linked hsd.quiet
    rcases hsd.cases with ⟨hok, hat⟩ | ⟨her, hns⟩
    · rw [if_pos hok]
      have hm := mark_dev hr (p - x) ROUNDS hvd hat (by omega) (by unfold ROUNDS MAX_DIR; omega)
      rw [show x + (p - x) = p from by omega, entries_same hr hv.linked hsd.quiet.same] at hm
      rw [ha.dptr]
      have hm := fin hm
      generalize endRemove (markLoop v i (32 * p) ROUNDS d.st d.dp) = R at hm
      refine ⟨hm.vol, hm.sclust.trans hsd.sclust, ?_⟩
      rcases hm.cases with ⟨c1, c2, ws, c3⟩ | ⟨c1, c2, ws, c3⟩ | ⟨ws, c1, c2, c3, c4⟩
      · exact .inl ⟨c1, c2, _, w0.trans c3⟩
      · cases c1
      · cases c1
        exact .inr (.inr ⟨_, rfl, c2, c3, w0.trans c4⟩)
    · rw [if_neg (by rw [her]; decide)]
      exact ⟨hvd, hsd.sclust, .inl ⟨her, hns, _, w0⟩⟩

theorem find_blk (fn : List Nat) (fl : Nat) (buf : List Nat) : ∀ (t : List (List Nat)) (j : Nat) (q : Seq), (∀ x, q.blk = some x → x ≤ j) → ∀ k blk bf, findLoop fn fl buf t j q = .found k blk bf →
    j ≤ k ∧ ∀ x, blk = some x → x ≤ k := by
  intro t
  induction t with
  | nil => intro j q _ k blk bf h; cases h
  | cons e t ih =>
    intro j q hq k blk bf h
    have hnone : ∀ (o s : Nat), ∀ x, (⟨o, s, none⟩ : Seq).blk = some x → x ≤ j + 1 := fun _ _ x hx => by cases hx
    have up : ∀ {q : Seq}, (∀ x, q.blk = some x → x ≤ j + 1) → findLoop fn fl buf t (j + 1) q = .found k blk bf → j ≤ k ∧ ∀ x, blk = some x → x ≤ k := by
      intro q hq h
      have := ih _ _ hq _ _ _ h
      exact ⟨by omega, this.2⟩
    unfold findLoop at h
    split at h
    · cases h
    · split at h
      · exact up (hnone _ _) h
      · split at h
        · split at h
          · cases h
          · rename_i q' hl
            refine up (fun x hx => ?_) h
            have hss : ∀ x, (seqStart j e q).blk = some x → x ≤ j := by
              intro x hx
              unfold seqStart at hx
              split at hx
              · cases hx; omega
              · exact hq x hx
            unfold findLfn at hl
            split at hl
            · split at hl
              · split at hl
                · cases hl
                · cases hl
                  have := hss x hx
                  omega
              · cases hl
                have := hss x hx
                omega
            · cases hl
              have := hq x hx
              omega
        · split at h
          · cases h
            exact ⟨Nat.le_refl _, hq⟩
          · split at h
            · cases h
              exact ⟨Nat.le_refl _, hq⟩
            · exact up (hnone _ _) h

end Fpm.DirDev
