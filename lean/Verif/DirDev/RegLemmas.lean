import Verif.DirDev.SetLemmas
import Verif.FatDir.Props
/-!
# Lemmas: adding and removing objects
-/
namespace Fpm.DirDev
open Fpm.Fat Fpm.Fat.Spec Fpm.Lfn Fpm.Names Fpm.FatFile Fpm.FatFile.Spec Fpm.FatDir Fpm.FatDir.Spec Fpm.Mount Fpm.Mount.Spec Fpm.DirDev.Spec

theorem view_sec {v : Vol} {s : St} (hi : Inv v s) (n : Nat) : Sec v (view s n) := by
  unfold view
  split
  · exact hi.win
  · exact hi.disk n

/-- Entries are 32 bytes. -/
theorem entries_table {v : Vol} {i : Info} (hr : Ready v i) {d : Disk} (hd : ∀ n, Sec v (d n)) (loc : Loc) : FatDir.Spec.Table (entries v i d loc) := by
  intro e he
  obtain ⟨j, hj⟩ := List.mem_iff_getElem?.mp he
  have hlt : j < 65536 := by
    have := (List.getElem?_eq_some_iff.mp hj).1
    rw [entries_length] at this
    unfold total at this
    omega
  rw [entries_get hr d loc hlt] at hj
  obtain ⟨n, -, rfl⟩ := Option.map_eq_some_iff.mp hj
  refine ⟨?_, fun b hb => (hd n).2 b (List.mem_of_mem_drop (List.mem_of_mem_take hb))⟩
  rw [List.length_take, List.length_drop, (hd n).1]
  have := ofs_le hr j
  omega

theorem ent_entry {v : Vol} {i : Info} (hr : Ready v i) {s : St} (hi : Inv v s) {loc : Loc} {j : Nat} {dp : Dp} (h : At v i loc j dp) (hw : s.winsect = some dp.sect) :
    ∃ e, dirEnt v s dp = some e ∧ (entries v i (view s) loc)[j]? = some e ∧ Ent e := by
  obtain ⟨e, h1, h2, -⟩ := ent_spec hr hi h hw
  exact ⟨e, h1, h2, entries_table hr (view_sec hi) loc e (List.mem_of_getElem? h2)⟩

theorem setWord_length (e : List Nat) (o w : Nat) : (setWord e o w).length = e.length := by
  unfold setWord
  simp

theorem putLoop_length (lfn : List Nat) : ∀ (os e : List Nat) (i wc : Nat) (r : List Nat × Nat × Nat), putLoop lfn os e i wc = some r → r.1.length = e.length
  | [], e, i, wc, r, h => by cases h; rfl
  | o :: os, e, i, wc, r, h => by
    unfold putLoop at h
    split at h
    · split at h
      · cases h
      · rw [putLoop_length lfn os _ _ _ r h, setWord_length]
    · rw [putLoop_length lfn os _ _ _ r h, setWord_length]

theorem putLfn_ent {lfn e : List Nat} {ord sum : Nat} {e' : List Nat} (h : Ent e) (hs : sum < 256) (ho : ord < 256) (he : putLfn lfn e ord sum = some e') : Ent e' := by
  refine ⟨?_, bytes_putLfn h.2 hs ho he⟩
  unfold putLfn at he
  split at he
  · cases he
  · rename_i e1 i wc hl
    have := putLoop_length lfn _ _ _ _ _ hl
    simp only [setWord_length, List.length_set] at this
    unfold putOrd at he
    split at he
    · cases he
      rw [List.length_set, this]
      exact h.1
    · split at he
      · cases he
      · cases he
        rw [List.length_set, this]
        exact h.1

theorem lfnWrites_set {buf : List Nat} {sum : Nat} (t : List (List Nat)) (e : List Nat) {j : Nat} : ∀ (k j' : Nat), j < j' → lfnWrites (t.set j e) buf sum k j' = lfnWrites t buf sum k j'
  | 0, _, _ => rfl
  | k + 1, j', h => by
    unfold lfnWrites
    rw [List.getElem?_set_ne (by omega), lfnWrites_set t e k (j' + 1) (by omega)]

/-- Outcome of a loop that writes entries: the writes, or an access outside of a buffer. -/
structure Stored (v : Vol) (i : Info) (a b : List (List Nat)) (loc : Loc) (x : Option (List (Nat × List Nat))) (p : Nat) (s : St) (dp : Dp) (r : Ret) : Prop where
  vol : DirVol v a b loc r.st
  sclust : r.dp.sclust = dp.sclust
  cases : r.res = FR_DISK_ERR ∧ ¬ Sound v ∧ (∃ ws, Written v i loc ws s r.st) ∨ x = none ∧ r.res = UB ∧ (∃ ws, Written v i loc ws s r.st) ∨
    ∃ ws, x = some ws ∧ r.res = FR_OK ∧ At v i loc p r.dp ∧ Written v i loc ws s r.st

/-- Long name entries on the device. -/
theorem lfn_dev {v : Vol} {i : Info} (hr : Ready v i) {a b : List (List Nat)} {loc : Loc} (buf : List Nat) {sum : Nat} (hs : sum < 256) : ∀ (k : Nat) {s : St} {dp : Dp} {j : Nat}, DirVol v a b loc s →
    At v i loc j dp → j + k < total v i loc → k < 256 → Stored v i a b loc (lfnWrites (entries v i (view s) loc) buf sum k j) (j + k) s dp (lfnLoop v i buf sum k s dp)
  | 0, s, dp, j, hv, ha, _, _ => ⟨hv, rfl, .inr (.inr ⟨[], rfl, rfl, ha, .quiet hr hv.linked (.refl hv.inv)⟩)⟩
  | k + 1, s, dp, j, hv, ha, hlt, hk => by
    have hpl := at_place hr hv.linked ha
    obtain ⟨q1, h1⟩ := move_quiet hr.geo hv.inv hpl.2.1
    unfold lfnLoop
    have hv1 := dirvol_same hv q1
    have w1 := Written.quiet hr hv.linked q1
    rcases h1 with ⟨h1, hw⟩ | ⟨h1, hns⟩
    rotate_left
    · rw [if_neg (by rw [h1]; decide)]
      exact ⟨hv1, rfl, .inl ⟨h1, hns, _, w1⟩⟩
    rw [if_pos h1]
    generalize (moveWindow v s dp.sect).1 = s1 at q1 hw hv1 w1
    obtain ⟨e, he, hg, hent⟩ := ent_entry hr q1.inv ha hw
    have he1 := entries_same hr hv.linked q1.same
    rw [he1] at hg
    rw [he]
    simp only [Option.bind_some]
    unfold lfnWrites
    rw [hg]
    simp only
    cases hp : putLfn buf e (k + 1) sum with
    | none => exact ⟨hv1, rfl, .inr (.inl ⟨rfl, rfl, _, w1⟩)⟩
    | some e' =>
      simp only
      obtain ⟨hv2, w2, hw2⟩ := set_spec hr hv1 ha hw (putLfn_ent hent hs (by omega) hp)
      generalize setEnt v s1 dp e' = s2 at hv2 w2 hw2
      have hm := next_spec hr hv2.inv hv2.linked ha
      generalize dirNext v i false s2 dp = r at hm
      have hv3 := dirvol_same hv2 hm.quiet
      have w12 := w1.trans w2
      have w3 := w12.trans (.quiet hr hv2.linked hm.quiet)
      rw [List.nil_append, List.append_nil] at w3
      rw [List.nil_append] at w12
      rcases hm.cases with ⟨hok, hat⟩ | ⟨hno, htot, hz⟩ | ⟨her, hns⟩
      · rw [if_pos hok]
        have ih := lfn_dev hr buf hs k hv3 hat (by omega) (by omega)
        rw [show entries v i (view r.st) loc = (entries v i (view s) loc).set j e' from by rw [w3.ents]; rfl, lfnWrites_set _ _ _ _ (by omega), show j + 1 + k = j + (k + 1) from by omega] at ih
        generalize lfnLoop v i buf sum k r.st r.dp = R at ih
        refine ⟨ih.vol, ih.sclust.trans hm.sclust, ?_⟩
        rcases ih.cases with ⟨c1, c2, ws, c3⟩ | ⟨c1, c2, ws, c3⟩ | ⟨ws, c1, c2, c3, c4⟩
        · exact .inl ⟨c1, c2, _, w3.trans c3⟩
        · rw [c1]
          exact .inr (.inl ⟨rfl, c2, _, w3.trans c3⟩)
        · rw [c1]
          exact .inr (.inr ⟨_, rfl, c2, c3, w3.trans c4⟩)
      · omega
      · rw [if_neg (by rw [her]; decide)]
        exact ⟨hv3, hm.sclust, .inl ⟨her, hns, _, w3⟩⟩

theorem sfn_ent {fn : List Nat} (h : fn.length = 11 ∧ ∀ x ∈ fn, x < 256) (fl : Nat) : Ent (sfnEntry fn fl) := by
  refine ⟨by simp [sfnEntry, h.1], fun x hx => ?_⟩
  unfold sfnEntry at hx
  simp only [List.mem_append, List.mem_cons, List.not_mem_nil, or_false, List.mem_replicate] at hx
  rcases hx with (hx | rfl | rfl) | ⟨-, rfl⟩
  · exact h.2 x hx
  · omega
  · have : fl &&& 0x18 ≤ 0x18 := Nat.and_le_right
    omega
  · omega

/-- The short entry on the device. -/
theorem sfn_dev {v : Vol} {i : Info} (hr : Ready v i) {a b : List (List Nat)} {loc : Loc} {s : St} {dp : Dp} {p : Nat} (hv : DirVol v a b loc s) (ha : At v i loc p dp) {fn : List Nat}
    (hfn : fn.length = 11 ∧ ∀ x ∈ fn, x < 256) (fl : Nat) : Stored v i a b loc (some [(p, sfnEntry fn fl)]) p s dp (putSfn v s dp fn fl) ∧
      ((putSfn v s dp fn fl).res = FR_OK → (putSfn v s dp fn fl).st.winsect = some dp.sect) ∧
      (Sound v → ∀ d ∈ (putSfn v s dp fn fl).st.disk :: (putSfn v s dp fn fl).st.past, d ∈ s.disk :: s.past ∨ ∀ n, ¬ Fat2 v n → d n = view s n) := by
  have hpl := at_place hr hv.linked ha
  obtain ⟨q1, h1⟩ := move_quiet hr.geo hv.inv hpl.2.1
  unfold putSfn
  have hv1 := dirvol_same hv q1
  have w1 := Written.quiet hr hv.linked q1
  rcases h1 with ⟨h1, hw⟩ | ⟨h1, hns⟩
  rotate_left
  · rw [if_neg (by rw [h1]; decide)]
    exact ⟨⟨hv1, rfl, .inl ⟨h1, hns, _, w1⟩⟩, (fun h => by rw [show (Ret.mk _ _ (moveWindow v s dp.sect).2).res = (moveWindow v s dp.sect).2 from rfl, h1] at h; cases h), fun hs => absurd hs hns⟩
  rw [if_pos h1]
  generalize (moveWindow v s dp.sect).1 = s1 at q1 hw hv1 w1
  obtain ⟨e, he, hg, hent⟩ := ent_entry hr q1.inv ha hw
  rw [he]
  simp only
  obtain ⟨hv2, w2, hw2⟩ := set_spec hr hv1 ha hw (sfn_ent hfn fl)
  exact ⟨⟨hv2, rfl, .inr (.inr ⟨_, rfl, rfl, ha, w1.trans w2⟩)⟩, fun _ => hw2, fun hs => (q1.trace hs).1⟩

/-- The last of a series of writes to entries is not on the device yet. -/
def Before (v : Vol) (i : Info) (loc : Loc) (ws : List (Nat × List Nat)) (s s' : St) : Prop :=
  Sound v → ∀ d ∈ s'.disk :: s'.past, d ∈ s.disk :: s.past ∨
    ∃ k, k < ws.length ∧ entries v i d loc = writeAll (entries v i (view s) loc) (ws.take k) ∧ ∀ n, ¬ Fat2 v n → n ∉ dirSecs v i loc → d n = view s n

theorem before_of {v : Vol} {i : Info} (hr : Ready v i) {f : Nat → Nat} {loc : Loc} (hl : Linked v f loc) {ws : List (Nat × List Nat)} {w : Nat × List Nat} {s t u : St} (h : Written v i loc ws s t)
    (h' : Sound v → ∀ d ∈ u.disk :: u.past, d ∈ t.disk :: t.past ∨ ∀ n, ¬ Fat2 v n → d n = view t n) : Before v i loc (ws ++ [w]) s u := by
  intro hs d hd
  have hlen : (ws ++ [w]).length = ws.length + 1 := by simp
  rcases h' hs d hd with h1 | h1
  · rcases h.trace hs d h1 with h2 | ⟨k, hk, e, h2⟩
    · exact .inl h2
    · exact .inr ⟨k, by omega, by rw [List.take_append_of_le_length hk]; exact e, h2⟩
  · refine .inr ⟨ws.length, by omega, ?_, fun n a b => (h1 n a).trans (h.rest n a b)⟩
    rw [List.take_append_of_le_length (Nat.le_refl _), List.take_length, ← h.ents]
    exact entries_congr fun n hn => h1 n (secs_place hr hl hn).2.1

/-- Outcome of `dir_register`, compared with that on the list of entries. -/
def Registered (v : Vol) (i : Info) (a b : List (List Nat)) (loc : Loc) (s : St) (r : Ret) : Reg → Prop
  | .ub => r.res = UB
  | .invalid => r.res = FR_INVALID_NAME ∧ r.st = s
  | .denied t => r.res = FR_DENIED ∧ ∃ loc', Longer loc loc' ∧ DirVol v a b loc' r.st ∧ entries v i (view r.st) loc' = t
  | .done t ws p => r.res = FR_OK ∧ ∃ loc' s1, Longer loc loc' ∧ DirVol v a b loc' r.st ∧ DirVol v a b loc' s1 ∧ entries v i (view s1) loc' = t ∧ Written v i loc' ws s1 r.st ∧ At v i loc' p r.dp ∧
      r.st.winsect = some r.dp.sect ∧ (t.length = (entries v i (view s) loc).length → loc' = loc ∧ Quiet v s s1 ∧ Before v i loc' ws s1 r.st)

theorem entries_pos {fl len : Nat} : 0 < numEntries fl len := by
  unfold numEntries
  split <;> omega

/-- Storing entries on the device. -/
theorem store_dev {v : Vol} {i : Info} (hr : Ready v i) {a b : List (List Nat)} {loc : Loc} {s : St} {dp : Dp} (hv : DirVol v a b loc s) (hst : Starts v i dp.sclust loc) {fn : List Nat}
    (hfn : fn.length = 11 ∧ ∀ x ∈ fn, x < 256) (fl : Nat) (buf : List Nat) {len : Nat} (hlen : len < 256) :
    Apart v i a b loc s (store v i s dp fn fl buf len).st ∧ (store v i s dp fn fl buf len).dp.sclust = dp.sclust ∧
      ((store v i s dp fn fl buf len).res = FR_DISK_ERR ∧ ¬ Sound v ∨
        Registered v i a b loc s (store v i s dp fn fl buf len) (FatDir.store (growth v a b loc) (entries v i (view s) loc) fn fl buf len)) := by
  obtain ⟨h1, h2, h3⟩ := alloc_dev hr hv hst (n := numEntries fl len) entries_pos
  obtain ⟨m, x, ha1, -, -, ha2⟩ := FatDir.alloc_spec (growth v a b loc) (entries_pos (fl := fl) (len := len)) (entries v i (view s) loc)
  unfold store FatDir.store
  rw [ha1] at h3 ⊢
  generalize dirAlloc v i s dp (numEntries fl len) = r at h1 h2 h3
  unfold allocated
  rcases h3 with ⟨her, hns⟩ | ⟨loc', hlo, hv', hes, hc⟩
  · rw [if_neg (by rw [her]; decide)]
    exact ⟨h1, h2, .inl ⟨her, hns⟩⟩
  simp only at hes hc
  rcases hc with ⟨hx, hde⟩ | ⟨p, hx, hok, hat, hw, hq⟩
  · rw [if_neg (by rw [hde]; decide), hx]
    exact ⟨h1, h2, .inr ⟨hde, loc', hlo, hv', hes⟩⟩
  rw [if_pos hok, hx]
  simp only
  obtain ⟨u, f, y, hu, hf, hp, -, -⟩ := ha2 p hx
  have hst' := starts_longer hlo hv.linked hst
  rw [← h2] at hst'
  have hplt := at_lt hr hat
  by_cases hn0 : numEntries fl len - 1 = 0
  · rw [if_pos hn0, hn0]
    obtain ⟨hs, hs2, hs5⟩ := sfn_dev hr hv' hat hfn fl
    generalize putSfn v r.st r.dp fn fl = R at hs hs2 hs5
    have hap : Apart v i a b loc s R.st := by
      rcases hs.cases with ⟨_, _, ws, c⟩ | ⟨_, _, ws, c⟩ | ⟨ws, _, _, _, c⟩ <;> exact h1.trans hlo (c.apart hv' hs.vol)
    refine ⟨hap, hs.sclust.trans h2, ?_⟩
    rcases hs.cases with ⟨c1, c2, -⟩ | ⟨c1, -⟩ | ⟨ws, c1, c2, c3, c4⟩
    · exact .inl ⟨c1, c2⟩
    · cases c1
    · cases c1
      refine .inr ⟨c2, loc', r.st, hlo, hs.vol, hv', hes, c4, c3, ?_, fun h => ⟨(hq h).1, (hq h).2, before_of hr hv'.linked (ws := []) (.quiet hr hv'.linked (.refl hv'.inv)) hs5⟩⟩
      obtain ⟨hs3, hs4⟩ := c3, hs2 c2
      rw [hs4]
      congr 1
      have e1 := c3.sect
      rw [hat.sect] at e1
      exact Option.some.inj e1
  · rw [if_neg hn0]
    have eofs : r.dp.dptr - (numEntries fl len - 1) * 32 = 32 * (p - (numEntries fl len - 1)) := by
      rw [hat.dptr]
      omega
    have hsd := sdi_spec hr hv'.inv hv'.linked hst' (j := p - (numEntries fl len - 1)) (by omega)
    rw [eofs]
    generalize dirSdi v i r.st r.dp (32 * (p - (numEntries fl len - 1))) = d at hsd
    unfold storeNames
    have hvd := dirvol_same hv' hsd.quiet
    have hap1 : Apart v i a b loc s d.st := h1.trans hlo (apart_quiet hv' hsd.quiet)
    rcases hsd.cases with ⟨hdok, hdat⟩ | ⟨her, hns⟩
    rotate_left
    · rw [if_neg (by rw [her]; decide)]
      exact ⟨hap1, hsd.sclust.trans h2, .inl ⟨her, hns⟩⟩
    rw [if_pos hdok]
    have hne : numEntries fl len ≤ 256 := by
      unfold numEntries
      split <;> omega
    have hl := lfn_dev hr buf (sum_lt fn) (numEntries fl len - 1) hvd hdat (by omega) (by omega)
    have ed : entries v i (view d.st) loc' = entries v i (view s) loc ++ List.replicate m blank := by
      rw [entries_same hr hv'.linked hsd.quiet.same, hes]
    rw [ed, show p - (numEntries fl len - 1) + (numEntries fl len - 1) = p from by omega] at hl
    generalize lfnLoop v i buf (sumSfn fn) (numEntries fl len - 1) d.st d.dp = L at hl
    rcases hl.cases with ⟨c1, c2, ws, c3⟩ | ⟨c1, c2, ws, c3⟩ | ⟨ws, c1, c2, c3, c4⟩
    · rw [if_neg (by rw [c1]; decide)]
      exact ⟨hap1.trans hlo (c3.apart hvd hl.vol), hl.sclust.trans (hsd.sclust.trans h2), .inl ⟨c1, c2⟩⟩
    · rw [if_neg (by rw [c2]; decide), c1]
      exact ⟨hap1.trans hlo (c3.apart hvd hl.vol), hl.sclust.trans (hsd.sclust.trans h2), .inr c2⟩
    · rw [if_pos c2, c1]
      simp only
      have hap2 := hap1.trans hlo (c4.apart hvd hl.vol)
      obtain ⟨hs, hs2, hs5⟩ := sfn_dev hr hl.vol c3 hfn fl
      generalize putSfn v L.st L.dp fn fl = R at hs hs2 hs5
      have hap : Apart v i a b loc s R.st := by
        rcases hs.cases with ⟨_, _, ws, c⟩ | ⟨_, _, ws, c⟩ | ⟨ws, _, _, _, c⟩ <;> exact hap2.trans hlo (c.apart hl.vol hs.vol)
      refine ⟨hap, hs.sclust.trans (hl.sclust.trans (hsd.sclust.trans h2)), ?_⟩
      rcases hs.cases with ⟨d1, d2, -⟩ | ⟨d1, -⟩ | ⟨vs, d1, d2, d3, d4⟩
      · exact .inl ⟨d1, d2⟩
      · cases d1
      · cases d1
        refine .inr ⟨d2, loc', d.st, hlo, hs.vol, hvd, ed, c4.trans d4, d3, ?_, fun h => ⟨(hq h).1, (hq h).2.trans hsd.quiet, before_of hr hvd.linked c4 hs5⟩⟩
        rw [hs2 d2]
        congr 1
        have e1 := d3.sect
        rw [c3.sect] at e1
        exact Option.some.inj e1

end Fpm.DirDev
