import Verif.DirDev.AllocLemmas
/-!
# Lemmas: writing entries
-/
namespace Fpm.DirDev
open Fpm.Fat Fpm.Fat.Spec Fpm.FatFile Fpm.FatFile.Spec Fpm.FatDir Fpm.FatDir.Spec Fpm.Mount Fpm.Mount.Spec Fpm.DirDev.Spec

/-- An entry: 32 bytes. -/
def Ent (e : List Nat) : Prop := e.length = 32 ∧ ∀ x ∈ e, x < 256

theorem dir_uniq {v : Vol} {i : Info} (hr : Ready v i) {a b : List (List Nat)} {loc : Loc} {s : St} (hv : DirVol v a b loc s) : Uniq (dirSecs v i loc) := by
  cases loc with
  | root =>
    intro x y n hx hy
    simp only [dirSecs, List.getElem?_map] at hx hy
    obtain ⟨p, hp, rfl⟩ := Option.map_eq_some_iff.mp hx
    obtain ⟨q, hq, e⟩ := Option.map_eq_some_iff.mp hy
    have h1 := (List.getElem?_eq_some_iff.mp hp)
    have h2 := (List.getElem?_eq_some_iff.mp hq)
    obtain ⟨_, h1⟩ := h1
    obtain ⟨_, h2⟩ := h2
    rw [List.getElem_range] at h1 h2
    omega
  | chain l =>
    have hnd : l.Nodup := by
      have := hv.chains.nodup
      simp only [allChains] at this
      rw [flatten_mid, List.nodup_append] at this
      exact (List.nodup_append.mp this.2.1).1
    exact secs_uniq (csize_pos hr) hnd fun c hc => (links_mem hv.linked c hc).1

theorem overwrite_part {w e : List Nat} {p q : Nat} (hp : p + 32 ≤ w.length) (he : e.length = 32) (h : q + 32 ≤ p ∨ p + 32 ≤ q) : ((overwrite w p e).drop q).take 32 = (w.drop q).take 32 := by
  refine List.ext_getElem? fun k => ?_
  rw [List.getElem?_take, List.getElem?_take]
  split
  · rw [List.getElem?_drop, List.getElem?_drop, overwrite_get (by omega), he]
    rcases h with h | h
    · rw [if_pos (by omega)]
    · rw [if_neg (by omega), if_neg (by omega)]
  · rfl

theorem overwrite_self {w e : List Nat} {p : Nat} (hp : p + 32 ≤ w.length) (he : e.length = 32) : ((overwrite w p e).drop p).take 32 = e := by
  unfold overwrite
  rw [List.append_assoc, List.drop_append_of_le_length (by rw [List.length_take]; omega), List.drop_eq_nil_of_le (by rw [List.length_take]; omega), List.nil_append, List.take_append_of_le_length (by omega),
    List.take_of_length_le (by omega)]

theorem overwrite_sec {v : Vol} {w e : List Nat} {p : Nat} (hw : Sec v w) (hp : p + 32 ≤ w.length) (he : Ent e) : Sec v (overwrite w p e) := by
  refine ⟨?_, fun x hx => ?_⟩
  · rw [overwrite_length (by omega), he.1]
    have := hw.1
    omega
  · unfold overwrite at hx
    rcases List.mem_append.mp hx with hx | hx
    · rcases List.mem_append.mp hx with hx | hx
      · exact hw.2 x (List.mem_of_mem_take hx)
      · exact he.2 x hx
    · exact hw.2 x (List.mem_of_mem_drop hx)

/-- What a series of writes to entries does, also on the device. -/
structure Written (v : Vol) (i : Info) (loc : Loc) (ws : List (Nat × List Nat)) (s s' : St) : Prop where
  ents : entries v i (view s') loc = writeAll (entries v i (view s) loc) ws
  rest : ∀ n, ¬ Fat2 v n → n ∉ dirSecs v i loc → view s' n = view s n
  trace : Sound v → ∀ d ∈ s'.disk :: s'.past, d ∈ s.disk :: s.past ∨
    ∃ k, k ≤ ws.length ∧ entries v i d loc = writeAll (entries v i (view s) loc) (ws.take k) ∧ ∀ n, ¬ Fat2 v n → n ∉ dirSecs v i loc → d n = view s n

theorem writeAll_append : ∀ (ws vs : List (Nat × List Nat)) (t : List (List Nat)), writeAll t (ws ++ vs) = writeAll (writeAll t ws) vs
  | [], _, _ => rfl
  | w :: ws, vs, t => writeAll_append ws vs (t.set w.1 w.2)

theorem Written.quiet {v : Vol} {i : Info} (hr : Ready v i) {f : Nat → Nat} {loc : Loc} (hl : Linked v f loc) {s s' : St} (h : Quiet v s s') : Written v i loc [] s s' := by
  refine ⟨entries_same hr hl h.same, fun n hn _ => h.same n hn, fun hs d hd => ?_⟩
  rcases (h.trace hs).1 d hd with h1 | h1
  · exact .inl h1
  · exact .inr ⟨0, by simp, entries_congr fun n hn => h1 n (secs_place hr hl hn).2.1, fun n hn _ => h1 n hn⟩

theorem Written.trans {v : Vol} {i : Info} {loc : Loc} {ws vs : List (Nat × List Nat)} {s t u : St} (h : Written v i loc ws s t) (h' : Written v i loc vs t u) : Written v i loc (ws ++ vs) s u := by
  refine ⟨by rw [h'.ents, h.ents, writeAll_append], fun n h1 h2 => (h'.rest n h1 h2).trans (h.rest n h1 h2), fun hs d hd => ?_⟩
  rcases h'.trace hs d hd with h1 | ⟨k, hk, e, h1⟩
  · rcases h.trace hs d h1 with h2 | ⟨k, hk, e, h2⟩
    · exact .inl h2
    · refine .inr ⟨k, by rw [List.length_append]; omega, ?_, h2⟩
      rw [List.take_append_of_le_length hk]
      exact e
  · refine .inr ⟨ws.length + k, by rw [List.length_append]; omega, ?_, fun n a b => (h1 n a b).trans (h.rest n a b)⟩
    rw [List.take_length_add_append, writeAll_append, e, h.ents]

theorem Written.apart {v : Vol} {i : Info} {a b : List (List Nat)} {loc : Loc} {ws : List (Nat × List Nat)} {s s' : St} (h : Written v i loc ws s s') (hv : DirVol v a b loc s) (hv' : DirVol v a b loc s') :
    Apart v i a b loc s s' := by
  refine ⟨hv'.others, fun n _ h2 h3 => h.rest n h2 fun hn => h3 ?_⟩
  cases loc with
  | root => exact hn
  | chain l =>
    obtain ⟨c, hc, hnc⟩ := secs_mem hn
    have hr := links_mem hv.linked c hc
    refine ⟨c, ⟨hr.1, hr.2, fun hab => ?_⟩, hnc⟩
    have hnd := hv.chains.nodup
    simp only [allChains] at hnd
    rw [flatten_mid, List.nodup_append] at hnd
    obtain ⟨-, hnd2, hd⟩ := hnd
    rw [List.nodup_append] at hnd2
    rw [List.flatten_append] at hab
    rcases List.mem_append.mp hab with h1 | h1
    · exact hd c h1 c (by simp [hc]) rfl
    · exact hnd2.2.2 c hc c h1 rfl

theorem ofs_le {v : Vol} {i : Info} (hr : Ready v i) (j : Nat) : 32 * j % v.ss + 32 ≤ v.ss := by
  obtain ⟨hs, hp⟩ := per_ss hr
  have e : 32 * j % v.ss = 32 * (j % per v) := by rw [hs, Nat.mul_mod_mul_left]
  have := Nat.mod_lt j hp
  omega

/-- Writing an entry. -/
theorem set_spec {v : Vol} {i : Info} (hr : Ready v i) {a b : List (List Nat)} {loc : Loc} {s : St} (hv : DirVol v a b loc s) {j : Nat} {dp : Dp} (ha : At v i loc j dp) (hw : s.winsect = some dp.sect)
    {e : List Nat} (he : Ent e) : DirVol v a b loc (setEnt v s dp e) ∧ Written v i loc [(j, e)] s (setEnt v s dp e) ∧ (setEnt v s dp e).winsect = some dp.sect := by
  have hpl := at_place hr hv.linked ha
  have hlen := hv.inv.win.1
  have hofs := ofs_le hr j
  have ewin : setEnt v s dp e = setWin s (overwrite s.win (32 * j % v.ss) e) := by
    unfold setEnt overwrite
    rw [he.1, ha.dptr]
  rw [ewin]
  have hv' : ∀ n, n ≠ dp.sect → view (setWin s (overwrite s.win (32 * j % v.ss) e)) n = view s n := by
    intro n hn
    unfold view setWin
    simp only
    rw [if_neg (by rw [hw]; simpa using fun h => hn h.symm), if_neg (by rw [hw]; simpa using fun h => hn h.symm)]
  have hview : view (setWin s (overwrite s.win (32 * j % v.ss) e)) dp.sect = overwrite (view s dp.sect) (32 * j % v.ss) e := by
    unfold view setWin
    simp only
    rw [if_pos hw, if_pos hw]
  have hvw : view s dp.sect = s.win := by
    unfold view
    rw [if_pos hw]
  have htab : tab v (setWin s (overwrite s.win (32 * j % v.ss) e)) = tab v s := tab_congr fun n hn => hv' n (fun h => hpl.1 (h ▸ hn))
  refine ⟨⟨⟨hv.inv.disk, overwrite_sec hv.inv.win (by omega) he, (fun h => by cases h), (fun _ => by rw [show (setWin s (overwrite s.win (32 * j % v.ss) e)).winsect = s.winsect from rfl, hw]; simp), hv.inv.fat2⟩, hv.kind, by rw [htab]; exact hv.chains, ?_⟩, ⟨?_, fun n h1 h2 => hv' n ?_, fun _ d hd => .inl hd⟩, hw⟩
  · unfold CountOk
    rw [htab]
    exact hv.count
  · show _ = (entries v i (view s) loc).set j e
    refine List.ext_getElem? fun k => ?_
    rw [List.getElem?_set]
    by_cases hk : k < 65536
    rotate_left
    · have := total v i loc
      have h1 := ha.small
      have ht : total v i loc ≤ 65536 := by unfold total; omega
      rw [if_neg (by omega), List.getElem?_eq_none (by rw [entries_length]; omega), List.getElem?_eq_none (by rw [entries_length]; omega)]
    rw [entries_get hr _ loc hk]
    by_cases hkj : j = k
    · subst hkj
      rw [if_pos rfl, if_pos (by rw [entries_length]; exact at_lt hr ha), ha.sect]
      simp only [Option.map_some]
      rw [hview, hvw, overwrite_self (by omega) he.1]
    · rw [if_neg hkj, entries_get hr _ loc hk]
      cases hn : (dirSecs v i loc)[32 * k / v.ss]? with
      | none => rfl
      | some n =>
        simp only [Option.map_some]
        by_cases hnd : n = dp.sect
        · subst hnd
          have heq := dir_uniq hr hv _ _ _ hn ha.sect
          congr 1
          rw [hview]
          obtain ⟨hs, hp⟩ := per_ss hr
          have e1 := Nat.div_add_mod (32 * k) v.ss
          have e2 := Nat.div_add_mod (32 * j) v.ss
          rw [heq] at e1
          exact overwrite_part (by rw [hvw]; omega) he.1 (by omega)
        · rw [hv' n hnd]
  · rintro rfl
    exact h2 (List.mem_of_getElem? ha.sect)

end Fpm.DirDev
