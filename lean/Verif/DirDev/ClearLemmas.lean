import Verif.DirDev.FindLemmas
import Verif.FatFile.GrowLemmas
/-!
# Lemmas: a directory gets another cluster
-/
namespace Fpm.DirDev
open Fpm.Fat Fpm.Fat.Spec Fpm.FatFile Fpm.FatFile.Spec Fpm.FatDir Fpm.FatDir.Spec Fpm.Mount Fpm.Mount.Spec Fpm.DirDev.Spec

theorem clear_loop {v : Vol} (hg : Geo v) {z : List Nat} (hz : Sec v z) : ∀ (k : Nat) {s : St} {sect : Nat}, (∀ n, Sec v (s.disk n)) →
    ∃ s' r, clearLoop v z k s sect = (s', r) ∧ (∀ n, Sec v (s'.disk n)) ∧ s'.win = s.win ∧ s'.winsect = s.winsect ∧ s'.wflag = s.wflag ∧ Rest s s' ∧
      (∀ n, n < sect ∨ sect + k ≤ n → s'.disk n = s.disk n) ∧ (r = FR_OK ∧ (∀ n, sect ≤ n → n < sect + k → s'.disk n = z) ∨ r = FR_DISK_ERR ∧ ¬ Sound v)
  | 0, s, sect, h => ⟨s, FR_OK, rfl, h, rfl, rfl, rfl, .refl s, fun _ _ => rfl, .inl ⟨rfl, fun n h1 h2 => by omega⟩⟩
  | k + 1, s, sect, h => by
    obtain ⟨b', p, ok, e, hb, h1, h2, -⟩ := write_disk v hg s sect z hz
    unfold clearLoop
    rw [e]
    simp only
    cases ok with
    | false =>
      rw [if_neg (by decide)]
      refine ⟨_, _, rfl, sec_upd h hb _, rfl, rfl, rfl, ⟨rfl, rfl, rfl⟩, fun n hn => ?_, .inr ⟨rfl, h2 rfl⟩⟩
      exact upd_ne _ _ (by omega)
    | true =>
      rw [if_pos rfl]
      obtain ⟨s', r, e', a1, a2, a3, a4, a5, a6, a7⟩ := clear_loop hg hz k (s := { s with disk := upd s.disk sect b', past := p, cnt := s.cnt + 1 }) (sect := sect + 1) (sec_upd h hb _)
      refine ⟨s', r, e', a1, a2, a3, a4, ⟨a5.1, a5.2.1, a5.2.2⟩, fun n hn => ?_, ?_⟩
      · rw [a6 n (by omega)]
        exact upd_ne _ _ (by omega)
      · rcases a7 with ⟨a7, a8⟩ | a7
        · refine .inl ⟨a7, fun n hn1 hn2 => ?_⟩
          by_cases hns : n = sect
          · subst hns
            rw [a6 n (by omega)]
            show upd s.disk n b' n = z
            rw [upd_same]
            exact h1 rfl
          · exact a8 n (by omega) (by omega)
        · exact .inr a7

theorem zeros_sec (v : Vol) : Sec v (List.replicate v.ss 0) :=
  ⟨List.length_replicate, fun x hx => by rw [(List.mem_replicate.mp hx).2]; omega⟩

theorem cluster_place {v : Vol} {i : Info} (hr : Ready v i) {c n : Nat} (h : n ∈ sectors v c) : ¬ Fat1 v n ∧ ¬ Fat2 v n := by
  have h1 := (mem_sectors.mp h).1
  have h2 := hr.data.base
  refine ⟨fun h3 => ?_, fun h3 => ?_⟩
  · have := h3.2
    rcases hr.geo.nFats with h | h <;> rw [h] at h2 <;> omega
  · have := h3.2.2
    rw [h3.1] at h2
    omega

/-- What `dir_clear` does. -/
theorem clear_spec {v : Vol} {i : Info} (hr : Ready v i) {s : St} (hi : Inv v s) {c : Nat} (h2 : 2 ≤ c) (hn : c < v.nFatent) :
    ∃ s' r, dirClear v s c = (s', r) ∧ Rest s s' ∧ (∀ n, ¬ Fat2 v n → n ∉ sectors v c → view s' n = view s n) ∧
      (r = FR_OK ∧ Inv v s' ∧ (∀ n ∈ sectors v c, view s' n = List.replicate v.ss 0) ∨ r = FR_DISK_ERR ∧ ¬ Sound v) := by
  obtain ⟨a1, a2, a3, a4, a5, -⟩ := sync_spec hr.geo hi
  unfold dirClear
  generalize syncWindow v s = p at a1 a2 a3 a4 a5
  obtain ⟨s1, r1⟩ := p
  simp only at a1 a2 a3 a4 a5 ⊢
  rcases a5 with ⟨rfl, hf⟩ | ⟨rfl, hns⟩
  rotate_left
  · rw [if_neg (by decide)]
    exact ⟨_, _, rfl, a3, fun n h _ => a2 n h, .inr ⟨rfl, hns⟩⟩
  rw [if_pos rfl, clst_sect h2 hn]
  have hv1 : ∀ n, view s1 n = s1.disk n := by
    intro n
    unfold view
    split
    · rename_i h
      exact a1.clean hf n h
    · rfl
  obtain ⟨s', r, e, b1, b2, b3, b4, b5, b6, b7⟩ := clear_loop hr.geo (zeros_sec v) v.csize (s := { s1 with winsect := some (v.database + v.csize * (c - 2)), win := List.replicate v.ss 0 })
    (sect := v.database + v.csize * (c - 2)) a1.disk
  have hbase : v.database + v.csize * (c - 2) ∈ sectors v c := mem_sectors.mpr ⟨Nat.le_refl _, by have := csize_pos hr; omega⟩
  refine ⟨s', r, e, a3.trans ⟨b5.1, b5.2.1, b5.2.2⟩, fun n hn2 hnc => ?_, ?_⟩
  · rw [← a2 n hn2, hv1]
    unfold view
    rw [b3]
    rw [if_neg (by
      simp only [Option.some.injEq]
      rintro rfl
      exact hnc hbase)]
    refine b6 n ?_
    rw [mem_sectors] at hnc
    omega
  · rcases b7 with ⟨b7, b8⟩ | b7
    · refine .inl ⟨b7, ⟨b1, by rw [b2]; exact zeros_sec v, fun _ n hn => ?_, fun h => ?_, fun n hn => ?_⟩, fun n hn => ?_⟩
      · rw [b3] at hn
        simp only [Option.some.injEq] at hn
        subst hn
        rw [b2, b8 _ (Nat.le_refl _) (by have := csize_pos hr; omega)]
      · rw [b4] at h
        simp only at h
        rw [hf] at h
        cases h
      · rw [b3] at hn
        simp only [Option.some.injEq] at hn
        subst hn
        exact (cluster_place hr hbase).2
      · unfold view
        split
        · exact b2
        · rw [mem_sectors] at hn
          exact b8 n hn.1 hn.2
    · exact .inr b7

/-! ## Chains -/

theorem chains_le {n : Nat} {f : Nat → Nat} {cs : List (List Nat)} (h : Chains n f cs) : cs.flatten.length ≤ n - 2 := by
  have := sub_length (k := (List.range (n - 2)).map (· + 2)) h.nodup fun x hx => by
    have hu := chains_used h hx
    rw [List.mem_map]
    exact ⟨x - 2, List.mem_range.mpr (by omega), by omega⟩
  rwa [List.length_map, List.length_range] at this

theorem chains_full {n : Nat} {f : Nat → Nat} {cs : List (List Nat)} (h : Chains n f cs) (hf : ∀ c, 2 ≤ c → c < n → f c ≠ 0) : cs.flatten.length = n - 2 := by
  have h1 := chains_le h
  have := sub_length (l := (List.range (n - 2)).map (· + 2)) (k := cs.flatten) (range2_nodup _) fun x hx => by
    obtain ⟨y, hy, rfl⟩ := List.mem_map.mp hx
    have := List.mem_range.mp hy
    exact h.used _ (by omega) (by omega) (hf _ (by omega) (by omega))
  rw [List.length_map, List.length_range] at this
  omega

theorem all_length (a b : List (List Nat)) (l : List Nat) : (allChains a b (.chain l)).flatten.length = l.length + (a ++ b).flatten.length := by
  unfold allChains
  rw [flatten_mid, List.flatten_append]
  simp only [List.length_append]
  omega

theorem Spec.DirVol.linked {v : Vol} {a b : List (List Nat)} {loc : Loc} {s : St} (h : DirVol v a b loc s) : Linked v (tab v s) loc := by
  cases loc with
  | root => exact h.kind rfl
  | chain l => exact h.chains.chain l (by simp [allChains])

theorem Spec.DirVol.others {v : Vol} {a b : List (List Nat)} {loc : Loc} {s : St} (h : DirVol v a b loc s) : ∀ l ∈ a ++ b, Links v.nFatent (tab v s) l := by
  intro l hl
  refine h.chains.chain l ?_
  cases loc with
  | root => exact hl
  | chain m =>
    simp only [allChains, List.mem_append, List.mem_cons] at hl ⊢
    rcases hl with h | h
    · exact .inl h
    · exact .inr (.inr h)

theorem dirvol_same {v : Vol} {a b : List (List Nat)} {loc : Loc} {s s' : St} (h : DirVol v a b loc s) (hq : Quiet v s s') : DirVol v a b loc s' :=
  ⟨hq.inv, h.kind, by rw [tab_same hq.same]; exact h.chains, count_same hq.same hq.rest h.count⟩

theorem apart_quiet {v : Vol} {i : Info} {a b : List (List Nat)} {loc : Loc} {s s' : St} (h : DirVol v a b loc s) (hq : Quiet v s s') : Apart v i a b loc s s' :=
  ⟨(dirvol_same h hq).others, fun n _ h2 _ => hq.same n h2⟩

theorem Spec.Apart.trans {v : Vol} {i : Info} {a b : List (List Nat)} {loc loc' : Loc} (hl : Longer loc loc') {s t u : St} (h : Apart v i a b loc s t) (h' : Apart v i a b loc' t u) : Apart v i a b loc s u := by
  refine ⟨h'.1, fun n h1 h2 h3 => (h'.2 n h1 h2 ?_).trans (h.2 n h1 h2 h3)⟩
  cases loc with
  | root => rw [show loc' = .root from hl]; exact h3
  | chain l =>
    obtain ⟨m, rfl⟩ := hl
    exact h3

theorem Spec.Longer.refl (loc : Loc) : Longer loc loc := by
  cases loc with
  | root => rfl
  | chain l => exact ⟨[], by rw [List.append_nil]⟩

theorem Spec.Longer.trans {x y z : Loc} (h : Longer x y) (h' : Longer y z) : Longer x z := by
  cases x with
  | root => rw [show y = .root from h] at h'; exact h'
  | chain l =>
    obtain ⟨m, rfl⟩ := h
    obtain ⟨k, rfl⟩ := h'
    exact ⟨m ++ k, by rw [List.append_assoc]⟩

theorem growth_longer {v : Vol} {a b : List (List Nat)} {x y : Loc} (h : Longer x y) : growth v a b y = growth v a b x := by
  cases x with
  | root => rw [show y = .root from h]
  | chain l =>
    obtain ⟨m, rfl⟩ := h
    rfl

theorem starts_longer {v : Vol} {i : Info} {f : Nat → Nat} {c : Nat} {x y : Loc} (h : Longer x y) (hx : Linked v f x) (hs : Starts v i c x) : Starts v i c y := by
  cases x with
  | root => rw [show y = .root from h]; exact hs
  | chain l =>
    obtain ⟨m, rfl⟩ := h
    refine ⟨?_, hs.2⟩
    rw [← hs.1]
    cases l with
    | nil => exact (links_ne hx rfl).elim
    | cons x l => rfl

theorem growth_chain (v : Vol) (a b : List (List Nat)) (l : List Nat) (len : Nat) : growth v a b (.chain l) len =
    if len < 65536 ∧ len / (v.csize * per v) + (a ++ b).flatten.length < v.nFatent - 2 then min (v.csize * per v) (65536 - len) else 0 := rfl

/-! ## Entries of the new cluster -/

theorem pieces_zeros {v : Vol} {i : Info} (hr : Ready v i) : pieces v (List.replicate v.ss 0) = List.replicate (per v) blank := by
  refine List.ext_getElem? fun k => ?_
  by_cases hk : k < per v
  · rw [pieces_get hk, List.getElem?_replicate_of_lt hk]
    congr 1
    obtain ⟨hs, hp⟩ := per_ss hr
    rw [List.drop_replicate, List.take_replicate]
    unfold blank
    congr 1
    omega
  · rw [List.getElem?_eq_none (by rw [pieces_length]; omega), List.getElem?_eq_none (by rw [List.length_replicate]; omega)]

theorem flat_zeros {v : Vol} {i : Info} (hr : Ready v i) {d : Disk} : ∀ (L : List Nat), (∀ n ∈ L, d n = List.replicate v.ss 0) → (L.flatMap fun n => pieces v (d n)) = List.replicate (L.length * per v) blank
  | [], _ => by simp
  | n :: L, h => by
    rw [List.flatMap_cons, h n (by simp), pieces_zeros hr, flat_zeros hr L fun m hm => h m (List.mem_cons_of_mem _ hm), List.length_cons, Nat.add_mul, Nat.one_mul, Nat.add_comm, ← List.replicate_append_replicate]

/-- The entries of a longer directory. -/
theorem entries_longer {v : Vol} {i : Info} (hr : Ready v i) {d d' : Disk} {l : List Nat} {c : Nat} (h1 : ∀ n ∈ secs v l, d' n = d n) (h2 : ∀ n ∈ sectors v c, d' n = List.replicate v.ss 0)
    (hlt : total v i (.chain l) < 65536) : entries v i d' (.chain (l ++ [c])) = entries v i d (.chain l) ++ List.replicate (min (v.csize * per v) (65536 - total v i (.chain l))) blank := by
  have hlen : total v i (.chain l) = (secs v l).length * per v := by
    unfold total at hlt ⊢
    simp only [dirSecs] at hlt ⊢
    omega
  have e0 : ((secs v l).flatMap fun n => pieces v (d' n)) = (secs v l).flatMap fun n => pieces v (d n) := by
    generalize secs v l = L at h1
    induction L with
    | nil => rfl
    | cons n L ih => rw [List.flatMap_cons, List.flatMap_cons, h1 n (by simp), ih fun m hm => h1 m (List.mem_cons_of_mem _ hm)]
  have e1 : secs v [c] = sectors v c := by simp [secs]
  unfold entries
  simp only [dirSecs]
  rw [secs_append, List.flatMap_append, e0, e1, flat_zeros hr _ h2, List.take_append, flatLength _ fun n _ => pieces_length v (d n), ← hlen, sectors_length, List.take_replicate, Nat.min_comm]

end Fpm.DirDev
