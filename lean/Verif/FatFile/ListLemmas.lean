import Verif.FatFile.Spec
/-!
# Lists of sectors
-/
namespace Fpm.FatFile
open Fpm.Fat Fpm.Fat.Spec Fpm.FatFile.Spec

theorem div_ge {k S : Nat} (hS : 0 < S) (h : S ≤ k) : k / S = (k - S) / S + 1 ∧ k % S = (k - S) % S := by
  rw [← Nat.div_eq_sub_div hS h, Nat.mod_eq_sub_mod h]
  exact ⟨rfl, rfl⟩

/-- Elements of a concatenation of lists of the same length. -/
theorem flat_get {d : Nat → List Nat} {S : Nat} (hS : 0 < S) : ∀ (L : List Nat) (_ : ∀ n ∈ L, (d n).length = S) (k : Nat),
    (L.flatMap d)[k]? = L[k / S]?.bind fun n => (d n)[k % S]?
  | [], _, k => by simp
  | n :: L, h, k => by
    have hn := h n (by simp)
    rw [List.flatMap_cons]
    by_cases hk : k < S
    · rw [List.getElem?_append_left (by omega), Nat.div_eq_of_lt hk, Nat.mod_eq_of_lt hk]
      rfl
    · rw [List.getElem?_append_right (by omega), hn, flat_get hS L (fun x hx => h x (List.mem_cons_of_mem _ hx)), (div_ge hS (by omega : S ≤ k)).1, (div_ge hS (by omega : S ≤ k)).2]
      rfl

theorem flat_length {d : Nat → List Nat} {S : Nat} : ∀ (L : List Nat) (_ : ∀ n ∈ L, (d n).length = S), (L.flatMap d).length = L.length * S
  | [], _ => by simp
  | n :: L, h => by
    rw [List.flatMap_cons, List.length_append, h n (by simp), flat_length L (fun x hx => h x (List.mem_cons_of_mem _ hx)), List.length_cons, Nat.add_mul]
    omega

theorem index_split {i S o : Nat} (ho : o < S) : (i * S + o) / S = i ∧ (i * S + o) % S = o := by
  rw [Nat.mul_comm, Nat.mul_add_div (by omega), Nat.div_eq_of_lt ho, Nat.mul_add_mod, Nat.mod_eq_of_lt ho]
  exact ⟨rfl, rfl⟩

/-- A part of a sector is a part of the whole. -/
theorem flat_chunk {d : Nat → List Nat} {S : Nat} {L : List Nat} (h : ∀ n ∈ L, (d n).length = S) {i n o k : Nat} (hi : L[i]? = some n) (hk : o + k ≤ S) :
    ((d n).drop o).take k = ((L.flatMap d).drop (i * S + o)).take k := by
  by_cases h0 : k = 0
  · subst h0; simp
  refine List.ext_getElem? fun j => ?_
  rw [List.getElem?_take, List.getElem?_take]
  by_cases hj : j < k
  · rw [if_pos hj, if_pos hj, List.getElem?_drop, List.getElem?_drop, flat_get (by omega) L h, Nat.add_assoc, (index_split (by omega : o + j < S)).1, (index_split (by omega : o + j < S)).2, hi]
    rfl
  · rw [if_neg hj, if_neg hj]

theorem overwrite_get {l b : List Nat} {p : Nat} (hp : p ≤ l.length) (i : Nat) :
    (overwrite l p b)[i]? = if i < p then l[i]? else if i < p + b.length then b[i - p]? else l[i]? := by
  unfold overwrite
  by_cases h1 : i < p
  · rw [if_pos h1, List.append_assoc, List.getElem?_append_left (by rw [List.length_take]; omega), List.getElem?_take, if_pos h1]
  · rw [if_neg h1]
    by_cases h2 : i < p + b.length
    · rw [if_pos h2, List.getElem?_append_left (by rw [List.length_append, List.length_take]; omega), List.getElem?_append_right (by rw [List.length_take]; omega), List.length_take,
        Nat.min_eq_left hp]
    · rw [if_neg h2, List.getElem?_append_right (by rw [List.length_append, List.length_take]; omega), List.length_append, List.length_take, Nat.min_eq_left hp, List.getElem?_drop]
      congr 1
      omega

theorem overwrite_length {l b : List Nat} {p : Nat} (hp : p ≤ l.length) : (overwrite l p b).length = max l.length (p + b.length) := by
  unfold overwrite
  simp only [List.length_append, List.length_take, List.length_drop]
  omega

/-- Writing in two steps. -/
theorem overwrite_two {l b c : List Nat} {p : Nat} (hp : p ≤ l.length) : overwrite (overwrite l p b) (p + b.length) c = overwrite l p (b ++ c) := by
  refine List.ext_getElem? fun i => ?_
  rw [overwrite_get (by rw [overwrite_length hp]; omega), overwrite_get hp, overwrite_get hp, List.length_append]
  by_cases h1 : i < p
  · rw [if_pos (by omega), if_pos h1, if_pos h1]
  · rw [if_neg h1, if_neg h1]
    by_cases h2 : i < p + b.length
    · rw [if_pos h2, if_pos h2, if_pos (by omega), List.getElem?_append_left (by omega)]
    · rw [if_neg h2, if_neg h2]
      by_cases h3 : i < p + b.length + c.length
      · rw [if_pos h3, if_pos (by omega), List.getElem?_append_right (by omega), Nat.sub_sub]
      · rw [if_neg h3, if_neg (by omega)]

theorem overwrite_nil {l : List Nat} (p : Nat) : overwrite l p [] = l := by simp [overwrite]

/-- The beginning of what has been overwritten. -/
theorem overwrite_take {l b : List Nat} {p n : Nat} (hp : p ≤ n) (hn : n ≤ l.length) :
    overwrite (l.take n) p b = (overwrite l p b).take (max n (p + b.length)) := by
  refine List.ext_getElem? fun i => ?_
  rw [overwrite_get (by rw [List.length_take]; omega), List.getElem?_take, List.getElem?_take, overwrite_get (by omega)]
  by_cases h1 : i < p
  · rw [if_pos h1, if_pos (by omega : i < n), if_pos (by omega : i < max n (p + b.length)), if_pos h1]
  · rw [if_neg h1, if_neg h1]
    by_cases h2 : i < p + b.length
    · rw [if_pos h2, if_pos h2, if_pos (by omega : i < max n (p + b.length))]
    · rw [if_neg h2, if_neg h2]
      by_cases h3 : i < n
      · rw [if_pos h3, if_pos (by omega : i < max n (p + b.length))]
      · rw [if_neg h3, if_neg (by omega : ¬ i < max n (p + b.length))]

/-- No sector twice. -/
def Uniq (L : List Nat) : Prop := ∀ i j n : Nat, L[i]? = some n → L[j]? = some n → i = j

theorem upd_len {d : Nat → List Nat} {S n : Nat} {b : List Nat} (h : ∀ x, (d x).length = S) (hb : b.length = S) (x : Nat) : (upd d n b x).length = S := by
  unfold upd
  split
  · exact hb
  · exact h x

/-- Writing a part of a sector. -/
theorem flat_upd {d : Nat → List Nat} {S : Nat} {L : List Nat} (h : ∀ n, (d n).length = S) (hu : Uniq L) {i n o : Nat} {b : List Nat} (hi : L[i]? = some n)
    (ho : o + b.length ≤ S) (hS : 0 < S) : L.flatMap (upd d n (overwrite (d n) o b)) = overwrite (L.flatMap d) (i * S + o) b := by
  have hil : i < L.length := by
    rcases Nat.lt_or_ge i L.length with h | h
    · exact h
    · rw [List.getElem?_eq_none h] at hi; cases hi
  have hlen : i * S + S ≤ (L.flatMap d).length := by
    rw [flat_length L fun x _ => h x, ← Nat.succ_mul]
    exact Nat.mul_le_mul_right S hil
  have hw : (overwrite (d n) o b).length = S := by rw [overwrite_length (by rw [h]; omega), h]; omega
  refine List.ext_getElem? fun k => ?_
  rw [flat_get hS L fun x _ => upd_len h hw x, overwrite_get (by omega), flat_get hS L fun x _ => h x]
  have hk := Nat.div_add_mod k S
  rw [Nat.mul_comm] at hk
  have hm := Nat.mod_lt k hS
  by_cases hq : k / S = i
  · rw [hq, hi]
    rw [hq] at hk
    simp only [Option.bind_some]
    unfold upd
    rw [if_pos rfl, overwrite_get (by rw [h]; omega)]
    by_cases h1 : k % S < o
    · rw [if_pos h1, if_pos (by omega : k < i * S + o)]
    · rw [if_neg h1, if_neg (by omega : ¬ k < i * S + o)]
      by_cases h2 : k % S < o + b.length
      · rw [if_pos h2, if_pos (by omega : k < i * S + o + b.length)]
        congr 1
        omega
      · rw [if_neg h2, if_neg (by omega : ¬ k < i * S + o + b.length)]
  · have hne : ¬ (i * S + o ≤ k ∧ k < i * S + o + b.length) := by
      rintro ⟨h1, h2⟩
      have : k = i * S + (k - i * S) := by omega
      have h3 := (index_split (i := i) (o := k - i * S) (S := S) (by omega)).1
      rw [← this] at h3
      exact hq h3
    have e : ∀ x, L[k / S]? = some x → upd d n (overwrite (d n) o b) x = d x := by
      intro x hx
      refine if_neg ?_
      rintro rfl
      exact hq (hu _ _ _ hx hi)
    have e2 : (L[k / S]?.bind fun x => (upd d n (overwrite (d n) o b) x)[k % S]?) = L[k / S]?.bind fun x => (d x)[k % S]? := by
      cases hx : L[k / S]? with
      | none => rfl
      | some x => simp only [Option.bind_some]; rw [e x hx]
    rw [e2]
    by_cases h1 : k < i * S + o
    · rw [if_pos h1]
    · rw [if_neg h1, if_neg (by omega : ¬ k < i * S + o + b.length)]

theorem sectors_length (v : Vol) (c : Nat) : (sectors v c).length = v.csize := by simp [sectors]

theorem sectors_get {v : Vol} {c j : Nat} (hj : j < v.csize) : (sectors v c)[j]? = some (v.database + v.csize * (c - 2) + j) := by
  simp [sectors, hj]

theorem mem_sectors {v : Vol} {c n : Nat} : n ∈ sectors v c ↔ v.database + v.csize * (c - 2) ≤ n ∧ n < v.database + v.csize * (c - 2) + v.csize := by
  simp only [sectors, List.mem_map, List.mem_range]
  constructor
  · rintro ⟨j, h, rfl⟩; omega
  · rintro ⟨h1, h2⟩
    exact ⟨n - (v.database + v.csize * (c - 2)), by omega, by omega⟩

/-- A sector belongs to one cluster. -/
theorem sectors_inj {v : Vol} {c c' n : Nat} (h : n ∈ sectors v c) (h' : n ∈ sectors v c') (h2 : 2 ≤ c) (h2' : 2 ≤ c') : c = c' := by
  rw [mem_sectors] at h h'
  have key : ∀ {c c' : Nat}, 2 ≤ c → c < c' → v.csize * (c - 2) + v.csize ≤ v.csize * (c' - 2) := by
    intro c c' h2 hc
    rw [← Nat.mul_succ]
    exact Nat.mul_le_mul_left _ (by omega)
  rcases Nat.lt_trichotomy c c' with hc | hc | hc
  · have := key h2 hc; omega
  · exact hc
  · have := key h2' hc; omega

theorem secs_get {v : Vol} (hc : 0 < v.csize) (m : List Nat) (k : Nat) : (secs v m)[k]? = m[k / v.csize]?.map fun c => v.database + v.csize * (c - 2) + k % v.csize := by
  unfold secs
  rw [flat_get hc m (fun n _ => sectors_length v n)]
  cases m[k / v.csize]? with
  | none => rfl
  | some c => exact sectors_get (Nat.mod_lt _ hc)

theorem secs_length (v : Vol) (m : List Nat) : (secs v m).length = m.length * v.csize := flat_length m fun n _ => sectors_length v n

theorem secs_append (v : Vol) (m l : List Nat) : secs v (m ++ l) = secs v m ++ secs v l := by simp [secs]

theorem secs_mem {v : Vol} {m : List Nat} {n : Nat} (h : n ∈ secs v m) : ∃ c ∈ m, n ∈ sectors v c := by
  simpa [secs, List.mem_flatMap] using h

theorem secs_uniq {v : Vol} (hc : 0 < v.csize) {m : List Nat} (h : m.Nodup) (h2 : ∀ c ∈ m, 2 ≤ c) : Uniq (secs v m) := by
  intro i j n hi hj
  rw [secs_get hc] at hi hj
  obtain ⟨c, hci, rfl⟩ := Option.map_eq_some_iff.mp hi
  obtain ⟨c', hcj, e⟩ := Option.map_eq_some_iff.mp hj
  have m1 := Nat.mod_lt i hc
  have m2 := Nat.mod_lt j hc
  have hcc : c' = c := by
    refine sectors_inj (v := v) (n := v.database + v.csize * (c - 2) + i % v.csize) ?_ ?_ (h2 _ (List.mem_of_getElem? hcj)) (h2 _ (List.mem_of_getElem? hci))
    · rw [mem_sectors]; omega
    · rw [mem_sectors]; omega
  subst hcc
  have hlt : i / v.csize < m.length := by
    rcases Nat.lt_or_ge (i / v.csize) m.length with h | h
    · exact h
    · rw [List.getElem?_eq_none h] at hci; cases hci
  have hq : i / v.csize = j / v.csize := (List.getElem?_inj hlt h).mp (hci.trans hcj.symm)
  have d1 := Nat.div_add_mod i v.csize
  have d2 := Nat.div_add_mod j v.csize
  rw [hq] at d1
  omega

end Fpm.FatFile
