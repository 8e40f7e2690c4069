import Verif.FatFile.StepLemmas
/-!
# Reading
-/
namespace Fpm.FatFile
open Fpm.Fat Fpm.Fat.Spec Fpm.FatFile.Spec

/-- Bytes in a cluster. -/
abbrev bcs (v : Vol) : Nat := v.csize * v.ss

theorem bcs_pos {v : Vol} (hg : Geo v) (hd : DataGeo v) : 0 < bcs v := Nat.mul_pos (csize_pos hd) hg.ss.2

theorem csect_eq {v : Vol} (hd : DataGeo v) (fp : File) : csect v fp = fp.fptr / v.ss % v.csize := by
  obtain ⟨k, hk⟩ := hd.pow
  unfold csect
  rw [hk, Nat.and_two_pow_sub_one_eq_mod]

theorem div_bcs (v : Vol) (p : Nat) : p / bcs v = p / v.ss / v.csize := by
  rw [Nat.div_div_eq_div_mul, Nat.mul_comm]

/-- A position by cluster, sector and byte. -/
theorem pos_eq (v : Vol) (p : Nat) : p = p / bcs v * bcs v + p / v.ss % v.csize * v.ss + p % v.ss := by
  have h1 := Nat.div_add_mod p v.ss
  have h2 := Nat.div_add_mod (p / v.ss) v.csize
  rw [div_bcs]
  have h3 : p / v.ss / v.csize * bcs v = v.ss * (v.csize * (p / v.ss / v.csize)) := by
    unfold bcs
    rw [Nat.mul_comm v.csize v.ss, Nat.mul_comm, Nat.mul_assoc]
  have h4 : v.ss * (p / v.ss) = v.ss * (v.csize * (p / v.ss / v.csize)) + p / v.ss % v.csize * v.ss := by
    conv => lhs; rw [← h2]
    rw [Nat.mul_add, Nat.mul_comm v.ss (p / v.ss % v.csize)]
  omega

/-- Positions in a cluster. -/
theorem in_cluster {q B r : Nat} (hr : r < B) : (q * B + r) / B = q := (index_split hr).1

theorem div_unique {p q B : Nat} (h1 : q * B ≤ p) (h2 : p < q * B + B) : p / B = q := by
  have := in_cluster (q := q) (B := B) (r := p - q * B) (by omega)
  rwa [show q * B + (p - q * B) = p from by omega] at this

/-- The sector in front of the position. -/
theorem sector_at {v : Vol} (hd : DataGeo v) {m : List Nat} {fp : File} {c : Nat} (hc : m[fp.fptr / bcs v]? = some c) (h2 : 2 ≤ c) (hn : c < v.nFatent) :
    (secs v m)[fp.fptr / v.ss]? = some (clst2sect v c + csect v fp) := by
  rw [secs_get (csize_pos hd), ← div_bcs, hc, csect_eq hd]
  unfold clst2sect
  rw [if_neg (by omega)]
  rfl

theorem clst2sect_ne {v : Vol} (hd : DataGeo v) {c : Nat} (h2 : 2 ≤ c) (hn : c < v.nFatent) : clst2sect v c ≠ 0 := by
  have := hd.pos
  unfold clst2sect
  rw [if_neg (by omega)]
  omega

/-- Sectors that follow in the same cluster. -/
theorem sector_more {v : Vol} (hd : DataGeo v) {m : List Nat} {i n j : Nat} (h : (secs v m)[i]? = some n) (hj : i % v.csize + j < v.csize) : (secs v m)[i + j]? = some (n + j) := by
  have hc := csize_pos hd
  rw [secs_get hc] at h ⊢
  have h0 := Nat.div_add_mod i v.csize
  have h1 : (i + j) / v.csize = i / v.csize := by
    refine div_unique ?_ ?_
    · rw [Nat.mul_comm]; omega
    · rw [Nat.mul_comm]; omega
  have h2 : (i + j) % v.csize = i % v.csize + j := by
    have h3 := Nat.div_add_mod (i + j) v.csize
    rw [h1] at h3
    omega
  rw [h1, h2]
  obtain ⟨c, hc, rfl⟩ := Option.map_eq_some_iff.mp h
  rw [hc]
  simp only [Option.map_some, Option.some.injEq]
  omega

/-- All the bytes of the clusters of a file. -/
abbrev whole (v : Vol) (m : List Nat) (s : St) (fp : File) : List Nat := (secs v m).flatMap (overlay s fp)

theorem overlay_len {v : Vol} {a b : List (List Nat)} {m : List Nat} {s : St} {fp : File} (h : Base v a b m s fp) (n : Nat) : (overlay s fp n).length = v.ss := by
  unfold overlay
  split
  · exact h.buf.1
  · exact (h.inv.disk n).1

theorem whole_len {v : Vol} {a b : List (List Nat)} {m : List Nat} {s : St} {fp : File} (h : Base v a b m s fp) : (whole v m s fp).length = m.length * bcs v := by
  unfold whole
  rw [flat_length _ fun n _ => overlay_len h n, secs_length, Nat.mul_assoc]

theorem contents_len {v : Vol} {a b : List (List Nat)} {m : List Nat} {s : St} {fp : File} (h : Base v a b m s fp) : (contents v m s fp).length = fp.objsize := by
  have := h.size
  unfold contents
  rw [List.length_take, show ((secs v m).flatMap (overlay s fp)).length = m.length * bcs v from whole_len h]
  exact Nat.min_eq_left this

theorem flat_congr {L : List Nat} {d d' : Nat → List Nat} (h : ∀ n ∈ L, d' n = d n) : L.flatMap d' = L.flatMap d := by
  rw [List.flatMap_def, List.flatMap_def]
  congr 1
  exact List.map_congr_left h

/-- A part of the array inside one sector. -/
theorem slice_sector {v : Vol} {a b : List (List Nat)} {m : List Nat} {s : St} {fp : File} (h : Base v a b m s fp) {i n o k : Nat} (hi : (secs v m)[i]? = some n)
    (hk : o + k ≤ v.ss) (hs : i * v.ss + o + k ≤ fp.objsize) : ((overlay s fp n).drop o).take k = ((contents v m s fp).drop (i * v.ss + o)).take k := by
  rw [flat_chunk (L := secs v m) (fun n _ => overlay_len h n) hi hk]
  unfold contents
  rw [List.drop_take, List.take_take]
  congr 1
  omega

/-- The volume and everything but the position. -/
theorem Base.of_fields {v : Vol} {a b : List (List Nat)} {m : List Nat} {s : St} {fp fp' : File} (h : Base v a b m s fp) (h1 : fp'.objsize = fp.objsize)
    (h2 : fp'.sclust = fp.sclust) (h3 : fp'.sect = fp.sect) (h4 : fp'.buf = fp.buf) (h5 : fp'.dirty = fp.dirty) : Base v a b m s fp' :=
  ⟨h.toVolOk, by rw [h2]; exact h.sclust, by rw [h4]; exact h.buf, by rw [h5, h3]; exact h.own, by rw [h5, h3, h4]; exact h.clean, by rw [h1]; exact h.size,
   by rw [h1]; exact h.small⟩

theorem contents_fields {v : Vol} {m : List Nat} {s : St} {fp fp' : File} (h1 : fp'.objsize = fp.objsize) (h3 : fp'.sect = fp.sect) (h4 : fp'.buf = fp.buf)
    (h5 : fp'.dirty = fp.dirty) : contents v m s fp' = contents v m s fp := by
  unfold contents overlay
  rw [h1, h3, h4, h5]

/-- Fields that reading leaves alone. -/
def Kept (fp fp' : File) : Prop := fp'.objsize = fp.objsize ∧ fp'.sclust = fp.sclust ∧ fp'.canRead = fp.canRead ∧ fp'.canWrite = fp.canWrite ∧ fp'.err = fp.err

/-- The buffer still shows the same sector, or shows one of the file. -/
def Near (v : Vol) (m : List Nat) (fp fp' : File) : Prop := fp'.sect = fp.sect ∨ fp'.sect ∈ secs v m

theorem Near.trans {v : Vol} {m m' : List Nat} {fp fp1 fp2 : File} (h1 : Near v m fp fp1) (h2 : Near v m' fp1 fp2) (hm : m <+: m') : Near v m' fp fp2 := by
  rcases h2 with h2 | h2
  · rcases h1 with h1 | h1
    · exact .inl (h2.trans h1)
    · obtain ⟨e, rfl⟩ := hm
      refine .inr ?_
      rw [h2]
      unfold secs at h1 ⊢
      rw [List.flatMap_append]
      exact List.mem_append_left _ h1
  · exact .inr h2

/-- After a round of reading. -/
structure DidRead (v : Vol) (a b : List (List Nat)) (m : List Nat) (s : St) (fp : File) (A : Arr) (n : Nat) (o : Out) : Prop where
  res : o.res = 0
  pos : 0 < o.got.length ∧ o.got.length ≤ n
  got : o.got = (A.data.drop A.pos).take o.got.length
  repr : Repr v a b m o.st { o.fp with fptr := fp.fptr + o.got.length } ⟨A.data, A.pos + o.got.length⟩
  kept : Kept fp o.fp
  others : Others v a b s o.st
  near : Near v m fp o.fp

/-- The buffer holds the sector at the position. -/
theorem copyOut_spec {v : Vol} (hg : Geo v) (hd : DataGeo v) {a b : List (List Nat)} {m : List Nat} {s : St} {fp : File} (h : Base v a b m s fp) {n c : Nat} (hn : 0 < n)
    (hle : fp.fptr + n ≤ fp.objsize) (he : fp.err = 0) (hc : m[fp.fptr / bcs v]? = some c) (hcl : c = fp.clust) (hs : (secs v m)[fp.fptr / v.ss]? = some fp.sect) :
    DidRead v a b m s fp ⟨contents v m s fp, fp.fptr⟩ n (copyOut v n s fp) := by
  have hss := hg.ss.2
  have hm := Nat.mod_lt fp.fptr hss
  have hown : OwnSect v (a ++ b).flatten fp.sect := h.secs_own (List.mem_of_getElem? hs)
  have hov : overlay s fp fp.sect = fp.buf := by
    unfold overlay
    by_cases hdirty : fp.dirty = true
    · rw [if_pos ⟨hdirty, rfl⟩]
    · rw [if_neg fun x => hdirty x.1]
      exact (h.clean (by simpa using hdirty) hown).symm
  have hp := Nat.div_add_mod fp.fptr v.ss
  rw [Nat.mul_comm] at hp
  have hgot : (copyOut v n s fp).got = ((contents v m s fp).drop fp.fptr).take (min (v.ss - fp.fptr % v.ss) n) := by
    have := slice_sector h (i := fp.fptr / v.ss) (o := fp.fptr % v.ss) (k := min (v.ss - fp.fptr % v.ss) n) hs (by omega) (by omega)
    rw [hov, hp] at this
    exact this
  have hlen : (copyOut v n s fp).got.length = min (v.ss - fp.fptr % v.ss) n := by
    rw [hgot, List.length_take, List.length_drop, contents_len h]
    omega
  have hcl' := pos_eq v fp.fptr
  have hcs : fp.fptr / v.ss % v.csize * v.ss + v.ss ≤ bcs v := by
    rw [← Nat.succ_mul]
    exact Nat.mul_le_mul_right _ (Nat.mod_lt _ (csize_pos hd))
  refine ⟨rfl, by omega, by rw [hlen]; exact hgot, ⟨?_, ?_, ?_, ?_, he, ?_, ?_⟩, ⟨rfl, rfl, rfl, rfl, rfl⟩, .refl h.toVolOk, .inl rfl⟩
  · exact Base.of_fields h rfl rfl rfl rfl rfl
  · show fp.fptr + _ ≤ fp.objsize
    omega
  · intro _
    show m[(fp.fptr + _ - 1) / _]? = some fp.clust
    rw [hlen, ← hcl, ← hc]
    congr 1
    exact div_unique (B := bcs v) (by omega) (by omega)
  · intro hne
    show (secs v m)[(fp.fptr + _) / _]? = some fp.sect
    rw [← hs]
    congr 1
    simp only at hne
    rw [hlen] at hne ⊢
    refine div_unique (by omega) ?_
    by_cases hlt : n < v.ss - fp.fptr % v.ss
    · omega
    · exfalso
      apply hne
      rw [Nat.min_eq_left (by omega), show fp.fptr + (v.ss - fp.fptr % v.ss) = (fp.fptr / v.ss + 1) * v.ss from by rw [Nat.add_mul]; omega]
      exact Nat.mul_mod_left ..
  · exact (contents_fields rfl rfl rfl rfl).symm
  · rfl

/-- Sectors in a row. -/
theorem flat_run {d : Nat → List Nat} {S : Nat} (hS : 0 < S) (h : ∀ n, (d n).length = S) {L : List Nat} {i n k : Nat} (hi : ∀ j, j < k → L[i + j]? = some (n + j)) :
    ((List.range k).flatMap fun j => d (n + j)) = ((L.flatMap d).drop (i * S)).take (k * S) := by
  refine List.ext_getElem? fun x => ?_
  rw [flat_get (d := fun j => d (n + j)) hS _ (fun _ _ => h _), List.getElem?_take, List.getElem?_drop]
  by_cases hx : x < k * S
  · have hq : x / S < k := (Nat.div_lt_iff_lt_mul hS).mpr hx
    rw [if_pos hx, flat_get hS L (fun n _ => h n), Nat.mul_comm i S, Nat.mul_add_div hS, Nat.mul_add_mod, hi _ hq, List.getElem?_range hq]
    rfl
  · rw [if_neg hx, List.getElem?_eq_none]
    · rfl
    · rw [List.length_range]
      exact (Nat.le_div_iff_mul_le hS).mpr (by omega)

/-- The buffer in place of what is on the disk. -/
theorem patched_eq {v : Vol} (hg : Geo v) {s : St} {fp : File} (hb : fp.buf.length = v.ss) (hs : ∀ n, (s.disk n).length = v.ss) (n k : Nat) :
    patched v fp n k ((List.range k).flatMap fun j => s.disk (n + j)) = (List.range k).flatMap fun j => overlay s fp (n + j) := by
  have hss := hg.ss.2
  unfold patched
  split
  · rename_i hc
    have hi : ((List.range k).map (n + ·))[fp.sect - n]? = some fp.sect := by
      rw [List.getElem?_map, List.getElem?_range hc.2.2]
      simp only [Option.map_some, Option.some.injEq]
      omega
    have hu : Uniq ((List.range k).map (n + ·)) := by
      intro i j x h1 h2
      rw [List.getElem?_map] at h1 h2
      obtain ⟨y, h3, e3⟩ := Option.map_eq_some_iff.mp h1
      obtain ⟨z, h4, e4⟩ := Option.map_eq_some_iff.mp h2
      obtain ⟨h5, e1⟩ := List.getElem?_eq_some_iff.mp h3
      obtain ⟨h6, e2⟩ := List.getElem?_eq_some_iff.mp h4
      rw [List.getElem_range] at e1 e2
      omega
    have := flat_upd (d := s.disk) hs hu (b := fp.buf) (o := 0) hi (by omega) hss
    rw [List.flatMap_map, List.flatMap_map] at this
    have e : overwrite (s.disk fp.sect) 0 fp.buf = fp.buf := by
      unfold overwrite
      rw [List.take_zero, List.drop_eq_nil_of_le (by rw [hs]; omega)]
      simp
    rw [e] at this
    unfold overwrite at this
    rw [Nat.add_zero, hb] at this
    rw [← this]
    refine flat_congr fun j _ => ?_
    unfold overlay upd
    simp [hc.1]
  · rename_i hc
    refine flat_congr fun j hj => ?_
    have := List.mem_range.mp hj
    unfold overlay
    rw [if_neg]
    rintro ⟨h1, h2⟩
    exact hc ⟨h1, by omega, by omega⟩

theorem readDirect_spec {v : Vol} (hg : Geo v) (hd : DataGeo v) {a b : List (List Nat)} {m : List Nat} {s : St} {fp : File} (h : Base v a b m s fp) {n sect k : Nat} (hk : 0 < k)
    (hkn : k * v.ss ≤ n) (hkc : fp.fptr / v.ss % v.csize + k ≤ v.csize) (hp : fp.fptr % v.ss = 0)
    (hle : fp.fptr + n ≤ fp.objsize) (he : fp.err = 0) (hc : m[fp.fptr / bcs v]? = some fp.clust) (hs : (secs v m)[fp.fptr / v.ss]? = some sect) :
    Failed v a b s (readDirect v s fp sect k) ∨ DidRead v a b m s fp ⟨contents v m s fp, fp.fptr⟩ n (readDirect v s fp sect k) := by
  have hss := hg.ss.2
  obtain ⟨s', d, ok, e, hv, hdisk, ho, h1, h2⟩ := readN_spec hg k h.toVolOk sect
  unfold readDirect
  rw [e]
  cases ok with
  | false => exact .inl (failed_abort (h2 rfl) ho)
  | true =>
    right
    simp only [if_true]
    have hdm := Nat.div_add_mod fp.fptr v.ss
    rw [Nat.mul_comm, hp, Nat.add_zero] at hdm
    have hk1 : v.ss ≤ k * v.ss := Nat.le_mul_of_pos_left _ hk
    have hgot : patched v fp sect k d = ((contents v m s fp).drop fp.fptr).take (k * v.ss) := by
      rw [h1 rfl, patched_eq hg h.buf.1 (fun n => (h.inv.disk n).1), flat_run hss (overlay_len h) (L := secs v m) (i := fp.fptr / v.ss), hdm]
      · unfold contents
        rw [List.drop_take, List.take_take]
        congr 1
        omega
      · intro j hj
        exact sector_more hd hs (by omega)
    have hlen : (patched v fp sect k d).length = k * v.ss := by
      rw [hgot, List.length_take, List.length_drop, contents_len h]
      omega
    have hcl' := pos_eq v fp.fptr
    have hcs : fp.fptr / v.ss % v.csize * v.ss + k * v.ss ≤ bcs v := by
      rw [← Nat.add_mul]
      exact Nat.mul_le_mul_right _ hkc
    have hb : Base v a b m s' fp := ⟨hv, h.sclust, h.buf, h.own, by rw [hdisk]; exact h.clean, h.size, h.small⟩
    have hcont : contents v m s' fp = contents v m s fp := by unfold contents overlay; rw [hdisk]
    refine ⟨rfl, by simp only; omega, by simp only; rw [hlen]; exact hgot, ⟨?_, ?_, ?_, ?_, he, ?_, rfl⟩, ⟨rfl, rfl, rfl, rfl, rfl⟩, ho, .inl rfl⟩
    · exact Base.of_fields hb rfl rfl rfl rfl rfl
    · show fp.fptr + _ ≤ fp.objsize
      simp only
      omega
    · intro _
      show m[(fp.fptr + _ - 1) / _]? = some fp.clust
      simp only
      rw [hlen, ← hc]
      congr 1
      exact div_unique (B := bcs v) (by omega) (by omega)
    · intro hne
      exfalso
      apply hne
      show (fp.fptr + (patched v fp sect k d).length) % v.ss = 0
      rw [hlen, Nat.add_mul_mod_self_right]
      exact hp
    · exact hcont.symm

theorem readCached_spec {v : Vol} (hg : Geo v) (hd : DataGeo v) {a b : List (List Nat)} {m : List Nat} {s : St} {fp : File} (h : Base v a b m s fp) {n sect : Nat} (hn : 0 < n)
    (hle : fp.fptr + n ≤ fp.objsize) (he : fp.err = 0) (hc : m[fp.fptr / bcs v]? = some fp.clust) (hs : (secs v m)[fp.fptr / v.ss]? = some sect) :
    Failed v a b s (readCached v s fp n sect) ∨ DidRead v a b m s fp ⟨contents v m s fp, fp.fptr⟩ n (readCached v s fp n sect) := by
  unfold readCached
  by_cases hsect : fp.sect = sect
  · rw [if_neg (by simpa using hsect)]
    subst hsect
    exact .inr (copyOut_spec hg hd h hn hle he hc rfl hs)
  · rw [if_pos hsect]
    refine flush_spec hg hd h (P := fun o => Failed v a b s o ∨ DidRead v a b m s fp ⟨contents v m s fp, fp.fptr⟩ n o) (fun o ho => .inl ho) fun s1 hb1 hd1 ho1 => ?_
    refine fill_spec hg hb1 rfl (P := fun o => Failed v a b s o ∨ DidRead v a b m s fp ⟨contents v m s fp, fp.fptr⟩ n o) (fun o ho => .inl (ho.mono ho1)) fun s2 hb2 hd2 ho2 => ?_
    right
    have key := copyOut_spec hg hd hb2 hn hle he hc rfl hs
    have hcont : contents v m s2 { { fp with dirty := false } with buf := s1.disk sect, sect := sect } = contents v m s fp := by
      unfold contents
      congr 1
      refine flat_congr fun x _ => ?_
      unfold overlay
      rw [if_neg (fun z => by cases z.1), hd2, hd1]
      rfl
    rw [hcont] at key
    refine ⟨key.res, key.pos, key.got, key.repr, key.kept, ho1.trans (ho2.trans key.others), .inr ?_⟩
    rcases key.near with z | z
    · rw [z]
      exact List.mem_of_getElem? hs
    · exact z

/-- The chain from one of its clusters on. -/
theorem split_at {m : List Nat} {i c : Nat} (h : m[i]? = some c) : m = m.take i ++ c :: m.drop (i + 1) := by
  obtain ⟨hi, rfl⟩ := List.getElem?_eq_some_iff.mp h
  rw [← List.drop_eq_getElem_cons hi, List.take_append_drop]

theorem VolOk_chains {v : Vol} {a b : List (List Nat)} {m : List Nat} {s : St} (h : VolOk v a b m s) (hm : m ≠ []) : Chains v.nFatent (tab v s) (a ++ m :: b) := by
  have := h.chains
  unfold withRest at this
  rwa [if_neg hm] at this

/-- The entry of a cluster of the file. -/
theorem fat_spec {v : Vol} (hg : Geo v) (hd : DataGeo v) {a b : List (List Nat)} {m : List Nat} {s : St} (h : VolOk v a b m s) {i c : Nat} (hc : m[i]? = some c) :
    ∃ s' r, getFat v s c = (s', r) ∧ VolOk v a b m s' ∧ SameData v (a ++ b).flatten s s' ∧ Others v a b s s' ∧
      (m[i + 1]? = some r ∧ 2 ≤ r ∧ r < v.nFatent ∨ m.length = i + 1 ∧ v.nFatent ≤ r ∧ r < 2 ^ 28 ∨ r = DERR ∧ ¬ Sound v) := by
  have hcm := h.mem (List.mem_of_getElem? hc)
  obtain ⟨s', r, e, hi, sm, rr, -, hr⟩ := get_step hg h.inv hcm.1 hcm.2.1
  have hnear : Sound v → Fat.Near v (a ++ b).flatten s s' := fun hs => by
    obtain ⟨s0, e0, -, -, n0⟩ := get_near hg hs (a ++ b).flatten h.inv hcm.1 hcm.2.1
    rw [e] at e0
    rw [(Prod.mk.inj e0).1]
    exact n0
  have hst := stays_get hg s c
  rw [e] at hst
  obtain ⟨hv, hsd⟩ := vol_fat hg hd h hi sm.out hst (by rw [tab_same sm]; exact h.chains) (count_same sm rr h.count)
  refine ⟨s', r, e, hv, hsd, others_fat hv.links sm.out hnear, ?_⟩
  rcases hr with rfl | hr
  · have hsp := split_at hc
    have hm : m ≠ [] := by rintro rfl; cases hc
    have hl := (VolOk_chains h hm).chain m (by simp)
    have hil := (List.getElem?_eq_some_iff.mp hc).1
    cases hr : m[i + 1]? with
    | none =>
      have := List.getElem?_eq_none_iff.mp hr
      right; left
      refine ⟨by omega, ?_, tab_lt v s c⟩
      rw [hsp, List.drop_eq_nil_of_le (by omega)] at hl
      exact links_last hl
    | some d =>
      left
      have hd2 := split_at hr
      obtain ⟨hi1, e1⟩ := List.getElem?_eq_some_iff.mp hr
      rw [hsp, List.drop_eq_getElem_cons hi1, e1] at hl
      have := links_next hl
      rw [this]
      have hdm := h.mem (List.mem_of_getElem? hr)
      exact ⟨rfl, hdm.1, hdm.2.1⟩
  · exact .inr (.inr hr)

theorem Base.same {v : Vol} {a b : List (List Nat)} {m : List Nat} {s s' : St} {fp : File} (h : Base v a b m s fp) (hv : VolOk v a b m s')
    (hs : SameData v (a ++ b).flatten s s') : Base v a b m s' fp :=
  ⟨hv, h.sclust, h.buf, h.own, fun h1 h2 => by rw [hs _ h2]; exact h.clean h1 h2, h.size, h.small⟩

theorem contents_same {v : Vol} {a b : List (List Nat)} {m : List Nat} {s s' : St} {fp : File} (h : VolOk v a b m s) (hs : SameData v (a ++ b).flatten s s') :
    contents v m s' fp = contents v m s fp := by
  unfold contents
  congr 1
  refine flat_congr fun n hn => ?_
  unfold overlay
  rw [hs n (h.secs_own hn)]

theorem direct_le {v : Vol} {cs n : Nat} (h1 : cs < v.csize) (h : n / v.ss > 0) : 0 < direct v cs n ∧ direct v cs n * v.ss ≤ n ∧ cs + direct v cs n ≤ v.csize := by
  have h2 := Nat.div_mul_le_self n v.ss
  unfold direct
  split
  · refine ⟨by omega, ?_, by omega⟩
    exact Nat.le_trans (Nat.mul_le_mul_right _ (by omega)) h2
  · exact ⟨h, h2, by omega⟩

theorem readSector_spec {v : Vol} (hg : Geo v) (hd : DataGeo v) {a b : List (List Nat)} {m : List Nat} {s : St} {fp : File} (h : Base v a b m s fp) {n : Nat} (hn : 0 < n)
    (hp : fp.fptr % v.ss = 0) (hle : fp.fptr + n ≤ fp.objsize) (he : fp.err = 0) (hc : m[fp.fptr / bcs v]? = some fp.clust) :
    Failed v a b s (readSector v n s fp) ∨ DidRead v a b m s fp ⟨contents v m s fp, fp.fptr⟩ n (readSector v n s fp) := by
  have hcm := h.mem (List.mem_of_getElem? hc)
  have hsec := sector_at hd hc hcm.1 hcm.2.1
  unfold readSector
  rw [if_neg (clst2sect_ne hd hcm.1 hcm.2.1)]
  split
  · rename_i hq
    have hcs := csect_eq hd fp
    have hlt := Nat.mod_lt (fp.fptr / v.ss) (csize_pos hd)
    have hdl := direct_le (by omega) hq (cs := csect v fp)
    rw [hcs] at hdl ⊢
    rw [hcs] at hsec
    exact readDirect_spec hg hd h hdl.1 hdl.2.1 hdl.2.2 hp hle he hc hsec
  · exact readCached_spec hg hd h hn hle he hc hsec

theorem mod_zero {v : Vol} (hd : DataGeo v) {fp : File} (h1 : fp.fptr % v.ss = 0) (h2 : csect v fp = 0) : fp.fptr = fp.fptr / bcs v * bcs v := by
  have := pos_eq v fp.fptr
  rw [csect_eq hd] at h2
  rw [h1, h2, Nat.zero_mul] at this
  omega

/-- Not at the start of a cluster. -/
theorem same_cluster {v : Vol} {p : Nat} (hb : 0 < bcs v) (h : p % v.ss ≠ 0 ∨ p / v.ss % v.csize ≠ 0) : 0 < p ∧ (p - 1) / bcs v = p / bcs v := by
  have e := pos_eq v p
  have hp : p / bcs v * bcs v < p := by
    rcases h with h | h
    · omega
    · by_cases hs : v.ss = 0
      · rw [hs] at h
        simp at h
      · have : 0 < p / v.ss % v.csize * v.ss := Nat.mul_pos (by omega) (by omega)
        omega
  have hlt := Nat.mod_lt p hb
  have hdm := Nat.div_add_mod p (bcs v)
  rw [Nat.mul_comm] at hdm
  exact ⟨by omega, div_unique (B := bcs v) (by omega) (by omega)⟩

theorem headD_get {m : List Nat} : m.headD 0 = m[0]?.getD 0 := by cases m <;> rfl

/-- One round. -/
theorem readRound_spec {v : Vol} (hg : Geo v) (hd : DataGeo v) {a b : List (List Nat)} {m : List Nat} {s : St} {fp : File} {A : Arr} (h : Repr v a b m s fp A) {n : Nat} (hn : 0 < n)
    (hle : fp.fptr + n ≤ fp.objsize) : Failed v a b s (readRound v s fp n) ∨ DidRead v a b m s fp A n (readRound v s fp n) := by
  have hA : A = ⟨contents v m s fp, fp.fptr⟩ := by
    rw [← h.data, ← h.at_]
  rw [hA]
  have hpos := bcs_pos hg hd
  have hlt : fp.fptr / bcs v < m.length := (Nat.div_lt_iff_lt_mul hpos).mpr (by have : fp.objsize ≤ m.length * bcs v := h.size; omega)
  unfold readRound
  by_cases hp : fp.fptr % v.ss = 0
  · rw [if_pos hp]
    by_cases hcs : csect v fp = 0
    · rw [if_pos hcs]
      have hz := mod_zero hd hp hcs
      by_cases h0 : fp.fptr = 0
      · have hm : m[0]? = some fp.sclust := by
          rw [h.sclust, headD_get]
          have : 0 < m.length := Nat.lt_of_le_of_lt (Nat.zero_le _) hlt
          rw [List.getElem?_eq_getElem this]
          rfl
        have hcm := h.mem (List.mem_of_getElem? hm)
        have := nFatent_lt hg
        unfold entered followed
        rw [if_pos h0]
        simp only
        rw [if_neg (by have := hcm.2.1; unfold UB; omega), if_neg (by have := hcm.1; omega), if_neg (by have := hcm.2.1; unfold DERR; omega)]
        have key := readSector_spec hg hd (Base.of_fields (fp' := { fp with clust := fp.sclust }) h.toBase rfl rfl rfl rfl rfl) hn hp hle h.noErr
          (by show m[fp.fptr / bcs v]? = some fp.sclust; rw [h0, Nat.zero_div]; exact hm)
        rcases key with key | key
        · exact .inl key
        · exact .inr ⟨key.res, key.pos, key.got, key.repr, key.kept, key.others, key.near⟩
      · have hcl := h.clust (by omega)
        have hnn := Nat.zero_le (fp.fptr / bcs v)
        have hidx : (fp.fptr - 1) / (v.csize * v.ss) + 1 = fp.fptr / bcs v := by
          have : fp.fptr / bcs v ≠ 0 := by
            intro h1
            rw [h1] at hz
            omega
          have h2 : (fp.fptr - 1) / bcs v = fp.fptr / bcs v - 1 := by
            have h3 : fp.fptr = (fp.fptr / bcs v - 1) * bcs v + bcs v := by
              rw [← Nat.succ_mul, show (fp.fptr / bcs v - 1).succ = fp.fptr / bcs v from by omega]
              exact hz
            exact div_unique (B := bcs v) (by omega) (by omega)
          have h4 : (fp.fptr - 1) / (v.csize * v.ss) = (fp.fptr - 1) / bcs v := rfl
          omega
        obtain ⟨s', r, e, hv, hsd, ho, hr⟩ := fat_spec hg hd h.toVolOk hcl
        unfold entered followed
        rw [if_neg h0, e]
        simp only
        have := nFatent_lt hg
        rcases hr with ⟨hr, r2, rn⟩ | ⟨hr, -, -⟩ | ⟨rfl, hs⟩
        · rw [hidx] at hr
          rw [if_neg (by unfold UB; omega), if_neg (by omega), if_neg (by unfold DERR; omega)]
          have hb' := Base.same h.toBase hv hsd
          have key := readSector_spec hg hd (Base.of_fields (fp' := { fp with clust := r }) hb' rfl rfl rfl rfl rfl) hn hp hle h.noErr hr
          rcases key with key | key
          · exact .inl (key.mono ho)
          · right
            have hcont : contents v m s' { fp with clust := r } = contents v m s fp := (contents_fields rfl rfl rfl rfl).trans (contents_same h.toVolOk hsd)
            rw [hcont] at key
            exact ⟨key.res, key.pos, key.got, key.repr, key.kept, ho.trans key.others, key.near⟩
        · omega
        · rw [if_neg (by decide), if_neg (by decide), if_pos rfl]
          exact .inl (failed_abort hs ho)
    · rw [if_neg hcs]
      rw [csect_eq hd] at hcs
      have hsc := same_cluster hpos (.inr hcs)
      have hcl := h.clust hsc.1
      rw [show (fp.fptr - 1) / (v.csize * v.ss) = fp.fptr / bcs v from hsc.2] at hcl
      exact readSector_spec hg hd h.toBase hn hp hle h.noErr hcl
  · rw [if_neg hp]
    have hsc := same_cluster hpos (.inl hp)
    have hcl := h.clust hsc.1
    rw [show (fp.fptr - 1) / (v.csize * v.ss) = fp.fptr / bcs v from hsc.2] at hcl
    exact .inr (copyOut_spec hg hd h.toBase hn hle h.noErr hcl rfl (h.sect hp))

theorem take_more {l x : List Nat} {p k n : Nat} (hx : x = (l.drop p).take k) (hk : k ≤ n) : x ++ (l.drop (p + k)).take (n - k) = (l.drop p).take n := by
  rw [hx, ← List.drop_drop, ← List.take_add]
  congr 1
  omega

/-- The loop. -/
theorem readLoop_spec {v : Vol} (hg : Geo v) (hd : DataGeo v) {a b : List (List Nat)} {m : List Nat} : ∀ (k : Nat) {s : St} {fp : File} {A : Arr} (_ : Repr v a b m s fp A) (n : Nat)
    (_ : n ≤ k) (_ : fp.fptr + n ≤ fp.objsize) (acc : List Nat), Failed v a b s (readLoop v k s fp n acc) ∨
      (readLoop v k s fp n acc).res = 0 ∧ (readLoop v k s fp n acc).got = acc ++ (A.data.drop A.pos).take n ∧
      Repr v a b m (readLoop v k s fp n acc).st (readLoop v k s fp n acc).fp ⟨A.data, A.pos + n⟩ ∧
      Kept fp (readLoop v k s fp n acc).fp ∧ Others v a b s (readLoop v k s fp n acc).st ∧ Near v m fp (readLoop v k s fp n acc).fp
  | 0, s, fp, A, h, n, hk, hle, acc => by
    obtain rfl : n = 0 := by omega
    exact .inr ⟨rfl, by simp [readLoop], h, ⟨rfl, rfl, rfl, rfl, rfl⟩, .refl h.toVolOk, .inl rfl⟩
  | k + 1, s, fp, A, h, n, hk, hle, acc => by
    unfold readLoop
    by_cases h0 : n = 0
    · rw [if_pos h0]
      subst h0
      exact .inr ⟨rfl, by simp, h, ⟨rfl, rfl, rfl, rfl, rfl⟩, .refl h.toVolOk, .inl rfl⟩
    · rw [if_neg h0]
      rcases readRound_spec hg hd h (by omega) hle with hr | hr
      · rw [if_neg (show ¬ (readRound v s fp n).res = FR_OK from hr.2.1)]
        exact .inl ⟨hr.1, hr.2.1, hr.2.2.1, hr.2.2.2⟩
      · rw [if_pos (show (readRound v s fp n).res = FR_OK from hr.res)]
        have hp := hr.pos
        have hobj : (readRound v s fp n).fp.objsize = fp.objsize := hr.kept.1
        have key := readLoop_spec hg hd k hr.repr (n - (readRound v s fp n).got.length) (by omega)
          (by show fp.fptr + _ + _ ≤ (readRound v s fp n).fp.objsize; omega) (acc ++ (readRound v s fp n).got)
        rcases key with key | ⟨k1, k2, k3, k4, k5, k6⟩
        · exact .inl (key.mono hr.others)
        · refine .inr ⟨k1, ?_, ?_, ?_, hr.others.trans k5, Near.trans (fp1 := { (readRound v s fp n).fp with fptr := fp.fptr + (readRound v s fp n).got.length }) hr.near k6 (List.prefix_refl _)⟩
          · rw [k2, List.append_assoc, take_more hr.got hp.2]
          · rw [show A.pos + n = A.pos + (readRound v s fp n).got.length + (n - (readRound v s fp n).got.length) from by omega]
            exact k3
          · exact ⟨k4.1.trans hr.kept.1, k4.2.1.trans hr.kept.2.1, k4.2.2.1.trans hr.kept.2.2.1, k4.2.2.2.1.trans hr.kept.2.2.2.1, k4.2.2.2.2.trans hr.kept.2.2.2.2⟩

end Fpm.FatFile
