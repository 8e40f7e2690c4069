import Verif.FatFile.GrowLemmas
/-!
# Writing
-/
namespace Fpm.FatFile
open Fpm.Fat Fpm.Fat.Spec Fpm.FatFile.Spec

/-- What the file is open for. -/
def Flags (fp fp' : File) : Prop := fp'.canRead = fp.canRead ∧ fp'.canWrite = fp.canWrite ∧ fp'.err = fp.err

/-- After a round of writing. -/
structure DidWrite (v : Vol) (a b : List (List Nat)) (m : List Nat) (s : St) (fp : File) (A : Arr) (x : List Nat) (o : Out) : Prop where
  res : o.res = 0
  full : o.full = false
  pos : 0 < o.got.length
  got : o.got = x.take o.got.length
  repr : Repr v a b m o.st (moved o.fp o.got.length) ⟨overwrite A.data A.pos o.got, A.pos + o.got.length⟩
  flags : Flags fp o.fp
  others : Others v a b s o.st
  near : Near v m fp o.fp

theorem moved_size (fp : File) (n : Nat) : (moved fp n).objsize = max fp.objsize (fp.fptr + n) := by
  show (if fp.fptr + n > fp.objsize then fp.fptr + n else fp.objsize) = _
  split <;> omega

theorem overwrite_all {l b : List Nat} (h : l.length ≤ b.length) : overwrite l 0 b = b := by
  unfold overwrite
  rw [List.take_zero, List.drop_eq_nil_of_le (by omega)]
  simp

theorem get_lt {L : List Nat} {i n : Nat} (h : L[i]? = some n) : i < L.length := (List.getElem?_eq_some_iff.mp h).1

theorem mem256 {l x : List Nat} {p : Nat} (hl : ∀ y ∈ l, y < 256) (hx : ∀ y ∈ x, y < 256) : ∀ y ∈ overwrite l p x, y < 256 := by
  intro y hy
  unfold overwrite at hy
  rcases List.mem_append.mp hy with h | h
  · rcases List.mem_append.mp h with h | h
    · exact hl y (List.mem_of_mem_take h)
    · exact hx y h
  · exact hl y (List.mem_of_mem_drop h)

/-- The end of a position in the chain. -/
theorem pos_end {v : Vol} (p : Nat) {k : Nat} (hk : p / v.ss % v.csize * v.ss + p % v.ss + k ≤ bcs v) {m : List Nat} {c : Nat} (hc : m[p / bcs v]? = some c) :
    p + k ≤ m.length * bcs v := by
  have h1 := pos_eq v p
  have h2 : p / bcs v * bcs v + bcs v ≤ m.length * bcs v := by
    rw [← Nat.succ_mul]
    exact Nat.mul_le_mul_right _ (get_lt hc)
  omega

theorem sector_end {v : Vol} (hd : DataGeo v) (p : Nat) : p / v.ss % v.csize * v.ss + v.ss ≤ bcs v := by
  rw [← Nat.succ_mul]
  exact Nat.mul_le_mul_right _ (Nat.mod_lt _ (csize_pos hd))

/-- Into the buffer.  `d` is the data before. -/
theorem copyIn_spec {v : Vol} (hg : Geo v) (hd : DataGeo v) {a b : List (List Nat)} {m : List Nat} {s : St} {fp : File} {x : List Nat} {d : Disk} (hv : VolOk v a b m s)
    (hsc : fp.sclust = m.headD 0) (hbuf : Sec v fp.buf) (hsize : fp.objsize ≤ m.length * bcs v) (hsmall : fp.objsize < 2 ^ 32) (hp : fp.fptr ≤ fp.objsize) (he : fp.err = 0)
    (hc : m[fp.fptr / bcs v]? = some fp.clust) (hs : (secs v m)[fp.fptr / v.ss]? = some fp.sect) (hx : x ≠ []) (hx256 : ∀ y ∈ x, y < 256) (hlim : fp.fptr + x.length < 2 ^ 32)
    (hdl : ∀ n, (d n).length = v.ss) (hdd : ∀ n, n ≠ fp.sect → d n = s.disk n) (hcase : d fp.sect = fp.buf ∨ fp.fptr % v.ss = 0 ∧ fp.fptr = fp.objsize) :
    DidWrite v a b m s fp ⟨((secs v m).flatMap d).take fp.objsize, fp.fptr⟩ x (copyIn v x s fp) := by
  have hss := hg.ss.2
  have hm := Nat.mod_lt fp.fptr hss
  have hxl : 0 < x.length := List.length_pos_iff.mpr hx
  obtain ⟨o, ho⟩ : ∃ o, o = fp.fptr % v.ss := ⟨_, rfl⟩
  obtain ⟨y, hy⟩ : ∃ y, y = x.take (v.ss - o) := ⟨_, rfl⟩
  have hyl : y.length = min (v.ss - o) x.length := by rw [hy, List.length_take]
  have hdm := Nat.div_add_mod fp.fptr v.ss
  rw [Nat.mul_comm, ← ho] at hdm
  have hse := sector_end hd fp.fptr
  have hend := pos_end fp.fptr (k := y.length) (by omega) hc
  have hout : copyIn v x s fp = ⟨s, { fp with buf := overwrite fp.buf o y, dirty := true }, FR_OK, y, false⟩ := by
    unfold copyIn overwrite
    rw [← ho, ← hy, hyl]
  rw [hout]
  have hbl : (overwrite fp.buf o y).length = v.ss := by
    rw [overwrite_length (by rw [hbuf.1]; omega), hbuf.1]
    omega
  have hov : ∀ n, overlay s (moved { fp with buf := overwrite fp.buf o y, dirty := true } y.length) n = upd d fp.sect (overwrite fp.buf o y) n := by
    intro n
    unfold overlay moved upd
    simp only [true_and]
    split
    · rfl
    · rename_i hne
      exact (hdd n hne).symm
  have hwl : ((secs v m).flatMap d).length = m.length * bcs v := by
    rw [flat_length _ fun n _ => hdl n, secs_length, Nat.mul_assoc]
  have hcont : contents v m s (moved { fp with buf := overwrite fp.buf o y, dirty := true } y.length) = overwrite (((secs v m).flatMap d).take fp.objsize) fp.fptr y := by
    unfold contents
    rw [flat_congr fun n _ => hov n, moved_size]
    simp only
    rcases hcase with h1 | ⟨h1, h2⟩
    · rw [← h1, flat_upd hdl (hv.uniq hd) hs (by omega) hss, hdm, overwrite_take hp (by omega)]
    · have ho0 : o = 0 := by omega
      have e : overwrite (d fp.sect) 0 (overwrite fp.buf o y) = overwrite fp.buf o y := overwrite_all (by rw [hdl, hbl]; omega)
      have key := flat_upd hdl (hv.uniq hd) (b := overwrite fp.buf o y) (o := 0) hs (by omega) hss
      rw [e] at key
      rw [key, ho0]
      rw [ho0] at hdm hbl
      have hz : ∀ i, i < y.length → (overwrite fp.buf 0 y)[i]? = y[i]? := by
        intro i hi
        rw [overwrite_get (Nat.zero_le _), if_neg (by omega), if_pos (by omega), Nat.sub_zero]
      rw [Nat.add_zero] at hdm ⊢
      rw [hdm]
      generalize overwrite fp.buf 0 y = w at hz hbl
      refine List.ext_getElem? fun i => ?_
      rw [List.getElem?_take, overwrite_get (l := (secs v m).flatMap d) (by omega), overwrite_get (by rw [List.length_take]; omega), List.getElem?_take, hbl]
      by_cases i1 : i < fp.fptr
      · rw [if_pos (by omega : i < max fp.objsize (fp.fptr + y.length)), if_pos i1, if_pos i1, if_pos (by omega : i < fp.objsize)]
      · by_cases i2 : i < fp.fptr + y.length
        · rw [if_pos (by omega : i < max fp.objsize (fp.fptr + y.length)), if_neg i1, if_pos (by omega : i < fp.fptr + v.ss), if_neg i1, if_pos i2, hz _ (by omega)]
        · rw [if_neg (by omega : ¬ i < max fp.objsize (fp.fptr + y.length)), if_neg i1, if_neg i2, if_neg (by omega : ¬ i < fp.objsize)]
  refine ⟨rfl, rfl, by simp only; omega, ?_, ⟨⟨hv, hsc, ⟨hbl, ?_⟩, fun _ => ?_, (fun z => by cases z), ?_, ?_⟩, ?_, ?_, ?_, he, hcont.symm, rfl⟩, ⟨rfl, rfl, rfl⟩, .refl hv, .inl rfl⟩
  · simp only
    rw [hy, List.length_take]
    exact List.take_eq_take_min
  · exact mem256 hbuf.2 fun z hz => hx256 z (List.mem_of_mem_take (hy ▸ hz))
  · exact hv.secs_own (List.mem_of_getElem? hs)
  · rw [moved_size]
    show max fp.objsize (fp.fptr + y.length) ≤ m.length * bcs v
    omega
  · rw [moved_size]
    simp only
    omega
  · rw [moved_size]
    show fp.fptr + y.length ≤ max fp.objsize (fp.fptr + y.length)
    omega
  · intro _
    show m[(fp.fptr + y.length - 1) / bcs v]? = some fp.clust
    rw [← hc]
    congr 1
    have := pos_eq v fp.fptr
    exact div_unique (B := bcs v) (by omega) (by omega)
  · intro hne
    show (secs v m)[(fp.fptr + y.length) / v.ss]? = some fp.sect
    rw [← hs]
    congr 1
    refine div_unique (by omega) ?_
    by_cases hlt : x.length < v.ss - o
    · omega
    · exfalso
      apply hne
      show (fp.fptr + y.length) % v.ss = 0
      rw [hyl, Nat.min_eq_left (by omega), show fp.fptr + (v.ss - o) = (fp.fptr / v.ss + 1) * v.ss from by rw [Nat.add_mul]; omega]
      exact Nat.mul_mod_left ..

/-- Writing sectors in a row. -/
theorem flat_updN {d d' : Disk} {S : Nat} {L x : List Nat} (hS : 0 < S) (h : ∀ n, (d n).length = S) (h' : ∀ n, (d' n).length = S) (hu : Uniq L) {i n k : Nat}
    (hi : ∀ j, j < k → L[i + j]? = some (n + j)) (hk : 0 < k) (hx : k * S ≤ x.length)
    (hd : ∀ y, d' y = if n ≤ y ∧ y - n < k then (x.drop ((y - n) * S)).take S else d y) : L.flatMap d' = overwrite (L.flatMap d) (i * S) (x.take (k * S)) := by
  have hil := get_lt (hi 0 hk)
  have hlen : i * S ≤ (L.flatMap d).length := by
    rw [flat_length L fun y _ => h y]
    exact Nat.mul_le_mul_right S (by omega)
  refine List.ext_getElem? fun z => ?_
  rw [flat_get hS L fun y _ => h' y, overwrite_get hlen, List.length_take, Nat.min_eq_left hx, flat_get hS L fun y _ => h y]
  have hz := Nat.div_add_mod z S
  rw [Nat.mul_comm] at hz
  have hm := Nat.mod_lt z hS
  by_cases hin : i ≤ z / S ∧ z / S - i < k
  · have hL := hi _ hin.2
    rw [show i + (z / S - i) = z / S from by omega] at hL
    have e1 : z / S * S = i * S + (z / S - i) * S := by rw [← Nat.add_mul]; congr 1; omega
    have e2 : (z / S - i) * S + S ≤ k * S := by rw [← Nat.succ_mul]; exact Nat.mul_le_mul_right _ (by omega)
    rw [hL, Option.bind_some, hd, if_pos (by omega), List.getElem?_take, if_pos hm, List.getElem?_drop, if_neg (by omega), if_pos (by omega), List.getElem?_take, if_pos (by omega)]
    congr 1
    rw [show n + (z / S - i) - n = z / S - i from by omega]
    omega
  · have hout : ¬ (i * S ≤ z ∧ z < i * S + k * S) := by
      rintro ⟨h1, h2⟩
      have h3 : i ≤ z / S := (Nat.le_div_iff_mul_le hS).mpr h1
      have h4 : z / S < i + k := (Nat.div_lt_iff_lt_mul hS).mpr (by rw [Nat.add_mul]; exact h2)
      exact hin ⟨h3, by omega⟩
    have e : (L[z / S]?.bind fun y => (d' y)[z % S]?) = L[z / S]?.bind fun y => (d y)[z % S]? := by
      cases hy : L[z / S]? with
      | none => rfl
      | some y =>
        simp only [Option.bind_some]
        rw [hd, if_neg]
        rintro ⟨h1, h2⟩
        have := hi _ h2
        rw [show n + (y - n) = y from by omega] at this
        have := hu _ _ _ hy this
        exact hin ⟨by omega, by omega⟩
    rw [e]
    by_cases h1 : z < i * S
    · rw [if_pos h1]
    · rw [if_neg h1, if_neg (by omega)]

/-- Without the buffer. -/
theorem writeDirect_spec {v : Vol} (hg : Geo v) (hd : DataGeo v) {a b : List (List Nat)} {m : List Nat} {s : St} {fp : File} {x : List Nat} (h : Base v a b m s fp)
    (hclean : fp.dirty = false) {sect k : Nat} (hk : 0 < k) (hkx : k * v.ss ≤ x.length) (hkc : fp.fptr / v.ss % v.csize + k ≤ v.csize) (hp : fp.fptr % v.ss = 0)
    (hle : fp.fptr ≤ fp.objsize) (he : fp.err = 0) (hc : m[fp.fptr / bcs v]? = some fp.clust) (hs : (secs v m)[fp.fptr / v.ss]? = some sect) (hx256 : ∀ y ∈ x, y < 256)
    (hlim : fp.fptr + x.length < 2 ^ 32) :
    Failed v a b s (writeDirect v x sect k s fp) ∨ DidWrite v a b m s fp ⟨contents v m s fp, fp.fptr⟩ x (writeDirect v x sect k s fp) := by
  have hss := hg.ss.2
  have hrow : ∀ j, j < k → (secs v m)[fp.fptr / v.ss + j]? = some (sect + j) := fun j hj => sector_more hd hs (by omega)
  obtain ⟨s', ok, e, hv, ho, h1, h2⟩ := writeN_spec hg hd k h.toVolOk sect x hkx hx256 fun j hj => h.secs_own (List.mem_of_getElem? (hrow j hj))
  unfold writeDirect
  rw [e]
  cases ok with
  | false => exact .inl (failed_abort (h2 rfl) ho)
  | true =>
    right
    simp only [if_true]
    have h1 := h1 rfl
    have hdm := Nat.div_add_mod fp.fptr v.ss
    rw [Nat.mul_comm, hp, Nat.add_zero] at hdm
    have hk1 : v.ss ≤ k * v.ss := Nat.le_mul_of_pos_left _ hk
    have hyl : (x.take (v.ss * k)).length = k * v.ss := by rw [List.length_take, Nat.mul_comm]; omega
    have hcs : fp.fptr / v.ss % v.csize * v.ss + k * v.ss ≤ bcs v := by
      rw [← Nat.add_mul]
      exact Nat.mul_le_mul_right _ hkc
    have hend := pos_end fp.fptr (k := k * v.ss) (by omega) hc
    have hrd : (refilled v x sect k fp).dirty = false := by
      unfold refilled
      split
      · rfl
      · exact hclean
    have hrb : OwnSect v (a ++ b).flatten fp.sect → (refilled v x sect k fp).buf = s'.disk fp.sect := by
      intro hown
      rw [h1]
      unfold refilled
      split
      · rfl
      · exact h.clean hclean hown
    have hrbs : Sec v (refilled v x sect k fp).buf := by
      unfold refilled
      split
      · rename_i hin
        have := hv.inv.disk fp.sect
        rw [h1, if_pos hin] at this
        exact this
      · exact h.buf
    have hr : (refilled v x sect k fp).sect = fp.sect ∧ (refilled v x sect k fp).fptr = fp.fptr ∧ (refilled v x sect k fp).objsize = fp.objsize ∧
        (refilled v x sect k fp).sclust = fp.sclust ∧ (refilled v x sect k fp).clust = fp.clust ∧ (refilled v x sect k fp).err = fp.err ∧
        (refilled v x sect k fp).canRead = fp.canRead ∧ (refilled v x sect k fp).canWrite = fp.canWrite := by
      unfold refilled
      split <;> exact ⟨rfl, rfl, rfl, rfl, rfl, rfl, rfl, rfl⟩
    generalize hf : refilled v x sect k fp = f at hrd hrb hrbs hr
    obtain ⟨r1, r2, r3, r4, r5, r6, r7, r8⟩ := hr
    have hcont : contents v m s' (moved f (x.take (v.ss * k)).length) = overwrite (contents v m s fp) fp.fptr (x.take (v.ss * k)) := by
      unfold contents
      have e1 : ∀ n, overlay s' (moved f (x.take (v.ss * k)).length) n = s'.disk n := by
        intro n
        unfold overlay moved
        simp only
        rw [if_neg]
        rintro ⟨z, -⟩
        rw [hrd] at z
        cases z
      have e2 : ∀ n, overlay s fp n = s.disk n := by
        intro n
        unfold overlay
        rw [if_neg]
        rintro ⟨z, -⟩
        rw [hclean] at z
        cases z
      rw [flat_congr fun n _ => e1 n, flat_congr fun n _ => e2 n,
        flat_updN hss (fun n => (h.inv.disk n).1) (fun n => (hv.inv.disk n).1) (h.uniq hd) hrow hk hkx h1, moved_size, hyl, hdm, r2, r3, Nat.mul_comm v.ss k,
        overwrite_take hle, List.length_take, Nat.min_eq_left hkx]
      rw [flat_length _ fun n _ => (h.inv.disk n).1, secs_length, Nat.mul_assoc]
      exact h.size
    refine ⟨rfl, rfl, by simp only; omega, ?_, ⟨⟨hv, ?_, hrbs, ?_, ?_, ?_, ?_⟩, ?_, ?_, ?_, ?_, hcont.symm, ?_⟩, ⟨r7, r8, r6⟩, ho, .inl r1⟩
    · simp only
      rw [hyl, Nat.mul_comm]
    · exact r4.trans h.sclust
    · intro z
      change f.dirty = true at z
      rw [hrd] at z
      cases z
    · intro _ hown
      change OwnSect v (a ++ b).flatten f.sect at hown
      show f.buf = s'.disk f.sect
      rw [r1] at hown ⊢
      exact hrb hown
    · rw [moved_size, r2, r3, hyl]
      show max fp.objsize (fp.fptr + k * v.ss) ≤ m.length * bcs v
      have : fp.objsize ≤ m.length * bcs v := h.size
      omega
    · have := h.small
      rw [moved_size, r2, r3, hyl]
      omega
    · rw [moved_size, r2, r3]
      show f.fptr + _ ≤ _
      rw [r2]
      omega
    · intro _
      show m[(f.fptr + (x.take (v.ss * k)).length - 1) / bcs v]? = some f.clust
      rw [r5, r2, hyl, ← hc]
      congr 1
      have := pos_eq v fp.fptr
      exact div_unique (B := bcs v) (by omega) (by omega)
    · intro hne
      exfalso
      apply hne
      show (f.fptr + (x.take (v.ss * k)).length) % v.ss = 0
      rw [hyl, r2, Nat.add_mul_mod_self_right]
      exact hp
    · exact r6.trans he
    · show fp.fptr + _ = f.fptr + _
      rw [r2]

theorem overlay_clean {s : St} {fp : File} (h : fp.dirty = false) (n : Nat) : overlay s fp n = s.disk n := by
  unfold overlay
  rw [if_neg]
  rintro ⟨z, -⟩
  rw [h] at z
  cases z

/-- Through the buffer. -/
theorem writeCached_spec {v : Vol} (hg : Geo v) (hd : DataGeo v) {a b : List (List Nat)} {m : List Nat} {s : St} {fp : File} {x : List Nat} (h : Base v a b m s fp)
    (hclean : fp.dirty = false) {sect : Nat} (hp : fp.fptr % v.ss = 0) (hle : fp.fptr ≤ fp.objsize) (he : fp.err = 0) (hc : m[fp.fptr / bcs v]? = some fp.clust)
    (hs : (secs v m)[fp.fptr / v.ss]? = some sect) (hx : x ≠ []) (hx256 : ∀ y ∈ x, y < 256) (hlim : fp.fptr + x.length < 2 ^ 32) :
    Failed v a b s (writeCached v x sect s fp) ∨ DidWrite v a b m s fp ⟨contents v m s fp, fp.fptr⟩ x (writeCached v x sect s fp) := by
  have hcont : contents v m s fp = ((secs v m).flatMap s.disk).take fp.objsize := by
    unfold contents
    rw [flat_congr fun n _ => overlay_clean hclean n]
  have hown : OwnSect v (a ++ b).flatten sect := h.secs_own (List.mem_of_getElem? hs)
  rw [hcont]
  unfold writeCached
  split
  · refine fill_spec hg h hclean (P := fun o => Failed v a b s o ∨ DidWrite v a b m s fp ⟨((secs v m).flatMap s.disk).take fp.objsize, fp.fptr⟩ x o) (fun o ho => .inl ho)
      fun s2 hb2 hd2 ho2 => ?_
    right
    have key := copyIn_spec (x := x) (d := s.disk) hg hd hb2.toVolOk hb2.sclust hb2.buf hb2.size hb2.small hle he hc hs hx hx256 hlim (fun n => (h.inv.disk n).1)
      (fun n _ => by rw [hd2]) (.inl rfl)
    exact ⟨key.res, key.full, key.pos, key.got, key.repr, key.flags, ho2.trans key.others, .inr (List.mem_of_getElem? hs)⟩
  · rename_i hcond
    right
    have key := copyIn_spec (fp := { fp with sect := sect }) (x := x) (d := s.disk) hg hd h.toVolOk h.sclust h.buf h.size h.small hle he hc hs hx hx256 hlim
      (fun n => (h.inv.disk n).1) (fun n _ => rfl) ?_
    · exact ⟨key.res, key.full, key.pos, key.got, key.repr, key.flags, key.others, .inr (List.mem_of_getElem? hs)⟩
    · by_cases hsect : fp.sect = sect
      · left
        show s.disk sect = fp.buf
        rw [← hsect] at hown ⊢
        exact (h.clean hclean hown).symm
      · right
        have : ¬ fp.fptr < fp.objsize := fun hlt => hcond ⟨hsect, hlt⟩
        refine ⟨hp, ?_⟩
        show fp.fptr = fp.objsize
        omega

theorem writeHere_spec {v : Vol} (hg : Geo v) (hd : DataGeo v) {a b : List (List Nat)} {m : List Nat} {s : St} {fp : File} {x : List Nat} (h : Base v a b m s fp)
    (hclean : fp.dirty = false) (hp : fp.fptr % v.ss = 0) (hle : fp.fptr ≤ fp.objsize) (he : fp.err = 0) (hc : m[fp.fptr / bcs v]? = some fp.clust)
    (hx : x ≠ []) (hx256 : ∀ y ∈ x, y < 256) (hlim : fp.fptr + x.length < 2 ^ 32) :
    Failed v a b s (writeHere v x s fp) ∨ DidWrite v a b m s fp ⟨contents v m s fp, fp.fptr⟩ x (writeHere v x s fp) := by
  have hcm := h.mem (List.mem_of_getElem? hc)
  have hsec := sector_at hd hc hcm.1 hcm.2.1
  unfold writeHere
  rw [if_neg (clst2sect_ne hd hcm.1 hcm.2.1)]
  split
  · rename_i hq
    have hcs := csect_eq hd fp
    have hlt := Nat.mod_lt (fp.fptr / v.ss) (csize_pos hd)
    have hdl := direct_le (by omega) hq (cs := csect v fp)
    rw [hcs] at hdl ⊢
    rw [hcs] at hsec
    exact writeDirect_spec hg hd h hclean hdl.1 hdl.2.1 hdl.2.2 hp hle he hc hsec hx256 hlim
  · exact writeCached_spec hg hd h hclean hp hle he hc hsec hx hx256 hlim

theorem writeSector_spec {v : Vol} (hg : Geo v) (hd : DataGeo v) {a b : List (List Nat)} {m : List Nat} {s : St} {fp : File} {x : List Nat} (h : Base v a b m s fp)
    (hp : fp.fptr % v.ss = 0) (hle : fp.fptr ≤ fp.objsize) (he : fp.err = 0) (hc : m[fp.fptr / bcs v]? = some fp.clust)
    (hx : x ≠ []) (hx256 : ∀ y ∈ x, y < 256) (hlim : fp.fptr + x.length < 2 ^ 32) :
    Failed v a b s (writeSector v x s fp) ∨ DidWrite v a b m s fp ⟨contents v m s fp, fp.fptr⟩ x (writeSector v x s fp) := by
  unfold writeSector
  refine flush_spec hg hd h (P := fun o => Failed v a b s o ∨ DidWrite v a b m s fp ⟨contents v m s fp, fp.fptr⟩ x o) (fun o ho => .inl ho) fun s1 hb1 hd1 ho1 => ?_
  have key := writeHere_spec hg hd hb1 rfl hp hle he hc hx hx256 hlim
  have hcont : contents v m s1 { fp with dirty := false } = contents v m s fp := by
    unfold contents
    congr 1
    exact flat_congr fun n _ => by rw [overlay_clean rfl, hd1]
  rw [hcont] at key
  rcases key with key | key
  · exact .inl (key.mono ho1)
  · exact .inr ⟨key.res, key.full, key.pos, key.got, key.repr, key.flags, ho1.trans key.others, key.near⟩

/-- The file with more clusters. -/
theorem Base.grow {v : Vol} {a b : List (List Nat)} {m e : List Nat} {s s' : St} {fp : File} (h : Base v a b m s fp) (hv : VolOk v a b (m ++ e) s')
    (hs : SameData v (a ++ b).flatten s s') {c k : Nat} (hk : k = (m ++ e).headD 0) : Base v a b (m ++ e) s' { fp with clust := c, sclust := k } := by
  refine ⟨hv, hk, h.buf, h.own, fun h1 h2 => ?_, ?_, h.small⟩
  · show fp.buf = s'.disk fp.sect
    rw [hs _ h2]
    exact h.clean h1 h2
  · show fp.objsize ≤ _
    rw [List.length_append, Nat.add_mul]
    have := h.size
    omega

theorem contents_grow {v : Vol} {a b : List (List Nat)} {m e : List Nat} {s s' : St} {fp fp' : File} (h : Base v a b m s fp) (hs : SameData v (a ++ b).flatten s s')
    (h1 : fp'.objsize = fp.objsize) (h3 : fp'.sect = fp.sect) (h4 : fp'.buf = fp.buf) (h5 : fp'.dirty = fp.dirty) : contents v (m ++ e) s' fp' = contents v m s fp := by
  rw [contents_fields h1 h3 h4 h5, ← contents_same (fp := fp) h.toVolOk hs]
  unfold contents
  rw [secs_append, List.flatMap_append, List.take_append_of_le_length]
  rw [flat_length (S := v.ss), secs_length, Nat.mul_assoc]
  · exact h.size
  · intro n hn
    have := overlay_len h n
    unfold overlay at this ⊢
    rw [hs n (h.secs_own hn)]
    exact this

/-- The index of the cluster before the position. -/
theorem before_index {v : Vol} (hb : 0 < bcs v) {p : Nat} (hz : p = p / bcs v * bcs v) (h0 : p ≠ 0) : (p - 1) / (v.csize * v.ss) + 1 = p / bcs v := by
  have hnn := Nat.zero_le (p / bcs v)
  have h1 : p / bcs v ≠ 0 := by
    intro h1
    rw [h1] at hz
    omega
  have h3 : p = (p / bcs v - 1) * bcs v + bcs v := by
    rw [← Nat.succ_mul, show (p / bcs v - 1).succ = p / bcs v from by omega]
    exact hz
  have h2 : (p - 1) / bcs v = p / bcs v - 1 := div_unique (B := bcs v) (by omega) (by omega)
  have h4 : (p - 1) / (v.csize * v.ss) = (p - 1) / bcs v := rfl
  omega

/-- After a round in which no cluster was left. -/
structure WasFull (v : Vol) (a b : List (List Nat)) (m : List Nat) (s : St) (fp : File) (A : Arr) (o : Out) : Prop where
  res : o.res = 0
  full : o.full = true
  same : o.fp = fp
  repr : Repr v a b m o.st fp A
  pos : fp.fptr = capacity v (a ++ b).flatten
  others : Others v a b s o.st

theorem headD_append {m e : List Nat} (h : m ≠ []) : (m ++ e).headD 0 = m.headD 0 := by
  cases m with
  | nil => exact absurd rfl h
  | cons x m => rfl

theorem sclust_zero {v : Vol} {a b : List (List Nat)} {m : List Nat} {s : St} {fp : File} (h : Base v a b m s fp) : fp.sclust = 0 ↔ m = [] := by
  rw [h.sclust]
  cases hm : m with
  | nil => simp
  | cons x l =>
    have := (h.mem (c := x) (by rw [hm]; simp)).1
    simp
    omega

/-- One round. -/
theorem writeRound_spec {v : Vol} (hg : Geo v) (hd : DataGeo v) {a b : List (List Nat)} {m : List Nat} {s : St} {fp : File} {A : Arr} (h : Repr v a b m s fp A) {x : List Nat}
    (hx : x ≠ []) (hx256 : ∀ y ∈ x, y < 256) (hlim : fp.fptr + x.length < 2 ^ 32) :
    Failed v a b s (writeRound v s fp x) ∨ (∃ e, DidWrite v a b (m ++ e) s fp A x (writeRound v s fp x)) ∨ WasFull v a b m s fp A (writeRound v s fp x) := by
  have hA : A = ⟨contents v m s fp, fp.fptr⟩ := by
    rw [← h.data, ← h.at_]
  have hpos := bcs_pos hg hd
  have hnf := nFatent_lt hg
  have one : ∀ {o : Out}, Failed v a b s o ∨ DidWrite v a b m s fp ⟨contents v m s fp, fp.fptr⟩ x o →
      Failed v a b s o ∨ (∃ e, DidWrite v a b (m ++ e) s fp A x o) ∨ WasFull v a b m s fp A o := by
    intro o ho
    rcases ho with ho | ho
    · exact .inl ho
    · refine .inr (.inl ⟨[], ?_⟩)
      rw [List.append_nil, hA]
      exact ho
  unfold writeRound
  by_cases hp : fp.fptr % v.ss = 0
  · rw [if_pos hp]
    by_cases hcs : csect v fp = 0
    · rw [if_pos hcs]
      have hz := mod_zero hd hp hcs
      -- a cluster of the file, or a new one
      have go : ∀ c, (c = 0 ∧ m = [] ∧ fp.fptr / bcs v = 0 ∨ ∃ j, fp.fptr / bcs v = j + 1 ∧ m[j]? = some c) →
          Failed v a b s (grown fp (createChain v s c) (writeSector v x)) ∨ (∃ e, DidWrite v a b (m ++ e) s fp A x (grown fp (createChain v s c) (writeSector v x))) ∨
          WasFull v a b m s fp A (grown fp (createChain v s c) (writeSector v x)) := by
        intro c hc
        obtain ⟨s', r, e, ho, hr⟩ := grow_spec hg hd h.toVolOk hc
        rw [e]
        unfold grown
        simp only
        rcases hr with ⟨l, hv, hsd, hidx, r2, rn⟩ | ⟨rfl, hv, hsd, hroom, hlen⟩ | ⟨rfl, hs⟩
        · rw [if_neg (by unfold UB; omega), if_neg (by omega), if_neg (by omega), if_neg (by unfold DERR; omega)]
          have hhead : (if fp.sclust = 0 then r else fp.sclust) = (m ++ l).headD 0 := by
            by_cases hm : m = []
            · rw [if_pos ((sclust_zero h.toBase).mpr hm)]
              rcases hc with ⟨-, -, h0⟩ | ⟨j, -, hj⟩
              · rw [headD_get, ← h0, hidx]
                rfl
              · rw [hm] at hj
                cases hj
            · rw [if_neg fun z => hm ((sclust_zero h.toBase).mp z), headD_append hm]
              exact h.sclust
          have hb' := Base.grow (c := r) h.toBase hv hsd hhead
          have key := writeSector_spec hg hd hb' hp h.pos h.noErr hidx hx hx256 hlim
          rw [contents_grow (fp' := { fp with clust := r, sclust := if fp.sclust = 0 then r else fp.sclust }) h.toBase hsd rfl rfl rfl rfl] at key
          rcases key with key | key
          · exact .inl (key.mono ho)
          · refine .inr (.inl ⟨l, ?_⟩)
            rw [hA]
            exact ⟨key.res, key.full, key.pos, key.got, key.repr, key.flags, ho.trans key.others, key.near⟩
        · rw [if_neg (by decide), if_pos rfl]
          refine .inr (.inr ⟨rfl, rfl, rfl, ?_, ?_, ho⟩)
          · refine ⟨Base.same h.toBase hv hsd, h.pos, h.clust, h.sect, h.noErr, ?_, h.at_⟩
            rw [contents_same h.toVolOk hsd]
            exact h.data
          · unfold capacity
            rw [show v.nFatent - 2 - (a ++ b).flatten.length = m.length from by omega, hlen]
            exact hz
        · rw [if_neg (by decide), if_neg (by decide), if_neg (by decide), if_pos rfl]
          exact .inl (failed_abort hs ho)
      unfold stretched
      by_cases h0 : fp.fptr = 0
      · rw [if_pos h0]
        by_cases hsc : fp.sclust = 0
        · rw [if_pos hsc]
          exact go 0 (.inl ⟨rfl, (sclust_zero h.toBase).mp hsc, by rw [h0, Nat.zero_div]⟩)
        · rw [if_neg hsc]
          have hm : m[0]? = some fp.sclust := by
            have hm : m ≠ [] := fun z => hsc ((sclust_zero h.toBase).mpr z)
            rw [h.sclust, headD_get]
            rw [List.getElem?_eq_getElem (List.length_pos_iff.mpr hm)]
            rfl
          have hcm := h.mem (List.mem_of_getElem? hm)
          unfold grown
          simp only
          rw [if_neg (by have := hcm.2.1; unfold UB; omega), if_neg hsc, if_neg (by have := hcm.1; omega), if_neg (by have := hcm.2.1; unfold DERR; omega)]
          have key := writeSector_spec hg hd (Base.of_fields (fp' := { fp with clust := fp.sclust, sclust := if fp.sclust = 0 then fp.sclust else fp.sclust }) h.toBase rfl
            (by show (if fp.sclust = 0 then fp.sclust else fp.sclust) = fp.sclust; split <;> rfl) rfl rfl rfl) hp h.pos h.noErr
            (by show m[fp.fptr / bcs v]? = some fp.sclust; rw [h0, Nat.zero_div]; exact hm) hx hx256 hlim
          rw [contents_fields (fp' := { fp with clust := fp.sclust, sclust := if fp.sclust = 0 then fp.sclust else fp.sclust }) (fp := fp) rfl rfl rfl rfl] at key
          refine one ?_
          rcases key with key | key
          · exact .inl key
          · exact .inr ⟨key.res, key.full, key.pos, key.got, key.repr, key.flags, key.others, key.near⟩
      · rw [if_neg h0]
        exact go _ (.inr ⟨_, (before_index hpos hz h0).symm, h.clust (by omega)⟩)
    · rw [if_neg hcs]
      rw [csect_eq hd] at hcs
      have hsc := same_cluster hpos (.inr hcs)
      have hcl := h.clust hsc.1
      rw [show (fp.fptr - 1) / (v.csize * v.ss) = fp.fptr / bcs v from hsc.2] at hcl
      exact one (writeSector_spec hg hd h.toBase hp h.pos h.noErr hcl hx hx256 hlim)
  · rw [if_neg hp]
    have hsc := same_cluster hpos (.inl hp)
    have hcl := h.clust hsc.1
    rw [show (fp.fptr - 1) / (v.csize * v.ss) = fp.fptr / bcs v from hsc.2] at hcl
    refine one (.inr ?_)
    have hs := h.sect hp
    have hown : OwnSect v (a ++ b).flatten fp.sect := h.secs_own (List.mem_of_getElem? hs)
    refine copyIn_spec (d := overlay s fp) hg hd h.toVolOk h.sclust h.buf h.size h.small h.pos h.noErr hcl hs hx hx256 hlim (overlay_len h.toBase) (fun n hn => ?_) (.inl ?_)
    · unfold overlay
      rw [if_neg fun z => hn z.2]
    · unfold overlay
      by_cases hdirty : fp.dirty = true
      · rw [if_pos ⟨hdirty, rfl⟩]
      · rw [if_neg fun z => hdirty z.1]
        exact (h.clean (by simpa using hdirty) hown).symm

theorem size_room {v : Vol} {a b : List (List Nat)} {m : List Nat} {s : St} {fp : File} (h : Base v a b m s fp) : fp.objsize ≤ capacity v (a ++ b).flatten := by
  have h1 := h.size
  have h2 := room_le h.toVolOk
  unfold capacity
  exact Nat.le_trans h1 (Nat.mul_le_mul_right _ (by omega))

theorem contents_size {v : Vol} {a b : List (List Nat)} {m : List Nat} {s : St} {fp : File} {A : Arr} (h : Repr v a b m s fp A) : A.pos ≤ A.data.length := by
  rw [h.data, h.at_, contents_len h.toBase]
  exact h.pos

/-- What is known after a write. -/
structure Wrote (v : Vol) (a b : List (List Nat)) (m : List Nat) (s : St) (fp : File) (A : Arr) (x : List Nat) (acc : List Nat) (o : Out) (e : List Nat) (n : Nat) : Prop where
  res : o.res = 0
  count : n = min x.length (capacity v (a ++ b).flatten - A.pos)
  got : o.got = acc ++ x.take n
  repr : Repr v a b (m ++ e) o.st o.fp ⟨overwrite A.data A.pos (x.take n), A.pos + n⟩
  flags : Flags fp o.fp
  modified : o.fp.modified = true
  others : Others v a b s o.st
  near : Near v (m ++ e) fp o.fp

theorem Repr.of_fields {v : Vol} {a b : List (List Nat)} {m : List Nat} {s : St} {fp fp' : File} {A : Arr} (h : Repr v a b m s fp A) (h1 : fp'.objsize = fp.objsize)
    (h2 : fp'.sclust = fp.sclust) (h3 : fp'.sect = fp.sect) (h4 : fp'.buf = fp.buf) (h5 : fp'.dirty = fp.dirty) (h6 : fp'.fptr = fp.fptr) (h7 : fp'.clust = fp.clust)
    (h8 : fp'.err = fp.err) : Repr v a b m s fp' A :=
  ⟨Base.of_fields h.toBase h1 h2 h3 h4 h5, by rw [h6, h1]; exact h.pos, by rw [h6, h7]; exact h.clust, by rw [h6, h3]; exact h.sect, by rw [h8]; exact h.noErr,
   by rw [contents_fields h1 h3 h4 h5]; exact h.data, by rw [h6]; exact h.at_⟩

/-- Nothing more to write. -/
theorem wrote_none {v : Vol} {a b : List (List Nat)} {m : List Nat} {s s' : St} {fp : File} {A : Arr} (h : Repr v a b m s' fp A) {x acc : List Nat} {f : Bool}
    (hx : min x.length (capacity v (a ++ b).flatten - A.pos) = 0) (ho : Others v a b s s') :
    Wrote v a b m s fp A x acc ⟨s', { fp with modified := true }, FR_OK, acc, f⟩ [] 0 := by
  refine ⟨rfl, hx.symm, by simp, ?_, ⟨rfl, rfl, rfl⟩, rfl, ho, .inl rfl⟩
  rw [List.take_zero, overwrite_nil, List.append_nil, Nat.add_zero]
  exact Repr.of_fields h rfl rfl rfl rfl rfl rfl rfl rfl

/-- The loop. -/
theorem writeLoop_spec {v : Vol} (hg : Geo v) (hd : DataGeo v) {a b : List (List Nat)} : ∀ (k : Nat) {m : List Nat} {s : St} {fp : File} {A : Arr} (_ : Repr v a b m s fp A)
    (x : List Nat) (_ : x.length ≤ k) (_ : ∀ y ∈ x, y < 256) (_ : fp.fptr + x.length < 2 ^ 32) (acc : List Nat), Failed v a b s (writeLoop v k s fp x acc) ∨
      ∃ e n, Wrote v a b m s fp A x acc (writeLoop v k s fp x acc) e n
  | 0, m, s, fp, A, h, x, hk, h256, hlim, acc => by
    obtain rfl : x = [] := List.eq_nil_of_length_eq_zero (by omega)
    exact .inr ⟨[], 0, wrote_none h (by simp) (.refl h.toVolOk)⟩
  | k + 1, m, s, fp, A, h, x, hk, h256, hlim, acc => by
    unfold writeLoop
    by_cases hx : x = []
    · rw [if_pos hx]
      subst hx
      exact .inr ⟨[], 0, wrote_none h (by simp) (.refl h.toVolOk)⟩
    · rw [if_neg hx]
      rcases writeRound_spec hg hd h hx h256 hlim with hr | ⟨e, hr⟩ | hr
      · rw [if_pos (show (writeRound v s fp x).res ≠ FR_OK from hr.2.1)]
        exact .inl ⟨hr.1, hr.2.1, hr.2.2.1, hr.2.2.2⟩
      · rw [if_neg (show ¬ (writeRound v s fp x).res ≠ FR_OK from fun z => z hr.res), hr.full, if_neg (by decide)]
        have hgot := hr.got
        have hp := hr.pos
        have hrep := hr.repr
        have hfl := hr.flags
        have hoth := hr.others
        have hnear := hr.near
        generalize (writeRound v s fp x).got = g at *
        generalize (writeRound v s fp x).fp = f1 at *
        generalize (writeRound v s fp x).st = s1 at *
        have hgl : g.length ≤ x.length := by
          have := congrArg List.length hgot
          rw [List.length_take] at this
          omega
        have hptr : (moved f1 g.length).fptr = fp.fptr + g.length := by
          have h1 := hrep.at_
          have h2 := h.at_
          rw [← h1, ← h2]
        have key := writeLoop_spec hg hd k hrep (x.drop g.length) (by rw [List.length_drop]; omega) (fun y hy => h256 y (List.mem_of_mem_drop hy))
          (by rw [hptr, List.length_drop]; omega) (acc ++ g)
        rcases key with key | ⟨e', n, k1, k2, k3, k4, k5, k6, k7, k8⟩
        · exact .inl (key.mono hoth)
        · right
          have hcap := size_room hrep.toBase
          have hpos := hrep.pos
          have hat := h.at_
          rw [hptr] at hpos
          refine ⟨e ++ e', g.length + n, k1, ?_, ?_, ?_, ⟨k5.1.trans hfl.1, k5.2.1.trans hfl.2.1, k5.2.2.trans hfl.2.2⟩, k6, hoth.trans k7,
            by rw [← List.append_assoc]; exact Near.trans (fp1 := moved f1 g.length) hnear k8 (List.prefix_append _ _)⟩
          · rw [k2, List.length_drop]
            simp only
            omega
          · rw [k3, List.take_add, ← hgot, List.append_assoc]
          · rw [← List.append_assoc]
            have := overwrite_two (c := (x.drop g.length).take n) (b := g) (contents_size h)
            rw [List.take_add, ← hgot, ← this, ← Nat.add_assoc]
            exact k4
      · rw [if_neg (show ¬ (writeRound v s fp x).res ≠ FR_OK from fun z => z hr.res), if_pos hr.full, hr.same]
        refine .inr ⟨[], 0, wrote_none hr.repr ?_ hr.others⟩
        have := hr.pos
        rw [h.at_]
        omega

/-- After an operation that did not fail.  The chain can only have become longer, unless the file has been cut. -/
def Did (v : Vol) (a b : List (List Nat)) (m : List Nat) (s : St) (fp : File) (A : Arr) (op : Op) (o : Out) : Prop :=
  ∃ m' A', Ran (capacity v (a ++ b).flatten) fp.canRead fp.canWrite A op o.res o.got A' ∧ Repr v a b m' o.st o.fp A' ∧ Flags fp o.fp ∧ Others v a b s o.st ∧
    (op = .truncate ∧ fp.canWrite = true ∧ A.pos < A.data.length ∨ m <+: m' ∧ Near v m' fp o.fp)

/-- `f_write`. -/
theorem write_spec {v : Vol} (hg : Geo v) (hd : DataGeo v) {a b : List (List Nat)} {m : List Nat} {s : St} {fp : File} {A : Arr} (h : Repr v a b m s fp A) (x : List Nat)
    (h256 : ∀ y ∈ x, y < 256) (hlim : x.length < 2 ^ 32) : Failed v a b s (fWrite v s fp x) ∨ Did v a b m s fp A (.write x) (fWrite v s fp x) := by
  unfold fWrite
  rw [if_neg (fun z => z h.noErr)]
  by_cases hw : fp.canWrite = false
  · rw [if_pos hw]
    refine .inr ⟨m, A, ?_, h, ⟨rfl, rfl, rfl⟩, .refl h.toVolOk, .inr ⟨List.prefix_refl _, .inl rfl⟩⟩
    rw [hw]
    exact .denyWrite _ _ rfl
  · rw [if_neg hw]
    have hsm := h.small
    have hpo := h.pos
    have hcl : clipped fp x = x.take (0xFFFFFFFF - fp.fptr) := by
      unfold clipped
      rw [Nat.mod_eq_of_lt (a := fp.fptr) (by omega)]
      split
      · rfl
      · rename_i hcond
        rw [List.take_of_length_le]
        by_cases hbig : fp.fptr + x.length < 2 ^ 32
        · omega
        · exfalso
          apply hcond
          rw [Nat.mod_eq_sub_mod (by omega), Nat.mod_eq_of_lt (by omega)]
          omega
    have hlen : (clipped fp x).length = min (0xFFFFFFFF - fp.fptr) x.length := by
      rw [hcl, List.length_take]
    rcases writeLoop_spec hg hd (clipped fp x).length h (clipped fp x) (Nat.le_refl _) (fun y hy => by rw [hcl] at hy; exact h256 y (List.mem_of_mem_take hy)) (by omega) [] with
      hr | ⟨e, n, hr⟩
    · exact .inl hr
    · refine .inr ⟨m ++ e, _, ?_, hr.repr, hr.flags, hr.others, .inr ⟨List.prefix_append _ _, hr.near⟩⟩
      rw [hr.res, hr.got, List.nil_append]
      have hn := hr.count
      rw [hlen] at hn
      have hat := h.at_
      have : (clipped fp x).take n = x.take n := by
        rw [hcl, List.take_take]
        congr 1
        omega
      rw [this]
      refine .write A x n (by simpa using hw) ?_
      unfold limit
      omega

end Fpm.FatFile
