import Verif.FatFile.WriteLemmas
/-!
# Reading as a whole, and moving
-/
namespace Fpm.FatFile
open Fpm.Fat Fpm.Fat.Spec Fpm.FatFile.Spec

/-- `f_read`. -/
theorem read_spec {v : Vol} (hg : Geo v) (hd : DataGeo v) {a b : List (List Nat)} {m : List Nat} {s : St} {fp : File} {A : Arr} (h : Repr v a b m s fp A) (n : Nat) :
    Failed v a b s (fRead v s fp n) ∨ Did v a b m s fp A (.read n) (fRead v s fp n) := by
  unfold fRead
  rw [if_neg (fun z => z h.noErr)]
  by_cases hr : fp.canRead = false
  · rw [if_pos hr]
    refine .inr ⟨m, A, ?_, h, ⟨rfl, rfl, rfl⟩, .refl h.toVolOk, .inr ⟨List.prefix_refl _, .inl rfl⟩⟩
    rw [hr]
    exact .denyRead _ _ rfl
  · rw [if_neg hr]
    have hpos := h.pos
    have hlen : A.data.length = fp.objsize := by rw [h.data, contents_len h.toBase]
    have hat := h.at_
    rcases readLoop_spec hg hd (min n (fp.objsize - fp.fptr)) h (min n (fp.objsize - fp.fptr)) (Nat.le_refl _) (by omega) [] with hf | ⟨k1, k2, k3, k4, k5, k6⟩
    · exact .inl hf
    · refine .inr ⟨m, _, ?_, k3, ⟨k4.2.2.1, k4.2.2.2.1, k4.2.2.2.2⟩, k5, .inr ⟨List.prefix_refl _, k6⟩⟩
      rw [k1, k2, List.nil_append]
      have htake : (A.data.drop A.pos).take (min n (fp.objsize - fp.fptr)) = (A.data.drop A.pos).take n := by
        rw [← List.take_take, List.take_of_length_le (l := A.data.drop A.pos) (by rw [List.length_drop]; omega)]
      have := Ran.read (K := capacity v (a ++ b).flatten) (rd := fp.canRead) (wr := fp.canWrite) A n (by simpa using hr)
      have hl : ((A.data.drop A.pos).take n).length = min n (fp.objsize - fp.fptr) := by
        rw [List.length_take, List.length_drop, hlen, hat]
      rw [hl] at this
      rw [htake]
      exact this

/-- The end of `f_lseek`. -/
structure Sought (v : Vol) (a b : List (List Nat)) (m : List Nat) (s : St) (fp : File) (A : Arr) (o : Out) : Prop where
  res : o.res = 0
  got : o.got = []
  repr : Repr v a b m o.st o.fp A
  flags : Flags fp o.fp
  others : Others v a b s o.st
  near : Near v m fp o.fp

theorem seekFill_spec {v : Vol} (hg : Geo v) (hd : DataGeo v) {a b : List (List Nat)} {m : List Nat} {s : St} {fp : File} (h : Base v a b m s fp) {nsect : Nat}
    (hle : fp.fptr ≤ fp.objsize) (he : fp.err = 0) (hc : 0 < fp.fptr → m[(fp.fptr - 1) / (v.csize * v.ss)]? = some fp.clust)
    (hs : fp.fptr % v.ss ≠ 0 → (secs v m)[fp.fptr / v.ss]? = some nsect) :
    Failed v a b s (seekFill v nsect s fp) ∨ Sought v a b m s fp ⟨contents v m s fp, fp.fptr⟩ (seekFill v nsect s fp) := by
  unfold seekFill
  by_cases hcond : fp.fptr % v.ss ≠ 0 ∧ nsect ≠ fp.sect
  · rw [if_pos hcond]
    refine flush_spec hg hd h (P := fun o => Failed v a b s o ∨ Sought v a b m s fp ⟨contents v m s fp, fp.fptr⟩ o) (fun o ho => .inl ho) fun s1 hb1 hd1 ho1 => ?_
    refine fill_spec hg hb1 rfl (P := fun o => Failed v a b s o ∨ Sought v a b m s fp ⟨contents v m s fp, fp.fptr⟩ o) (fun o ho => .inl (ho.mono ho1)) fun s2 hb2 hd2 ho2 => ?_
    right
    refine ⟨rfl, rfl, ⟨hb2, hle, hc, hs, he, ?_, rfl⟩, ⟨rfl, rfl, rfl⟩, ho1.trans ho2, .inr (List.mem_of_getElem? (hs hcond.1))⟩
    show contents v m s fp = contents v m s2 _
    unfold contents
    congr 1
    refine flat_congr fun n _ => ?_
    exact ((overlay_clean (s := s2) rfl n).trans (by rw [hd2, hd1])).symm
  · rw [if_neg hcond]
    right
    refine ⟨rfl, rfl, ⟨h, hle, hc, fun hp => ?_, he, rfl, rfl⟩, ⟨rfl, rfl, rfl⟩, .refl h.toVolOk, .inl rfl⟩
    have : nsect = fp.sect := Decidable.byContradiction fun z => hcond ⟨hp, z⟩
    show (secs v m)[fp.fptr / v.ss]? = some fp.sect
    rw [← this]
    exact hs hp

theorem extended_size (fp : File) : (extended fp).objsize = max fp.objsize fp.fptr := by
  unfold extended
  split
  · show fp.fptr = _
    omega
  · omega

theorem extended_rest (fp : File) : (extended fp).fptr = fp.fptr ∧ (extended fp).sclust = fp.sclust ∧ (extended fp).clust = fp.clust ∧ (extended fp).sect = fp.sect ∧
    (extended fp).buf = fp.buf ∧ (extended fp).dirty = fp.dirty ∧ Flags fp (extended fp) := by
  unfold extended
  split
  · exact ⟨rfl, rfl, rfl, rfl, rfl, rfl, rfl, rfl, rfl⟩
  · exact ⟨rfl, rfl, rfl, rfl, rfl, rfl, rfl, rfl, rfl⟩

/-- A larger size. -/
theorem Base.larger {v : Vol} {a b : List (List Nat)} {m : List Nat} {s : St} {fp fp' : File} (h : Base v a b m s fp) (h1 : fp'.objsize ≤ m.length * (v.csize * v.ss))
    (hlt : fp'.objsize < 2 ^ 32) (h2 : fp'.sclust = fp.sclust) (h3 : fp'.sect = fp.sect) (h4 : fp'.buf = fp.buf) (h5 : fp'.dirty = fp.dirty) : Base v a b m s fp' :=
  ⟨h.toVolOk, by rw [h2]; exact h.sclust, by rw [h4]; exact h.buf, by rw [h5, h3]; exact h.own, by rw [h5, h3, h4]; exact h.clean, h1, hlt⟩

theorem contents_larger {v : Vol} {m : List Nat} {s : St} {fp fp' : File} (h1 : fp.objsize ≤ fp'.objsize) (h3 : fp'.sect = fp.sect) (h4 : fp'.buf = fp.buf)
    (h5 : fp'.dirty = fp.dirty) : ∃ junk, contents v m s fp' = contents v m s fp ++ junk := by
  refine ⟨(((secs v m).flatMap (overlay s fp)).take fp'.objsize).drop fp.objsize, ?_⟩
  have : overlay s fp' = overlay s fp := by
    funext n
    unfold overlay
    rw [h3, h4, h5]
  unfold contents
  rw [this]
  have h2 : ((secs v m).flatMap (overlay s fp)).take fp.objsize = (((secs v m).flatMap (overlay s fp)).take fp'.objsize).take fp.objsize := by
    rw [List.take_take, Nat.min_eq_left h1]
  rw [h2, List.take_append_drop]

/-- On the way: `q` clusters of the file are behind. -/
structure At (v : Vol) (a b : List (List Nat)) (m : List Nat) (s : St) (fp : File) (D : List Nat) (q : Nat) : Prop extends Base v a b m s fp where
  ptr : fp.fptr = q * bcs v
  total : fp.objsize = max D.length (q * bcs v)
  data : ∃ junk, contents v m s fp = D ++ junk
  noErr : fp.err = 0

/-- The position `T` has been reached, or the end of the room. -/
def Reached (v : Vol) (a b : List (List Nat)) (m : List Nat) (s : St) (fp : File) (D : List Nat) (T : Nat) (o : Out) : Prop :=
  ∃ m' junk, m <+: m' ∧ Sought v a b m' s fp ⟨D ++ junk, min T (capacity v (a ++ b).flatten)⟩ o ∧ D.length + junk.length = max D.length (min T (capacity v (a ++ b).flatten))

theorem Reached.mono {v : Vol} {a b : List (List Nat)} {m m' : List Nat} {s s' : St} {fp fp' : File} {D : List Nat} {T : Nat} {o : Out} (h : Reached v a b m' s' fp' D T o)
    (ho : Others v a b s s') (hf : Flags fp fp') (hm : m <+: m') (hs : fp'.sect = fp.sect) : Reached v a b m s fp D T o := by
  obtain ⟨m1, junk, h0, h1, h2⟩ := h
  exact ⟨m1, junk, hm.trans h0, ⟨h1.res, h1.got, h1.repr, ⟨h1.flags.1.trans hf.1, h1.flags.2.1.trans hf.2.1, h1.flags.2.2.trans hf.2.2⟩, ho.trans h1.others,
    h1.near.imp (fun z => z.trans hs) id⟩, h2⟩

theorem seekEnd_spec {v : Vol} (hg : Geo v) (hd : DataGeo v) {a b : List (List Nat)} {m : List Nat} {s : St} {fp : File} {D : List Nat} (h : Base v a b m s fp) {nsect T : Nat}
    (hdata : ∃ junk, contents v m s fp = D ++ junk) (htot : fp.objsize ≤ max D.length fp.fptr)
    (hroom : fp.fptr ≤ m.length * (v.csize * v.ss)) (hlt : fp.fptr < 2 ^ 32) (he : fp.err = 0) (hc : 0 < fp.fptr → m[(fp.fptr - 1) / (v.csize * v.ss)]? = some fp.clust)
    (hs : fp.fptr % v.ss ≠ 0 → (secs v m)[fp.fptr / v.ss]? = some nsect) (hT : fp.fptr = min T (capacity v (a ++ b).flatten)) :
    Failed v a b s (seekEnd v nsect s fp) ∨ Reached v a b m s fp D T (seekEnd v nsect s fp) := by
  have hsz := extended_size fp
  obtain ⟨e1, e2, e3, e4, e5, e6, e7⟩ := extended_rest fp
  have h1 := h.size
  have h2 := h.small
  have hb : Base v a b m s (extended fp) := Base.larger h (by rw [hsz]; omega) (by rw [hsz]; omega) e2 e4 e5 e6
  obtain ⟨junk, hj⟩ := hdata
  obtain ⟨junk', hj'⟩ := contents_larger (v := v) (m := m) (s := s) (fp := fp) (fp' := extended fp) (by omega) e4 e5 e6
  have hDlen : D.length ≤ fp.objsize := by
    have := contents_len h
    rw [hj, List.length_append] at this
    omega
  unfold seekEnd
  rcases seekFill_spec hg hd hb (nsect := nsect) (by omega) (e7.2.2.trans he) (by rw [e1, e3]; exact hc) (by rw [e1]; exact hs) with hf | hk
  · exact .inl hf
  · right
    refine ⟨m, junk ++ junk', List.prefix_refl _, ⟨hk.res, hk.got, ?_, ⟨hk.flags.1.trans e7.1, hk.flags.2.1.trans e7.2.1, hk.flags.2.2.trans e7.2.2⟩, hk.others, hk.near.imp (fun z => z.trans e4) id⟩, ?_⟩
    · have := hk.repr
      rw [hj', hj, e1, List.append_assoc, hT] at this
      exact this
    · have hl := contents_len hb
      rw [hj', hj, List.length_append, List.length_append] at hl
      rw [List.length_append]
      omega

theorem seekHere_spec {v : Vol} (hg : Geo v) (hd : DataGeo v) {a b : List (List Nat)} {m : List Nat} {s : St} {fp : File} {D : List Nat} {q : Nat} (h : At v a b m s fp D q)
    {ofs T : Nat} (hofs : 0 < ofs) (hle : ofs ≤ bcs v) (hT : T = q * bcs v + ofs) (hlt : T < 2 ^ 32) (hc : m[q]? = some fp.clust) :
    Failed v a b s (seekHere v s fp ofs fp.clust) ∨ Reached v a b m s fp D T (seekHere v s fp ofs fp.clust) := by
  have hp := h.ptr
  have hcm := h.mem (List.mem_of_getElem? hc)
  have hq : q < m.length := (List.getElem?_eq_some_iff.mp hc).1
  have hroom : (q + 1) * bcs v ≤ m.length * bcs v := Nat.mul_le_mul_right _ hq
  rw [Nat.succ_mul] at hroom
  have hcap : m.length * bcs v ≤ capacity v (a ++ b).flatten := by
    have := room_le h.toVolOk
    unfold capacity
    exact Nat.mul_le_mul_right _ (by omega)
  have key : ∀ nsect, ((fp.fptr + ofs) % v.ss ≠ 0 → (secs v m)[(fp.fptr + ofs) / v.ss]? = some nsect) → Failed v a b s (seekEnd v nsect s { fp with fptr := fp.fptr + ofs }) ∨
      Reached v a b m s fp D T (seekEnd v nsect s { fp with fptr := fp.fptr + ofs }) := by
    intro nsect hs
    have hb : Base v a b m s { fp with fptr := fp.fptr + ofs } := Base.of_fields h.toBase rfl rfl rfl rfl rfl
    have htot := h.total
    have hcl : m[(fp.fptr + ofs - 1) / bcs v]? = some fp.clust := by
      rw [div_unique (q := q) (by omega) (by omega)]
      exact hc
    rcases seekEnd_spec (D := D) (T := T) hg hd hb (nsect := nsect) h.data (by show fp.objsize ≤ max _ (fp.fptr + ofs); omega)
      (by show fp.fptr + ofs ≤ m.length * bcs v; omega) (by show fp.fptr + ofs < 2 ^ 32; omega) h.noErr (fun _ => hcl) hs (by show fp.fptr + ofs = _; omega) with hf | hk
    · exact .inl hf
    · exact .inr (hk.mono (.refl h.toVolOk) ⟨rfl, rfl, rfl⟩ (List.prefix_refl _) rfl)
  have hss := hg.ss.2
  have hbss : bcs v % v.ss = 0 := Nat.mul_mod_left _ _
  have hqs : (fp.fptr + ofs) % v.ss = ofs % v.ss := by
    rw [hp, Nat.add_mod, Nat.mul_mod, hbss, Nat.mul_zero, Nat.zero_mod, Nat.zero_add, Nat.mod_mod]
  unfold seekHere
  by_cases ho : ofs % v.ss ≠ 0
  · rw [if_pos ho, if_neg (clst2sect_ne hd hcm.1 hcm.2.1)]
    refine key _ fun _ => ?_
    have hne : ofs ≠ bcs v := by
      intro z
      rw [z] at ho
      exact ho hbss
    have hdv : (fp.fptr + ofs) / bcs v = q := div_unique (by omega) (by omega)
    have := sector_at hd (fp := { fp with fptr := fp.fptr + ofs }) (m := m) (c := fp.clust) (by show m[(fp.fptr + ofs) / bcs v]? = _; rw [hdv]; exact hc) hcm.1 hcm.2.1
    rw [csect_eq hd] at this
    have hx : (fp.fptr + ofs) / v.ss % v.csize = ofs / v.ss := by
      rw [hp, show q * bcs v = v.ss * (q * v.csize) from by rw [Nat.mul_comm v.ss, Nat.mul_assoc], Nat.mul_add_div hss, Nat.add_comm, Nat.add_mul_mod_self_right, Nat.mod_eq_of_lt]
      exact (Nat.div_lt_iff_lt_mul hss).mpr (by show ofs < bcs v; omega)
    have h2 : (secs v m)[(fp.fptr + ofs) / v.ss]? = some (clst2sect v fp.clust + (fp.fptr + ofs) / v.ss % v.csize) := this
    rw [hx] at h2
    exact h2
  · rw [if_neg ho]
    exact key 0 fun z => absurd (hqs ▸ z) ho

/-- One cluster further. -/
theorem step_spec {v : Vol} {a b : List (List Nat)} {m : List Nat} {s : St} {fp : File} {D : List Nat} {q : Nat} (h : At v a b m s fp D q) (hq : q < m.length)
    (hlt : (q + 1) * bcs v < 2 ^ 32) (hw : fp.canWrite = true ∨ (q + 1) * bcs v ≤ D.length) :
    At v a b m s (seekStep v fp) D (q + 1) ∧ Flags fp (seekStep v fp) ∧ (seekStep v fp).clust = fp.clust ∧ (seekStep v fp).sect = fp.sect := by
  have hroom : (q + 1) * bcs v ≤ m.length * bcs v := Nat.mul_le_mul_right _ hq
  have hp := h.ptr
  have htot := h.total
  have hsz := h.size
  have hsm := h.small
  have hsucc : (q + 1) * bcs v = q * bcs v + bcs v := Nat.succ_mul _ _
  have hptr : fp.fptr + v.csize * v.ss = (q + 1) * bcs v := by
    show fp.fptr + bcs v = _
    omega
  unfold seekStep
  by_cases hcw : fp.canWrite = true
  · rw [if_pos hcw]
    have hz := extended_size { fp with fptr := fp.fptr + v.csize * v.ss }
    obtain ⟨e1, e2, e3, e4, e5, e6, e7⟩ := extended_rest { fp with fptr := fp.fptr + v.csize * v.ss }
    generalize extended { fp with fptr := fp.fptr + v.csize * v.ss } = f at *
    simp only at hz e1 e2 e3 e4 e5 e6
    rw [hptr] at hz e1
    obtain ⟨junk, hj⟩ := h.data
    obtain ⟨junk', hj'⟩ := contents_larger (v := v) (m := m) (s := s) (fp := fp) (fp' := f) (by omega) e4 e5 e6
    refine ⟨⟨Base.larger h.toBase (by rw [hz]; exact Nat.max_le.mpr ⟨hsz, hroom⟩) (by omega) e2 e4 e5 e6, e1, by omega, ⟨junk ++ junk', ?_⟩, e7.2.2.trans h.noErr⟩, e7, e3, e4⟩
    rw [hj', hj, List.append_assoc]
  · rw [if_neg hcw]
    have := hw.resolve_left hcw
    exact ⟨⟨Base.of_fields h.toBase rfl rfl rfl rfl rfl, hptr, by show fp.objsize = _; omega, h.data, h.noErr⟩, ⟨rfl, rfl, rfl⟩, rfl, rfl⟩

/-- The file with more clusters. -/
theorem At.grow {v : Vol} {a b : List (List Nat)} {m e : List Nat} {s s' : St} {fp fp' : File} {D : List Nat} {q : Nat} (h : At v a b m s fp D q) (hv : VolOk v a b (m ++ e) s')
    (hs : SameData v (a ++ b).flatten s s') (h1 : fp'.objsize = fp.objsize) (h2 : fp'.sclust = (m ++ e).headD 0) (h3 : fp'.sect = fp.sect) (h4 : fp'.buf = fp.buf)
    (h5 : fp'.dirty = fp.dirty) (h6 : fp'.fptr = fp.fptr) (h7 : fp'.err = fp.err) : At v a b (m ++ e) s' fp' D q := by
  refine ⟨⟨hv, h2, by rw [h4]; exact h.buf, by rw [h5, h3]; exact h.own, ?_, ?_, by rw [h1]; exact h.small⟩, h6.trans h.ptr, h1.trans h.total, ?_, h7.trans h.noErr⟩
  · rw [h5, h3, h4]
    intro z1 z2
    rw [hs _ z2]
    exact h.clean z1 z2
  · rw [h1, List.length_append, Nat.add_mul]
    have := h.size
    omega
  · rw [contents_grow h.toBase hs h1 h3 h4 h5]
    exact h.data

theorem At.same {v : Vol} {a b : List (List Nat)} {m : List Nat} {s s' : St} {fp fp' : File} {D : List Nat} {q : Nat} (h : At v a b m s fp D q) (hv : VolOk v a b m s')
    (hs : SameData v (a ++ b).flatten s s') (h1 : fp'.objsize = fp.objsize) (h2 : fp'.sclust = fp.sclust) (h3 : fp'.sect = fp.sect) (h4 : fp'.buf = fp.buf)
    (h5 : fp'.dirty = fp.dirty) (h6 : fp'.fptr = fp.fptr) (h7 : fp'.err = fp.err) : At v a b m s' fp' D q := by
  have := At.grow (e := []) h (by rw [List.append_nil]; exact hv) hs h1 (by rw [List.append_nil, h2]; exact h.sclust) h3 h4 h5 h6 h7
  rwa [List.append_nil] at this

/-- No cluster is left. -/
theorem full_spec {v : Vol} (hg : Geo v) (hd : DataGeo v) {a b : List (List Nat)} {m : List Nat} {s : St} {fp : File} {D : List Nat} {q T : Nat} (h : At v a b m s fp D q)
    (hc : 0 < q → m[q - 1]? = some fp.clust) (hfull : m.length + (a ++ b).flatten.length = v.nFatent - 2) (hlen : m.length = q) (hT : q * bcs v ≤ T) (hlt : T < 2 ^ 32) :
    Failed v a b s (seekEnd v 0 s fp) ∨ Reached v a b m s fp D T (seekEnd v 0 s fp) := by
  have hpos := bcs_pos hg hd
  have hp := h.ptr
  have htot := h.total
  have hcap : capacity v (a ++ b).flatten = q * bcs v := by
    unfold capacity
    rw [show v.nFatent - 2 - (a ++ b).flatten.length = q from by omega]
  refine seekEnd_spec hg hd h.toBase h.data (by omega) (by rw [hlen]; exact Nat.le_of_eq hp) (by omega) h.noErr (fun h0 => ?_) (fun z => ?_) (by omega)
  · have hq : 0 < q := by
      rcases Nat.eq_zero_or_pos q with z | z
      · rw [z, Nat.zero_mul] at hp
        omega
      · exact z
    have : q * bcs v = (q - 1) * bcs v + bcs v := by
      rw [← Nat.succ_mul, show (q - 1).succ = q from by omega]
    have hdv : (fp.fptr - 1) / bcs v = q - 1 := div_unique (by omega) (by omega)
    show m[(fp.fptr - 1) / bcs v]? = _
    rw [hdv]
    exact hc hq
  · rw [hp, Nat.mul_mod, show bcs v % v.ss = 0 from Nat.mul_mod_left _ _, Nat.mul_zero, Nat.zero_mod] at z
    exact absurd rfl z

theorem seekLoop_spec {v : Vol} (hg : Geo v) (hd : DataGeo v) {a b : List (List Nat)} {D : List Nat} {T : Nat} (hlt : T < 2 ^ 32) : ∀ (k : Nat) {m : List Nat} {s : St} {fp : File}
    {q ofs : Nat} (_ : At v a b m s fp D q) (_ : 0 < ofs) (_ : ofs < k) (_ : T = q * bcs v + ofs) (_ : m[q]? = some fp.clust)
    (_ : fp.canWrite = true ∨ T ≤ D.length), Failed v a b s (seekLoop v k s fp ofs fp.clust) ∨ Reached v a b m s fp D T (seekLoop v k s fp ofs fp.clust)
  | 0, _, _, _, _, _, _, _, hk, _, _, _ => absurd hk (Nat.not_lt_zero _)
  | k + 1, m, s, fp, q, ofs, h, h0, hk, hT, hc, hw => by
    have hpos := bcs_pos hg hd
    have hnf := nFatent_lt hg
    unfold seekLoop
    by_cases hofs : ofs > v.csize * v.ss
    · rw [if_pos hofs]
      have hofs' : ofs > bcs v := hofs
      have hq : q < m.length := (List.getElem?_eq_some_iff.mp hc).1
      have hsucc : (q + 1) * bcs v = q * bcs v + bcs v := Nat.succ_mul _ _
      obtain ⟨hat, hfl, hcl, hse⟩ := step_spec h hq (by omega) (hw.imp id fun z => by omega)
      rw [← hcl] at hc ⊢
      have hw' : (seekStep v fp).canWrite = true ∨ T ≤ D.length := by
        rw [hfl.2.1]
        exact hw
      generalize seekStep v fp = f at *
      -- a round ends well with the next cluster
      have next : ∀ {m' : List Nat} {s' : St} {r : Nat}, At v a b m' s' { f with clust := r } D (q + 1) → m'[q + 1]? = some r → Others v a b s s' → m <+: m' →
          Failed v a b s (seekLoop v k s' { f with clust := r } (ofs - v.csize * v.ss) r) ∨
          Reached v a b m s fp D T (seekLoop v k s' { f with clust := r } (ofs - v.csize * v.ss) r) := by
        intro m' s' r ha hr ho hm'
        have hsub : ofs - v.csize * v.ss = ofs - bcs v := rfl
        rcases seekLoop_spec hg hd hlt k (fp := { f with clust := r }) (ofs := ofs - v.csize * v.ss) ha (by omega) (by omega) (by omega) hr hw' with hf | hk
        · exact .inl (hf.mono ho)
        · exact .inr (hk.mono ho ⟨hfl.1, hfl.2.1, hfl.2.2⟩ hm' hse)
      unfold seekNext
      by_cases hcw : f.canWrite = true
      · rw [if_pos hcw]
        obtain ⟨s', r, e, ho, hr⟩ := grow_spec hg hd h.toVolOk (i := q + 1) (c := f.clust) (.inr ⟨q, rfl, hc⟩)
        rw [e]
        unfold seekChecked
        simp only
        rcases hr with ⟨l, hv, hsd, hidx, r2, rn⟩ | ⟨rfl, hv, hsd, hroom, hlen⟩ | ⟨rfl, hs⟩
        · rw [if_neg (by unfold UB; omega), if_neg (by omega), if_neg (by unfold DERR; omega), if_neg (by omega)]
          have hm : m ≠ [] := fun z => by rw [z] at hq; exact absurd hq (Nat.not_lt_zero _)
          exact next (At.grow hat hv hsd rfl (by rw [headD_append hm]; exact hat.sclust) rfl rfl rfl rfl rfl) hidx ho (List.prefix_append _ _)
        · rw [if_neg (by decide), if_pos ⟨rfl, hcw⟩]
          unfold seekHere
          rw [if_neg (by simp)]
          have hat' := At.same (fp' := { f with fptr := f.fptr + 0 }) hat hv hsd rfl rfl rfl rfl rfl rfl rfl
          rcases full_spec hg hd hat' (T := T) (fun _ => hc) hroom hlen (by omega) hlt with hf | hk
          · exact .inl (hf.mono ho)
          · exact .inr (hk.mono ho hfl (List.prefix_refl _) hse)
        · rw [if_neg (by decide), if_neg (fun z => by cases z.1), if_pos rfl]
          exact .inl (failed_abort hs ho)
      · rw [if_neg hcw]
        have hTD := hw'.resolve_left hcw
        obtain ⟨s', r, e, hv, hsd, ho, hr⟩ := fat_spec hg hd h.toVolOk hc
        rw [e]
        unfold seekChecked
        simp only
        rcases hr with ⟨hidx, r2, rn⟩ | ⟨hlen, -, -⟩ | ⟨rfl, hs⟩
        · rw [if_neg (by unfold UB; omega), if_neg (by omega), if_neg (by unfold DERR; omega), if_neg (by omega)]
          exact next (At.same hat hv hsd rfl rfl rfl rfl rfl rfl rfl) hidx ho (List.prefix_refl _)
        · exfalso
          have h1 : f.objsize ≤ m.length * bcs v := hat.size
          have h2 := hat.total
          rw [hlen] at h1
          omega
        · rw [if_neg (by decide), if_neg (fun z => by cases z.1), if_pos rfl]
          exact .inl (failed_abort hs ho)
    · rw [if_neg hofs]
      exact seekHere_spec hg hd h h0 (Nat.le_of_not_lt hofs) hT hlt hc

theorem seekFrom_spec {v : Vol} (hg : Geo v) (hd : DataGeo v) {a b : List (List Nat)} {m : List Nat} {s : St} {fp : File} {D : List Nat} {q ofs T : Nat} (h : At v a b m s fp D q)
    (hofs : 0 < ofs) (hT : T = q * bcs v + ofs) (hlt : T < 2 ^ 32) (hc : m[q]? = some fp.clust) (hw : fp.canWrite = true ∨ T ≤ D.length) :
    Failed v a b s (seekFrom v ofs fp.clust s fp) ∨ Reached v a b m s fp D T (seekFrom v ofs fp.clust s fp) := by
  have hcm := h.mem (List.mem_of_getElem? hc)
  unfold seekFrom
  rw [if_pos (by have := hcm.1; omega : fp.clust ≠ 0)]
  exact seekLoop_spec hg hd hlt _ h hofs (Nat.lt_succ_self _) hT hc hw

theorem seekStart_spec {v : Vol} (hg : Geo v) (hd : DataGeo v) {a b : List (List Nat)} {m : List Nat} {s : St} {fp : File} {D : List Nat} {T : Nat} (h : At v a b m s fp D 0)
    (hofs : 0 < T) (hlt : T < 2 ^ 32) (hw : fp.canWrite = true ∨ T ≤ D.length) : Failed v a b s (seekStart v T s fp) ∨ Reached v a b m s fp D T (seekStart v T s fp) := by
  have hnf := nFatent_lt hg
  unfold seekStart
  by_cases hs0 : fp.sclust = 0
  · rw [if_pos hs0]
    have hm := (sclust_zero h.toBase).mp hs0
    obtain ⟨s', r, e, ho, hr⟩ := grow_spec hg hd h.toVolOk (i := 0) (c := 0) (.inl ⟨rfl, hm, rfl⟩)
    rw [e]
    unfold seekNew
    simp only
    rcases hr with ⟨l, hv, hsd, hidx, r2, rn⟩ | ⟨rfl, hv, hsd, hroom, hlen⟩ | ⟨rfl, hs⟩
    · rw [if_neg (by unfold UB; omega), if_neg (by omega), if_neg (by unfold DERR; omega)]
      have hh : (m ++ l).headD 0 = r := by
        rw [headD_get, hidx]
        rfl
      have ha : At v a b (m ++ l) s' { fp with sclust := r, clust := r } D 0 := At.grow h hv hsd rfl hh.symm rfl rfl rfl rfl rfl
      rcases seekFrom_spec hg hd ha hofs (by omega) hlt hidx hw with hf | hk
      · exact .inl (hf.mono ho)
      · exact .inr (hk.mono ho ⟨rfl, rfl, rfl⟩ (List.prefix_append _ _) rfl)
    · rw [if_neg (by decide), if_neg (by decide), if_neg (by decide)]
      unfold seekFrom
      rw [if_neg (by simp)]
      have ha : At v a b m s' { fp with sclust := 0, clust := 0 } D 0 := At.same h hv hsd rfl hs0.symm rfl rfl rfl rfl rfl
      rcases full_spec hg hd ha (T := T) (fun z => absurd z (Nat.not_lt_zero _)) hroom hlen (by omega) hlt with hf | hk
      · exact .inl (hf.mono ho)
      · exact .inr (hk.mono ho ⟨rfl, rfl, rfl⟩ (List.prefix_refl _) rfl)
    · rw [if_neg (by decide), if_neg (by decide), if_pos rfl]
      exact .inl (failed_abort hs ho)
  · rw [if_neg hs0]
    have hm : m[0]? = some fp.sclust := by
      have hm : m ≠ [] := fun z => hs0 ((sclust_zero h.toBase).mpr z)
      rw [h.sclust, headD_get]
      rw [List.getElem?_eq_getElem (List.length_pos_iff.mpr hm)]
      rfl
    have ha : At v a b m s { fp with clust := fp.sclust } D 0 := At.same h h.toVolOk (fun _ _ => rfl) rfl rfl rfl rfl rfl rfl rfl
    rcases seekFrom_spec hg hd ha hofs (by omega) hlt hm hw with hf | hk
    · exact .inl hf
    · exact .inr (hk.mono (.refl h.toVolOk) ⟨rfl, rfl, rfl⟩ (List.prefix_refl _) rfl)

theorem seekTo_spec {v : Vol} (hg : Geo v) (hd : DataGeo v) {a b : List (List Nat)} {m : List Nat} {s : St} {fp : File} {A : Arr} {T : Nat} (h : Repr v a b m s fp A)
    (hlt : T < 2 ^ 32) (hw : fp.canWrite = true ∨ T ≤ A.data.length) : Failed v a b s (seekTo v s fp T) ∨ Reached v a b m s fp A.data T (seekTo v s fp T) := by
  have hpos := bcs_pos hg hd
  have hlen : A.data.length = fp.objsize := by rw [h.data, contents_len h.toBase]
  have hple := h.pos
  -- anywhere in the file
  have hat : ∀ q f, f = q * bcs v → q * bcs v ≤ fp.objsize → At v a b m s { fp with fptr := f } A.data q := by
    intro q f hf hq
    refine ⟨Base.of_fields h.toBase rfl rfl rfl rfl rfl, hf, by show fp.objsize = _; omega, ⟨[], ?_⟩, h.noErr⟩
    rw [List.append_nil, h.data]
    exact contents_fields rfl rfl rfl rfl
  unfold seekTo
  by_cases h0 : T = 0
  · rw [if_pos h0]
    have ha := hat 0 0 (by omega) (by omega)
    rcases seekEnd_spec (T := T) hg hd ha.toBase (nsect := 0) ha.data (by show fp.objsize ≤ _; omega) (Nat.zero_le _) (by show 0 < _; omega) h.noErr
      (fun z => absurd z (Nat.lt_irrefl 0)) (fun z => absurd (Nat.zero_mod _) z) (by show 0 = _; omega) with hf | hk
    · exact .inl hf
    · exact .inr (hk.mono (.refl h.toVolOk) ⟨rfl, rfl, rfl⟩ (List.prefix_refl _) rfl)
  · rw [if_neg h0]
    split
    · rename_i hcond
      have hp0 := hcond.1
      have hge : (fp.fptr - 1) / bcs v ≤ (T - 1) / bcs v := hcond.2
      have h1 : (fp.fptr - 1) / bcs v * bcs v ≤ fp.fptr - 1 := Nat.div_mul_le_self _ _
      have h2 : (T - 1) / bcs v * bcs v ≤ T - 1 := Nat.div_mul_le_self _ _
      have h3 : (fp.fptr - 1) / bcs v * bcs v ≤ (T - 1) / bcs v * bcs v := Nat.mul_le_mul_right _ hge
      have hcs : clusterStart v (fp.fptr - 1) = (fp.fptr - 1) / bcs v * bcs v := rfl
      have ha := hat ((fp.fptr - 1) / bcs v) (clusterStart v (fp.fptr - 1)) hcs (by omega)
      rcases seekFrom_spec (T := T) (ofs := T - clusterStart v (fp.fptr - 1)) hg hd ha (by omega) (by omega) hlt (h.clust hp0) hw with hf | hk
      · exact .inl hf
      · exact .inr (hk.mono (.refl h.toVolOk) ⟨rfl, rfl, rfl⟩ (List.prefix_refl _) rfl)
    · have ha := hat 0 0 (by omega) (by omega)
      rcases seekStart_spec (T := T) hg hd ha (by omega) hlt hw with hf | hk
      · exact .inl hf
      · exact .inr (hk.mono (.refl h.toVolOk) ⟨rfl, rfl, rfl⟩ (List.prefix_refl _) rfl)

/-- `f_lseek`. -/
theorem seek_spec {v : Vol} (hg : Geo v) (hd : DataGeo v) {a b : List (List Nat)} {m : List Nat} {s : St} {fp : File} {A : Arr} (h : Repr v a b m s fp A) (o : Nat) :
    Failed v a b s (fLseek v s fp o) ∨ Did v a b m s fp A (.seek o) (fLseek v s fp o) := by
  have hlen : A.data.length = fp.objsize := by rw [h.data, contents_len h.toBase]
  have hsm := h.small
  have hcap := size_room h.toBase
  unfold fLseek
  rw [if_neg (fun z => z h.noErr)]
  have hclip : seekClip fp o < 2 ^ 32 ∧ (fp.canWrite = true ∨ seekClip fp o ≤ A.data.length) ∧
      (o ≤ A.data.length ∧ seekClip fp o = o ∨ A.data.length < o ∧ (fp.canWrite = false ∧ seekClip fp o = A.data.length ∨ fp.canWrite = true ∧ seekClip fp o = min o 0xFFFFFFFF)) := by
    unfold seekClip
    cases hcw : fp.canWrite with
    | true =>
      rw [if_neg (fun z => by cases z.2)]
      split
      · exact ⟨by omega, .inl rfl, .inr ⟨by omega, .inr ⟨rfl, by omega⟩⟩⟩
      · by_cases ho : o ≤ A.data.length
        · exact ⟨by omega, .inl rfl, .inl ⟨ho, rfl⟩⟩
        · exact ⟨by omega, .inl rfl, .inr ⟨by omega, .inr ⟨rfl, by omega⟩⟩⟩
    | false =>
      by_cases hb : o ≥ 0x100000000
      · rw [if_pos hb]
        by_cases h2 : 0xFFFFFFFF > fp.objsize
        · rw [if_pos ⟨h2, rfl⟩]
          exact ⟨by omega, .inr (by omega), .inr ⟨by omega, .inl ⟨rfl, by omega⟩⟩⟩
        · rw [if_neg fun z => h2 z.1]
          exact ⟨by omega, .inr (by omega), .inr ⟨by omega, .inl ⟨rfl, by omega⟩⟩⟩
      · rw [if_neg hb]
        by_cases h2 : o > fp.objsize
        · rw [if_pos ⟨h2, rfl⟩]
          exact ⟨by omega, .inr (by omega), .inr ⟨by omega, .inl ⟨rfl, by omega⟩⟩⟩
        · rw [if_neg fun z => h2 z.1]
          exact ⟨by omega, .inr (by omega), .inl ⟨by omega, rfl⟩⟩
  obtain ⟨c1, c2, c3⟩ := hclip
  generalize seekClip fp o = T at *
  rcases seekTo_spec hg hd h c1 c2 with hf | ⟨m', junk, hpre, hk, hj⟩
  · exact .inl hf
  · right
    refine ⟨m', _, ?_, hk.repr, hk.flags, hk.others, .inr ⟨hpre, hk.near⟩⟩
    rw [hk.res, hk.got]
    rcases c3 with ⟨d1, rfl⟩ | ⟨d1, ⟨d2, rfl⟩ | ⟨d2, rfl⟩⟩
    · have : junk = [] := List.eq_nil_of_length_eq_zero (by omega)
      subst this
      rw [List.append_nil, show min T (capacity v (a ++ b).flatten) = T from by omega]
      exact .back A _ d1
    · have : junk = [] := List.eq_nil_of_length_eq_zero (by omega)
      subst this
      rw [List.append_nil, show min A.data.length (capacity v (a ++ b).flatten) = A.data.length from by omega]
      exact .toEnd A _ d2 d1
    · have h1 : min (min o 0xFFFFFFFF) (capacity v (a ++ b).flatten) = A.data.length + junk.length := by omega
      rw [h1]
      refine .beyond A _ junk d2 d1 ?_
      unfold limit
      omega

end Fpm.FatFile
