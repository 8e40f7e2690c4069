import Verif.Tree.OpenSpec
import Verif.Tree.MkdirLemmas
import Verif.FatSync.SyncLemmas
/-!
# Opening files: lemmas
-/
namespace Fpm.Tree
open Fpm.Fat Fpm.Fat.Spec Fpm.FatFile Fpm.FatFile.Spec Fpm.Lfn Fpm.Names Fpm.Names.Spec Fpm.TextIo.Spec Fpm.FatDir Fpm.FatDir.Spec Fpm.Mount Fpm.Mount.Spec Fpm.DirDev Fpm.DirDev.Spec Fpm.Tree.Spec Fpm.FatSync Fpm.FatBytes Fpm.FatBytes.Spec

/-- Bytes outside of a field. -/
theorem field_out {a b : List Nat} {p n : Nat} (h : ∀ k, p ≤ k → k < p + n → a[k]? = b[k]?) : FatSync.Spec.field a p n = FatSync.Spec.field b p n := by
  unfold FatSync.Spec.field
  refine congrArg _ (List.ext_getElem? fun k => ?_)
  rw [List.getElem?_take, List.getElem?_take]
  split
  · rw [List.getElem?_drop, List.getElem?_drop, h _ (by omega) (by omega)]
  · rfl

/-- The entry of an empty file. -/
theorem blank_entry {v : Vol} (hg : Geo v) {e : List Nat} (h : e.length = 32) (hb : ∀ b ∈ e, b < 256) (tm : Nat) :
    ∃ e', blankEntry v e tm = some e' ∧ e'.length = 32 ∧ (∀ b ∈ e', b < 256) ∧ e'.take 11 = e.take 11 ∧ byte e' 11 = 0x20 ∧ FatSync.Spec.first v e' 0 = 0 ∧ FatSync.Spec.field e' 28 4 = 0 ∧
      FatSync.Spec.field e' 22 4 = tm % 2 ^ 32 ∧ FatSync.Spec.field e' 14 4 = tm % 2 ^ 32 := by
  unfold blankEntry
  obtain ⟨w0, e0, p0⟩ := put_dword (w := e) (p := 14) (x := tm) (by omega)
  have l0 := bytes_length 4 tm
  have n0 := p0.len
  rw [e0, Option.bind_some]
  obtain ⟨w1, e1, p1⟩ := put_dword (w := w0) (p := 22) (x := tm) (by omega)
  have n1 := p1.len
  rw [e1, Option.bind_some]
  obtain ⟨w2, e2, p2⟩ := put_byte (w := w1) (p := 11) (x := 0x20) (by omega)
  have n2 := p2.len
  have hout : ∀ k, k ≠ 11 → w2[k]? = w1[k]? := fun k hk => p2.out k (by simp only [List.length_cons, List.length_nil]; omega)
  rw [e2, Option.bind_some]
  obtain ⟨w3, e3, k1, k2, k3, k4⟩ := put_clust hg (w := w2) (by omega) (cl := 0) (by have := hg.pos; omega)
  rw [e3, Option.bind_some]
  obtain ⟨w4, e4, p4⟩ := put_dword (w := w3) (p := 28) (x := 0) (by omega)
  have l4 := bytes_length 4 0
  refine ⟨w4, e4, by rw [p4.len, k1], p4.byte (k2 (p2.byte (p1.byte (p0.byte hb)))), take_eq fun k hk => ?_, ?_, ?_, ?_, ?_, ?_⟩
  · rw [p4.out k (by omega), k4 k (by omega), hout k (by omega), p1.out k (by omega), p0.out k (by omega)]
  · have := p2.at_ 0 (by simp)
    refine byte_at ?_
    rw [p4.out 11 (by omega), k4 11 (by omega)]
    exact this
  · refine Eq.trans ?_ k3
    unfold FatSync.Spec.first
    rw [field_out (a := w4) (b := w3) (p := 0 + 26) fun k _ _ => p4.out k (by omega), field_out (a := w4) (b := w3) (p := 0 + 20) fun k _ _ => p4.out k (by omega)]
  · rw [field_eq (x := 0) (fun k hk => p4.at_ k (by omega))]
  · rw [field_out (a := w4) (b := w1) (p := 22) fun k _ _ => by rw [p4.out k (by omega), k4 k (by omega), hout k (by omega)], field_eq (x := tm) (fun k hk => p1.at_ k (by omega))]
  · rw [field_out (a := w4) (b := w0) (p := 14) fun k _ _ => by rw [p4.out k (by omega), k4 k (by omega), hout k (by omega), p1.out k (by omega)], field_eq (x := tm) (fun k hk => p0.at_ k (by omega))]

/-- The loop that finds the last cluster. -/
theorem end_loop {v : Vol} (hg : Geo v) (hd : DataGeo v) {m : List Nat} : ∀ (k : Nat) {s : St} {q c ofs : Nat}, Fat.Spec.Inv v s → Links v.nFatent (tab v s) m → m[q]? = some c → 0 < ofs → ofs < k → q * (v.csize * v.ss) + ofs ≤ m.length * (v.csize * v.ss) →
    ∃ s' r c' ofs', endLoop v k s c ofs = (s', r, c', ofs') ∧ Quiet v s s' ∧ Stays v s s' ∧
      (r = FR_OK ∧ (∃ j, m[q + j]? = some c' ∧ ofs = j * (v.csize * v.ss) + ofs') ∧ 0 < ofs' ∧ ofs' ≤ v.csize * v.ss ∨ r = FR_DISK_ERR ∧ ¬ Sound v)
  | 0, s, q, c, ofs, _, _, _, _, hk, _ => absurd hk (Nat.not_lt_zero _)
  | k + 1, s, q, c, ofs, hi, hl, hq, h0, hk, hle => by
    have hpos := bcs_pos hg hd
    unfold bcs at hpos
    unfold endLoop
    by_cases hgt : ofs > v.csize * v.ss
    · rw [if_pos hgt]
      have hmem := links_mem hl c (List.mem_of_getElem? hq)
      have hst := stays_get hg s c
      obtain ⟨s', r, hgf, i1, i2, i3, i4, hr'⟩ := getFat_spec hg hi hmem.1 hmem.2
      have hqt : Quiet v s s' := ⟨i1, i2, i3, i4⟩
      rw [hgf] at hst ⊢
      simp only
      rcases hr' with hr' | ⟨rfl, hns⟩
      · have htab : r = tab v s c := hr'
        rcases chain_next hl hq with ⟨d, hd1, hd2⟩ | ⟨hlen, _, _⟩
        · have hdm := links_mem hl d (List.mem_of_getElem? hd1)
          have hbig := nFatent_lt hg
          rw [hd2] at htab
          subst htab
          rw [if_neg (by unfold DERR; omega), if_neg (by unfold UB; omega), if_neg (by omega)]
          obtain ⟨s2, r2, c2, o2, e, q2, t2, h2⟩ := end_loop hg hd k (ofs := ofs - v.csize * v.ss) i1 (by rw [tab_same i2]; exact hl) hd1 (by omega) (by omega) (by rw [Nat.add_mul]; omega)
          refine ⟨s2, r2, c2, o2, e, hqt.trans q2, hst.trans t2, h2.imp (fun h => ?_) id⟩
          obtain ⟨h3, ⟨j, h4, h5⟩, h6⟩ := h
          refine ⟨h3, ⟨j + 1, ?_, ?_⟩, h6⟩
          · rw [← h4]
            congr 1
            omega
          · rw [Nat.add_mul]
            omega
        · exfalso
          have : m.length * (v.csize * v.ss) ≤ (q + 1) * (v.csize * v.ss) := Nat.mul_le_mul_right _ (by omega)
          rw [Nat.add_mul] at this
          omega
      · rw [if_pos rfl]
        exact ⟨s', _, _, _, rfl, hqt, hst, .inr ⟨rfl, hns⟩⟩
    · rw [if_neg hgt]
      exact ⟨s, _, _, _, rfl, .refl hi, .refl _ _, .inl ⟨rfl, ⟨0, hq, by omega⟩, h0, by omega⟩⟩

theorem vol_quiet {v : Vol} {a b : List (List Nat)} {m : List Nat} {s s' : St} (h : VolOk v a b m s) (hg : Geo v) (hd : DataGeo v) (q : Quiet v s s') (hst : Stays v s s') : VolOk v a b m s' := by
  refine vol_same h q.inv q.same q.rest fun n hn ho => ?_
  rcases hst n hn with h1 | h1
  · exact h.window n h1 ho
  · exact own_not1 hg hd ho h1

theorem quiet_cnt {v : Vol} {s : St} (h : Fat.Spec.Inv v s) (n : Nat) : Quiet v s { s with cnt := n } :=
  ⟨⟨h.disk, h.win, h.clean, h.dirty, h.fat2⟩, fun _ _ => rfl, ⟨rfl, rfl, rfl⟩, fun _ => .refl _ _⟩

/-- On the device the sectors of a file are as seen by the program. -/
theorem view_own {v : Vol} {a b : List (List Nat)} {m : List Nat} {s : St} (h : VolOk v a b m s) {n : Nat} (hn : n ∈ secs v m) : s.disk n = view s n := by
  unfold view
  rw [if_neg fun he => h.window n he (h.secs_own hn)]

/-- The file object, at the start or at the end of the file. -/
theorem open_seek {v : Vol} (hg : Geo v) (hd : DataGeo v) {a b : List (List Nat)} {m : List Nat} {s : St} (h : VolOk v a b m s) (mode old : Nat) {cl sz : Nat} (hcl : cl = m.headD 0) (hsz : sz ≤ m.length * (v.csize * v.ss))
    (hsm : sz < 2 ^ 32) {q : St × Nat × File} (hq : q = openSeek v mode s (openFp v mode old cl sz)) :
    Quiet v s q.1 ∧ Stays v s q.1 ∧ (q.2.1 = FR_OK ∧ Repr v a b m q.1 q.2.2 ⟨((secs v m).flatMap (view s)).take sz, if mode &&& 0x20 ≠ 0 then sz else 0⟩ ∧ q.2.2.canRead = decide (mode &&& 1 ≠ 0) ∧ q.2.2.canWrite = decide (mode &&& 2 ≠ 0) ∧
      q.2.2.modified = decide (mode &&& 8 ≠ 0) ∧ q.2.2.dirty = false ∧ q.2.2.objsize = sz ∨ q.2.1 = FR_DISK_ERR ∧ ¬ Sound v) := by
  have hblank : Sec v (List.replicate v.ss 0) := ⟨List.length_replicate, fun x hx => by have := (List.mem_replicate.mp hx).2; omega⟩
  have hzero : ∀ {o : List Nat}, ¬ OwnSect v o 0 := fun ho => absurd (own_data ho) (by have := hd.pos; omega)
  have hbase : ∀ (t : St) (c p : Nat), VolOk v a b m t → Base v a b m t { openFp v mode old cl sz with clust := c, fptr := p } := fun t c p ht =>
    ⟨ht, hcl, hblank, (fun x => by cases x), fun _ ho => absurd ho hzero, hsz, hsm⟩
  have hdata : ∀ (t : St) (fp : File), VolOk v a b m t → Quiet v s t → fp.dirty = false → fp.objsize = sz → ((secs v m).flatMap (view s)).take sz = contents v m t fp := by
    intro t fp ht hq hdy ho
    unfold contents
    rw [ho, flat_congr (d := overlay t fp) (d' := view s) fun n hn => ?_]
    rw [overlay_clean hdy, view_own ht hn, hq.same n (own_not2 hd (ht.secs_own hn))]
  unfold openSeek at hq
  have hos : (openFp v mode old cl sz).objsize = sz := rfl
  rw [hos] at hq
  by_cases hend : mode &&& 0x20 ≠ 0 ∧ sz > 0
  · rw [if_pos hend] at hq
    have hm : m[0]? = some cl := by
      cases m with
      | nil => simp at hsz; omega
      | cons c m => rw [hcl]; rfl
    have hne : m ≠ [] := by rintro rfl; cases hm
    have hl : Links v.nFatent (tab v s) m := (FatSync.Spec.VolOk.chain h).resolve_left hne
    obtain ⟨s', r, c', ofs', e, q1, t1, hcase⟩ := end_loop hg hd (sz + 1) h.inv hl hm hend.2 (by omega) (by omega)
    have hsc : (openFp v mode old cl sz).sclust = cl := rfl
    rw [hsc, e] at hq
    have hv' := vol_quiet h hg hd q1 t1
    unfold endFill at hq
    simp only at hq
    rcases hcase with ⟨rfl, ⟨j, hj, hofs⟩, h0, hle⟩ | ⟨rfl, hns⟩
    · rw [Nat.zero_add] at hj
      have hmem := links_mem hl c' (List.mem_of_getElem? hj)
      have hlast : m[(sz - 1) / (v.csize * v.ss)]? = some c' := by
        rw [div_unique (q := j) (by omega) (by omega)]
        exact hj
      by_cases hmod : ofs' % v.ss ≠ 0
      · rw [if_pos ⟨rfl, hmod⟩, if_neg (clst2sect_ne hd hmem.1 hmem.2)] at hq
        have hlt : ofs' < v.csize * v.ss := by
          refine Nat.lt_of_le_of_ne hle fun he => hmod ?_
          rw [he, Nat.mul_mod_left]
        have hsec : (secs v m)[sz / v.ss]? = some (clst2sect v c' + ofs' / v.ss) := by
          have hss := hg.ss.2
          have hdiv : sz / v.ss = j * v.csize + ofs' / v.ss := by
            rw [hofs, ← Nat.mul_assoc, Nat.mul_comm _ v.ss, Nat.mul_add_div hss]
          have hcs : ofs' / v.ss < v.csize := by
            rw [Nat.div_lt_iff_lt_mul hss]
            exact hlt
          have h1 := index_split (i := j) hcs
          rw [secs_get (csize_pos hd), hdiv, h1.1, h1.2, hj]
          unfold clst2sect
          rw [if_neg (by omega)]
          rfl
        have hown := hv'.secs_own (List.mem_of_getElem? hsec)
        generalize hn : clst2sect v c' + ofs' / v.ss = n at hq hsec hown
        unfold diskRead at hq
        cases hio : v.io s'.cnt with
        | fail junk =>
          rw [hio] at hq
          subst hq
          exact ⟨q1.trans (quiet_cnt q1.inv _), t1.trans (.of_eq rfl), .inr ⟨rfl, fun hx => by rw [hx] at hio; cases hio⟩⟩
        | ok =>
          rw [hio] at hq
          subst hq
          have hq2 := q1.trans (quiet_cnt q1.inv (s'.cnt + 1))
          have ht2 : Stays v s { s' with cnt := s'.cnt + 1 } := t1.trans (.of_eq rfl)
          have hv2 := vol_quiet h hg hd hq2 ht2
          refine ⟨hq2, ht2, .inl ⟨rfl, ⟨⟨hv2, hcl, q1.inv.disk n, (fun x => by cases x), fun _ _ => rfl, hsz, hsm⟩, Nat.le_refl _, fun _ => hlast, fun _ => hsec, rfl, hdata _ _ hv2 hq2 rfl rfl, ?_⟩, rfl, rfl, rfl, rfl, rfl⟩⟩
          show (if mode &&& 0x20 ≠ 0 then sz else 0) = sz
          rw [if_pos hend.1]
      · rw [if_neg fun hx => hmod hx.2] at hq
        subst hq
        refine ⟨q1, t1, .inl ⟨rfl, ⟨hbase s' c' sz hv', Nat.le_refl _, fun _ => hlast, fun hx => absurd ?_ hx, rfl, hdata _ _ hv' q1 rfl rfl, ?_⟩, rfl, rfl, rfl, rfl, rfl⟩⟩
        · show sz % v.ss = 0
          rw [hofs, ← Nat.mul_assoc, Nat.mul_add_mod_self_right]
          omega
        · show (if mode &&& 0x20 ≠ 0 then sz else 0) = sz
          rw [if_pos hend.1]
    · rw [if_neg fun hx => absurd hx.1 (by decide)] at hq
      subst hq
      exact ⟨q1, t1, .inr ⟨rfl, hns⟩⟩
  · rw [if_neg hend] at hq
    subst hq
    have hq0 := Quiet.refl h.inv
    refine ⟨hq0, .refl _ _, .inl ⟨rfl, ⟨hbase s old 0 h, Nat.zero_le _, fun hx => absurd hx (Nat.lt_irrefl 0), fun hx => absurd (Nat.zero_mod _) hx, rfl, hdata _ _ h hq0 rfl rfl, ?_⟩, rfl, rfl, rfl, rfl, rfl⟩⟩
    show (if mode &&& 0x20 ≠ 0 then sz else 0) = 0
    by_cases h2 : mode &&& 0x20 ≠ 0
    · rw [if_pos h2]
      have : ¬ sz > 0 := fun h3 => hend ⟨h2, h3⟩
      omega
    · rw [if_neg h2]

end Fpm.Tree
