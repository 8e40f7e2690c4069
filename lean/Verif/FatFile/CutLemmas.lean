import Verif.FatFile.SeekLemmas
/-!
# Cutting off
-/
namespace Fpm.FatFile
open Fpm.Fat Fpm.Fat.Spec Fpm.FatFile.Spec

/-- The volume with a shorter chain, and the file cut at its position. -/
theorem cutEnd_spec {v : Vol} (hg : Geo v) (hd : DataGeo v) {a b : List (List Nat)} {m m' : List Nat} {s s' : St} {fp : File} {A : Arr} (h : Repr v a b m s fp A)
    (hw : fp.canWrite = true) (hcut : A.pos < A.data.length) (hv : VolOk v a b m' s') (hsd : SameData v (a ++ b).flatten s s') (ho : Others v a b s s') {c : Nat} (hc : c = m'.headD 0)
    (hm : m' = m.take m'.length) (hlen : fp.fptr ≤ m'.length * (v.csize * v.ss)) :
    Failed v a b s (cutEnd v { fp with sclust := c } (s', 0)) ∨ Did v a b m s fp A .truncate (cutEnd v { fp with sclust := c } (s', 0)) := by
  have hpos := bcs_pos hg hd
  have hp := h.pos
  have hsm := h.small
  have hb : Base v a b m' s' { fp with sclust := c, objsize := fp.fptr, modified := true } :=
    ⟨hv, hc, h.buf, h.own, fun z1 z2 => by rw [hsd _ z2]; exact h.clean z1 z2, hlen, by show fp.fptr < _; omega⟩
  unfold cutEnd
  rw [if_neg (fun z => z rfl)]
  refine flush_spec hg hd hb (P := fun o => Failed v a b s o ∨ Did v a b m s fp A .truncate o) (fun o hf => .inl (hf.mono ho)) fun s1 hb1 hd1 ho1 => ?_
  right
  refine ⟨m', ⟨A.data.take A.pos, A.pos⟩, .truncate A hw, ⟨hb1, Nat.le_refl _, ?_, ?_, h.noErr, ?_, h.at_⟩, ⟨rfl, rfl, rfl⟩, ho.trans ho1, .inl ⟨rfl, hw, hcut⟩⟩
  · intro h0
    have := h.clust h0
    have hlt : (fp.fptr - 1) / (v.csize * v.ss) < m'.length := by
      have h0' : 0 < fp.fptr := h0
      exact (Nat.div_lt_iff_lt_mul hpos).mpr (by show fp.fptr - 1 < m'.length * (v.csize * v.ss); omega)
    show m'[(fp.fptr - 1) / (v.csize * v.ss)]? = some fp.clust
    rw [hm, List.getElem?_take, if_pos hlt]
    exact this
  · intro hne
    have := h.sect hne
    have hlt : fp.fptr / v.ss < m'.length * v.csize := by
      refine (Nat.div_lt_iff_lt_mul hg.ss.2).mpr ?_
      rw [Nat.mul_assoc]
      refine Nat.lt_of_le_of_ne hlen fun z => hne ?_
      rw [z, ← Nat.mul_assoc]
      exact Nat.mul_mod_left _ _
    have hsplit : secs v m = secs v m' ++ secs v (m.drop m'.length) := by
      rw [← secs_append]
      conv => lhs; rw [← List.take_append_drop m'.length m, ← hm]
    rw [hsplit, List.getElem?_append_left (by rw [secs_length]; exact hlt)] at this
    exact this
  · show A.data.take A.pos = contents v m' s1 _
    rw [h.data, h.at_]
    unfold contents
    show _ = List.take fp.fptr _
    rw [List.take_take, Nat.min_eq_left hp]
    have hsplit : secs v m = secs v m' ++ secs v (m.drop m'.length) := by
      rw [← secs_append]
      conv => lhs; rw [← List.take_append_drop m'.length m, ← hm]
    have heq : (secs v m').flatMap (overlay s1 { fp with sclust := c, objsize := fp.fptr, modified := true, dirty := false }) = (secs v m').flatMap (overlay s fp) := by
      refine flat_congr fun n hn => ?_
      rw [overlay_clean rfl, hd1]
      unfold overlay
      rw [hsd _ (hv.secs_own hn)]
    refine Eq.trans ?_ (congrArg (List.take fp.fptr) heq.symm)
    rw [hsplit, List.flatMap_append, List.take_append_of_le_length]
    rw [flat_length (S := v.ss), secs_length, Nat.mul_assoc]
    · exact hlen
    · exact fun n _ => overlay_len h.toBase n

theorem chains_of {v : Vol} {a b : List (List Nat)} {m : List Nat} {T : Nat → Nat} (hm : m ≠ []) (h : Chains v.nFatent T (a ++ m :: b)) : Chains v.nFatent T (withRest a m b) := by
  unfold withRest
  rwa [if_neg hm]

/-- The other chains when only clusters of the file have changed. -/
theorem others_cut {v : Vol} {a b : List (List Nat)} {m : List Nat} {s s' : St} (h : VolOk v a b m s) (hx : ∀ x, x ∉ m → x < v.nFatent → tab v s' x = tab v s x)
    (ho : ∀ n, ¬ Fat1 v n → ¬ Fat2 v n → view s' n = view s n) (hn : Sound v → Fat.Near v (a ++ b).flatten s s') : Others v a b s s' := by
  refine others_fat (fun l hl => links_congr (h.links l hl) fun c hc => ?_) ho hn
  have hcf : c ∈ (a ++ b).flatten := List.mem_flatten.mpr ⟨l, hl, hc⟩
  exact hx c (fun hm => (h.mem hm).2.2 hcf) (links_mem (h.links l hl) c hc).2

/-- The device while clusters of the file are freed. -/
theorem near_cut {v : Vol} (hg : Geo v) {a b : List (List Nat)} {m : List Nat} {s : St} (h : VolOk v a b m s) {k l : List Nat} {p c : Nat} (hm : m = k ++ c :: l) (hl : Links v.nFatent (tab v s) (c :: l))
    (hp : p = 0 ∨ p ∈ k) (hs : Sound v) : Fat.Near v (a ++ b).flatten s (removeChain v s c p).1 := by
  have hnd := h.nodup
  subst hm
  have hd := List.nodup_append.mp hnd
  refine removeChain_near hg hs (fun x hx => ?_) h.inv hl hd.2.1 (fun x hx => (h.mem (List.mem_append_right _ hx)).2.2) (hp.imp id fun z => ?_)
  · obtain ⟨y, hy, hx⟩ := List.mem_flatten.mp hx
    exact (links_mem (h.links y hy) x hx).2
  · have := h.mem (List.mem_append_left _ z)
    exact ⟨this.1, this.2.1, this.2.2, fun w => hd.2.2 p z p w rfl⟩

/-- Failure of removing. -/
theorem cutEnd_failed {v : Vol} {a b : List (List Nat)} {s s' : St} {fp : File} (hs : ¬ Sound v) (ho : Others v a b s s') : Failed v a b s (cutEnd v fp (s', 1)) := by
  unfold cutEnd
  rw [if_pos (show (s', 1).2 ≠ FR_OK from (by decide : 1 ≠ FR_OK))]
  exact failed_abort hs ho

/-- `f_truncate`. -/
theorem truncate_spec {v : Vol} (hg : Geo v) (hd : DataGeo v) {a b : List (List Nat)} {m : List Nat} {s : St} {fp : File} {A : Arr} (h : Repr v a b m s fp A) :
    Failed v a b s (fTruncate v s fp) ∨ Did v a b m s fp A .truncate (fTruncate v s fp) := by
  have hpos := bcs_pos hg hd
  have hnf := nFatent_lt hg
  have hlen : A.data.length = fp.objsize := by rw [h.data, contents_len h.toBase]
  unfold fTruncate
  rw [if_neg (fun z => z h.noErr)]
  by_cases hw : fp.canWrite = false
  · rw [if_pos hw]
    refine .inr ⟨m, A, ?_, h, ⟨rfl, rfl, rfl⟩, .refl h.toVolOk, .inr ⟨List.prefix_refl _, .inl rfl⟩⟩
    rw [hw]
    exact .denyTruncate _ rfl
  · rw [if_neg hw]
    have hw' : fp.canWrite = true := by simpa using hw
    split
    · rename_i hlt
      have hcut : A.pos < A.data.length := by rw [hlen, h.at_]; exact hlt
      have hsz : fp.objsize ≤ m.length * bcs v := h.size
      have hmne : m ≠ [] := by
        intro z
        rw [z, List.length_nil, Nat.zero_mul] at hsz
        omega
      split
      · rename_i h0
        obtain ⟨c, l, rfl⟩ := List.exists_cons_of_ne_nil hmne
        rw [show fp.sclust = c from h.sclust]
        have hst := stays_remove hg s c 0
        cases e : removeChain v s c 0 with
        | mk s' r =>
          rw [e] at hst
          obtain ⟨hi, ho, hx, hr⟩ := C52_remove v hg s h.inv a b c l (VolOk_chains h.toVolOk hmne) h.count s' r e
          have hoth := others_cut h.toVolOk hx ho fun hs => by
            have := near_cut hg h.toVolOk (k := []) (p := 0) rfl ((VolOk_chains h.toVolOk hmne).chain _ (by simp)) (.inl rfl) hs
            rwa [e] at this
          rcases hr with ⟨rfl, -, hch, hk⟩ | ⟨rfl, hs⟩
          · obtain ⟨hv, hsd⟩ := vol_fat (m' := []) hg hd h.toVolOk hi ho hst hch hk
            exact cutEnd_spec hg hd h hw' hcut hv hsd hoth rfl rfl (by omega)
          · exact .inl (cutEnd_failed hs hoth)
      · rename_i h0
        have hc := h.clust (by omega)
        have hq : (fp.fptr - 1) / bcs v < m.length := (List.getElem?_eq_some_iff.mp hc).1
        have hcm := h.mem (List.mem_of_getElem? hc)
        have hbound : fp.fptr ≤ ((fp.fptr - 1) / bcs v + 1) * bcs v := by
          have := Nat.lt_mul_div_succ (fp.fptr - 1) hpos
          have h2 : ((fp.fptr - 1) / bcs v + 1) * bcs v = bcs v * ((fp.fptr - 1) / bcs v + 1) := Nat.mul_comm _ _
          omega
        obtain ⟨s1, r, e, hv1, hsd1, ho1, hr⟩ := fat_spec hg hd h.toVolOk hc
        rw [e]
        unfold cutAfter
        simp only
        have self : ∀ s', (cutEnd v fp s') = cutEnd v { fp with sclust := fp.sclust } s' := fun _ => rfl
        rcases hr with ⟨hidx, r2, rn⟩ | ⟨hl, hge, hlt2⟩ | ⟨rfl, hs⟩
        · rw [if_neg (by unfold UB; omega), if_neg (by unfold DERR; omega), if_neg (by omega), if_pos rn]
          have hst := stays_remove hg s1 r fp.clust
          have hsp := split_at hc
          have hsp2 : m.drop ((fp.fptr - 1) / bcs v + 1) = r :: m.drop ((fp.fptr - 1) / bcs v + 2) := by
            obtain ⟨hi, he⟩ := List.getElem?_eq_some_iff.mp hidx
            rw [List.drop_eq_getElem_cons hi]
            exact congrArg (· :: _) he
          change m = m.take ((fp.fptr - 1) / bcs v) ++ fp.clust :: m.drop ((fp.fptr - 1) / bcs v + 1) at hsp
          rw [hsp2] at hsp
          have htake : m.take ((fp.fptr - 1) / bcs v + 1) = m.take ((fp.fptr - 1) / bcs v) ++ [fp.clust] := by
            rw [List.take_add_one]
            congr 1
            show (m[(fp.fptr - 1) / bcs v]?).toList = _
            rw [hc]
            rfl
          cases e2 : removeChain v s1 r fp.clust with
          | mk s2 r2 =>
            rw [e2] at hst
            have hch1 := VolOk_chains hv1 hmne
            rw [hsp] at hch1
            obtain ⟨hi, ho, hx, hr2⟩ := C52_truncate v hg s1 hv1.inv a b _ fp.clust r _ hch1 hv1.count s2 r2 e2
            have hoth : Others v a b s s2 := by
              refine ho1.trans (others_cut hv1 (fun x hxm hxn => hx x (fun z => hxm ?_) (fun z => hxm ?_) hxn) ho fun hs => ?_)
              · rw [hsp]
                exact List.mem_append_right _ (List.mem_cons_of_mem _ z)
              · rw [hsp, z]
                simp
              · have hlk := links_suffix (l := m.take ((fp.fptr - 1) / bcs v) ++ [fp.clust]) (by simpa using hch1.chain _ (by simp : m.take ((fp.fptr - 1) / bcs v) ++ fp.clust :: r :: m.drop ((fp.fptr - 1) / bcs v + 2) ∈ _))
                have := near_cut hg hv1 (k := m.take ((fp.fptr - 1) / bcs v) ++ [fp.clust]) (p := fp.clust) (by rw [List.append_assoc]; exact hsp) hlk (.inr (by simp)) hs
                rwa [e2] at this
            rcases hr2 with ⟨rfl, -, hch, hk⟩ | ⟨rfl, hs⟩
            · rw [← htake] at hch
              have hne : m.take ((fp.fptr - 1) / bcs v + 1) ≠ [] := by
                rw [htake]
                simp
              have hlen2 : (m.take ((fp.fptr - 1) / bcs v + 1)).length = (fp.fptr - 1) / bcs v + 1 := by
                rw [List.length_take]
                omega
              obtain ⟨hv, hsd⟩ := vol_fat hg hd hv1 hi ho hst (chains_of hne hch) hk
              rw [self]
              refine cutEnd_spec hg hd h hw' hcut hv (fun n hn => (hsd n hn).trans (hsd1 n hn)) hoth ?_ ?_ ?_
              · rw [h.sclust, headD_get, headD_get, List.getElem?_take, if_pos (Nat.succ_pos _)]
              · rw [hlen2]
              · rw [hlen2]
                exact hbound
            · exact .inl (cutEnd_failed hs hoth)
        · have h2c := hcm.1
          have hcn := hcm.2.1
          rw [if_neg (by unfold UB; omega), if_neg (by unfold DERR; omega), if_neg (by omega), if_neg (by omega)]
          rw [self]
          refine cutEnd_spec hg hd h hw' hcut hv1 hsd1 ho1 h.sclust (by simp) ?_
          rw [hl]
          exact hbound
        · rw [if_neg (by decide), if_pos rfl]
          exact .inl (cutEnd_failed hs ho1)
    · rename_i hlt
      have hp := h.pos
      refine .inr ⟨m, A, ?_, h, ⟨rfl, rfl, rfl⟩, .refl h.toVolOk, .inr ⟨List.prefix_refl _, .inl rfl⟩⟩
      have hr := Ran.truncate (K := capacity v (a ++ b).flatten) (rd := fp.canRead) (wr := fp.canWrite) A hw'
      rw [List.take_of_length_le (by rw [hlen, h.at_]; omega)] at hr
      exact hr

end Fpm.FatFile
