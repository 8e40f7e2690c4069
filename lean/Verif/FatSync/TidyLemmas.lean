import Verif.FatSync.SyncLemmas
import Verif.FatFile.CutLemmas
/-! # `FA_MODIFIED` is set whenever there is something to flush -/
namespace Fpm.FatSync
open Fpm.Fat Fpm.Fat.Spec Fpm.FatFile Fpm.FatFile.Spec Fpm.FatSync.Spec

/-- A property of the volume kept by reading. -/
structure Keeps (v : Vol) (C : St → Prop) : Prop where
  cnt : ∀ s k, C s → C { s with cnt := k }
  fat : ∀ s c, C s → C (getFat v s c).1
  grow : ∀ s c, C s → C (createChain v s c).1 ∨ (createChain v s c).2 ≠ 0 ∧ (c = 0 ∨ v.nFatent ≤ (getFat v s c).2)

/-- The file is marked as modified, or nothing has been changed. -/
def Tidy (C : St → Prop) (N : Nat) (s : St) (fp : File) : Prop := fp.modified = true ∨ C s ∧ fp.dirty = false ∧ fp.objsize = N

theorem Tidy.file {C : St → Prop} {N : Nat} {s : St} {fp fp' : File} (h : Tidy C N s fp) (h1 : fp'.modified = fp.modified) (h2 : fp'.dirty = fp.dirty)
    (h3 : fp'.objsize = fp.objsize) : Tidy C N s fp' := by
  unfold Tidy
  rw [h1, h2, h3]
  exact h

theorem Tidy.st {C : St → Prop} {N : Nat} {s s' : St} {fp : File} (h : Tidy C N s fp) (h1 : C s → C s') : Tidy C N s' fp := h.imp id fun z => ⟨h1 z.1, z.2⟩

section
variable {v : Vol} {C : St → Prop} {N : Nat} (hK : Keeps v C)
include hK

omit hK in
theorem tidy_abort {s : St} {fp : File} {r : Nat} (h : Tidy C N s fp) : Tidy C N (abort s fp r).st (abort s fp r).fp := h.file rfl rfl rfl

omit hK in
theorem read_st (s : St) (n : Nat) : (diskRead v s n).1 = { s with cnt := s.cnt + 1 } := by
  unfold diskRead
  split <;> rfl

theorem readN_keeps : ∀ (k : Nat) (s : St) (n : Nat), C s → C (diskReadN v s n k).1
  | 0, _, _, h => h
  | k + 1, s, n, h => by
    show C (diskReadN v (diskRead v s n).1 (n + 1) k).1
    refine readN_keeps k _ _ ?_
    rw [read_st]
    exact hK.cnt _ _ h

omit hK in
theorem tidy_flush {s : St} {fp : File} {k : St → File → FatFile.Out} (h : Tidy C N s fp) (hk : ∀ s fp, Tidy C N s fp → Tidy C N (k s fp).st (k s fp).fp) :
    Tidy C N (flush v s fp k).st (flush v s fp k).fp := by
  unfold flush
  split
  · rename_i hd
    rcases h with h | ⟨-, h, -⟩
    · split
      · exact hk _ _ (.inl h)
      · exact .inl h
    · rw [h] at hd
      cases hd
  · exact hk _ _ h

theorem tidy_fill {s : St} {fp : File} {n : Nat} {k : St → File → FatFile.Out} (h : Tidy C N s fp) (hk : ∀ s fp, Tidy C N s fp → Tidy C N (k s fp).st (k s fp).fp) :
    Tidy C N (fill v s fp n k).st (fill v s fp n k).fp := by
  have h1 : ∀ f : File, f.modified = fp.modified → f.dirty = fp.dirty → f.objsize = fp.objsize → Tidy C N (diskRead v s n).1 f := by
    intro f e1 e2 e3
    rw [read_st]
    exact (h.st (hK.cnt _ _)).file e1 e2 e3
  unfold fill
  split
  · exact hk _ _ (h1 _ rfl rfl rfl)
  · exact h1 _ rfl rfl rfl

theorem tidy_readSector {s : St} {fp : File} {n : Nat} (h : Tidy C N s fp) : Tidy C N (readSector v n s fp).st (readSector v n s fp).fp := by
  unfold readSector
  split
  · exact tidy_abort h
  · split
    · unfold readDirect
      split
      · exact h.st (readN_keeps hK _ _ _)
      · exact tidy_abort (h.st (readN_keeps hK _ _ _))
    · unfold readCached
      split
      · exact tidy_flush h fun s fp h => tidy_fill hK h fun s fp h => h
      · exact h

theorem tidy_readRound {s : St} {fp : File} {n : Nat} (h : Tidy C N s fp) : Tidy C N (readRound v s fp n).st (readRound v s fp n).fp := by
  unfold readRound
  split
  · split
    · have h1 : Tidy C N (followed v s fp).1 fp := by
        unfold followed
        split
        · exact h
        · exact h.st (hK.fat _ _)
      unfold entered
      split
      · exact tidy_abort h1
      · split
        · exact tidy_abort h1
        · split
          · exact tidy_abort h1
          · exact tidy_readSector hK (h1.file rfl rfl rfl)
    · exact tidy_readSector hK h
  · exact h

theorem tidy_readLoop : ∀ (k : Nat) {s : St} {fp : File} {n : Nat} {acc : List Nat}, Tidy C N s fp → Tidy C N (readLoop v k s fp n acc).st (readLoop v k s fp n acc).fp
  | 0, _, _, _, _, h => h
  | k + 1, s, fp, n, acc, h => by
    unfold readLoop
    split
    · exact h
    · have h1 := tidy_readRound hK (n := n) h
      split
      · exact tidy_readLoop k (h1.file rfl rfl rfl)
      · exact h1

theorem tidy_read {s : St} {fp : File} (n : Nat) (h : Tidy C N s fp) : Tidy C N (fRead v s fp n).st (fRead v s fp n).fp := by
  unfold fRead
  split
  · exact h
  · split
    · exact h
    · exact tidy_readLoop hK _ h

omit hK in
theorem tidy_extended {s : St} {fp : File} (h : Tidy C N s fp) : Tidy C N s (extended fp) := by
  unfold extended
  split
  · exact .inl rfl
  · exact h

theorem tidy_seekEnd {s : St} {fp : File} {n : Nat} (h : Tidy C N s fp) : Tidy C N (seekEnd v n s fp).st (seekEnd v n s fp).fp := by
  unfold seekEnd seekFill
  have h1 := tidy_extended h
  split
  · exact tidy_flush h1 fun s fp h => tidy_fill hK h fun s fp h => h
  · exact h1

theorem tidy_seekHere {s : St} {fp : File} {n c : Nat} (h : Tidy C N s fp) : Tidy C N (seekHere v s fp n c).st (seekHere v s fp n c).fp := by
  unfold seekHere
  split
  · split
    · exact h.file rfl rfl rfl
    · exact tidy_seekEnd hK (h.file rfl rfl rfl)
  · exact tidy_seekEnd hK (h.file rfl rfl rfl)

omit hK in
theorem tidy_step {s : St} {fp : File} (h : Tidy C N s fp) : Tidy C N s (seekStep v fp) := by
  unfold seekStep
  split
  · exact tidy_extended (h.file rfl rfl rfl)
  · exact h.file rfl rfl rfl

end

/-- Nothing at all. -/
theorem keepsNone (v : Vol) : Keeps v fun _ => False := ⟨fun _ _ h => h, fun _ _ h => h, fun _ _ h => h.elim⟩

theorem tidyNone {s : St} {fp : File} : Tidy (fun _ => False) 0 s fp ↔ fp.modified = true := ⟨fun h => h.resolve_right fun z => z.1, .inl⟩

/-- The end of a seek beyond the size. -/
theorem pend_end {v : Vol} {s : St} {fp : File} {n : Nat} (h : fp.modified = true ∨ fp.objsize < fp.fptr) : (seekEnd v n s fp).fp.modified = true := by
  have h1 : (extended fp).modified = true := by
    unfold extended
    split
    · rfl
    · exact h.resolve_right (by omega)
  have : Tidy (fun _ => False) 0 (seekFill v n s (extended fp)).st (seekFill v n s (extended fp)).fp := by
    unfold seekFill
    split
    · exact tidy_flush (.inl h1) fun s fp h => tidy_fill (keepsNone v) h fun s fp h => h
    · exact .inl h1
  exact tidyNone.mp this

/-- A seek that will be beyond the size. -/
theorem pend_loop {v : Vol} (hb : 0 < v.csize * v.ss) : ∀ (k : Nat) {s : St} {fp : File} {ofs c : Nat}
    (_ : fp.modified = true ∨ fp.canWrite = true ∧ fp.objsize ≤ fp.fptr ∧ 0 < ofs), (seekLoop v k s fp ofs c).res = 0 → (seekLoop v k s fp ofs c).fp.modified = true
  | 0, s, fp, ofs, c, _, hr => absurd hr (by show UB ≠ 0; decide)
  | k + 1, s, fp, ofs, c, h, hr => by
    unfold seekLoop at hr ⊢
    by_cases ho : ofs > v.csize * v.ss
    · rw [if_pos ho] at hr ⊢
      have h1 : (seekStep v fp).modified = true := by
        unfold seekStep
        rcases h with h | ⟨h, h2, h3⟩
        · split
          · unfold extended
            split
            · rfl
            · exact h
          · exact h
        · rw [if_pos h]
          unfold extended
          rw [if_pos (by show fp.fptr + v.csize * v.ss > fp.objsize; omega)]
      generalize seekNext v s (seekStep v fp) c = p at hr ⊢
      generalize seekStep v fp = f at hr h1 ⊢
      unfold seekChecked at hr ⊢
      split
      · exact h1
      · rename_i e1
        rw [if_neg e1] at hr
        split
        · rename_i e2
          unfold seekHere
          rw [if_neg (by simp)]
          exact pend_end (.inl h1)
        · rename_i e2
          rw [if_neg e2] at hr
          split
          · exact h1
          · rename_i e3
            rw [if_neg e3] at hr
            split
            · exact h1
            · rename_i e4
              rw [if_neg e4] at hr
              exact pend_loop hb k (.inl h1) hr
    · rw [if_neg ho] at hr ⊢
      unfold seekHere at hr ⊢
      have h1 : fp.modified = true ∨ fp.objsize < fp.fptr + ofs := h.imp id fun z => by omega
      split
      · rename_i e1
        rw [if_pos e1] at hr
        split
        · rename_i e2
          rw [if_pos e2] at hr
          exact absurd hr (by show FR_INT_ERR ≠ 0; decide)
        · exact pend_end h1
      · exact pend_end h1

section
variable {v : Vol} {C : St → Prop} {N : Nat} (hK : Keeps v C)
include hK

theorem tidy_loop (hg : Geo v) (hd : DataGeo v) (hs : Sound v) {a b : List (List Nat)} {D : List Nat} {T : Nat} (hlt : T < 2 ^ 32) : ∀ (k : Nat) {m : List Nat} {s : St} {fp : File}
    {q ofs : Nat} (_ : At v a b m s fp D q) (_ : 0 < ofs) (_ : ofs < k) (_ : T = q * bcs v + ofs) (_ : m[q]? = some fp.clust)
    (_ : fp.canWrite = true ∨ T ≤ D.length) (_ : Tidy C N s fp), Tidy C N (seekLoop v k s fp ofs fp.clust).st (seekLoop v k s fp ofs fp.clust).fp
  | 0, _, _, _, _, _, _, _, hk, _, _, _, _ => absurd hk (Nat.not_lt_zero _)
  | k + 1, m, s, fp, q, ofs, h, h0, hk, hT, hc, hw, ht => by
    have hpos := bcs_pos hg hd
    have hnf := nFatent_lt hg
    unfold seekLoop
    by_cases hofs : ofs > v.csize * v.ss
    · rw [if_pos hofs]
      have hofs' : ofs > bcs v := hofs
      have hq : q < m.length := (List.getElem?_eq_some_iff.mp hc).1
      have hsucc : (q + 1) * bcs v = q * bcs v + bcs v := Nat.succ_mul _ _
      obtain ⟨hat, hfl, hcl, -⟩ := step_spec h hq (by omega) (hw.imp id fun z => by omega)
      rw [← hcl] at hc ⊢
      have hw' : (seekStep v fp).canWrite = true ∨ T ≤ D.length := by
        rw [hfl.2.1]
        exact hw
      have ht' := tidy_step (v := v) ht
      generalize seekStep v fp = f at *
      have hsub : ofs - v.csize * v.ss = ofs - bcs v := rfl
      unfold seekNext
      by_cases hcw : f.canWrite = true
      · rw [if_pos hcw]
        obtain ⟨s', r, e, ho, hr⟩ := grow_spec hg hd h.toVolOk (i := q + 1) (c := f.clust) (.inr ⟨q, rfl, hc⟩)
        have hgr := hK.grow s f.clust
        rw [e] at hgr ⊢
        unfold seekChecked
        simp only at hgr ⊢
        rcases hr with ⟨l, hv, hsd, hidx, r2, rn⟩ | ⟨rfl, hv, hsd, hroom, hlen⟩ | ⟨rfl, hs'⟩
        · rw [if_neg (by unfold UB; omega), if_neg (by omega), if_neg (by unfold DERR; omega), if_neg (by omega)]
          have hm : m ≠ [] := fun z => by rw [z] at hq; exact absurd hq (Nat.not_lt_zero _)
          have hat' : At v a b (m ++ l) s' { f with clust := r } D (q + 1) := At.grow hat hv hsd rfl (by rw [headD_append hm]; exact hat.sclust) rfl rfl rfl rfl rfl
          have same : Tidy C N s' f → Tidy C N (seekLoop v k s' { f with clust := r } (ofs - v.csize * v.ss) r).st
              (seekLoop v k s' { f with clust := r } (ofs - v.csize * v.ss) r).fp := fun ht2 =>
            tidy_loop hg hd hs hlt k (fp := { f with clust := r }) (ofs := ofs - v.csize * v.ss) hat' (by omega) (by omega) (by omega) hidx hw' (ht2.file rfl rfl rfl)
          rcases ht' with ht' | ⟨htc, ht2, ht3⟩
          · exact same (.inl ht')
          · rcases hgr htc with hgr | ⟨-, hgr⟩
            · exact same (.inr ⟨hgr, ht2, ht3⟩)
            · left
              have hlen : m.length = q + 1 := by
                obtain ⟨s2, r', e', -, -, -, hr'⟩ := fat_spec hg hd h.toVolOk hc
                have hcm := h.mem (List.mem_of_getElem? hc)
                rw [e'] at hgr
                rcases hgr with hgr | hgr
                · have := hcm.1
                  omega
                · simp only at hgr
                  rcases hr' with ⟨-, -, z⟩ | ⟨z, -⟩ | ⟨-, z⟩
                  · omega
                  · exact z
                  · exact absurd hs z
              have hsz : f.objsize ≤ m.length * bcs v := hat.size
              have hptr := hat.ptr
              rw [hlen] at hsz
              refine pend_loop (v := v) hpos k (.inr ⟨hcw, by show f.objsize ≤ f.fptr; omega, by omega⟩) ?_
              rcases seekLoop_spec hg hd hlt k (fp := { f with clust := r }) (ofs := ofs - v.csize * v.ss) hat' (by omega) (by omega) (by omega) hidx hw' with hf | ⟨_, _, _, hk, _⟩
              · exact absurd hs hf.1
              · exact hk.res
        · rw [if_neg (by decide), if_pos ⟨rfl, hcw⟩]
          refine tidy_seekHere hK ?_
          rcases ht' with ht' | ⟨htc, ht2, ht3⟩
          · exact .inl ht'
          · exact .inr ⟨(hgr htc).resolve_right fun z => z.1 rfl, ht2, ht3⟩
        · exact absurd hs hs'
      · rw [if_neg hcw]
        have hTD := hw'.resolve_left hcw
        obtain ⟨s', r, e, hv, hsd, ho, hr⟩ := fat_spec hg hd h.toVolOk hc
        have hft := hK.fat s f.clust
        rw [e] at hft ⊢
        unfold seekChecked
        simp only at hft ⊢
        rcases hr with ⟨hidx, r2, rn⟩ | ⟨hlen, -, -⟩ | ⟨rfl, hs'⟩
        · rw [if_neg (by unfold UB; omega), if_neg (by omega), if_neg (by unfold DERR; omega), if_neg (by omega)]
          exact tidy_loop hg hd hs hlt k (fp := { f with clust := r }) (ofs := ofs - v.csize * v.ss) (At.same hat hv hsd rfl rfl rfl rfl rfl rfl rfl) (by omega) (by omega) (by omega) hidx hw'
            ((ht'.st hft).file rfl rfl rfl)
        · exfalso
          have h1 : f.objsize ≤ m.length * bcs v := hat.size
          have h2 := hat.total
          rw [hlen] at h1
          omega
        · exact absurd hs hs'
    · rw [if_neg hofs]
      exact tidy_seekHere hK ht

theorem tidy_from (hg : Geo v) (hd : DataGeo v) (hs : Sound v) {a b : List (List Nat)} {m : List Nat} {s : St} {fp : File} {D : List Nat} {q ofs T : Nat} (h : At v a b m s fp D q)
    (hofs : 0 < ofs) (hT : T = q * bcs v + ofs) (hlt : T < 2 ^ 32) (hc : m[q]? = some fp.clust) (hw : fp.canWrite = true ∨ T ≤ D.length) (ht : Tidy C N s fp) :
    Tidy C N (seekFrom v ofs fp.clust s fp).st (seekFrom v ofs fp.clust s fp).fp := by
  have hcm := h.mem (List.mem_of_getElem? hc)
  unfold seekFrom
  rw [if_pos (by have := hcm.1; omega : fp.clust ≠ 0)]
  exact tidy_loop hK hg hd hs hlt _ h hofs (Nat.lt_succ_self _) hT hc hw ht

theorem tidy_start (hg : Geo v) (hd : DataGeo v) (hs : Sound v) {a b : List (List Nat)} {m : List Nat} {s : St} {fp : File} {D : List Nat} {T : Nat} (h : At v a b m s fp D 0)
    (hofs : 0 < T) (hlt : T < 2 ^ 32) (hw : fp.canWrite = true ∨ T ≤ D.length) (ht : Tidy C N s fp) : Tidy C N (seekStart v T s fp).st (seekStart v T s fp).fp := by
  have hnf := nFatent_lt hg
  have hpos := bcs_pos hg hd
  unfold seekStart
  by_cases hs0 : fp.sclust = 0
  · rw [if_pos hs0]
    have hm := (sclust_zero h.toBase).mp hs0
    obtain ⟨s', r, e, ho, hr⟩ := grow_spec hg hd h.toVolOk (i := 0) (c := 0) (.inl ⟨rfl, hm, rfl⟩)
    have hgr := hK.grow s 0
    rw [e] at hgr ⊢
    unfold seekNew
    simp only at hgr ⊢
    rcases hr with ⟨l, hv, hsd, hidx, r2, rn⟩ | ⟨rfl, hv, hsd, hroom, hlen⟩ | ⟨rfl, hs'⟩
    · rw [if_neg (by unfold UB; omega), if_neg (by omega), if_neg (by unfold DERR; omega)]
      have hh : (m ++ l).headD 0 = r := by
        rw [headD_get, hidx]
        rfl
      have ha : At v a b (m ++ l) s' { fp with sclust := r, clust := r } D 0 := At.grow h hv hsd rfl hh.symm rfl rfl rfl rfl rfl
      have same : Tidy C N s' fp → Tidy C N (seekFrom v T r s' { fp with sclust := r, clust := r }).st (seekFrom v T r s' { fp with sclust := r, clust := r }).fp :=
        fun ht2 => tidy_from hK hg hd hs (fp := { fp with sclust := r, clust := r }) ha hofs (by omega) hlt hidx hw (ht2.file rfl rfl rfl)
      rcases ht with ht | ⟨htc, ht2, ht3⟩
      · exact same (.inl ht)
      · rcases hgr htc with hgr | -
        · exact same (.inr ⟨hgr, ht2, ht3⟩)
        · left
          have hsz := h.size
          rw [hm, List.length_nil, Nat.zero_mul] at hsz
          have hD : D.length = 0 := by
            obtain ⟨junk, hj⟩ := h.data
            have := contents_len h.toBase
            rw [hj, List.length_append] at this
            omega
          have hres : (seekFrom v T r s' { fp with sclust := r, clust := r }).res = 0 := by
            rcases seekFrom_spec (fp := { fp with sclust := r, clust := r }) hg hd ha hofs (by omega) hlt hidx hw with hf | ⟨_, _, _, hk, _⟩
            · exact absurd hs hf.1
            · exact hk.res
          unfold seekFrom at hres ⊢
          rw [if_pos (by omega : r ≠ 0)] at hres ⊢
          exact pend_loop (v := v) hpos _ (.inr ⟨hw.resolve_right (by omega), by show fp.objsize ≤ fp.fptr; omega, hofs⟩) hres
    · rw [if_neg (by decide), if_neg (by decide), if_neg (by decide)]
      unfold seekFrom
      rw [if_neg (by simp)]
      refine tidy_seekEnd hK ?_
      rcases ht with ht | ⟨htc, ht2, ht3⟩
      · exact .inl ht
      · exact .inr ⟨(hgr htc).resolve_right fun z => z.1 rfl, ht2, ht3⟩
    · exact absurd hs hs'
  · rw [if_neg hs0]
    have hm : m[0]? = some fp.sclust := by
      have hm : m ≠ [] := fun z => hs0 ((sclust_zero h.toBase).mpr z)
      rw [h.sclust, headD_get]
      rw [List.getElem?_eq_getElem (List.length_pos_iff.mpr hm)]
      rfl
    have ha : At v a b m s { fp with clust := fp.sclust } D 0 := At.same h h.toVolOk (fun _ _ => rfl) rfl rfl rfl rfl rfl rfl rfl
    exact tidy_from hK hg hd hs (fp := { fp with clust := fp.sclust }) ha hofs (by omega) hlt hm hw (ht.file rfl rfl rfl)

theorem tidy_seek (hg : Geo v) (hd : DataGeo v) (hs : Sound v) {a b : List (List Nat)} {m : List Nat} {s : St} {fp : File} {A : Arr} (h : Repr v a b m s fp A) (o : Nat)
    (ht : Tidy C N s fp) : Tidy C N (fLseek v s fp o).st (fLseek v s fp o).fp := by
  have hpos := bcs_pos hg hd
  have hlen : A.data.length = fp.objsize := by rw [h.data, contents_len h.toBase]
  have hple := h.pos
  have hsm := h.small
  unfold fLseek
  rw [if_neg (fun z => z h.noErr)]
  have hclip : seekClip fp o < 2 ^ 32 ∧ (fp.canWrite = true ∨ seekClip fp o ≤ A.data.length) := by
    unfold seekClip
    by_cases hw : fp.canWrite = true
    · refine ⟨?_, .inl hw⟩
      split <;> (try split) <;> omega
    · have hw' : fp.canWrite = false := by
        cases hh : fp.canWrite with
        | false => rfl
        | true => exact absurd hh hw
      rw [hw']
      refine ⟨?_, .inr ?_⟩ <;> (split <;> (try split) <;> simp_all <;> omega)
  generalize seekClip fp o = T at hclip ⊢
  obtain ⟨hlt, hw⟩ := hclip
  have hat : ∀ q f, f = q * bcs v → q * bcs v ≤ fp.objsize → At v a b m s { fp with fptr := f } A.data q := by
    intro q f hf hq
    refine ⟨Base.of_fields h.toBase rfl rfl rfl rfl rfl, hf, by show fp.objsize = _; omega, ⟨[], ?_⟩, h.noErr⟩
    rw [List.append_nil, h.data]
    exact contents_fields rfl rfl rfl rfl
  unfold seekTo
  by_cases h0 : T = 0
  · rw [if_pos h0]
    exact tidy_seekEnd hK (ht.file rfl rfl rfl)
  · rw [if_neg h0]
    split
    · rename_i hcond
      have hp0 := hcond.1
      have hge : (fp.fptr - 1) / bcs v ≤ (T - 1) / bcs v := hcond.2
      have h1 : (fp.fptr - 1) / bcs v * bcs v ≤ fp.fptr - 1 := Nat.div_mul_le_self _ _
      have h2 : (T - 1) / bcs v * bcs v ≤ T - 1 := Nat.div_mul_le_self _ _
      have h3 : (fp.fptr - 1) / bcs v * bcs v ≤ (T - 1) / bcs v * bcs v := Nat.mul_le_mul_right _ hge
      have hcs : clusterStart v (fp.fptr - 1) = (fp.fptr - 1) / bcs v * bcs v := rfl
      have ha := hat ((fp.fptr - 1) / bcs v) (clusterStart v (fp.fptr - 1)) hcs (by omega)
      exact tidy_from hK hg hd hs (fp := { fp with fptr := clusterStart v (fp.fptr - 1) }) (T := T) (ofs := T - clusterStart v (fp.fptr - 1)) ha (by omega) (by omega) hlt (h.clust hp0) hw
        (ht.file rfl rfl rfl)
    · exact tidy_start hK hg hd hs (hat 0 0 (by omega) (by omega)) (by omega) hlt hw (ht.file rfl rfl rfl)

omit hK in
theorem tidy_truncate {s : St} {fp : File} (ht : Tidy C N s fp) : Tidy C N (fTruncate v s fp).st (fTruncate v s fp).fp := by
  have hend : ∀ f p, (cutEnd v f p).fp.modified = true := by
    intro f p
    unfold cutEnd
    split
    · rfl
    · exact tidyNone.mp (tidy_flush (.inl rfl) fun s fp h => h)
  unfold fTruncate
  split
  · exact ht
  · split
    · exact ht
    · split
      · split
        · exact .inl (hend _ _)
        · exact .inl (hend _ _)
      · exact ht

end

theorem write_modified {v : Vol} : ∀ (k : Nat) {s : St} {fp : File} {b acc : List Nat}, (writeLoop v k s fp b acc).res = 0 → (writeLoop v k s fp b acc).fp.modified = true
  | 0, _, _, _, _, _ => rfl
  | k + 1, s, fp, b, acc, hr => by
    unfold writeLoop at hr ⊢
    split
    · rfl
    · rename_i e1
      rw [if_neg e1] at hr
      split
      · rename_i e2
        rw [if_pos e2] at hr
        exact absurd hr e2
      · rename_i e2
        rw [if_neg e2] at hr
        split
        · rfl
        · rename_i e3
          rw [if_neg e3] at hr
          exact write_modified k hr

/-- Contents of the device, with nothing waiting in the window. -/
def Clean (d : Disk) (s : St) : Prop := s.disk = d ∧ s.wflag = false

theorem clean_move {v : Vol} {d : Disk} {s : St} (n : Nat) (h : Clean d s) : Clean d (moveWindow v s n).1 := by
  unfold moveWindow
  split
  · exact h
  · have e : syncWindow v s = (s, FR_OK) := by
      unfold syncWindow
      rw [h.2]
      rfl
    rw [e, if_pos (rfl : FR_OK = FR_OK)]
    unfold fillWindow diskReadWin
    cases v.io s.cnt <;> exact h

theorem clean_window {v : Vol} {d : Disk} {s : St} {n e : Nat} {k : St → St × Nat} (h : Clean d s) (hk : ∀ s, Clean d s → Clean d (k s).1) : Clean d (window v s n e k).1 := by
  unfold window
  split
  · exact hk _ (clean_move n h)
  · exact clean_move n h

theorem clean_from {d : Disk} {s : St} {x : Option Nat} {k : Nat → St × Nat} (h : Clean d s) (hk : ∀ b, Clean d (k b).1) : Clean d (fromWin s x k).1 := by
  unfold fromWin
  split
  · exact h
  · exact hk _

theorem clean_get {v : Vol} {d : Disk} (s : St) (c : Nat) (h : Clean d s) : Clean d (getFat v s c).1 := by
  unfold getFat
  split
  · exact h
  · split
    · exact clean_window h fun s h => clean_from h fun b => clean_window h fun s h => clean_from h fun b => h
    · split
      · exact clean_window h fun s h => clean_from h fun b => h
      · split
        · exact clean_window h fun s h => clean_from h fun b => h
        · exact h

theorem kept_search {v : Vol} {C : St → Prop} (hget : ∀ s c, C s → C (getFat v s c).1) (scl : Nat) : ∀ (k : Nat) (s : St) (c : Nat), C s → C (search v scl k s c).1
  | 0, _, _, h => h
  | k + 1, s, c, h => by
    have h1 := hget s (nextClst v c) h
    unfold search
    split
    · exact h
    · split
      · exact h1
      · split
        · exact h1
        · split
          · exact h1
          · exact kept_search hget scl k _ _ h1

theorem next_pos (v : Vol) (c : Nat) : nextClst v c ≠ 0 := by
  unfold nextClst
  split <;> omega

theorem search_pos {v : Vol} (scl : Nat) : ∀ (k : Nat) (s : St) (c n : Nat), (search v scl k s c).2 = .hit n → n ≠ 0
  | 0, _, _, _, h => by cases h
  | k + 1, s, c, n, h => by
    have h1 := next_pos v c
    unfold search at h
    split at h
    · cases h
    · split at h
      · cases h
        exact h1
      · split at h
        · cases h
        · split at h
          · cases h
          · exact search_pos scl k _ _ n h

theorem link_pos (v : Vol) (s : St) (c : Nat) {n : Nat} (hn : n ≠ 0) : (link v s c n).2 ≠ 0 := by
  unfold link
  generalize (withPut v s n 0xFFFFFFFF fun s => if c ≠ 0 then putFat v s c n else (s, FR_OK)) = p
  unfold created
  split
  · exact hn
  · split
    · exact (by decide : UB ≠ 0)
    · show (if p.2 = FR_DISK_ERR then DERR else 1) ≠ 0
      split <;> decide

theorem kept_place {v : Vol} {C : St → Prop} {c : Nat} {p : St × Found} (h : C p.1) (hp : ∀ n, p.2 = .hit n → n ≠ 0) : C (place v c p).1 ∨ (place v c p).2 ≠ 0 := by
  unfold place
  split
  · exact .inl h
  · rename_i n e
    exact .inr (link_pos v _ _ (hp n e))

/-- What reads of the FAT keep, all reading keeps. -/
theorem keeps_of {v : Vol} {C : St → Prop} (hcnt : ∀ s k, C s → C { s with cnt := k }) (hget : ∀ s c, C s → C (getFat v s c).1) : Keeps v C := by
  refine ⟨hcnt, hget, fun s c h => ?_⟩
  unfold createChain
  split
  · rename_i hc
    split
    · exact .inl h
    · exact (kept_place (kept_search hget _ _ _ _ h) (search_pos _ _ _ _)).imp id fun z => ⟨z, .inl hc⟩
  · have h1 := hget s c h
    unfold withFat
    split
    · exact .inl h1
    · simp only
      split
      · exact .inl h1
      · split
        · exact .inl h1
        · split
          · exact .inl h1
          · rename_i hn
            split
            · exact .inl h1
            · have h2 : C (stretch v (getFat v s c).1 c).1 ∨ (stretch v (getFat v s c).1 c).2 ≠ 0 := by
                have h3 := hget _ (nextClst v c) h1
                unfold stretch withFat
                split
                · exact .inl h3
                · simp only
                  split
                  · exact .inl h3
                  · split
                    · exact kept_place (kept_search hget _ _ _ _ h3) (search_pos _ _ _ _)
                    · exact .inr (link_pos v _ _ (next_pos v c))
              exact h2.imp id fun z => ⟨z, .inr (by omega)⟩

theorem keepsClean (v : Vol) (d : Disk) : Keeps v (Clean d) := keeps_of (fun _ _ h => h) clean_get

end Fpm.FatSync
