import Verif.Tree.WipeLemmas
import Verif.FatLock.Props
/-!
# File objects of files in directories: lemmas
-/
namespace Fpm.Tree
open Fpm.Fat Fpm.Fat.Spec Fpm.FatFile Fpm.FatFile.Spec Fpm.Lfn Fpm.Names Fpm.Names.Spec Fpm.TextIo.Spec Fpm.FatDir Fpm.FatDir.Spec Fpm.Mount Fpm.Mount.Spec Fpm.DirDev Fpm.DirDev.Spec Fpm.Tree.Spec Fpm.FatSync Fpm.FatBytes Fpm.FatBytes.Spec
open Fpm.FatLock (Sem Key chkShare enqShare incShare decShare)

/-! ## Bits of the mode -/

/-- What the bits of a mode mean for `f_open`. -/
structure Bits (M mode : Nat) : Prop where
  create : M &&& 0x1C ≠ 0 ↔ Creates mode
  new : M &&& 4 ≠ 0 ↔ MustBeNew mode
  wipe : M &&& 8 ≠ 0 ↔ Wipes mode
  tail : M &&& 0x20 ≠ 0 ↔ AtEnd mode
  write : M &&& 2 ≠ 0 ↔ Writes mode
  read : M &&& 1 ≠ 0 ↔ mode.testBit 0
  kind : access M = kind mode
  tail8 : (M ||| 8) &&& 0x20 ≠ 0 ↔ AtEnd mode
  write8 : (M ||| 8) &&& 2 ≠ 0 ↔ Writes mode
  read8 : (M ||| 8) &&& 1 ≠ 0 ↔ mode.testBit 0
  set8 : (M ||| 8) &&& 8 ≠ 0
  kind8 : Creates mode → access (M ||| 8) = Spec.kind mode

instance (M mode : Nat) : Decidable (Bits M mode) :=
  decidable_of_iff ((M &&& 0x1C ≠ 0 ↔ Creates mode) ∧ (M &&& 4 ≠ 0 ↔ MustBeNew mode) ∧ (M &&& 8 ≠ 0 ↔ Wipes mode) ∧ (M &&& 0x20 ≠ 0 ↔ AtEnd mode) ∧ (M &&& 2 ≠ 0 ↔ Writes mode) ∧ (M &&& 1 ≠ 0 ↔ mode.testBit 0) ∧ access M = Spec.kind mode ∧
    ((M ||| 8) &&& 0x20 ≠ 0 ↔ AtEnd mode) ∧ ((M ||| 8) &&& 2 ≠ 0 ↔ Writes mode) ∧ ((M ||| 8) &&& 1 ≠ 0 ↔ mode.testBit 0) ∧ (M ||| 8) &&& 8 ≠ 0 ∧ (Creates mode → access (M ||| 8) = Spec.kind mode))
  ⟨fun ⟨a, b, c, d, e, f, g, h, i, j, k, l⟩ => ⟨a, b, c, d, e, f, g, h, i, j, k, l⟩, fun ⟨a, b, c, d, e, f, g, h, i, j, k, l⟩ => ⟨a, b, c, d, e, f, g, h, i, j, k, l⟩⟩

theorem bits_small : ∀ M < 64, Bits M M := by decide +kernel

theorem mode_bits (mode : Nat) : Bits (mode &&& 0x3F) mode := by
  have hb : ∀ k, k < 6 → (mode &&& 0x3F).testBit k = mode.testBit k := by
    intro k hk
    have : Nat.testBit 0x3F k = true := by
      have : ∀ k < 6, Nat.testBit 0x3F k = true := by decide
      exact this k hk
    rw [Nat.testBit_and, this, Bool.and_true]
  have hlt : mode &&& 0x3F < 64 := Nat.lt_of_le_of_lt Nat.and_le_right (by decide)
  have h := bits_small _ hlt
  have c1 : Creates (mode &&& 0x3F) ↔ Creates mode := by unfold Creates; rw [hb 2 (by decide), hb 3 (by decide), hb 4 (by decide)]
  have c2 : MustBeNew (mode &&& 0x3F) ↔ MustBeNew mode := by unfold MustBeNew; rw [hb 2 (by decide)]
  have c3 : Wipes (mode &&& 0x3F) ↔ Wipes mode := by unfold Wipes; rw [hb 3 (by decide)]
  have c4 : AtEnd (mode &&& 0x3F) ↔ AtEnd mode := by unfold AtEnd; rw [hb 5 (by decide)]
  have c5 : Writes (mode &&& 0x3F) ↔ Writes mode := by unfold Writes; rw [hb 1 (by decide)]
  have c6 : ReadsOnly (mode &&& 0x3F) ↔ ReadsOnly mode := by
    unfold ReadsOnly
    refine ⟨fun h k h1 h2 => by rw [← hb k h2]; exact h k h1 h2, fun h k h1 h2 => by rw [hb k h2]; exact h k h1 h2⟩
  have c7 : Spec.kind (mode &&& 0x3F) = Spec.kind mode := by
    unfold Spec.kind
    by_cases hx : ReadsOnly mode
    · rw [if_pos hx, if_pos (c6.mpr hx)]
    · rw [if_neg hx, if_neg fun hy => hx (c6.mp hy)]
  refine ⟨h.create.trans c1, h.new.trans c2, h.wipe.trans c3, h.tail.trans c4, h.write.trans c5, ?_, h.kind.trans c7, h.tail8.trans c4, h.write8.trans c5, ?_, h.set8, fun hc => (h.kind8 (c1.mpr hc)).trans c7⟩
  · rw [← hb 0 (by decide)]; exact h.read
  · rw [← hb 0 (by decide)]; exact h.read8

/-! ## The table of open objects -/

theorem chk_free {k : Key} : ∀ {files : List Sem} {be : Bool}, FatLock.chkLoop k be files = (none, true) → be = true ∨ ∃ x ∈ files, x.key.fs = 0
  | [], be, h => by
    unfold FatLock.chkLoop at h
    cases h
    exact .inl rfl
  | s :: r, be, h => by
    unfold FatLock.chkLoop at h
    by_cases h0 : s.key.fs ≠ 0
    · rw [if_pos h0] at h
      by_cases hk : s.key = k
      · rw [if_pos hk] at h; cases h
      · rw [if_neg hk] at h
        rcases chk_free h with h | ⟨x, hx, e⟩
        · exact .inl h
        · exact .inr ⟨x, by simp [hx], e⟩
    · exact .inr ⟨s, by simp, by omega⟩

/-- After `chk_share` has found nothing wrong, `inc_share` works. -/
theorem share_kept {files : List Sem} {k : Key} {acc : Nat} (hk : k.fs ≠ 0) (ha : acc ≠ 2) (h : chkShare files k acc = FR_OK) : (incShare files k acc).2 ≠ 0 := by
  have h1 := FatLock.chk_ok h
  refine FatLock.inc_nonzero ?_
  rcases h1 with ⟨s, hs, e, -, e0, -⟩ | h1
  · exact .inl ⟨⟨s, hs, e⟩, e0⟩
  · have hno : ∀ s ∈ files, s.key ≠ k := fun s hs e => h1 s hs (by rw [e]; exact hk) e
    refine .inr ⟨hno, ?_⟩
    unfold chkShare at h
    generalize hc : FatLock.chkLoop k false files = q at h
    obtain ⟨o, be⟩ := q
    cases o with
    | none =>
      simp only at h
      cases be with
      | false => rw [if_pos ⟨rfl, ha⟩] at h; cases h
      | true => exact (chk_free hc).resolve_left (by simp)
    | some s =>
      exfalso
      have hs := (FatLock.chkLoop_spec k files false).1 _ _ hc
      exact hno s hs.1 hs.2.1

/-- A new file cannot enter the table only if its key is there. -/
theorem share_new {files : List Sem} {k : Key} {acc : Nat} (h : enqShare files = true) (h0 : (incShare files k acc).2 = 0) : ∃ x ∈ files, x.key = k := by
  refine Classical.byContradiction fun hx => ?_
  refine FatLock.inc_nonzero (.inr ⟨fun s hs e => hx ⟨s, hs, e⟩, ?_⟩) h0
  unfold enqShare at h
  obtain ⟨x, hx, e⟩ := List.any_eq_true.mp h
  exact ⟨x, hx, by simpa using e⟩

/-! ## The file object -/

/-- The chain of a file, long enough for it. -/
theorem file_long {v : Vol} {i : Info} {T : List Dir} {F : List (List Nat)} {s : St} (h : Tree v i T F s) {d : Dir} (hd : d ∈ T) {o : Obj} (ho : o ∈ d.os) (hs : ¬ IsDir o) :
    ¬ Dotted o ∧ ∃ m F', F.Perm (withRest [] m F') ∧ first v o = m.headD 0 ∧ size o ≤ m.length * (v.csize * v.ss) := by
  have hdo : ¬ Dotted o := fun hx => hs (h.dots d hd o ho hx).1
  refine ⟨hdo, ?_⟩
  obtain ⟨m, hm, e, e2⟩ := h.files d hd o ho hdo hs
  by_cases hn : m = []
  · exact ⟨m, F, by rw [rest_nil, if_pos hn], e, e2⟩
  · obtain ⟨a, b, rfl⟩ := List.append_of_mem (hm.resolve_left hn)
    exact ⟨m, a ++ b, by rw [rest_nil, if_neg hn]; exact List.perm_middle, e, e2⟩

/-- Sectors of a directory are not available to files. -/
theorem dir_own {v : Vol} {i : Info} (hr : Ready v i) {T : List Dir} {F : List (List Nat)} {s : St} (h : Tree v i T F s) {d : Dir} (hd : d ∈ T) {n : Nat} (hn : n ∈ dirSecs v i d.loc) {o : List Nat} (ho : ∀ c ∈ (dirChains T).flatten, c ∈ o) :
    ¬ OwnSect v o n := by
  intro hx
  have hl := tree_linked h hd
  have hdb := own_data hx
  cases hloc : d.loc with
  | root =>
    rw [hloc] at hn hl
    have := root_secs hr hl hn
    omega
  | chain l =>
    rw [hloc] at hn hl
    obtain ⟨c, ⟨h2, -, h3⟩, hc⟩ := hx
    obtain ⟨c', hc', hs⟩ := secs_mem (show n ∈ secs v l from hn)
    have := sectors_inj hc hs h2 (links_mem (show Links v.nFatent (tab v s) l from hl) c' hc').1
    subst this
    refine h3 (ho c (List.mem_flatten.mpr ⟨l, List.mem_flatMap.mpr ⟨d, hd, ?_⟩, hc'⟩))
    rw [hloc]
    simp [chainOf]

theorem rest_end (a : List (List Nat)) (m : List Nat) (F : List (List Nat)) : (a ++ withRest [] m F).Perm (withRest (a ++ F) m []) := by
  unfold withRest
  split
  · simp
  · rw [List.nil_append, List.append_assoc]
    exact List.Perm.append_left _ (List.perm_append_singleton m F).symm

/-- The part of the volume that a file may use. -/
theorem vol_of {v : Vol} {i : Info} (hr : Ready v i) {T : List Dir} {F : List (List Nat)} {m : List Nat} {s : St} (h : Tree v i T (withRest [] m F) s) {d : Dir} (hd : d ∈ T) {n : Nat} (hn : n ∈ dirSecs v i d.loc) (hw : s.winsect = some n) :
    VolOk v (dirChains T ++ F) [] m s := by
  refine ⟨h.inv, chains_perm (rest_end _ _ _) h.chains, h.count, fun n' hn' => ?_⟩
  rw [hw] at hn'
  cases hn'
  exact dir_own hr h hd hn fun c hc => by simp [hc]

/-- The file object is filled in, on a sound device. -/
theorem fill_spec {v : Vol} {i : Info} (hr : Ready v i) (hs : Sound v) {T : List Dir} {F : List (List Nat)} {m : List Nat} {r : Ret} (h : Tree v i T (withRest [] m F) r.st) {d : Dir} (hd : d ∈ T) {o : Obj} (ho : o ∈ d.os) (hfst : first v o = m.headD 0)
    (hsz : size o ≤ m.length * (v.csize * v.ss)) (hat : At v i d.loc o.pos r.dp) (hw : r.st.winsect = some r.dp.sect) (mode old : Nat) {pl : Place} {q : List Sem × Nat} {p : Opd} (hp : p = openFill v mode old r pl q) :
    Quiet v r.st p.st ∧ p.res = FR_OK ∧ (p.files = q.1 ∧ p.lock = q.2) ∧ p.place = pl ∧ ∃ fp, p.fp = some fp ∧ Repr v (dirChains T ++ F) [] m p.st fp ⟨((secs v m).flatMap (view r.st)).take (size o), if mode &&& 0x20 ≠ 0 then size o else 0⟩ ∧
      fp.canRead = decide (mode &&& 1 ≠ 0) ∧ fp.canWrite = decide (mode &&& 2 ≠ 0) ∧ fp.modified = decide (mode &&& 8 ≠ 0) ∧ fp.dirty = false ∧ fp.objsize = size o := by
  have hob := (h.dirs d hd).dir.table _ (List.mem_of_getElem? (rep_entry (h.dirs d hd).dir.rep o ho))
  have hl := ld_clust (v := v) (w := o.entry) (off := 0) hob.2 (by omega)
  obtain ⟨hz, hz2⟩ := ld_dword (w := o.entry) (p := 28) hob.2 (by omega)
  unfold openFill at hp
  rw [ent_tree hr h hd ho hat hw, Option.bind_some, hl, Option.bind_some, hz, Option.map_some] at hp
  simp only at hp
  obtain ⟨k1, -, k3⟩ := open_seek hr.geo hr.data (vol_of hr h hd (List.mem_of_getElem? hat.sect) hw) mode old (cl := FatSync.Spec.first v o.entry 0) hfst hsz hz2 rfl
  obtain ⟨k3, k4, k5⟩ := k3.resolve_right fun hx => hx.2 hs
  unfold openOut at hp
  rw [show FatSync.Spec.field o.entry 28 4 = size o from rfl] at hp
  rw [if_pos k3] at hp
  subst hp
  exact ⟨k1, rfl, ⟨rfl, rfl⟩, rfl, _, rfl, k4, k5⟩

end Fpm.Tree
