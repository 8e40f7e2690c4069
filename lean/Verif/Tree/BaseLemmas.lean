import Verif.Tree.RenameSpec
import Verif.Tree.GrowLemmas
import Verif.Tree.MkdirLemmas
/-!
# Directories on the device, whatever their objects refer to: lemmas

While an object is renamed there are two entries for it, so that the volume is not a `Tree` for some time.
-/
namespace Fpm.Tree
open Fpm.Fat Fpm.Fat.Spec Fpm.FatFile Fpm.FatFile.Spec Fpm.FatBytes Fpm.FatBytes.Spec Fpm.Lfn Fpm.Names Fpm.Names.Spec Fpm.TextIo.Spec Fpm.FatDir Fpm.FatDir.Spec Fpm.Mount Fpm.Mount.Spec Fpm.DirDev Fpm.DirDev.Spec Fpm.Tree.Spec Fpm.FatSync

/-- Directories on the device. -/
structure Base (v : Vol) (i : Info) (T : List Dir) (F : List (List Nat)) (s : St) : Prop where
  inv : Inv v s
  count : CountOk v s
  chains : Chains v.nFatent (tab v s) (dirChains T ++ F)
  once : (T.map Dir.sclust).Nodup
  starts : ∀ d ∈ T, Starts v i d.sclust d.loc
  dirs : ∀ d ∈ T, Directory true (entries v i (view s) d.loc) d.os

/-- Data of files are the same. -/
def Alike (v : Vol) (F : List (List Nat)) (s s' : St) : Prop := ∀ l ∈ F, ∀ n ∈ secs v l, view s' n = view s n

theorem Alike.trans {v : Vol} {F : List (List Nat)} {s s1 s2 : St} (h1 : Alike v F s s1) (h2 : Alike v F s1 s2) : Alike v F s s2 := fun l hl n hn => (h2 l hl n hn).trans (h1 l hl n hn)

theorem tree_base {v : Vol} {i : Info} {T : List Dir} {F : List (List Nat)} {s : St} (h : Tree v i T F s) : Base v i T F s :=
  ⟨h.inv, h.count, h.chains, h.once, fun d hd => (h.dirs d hd).starts, fun d hd => (h.dirs d hd).dir⟩

theorem base_perm {v : Vol} {i : Info} {T T' : List Dir} {F : List (List Nat)} {s : St} (ht : T.Perm T') (h : Base v i T F s) : Base v i T' F s :=
  ⟨h.inv, h.count, chains_perm ((ht.flatMap_right _).append_right F) h.chains, (ht.map _).nodup_iff.mp h.once, fun d hd => h.starts d (ht.mem_iff.mpr hd), fun d hd => h.dirs d (ht.mem_iff.mpr hd)⟩

theorem base_vol {v : Vol} {i : Info} {d : Dir} {R : List Dir} {F : List (List Nat)} {s : St} (h : Base v i (d :: R) F s) : DirVol v [] (dirChains R ++ F) d.loc s := by
  refine ⟨h.inv, fun hl => ?_, by rw [show allChains [] (dirChains R ++ F) d.loc = _ from all_chains [] R F d]; exact h.chains, h.count⟩
  have := h.starts d (by simp)
  rw [hl] at this
  exact this.2

theorem base_linked {v : Vol} {i : Info} {T : List Dir} {F : List (List Nat)} {s : St} (h : Base v i T F s) {d : Dir} (hd : d ∈ T) : Linked v (tab v s) d.loc := by
  obtain ⟨A, B, hT⟩ := List.append_of_mem hd
  exact (base_vol (base_perm (by rw [hT]; exact List.perm_middle) h)).linked

theorem base_quiet {v : Vol} {i : Info} (hr : Ready v i) {T : List Dir} {F : List (List Nat)} {s s' : St} (hq : Quiet v s s') (h : Base v i T F s) : Base v i T F s' ∧ Alike v F s s' :=
  ⟨⟨hq.inv, count_same hq.same hq.rest h.count, by rw [tab_same hq.same]; exact h.chains, h.once, h.starts, fun d hd => by rw [entries_same hr (base_linked h hd) hq.same]; exact h.dirs d hd⟩,
   fun l hl n hn => hq.same n (chain_secs hr (h.chains.chain l (by simp [hl])) hn).2.1⟩

theorem base_apart {v : Vol} {i : Info} (hr : Ready v i) {d : Dir} {R : List Dir} {F : List (List Nat)} {s s' : St} (h : Base v i (d :: R) F s) (ha : Apart v i [] (dirChains R ++ F) d.loc s s') :
    (∀ d' ∈ R, entries v i (view s') d'.loc = entries v i (view s) d'.loc) ∧ Alike v F s s' := by
  have hlink := base_linked h (d := d) (by simp)
  have key : ∀ l ∈ dirChains R ++ F, ∀ n ∈ secs v l, view s' n = view s n := by
    intro l hl n hn
    have hll : Links v.nFatent (tab v s) l := h.chains.chain l (by
      rw [show d :: R = [] ++ d :: R from rfl, dirChains_mid]
      rcases List.mem_append.mp hl with hl | hl <;> simp [hl])
    obtain ⟨h1, h2, -⟩ := chain_secs hr hll hn
    exact ha.2 n h1 h2 (own_chain hr hlink hll hl hn)
  refine ⟨fun d' hd' => ?_, fun l hl => key l (by simp [hl])⟩
  have hok := h.starts d' (by simp [hd'])
  refine entries_congr fun n hn => ?_
  cases hloc : d'.loc with
  | chain l =>
    rw [hloc] at hn
    exact key l (List.mem_append_left _ (List.mem_flatMap.mpr ⟨d', hd', by rw [hloc]; simp [chainOf]⟩)) n hn
  | root =>
    rw [hloc] at hn
    have hl' := base_linked h (d := d') (by simp [hd'])
    rw [hloc] at hl'
    obtain ⟨h1, h2, -⟩ := secs_place hr hl' hn
    refine ha.2 n h1 h2 fun hown => ?_
    cases hd : d.loc with
    | chain m =>
      rw [hd] at hown
      obtain ⟨c, -, hc⟩ := hown
      have := (mem_sectors.mp hc).1
      have := root_secs hr hl' hn
      omega
    | root =>
      have e2 := h.starts d (by simp)
      rw [hloc] at hok
      rw [hd] at e2
      have := h.once
      rw [List.map_cons, List.nodup_cons] at this
      exact this.1 (by rw [e2.1, ← hok.1]; exact List.mem_map_of_mem hd')

/-- One directory has changed. -/
theorem base_next {v : Vol} {i : Info} (hr : Ready v i) {d : Dir} {R : List Dir} {F : List (List Nat)} {s s' : St} (h : Base v i (d :: R) F s) (ha : Apart v i [] (dirChains R ++ F) d.loc s s') {loc : Loc} (hl : Longer d.loc loc)
    {os : List Obj} (hv : DirVol v [] (dirChains R ++ F) loc s') (hd : Directory true (entries v i (view s') loc) os) : Base v i ({ d with loc := loc, os := os } :: R) F s' ∧ Alike v F s s' := by
  obtain ⟨a1, a2⟩ := base_apart hr h ha
  refine ⟨⟨hv.inv, hv.count, ?_, h.once, fun d' hd' => ?_, fun d' hd' => ?_⟩, a2⟩
  · have := hv.chains
    rw [allchains_cons R F d loc os] at this
    exact this
  · rcases List.mem_cons.mp hd' with rfl | hd'
    · exact starts_longer hl (base_linked h (d := d) (by simp)) (h.starts d (by simp))
    · exact h.starts d' (by simp [hd'])
  · rcases List.mem_cons.mp hd' with rfl | hd'
    · exact hd
    · rw [a1 d' hd']
      exact h.dirs d' (by simp [hd'])

/-- Storing an entry of an object with the same name. -/
theorem base_set {v : Vol} {i : Info} (hr : Ready v i) {d : Dir} {R : List Dir} {F : List (List Nat)} {s : St} (h : Base v i (d :: R) F s) {dp : Dp} {o : Obj} {x y : List Obj} (hos : d.os = x ++ o :: y)
    (hat : At v i d.loc o.pos dp) (hw : s.winsect = some dp.sect) {e : List Nat} (he : e.take 11 = o.entry.take 11) (hs : Sfn e) (hb : e.length = 32 ∧ ∀ b ∈ e, b < 256) :
    Base v i ({ d with os := x ++ { o with entry := e } :: y } :: R) F (setEnt v s dp e) ∧ Alike v F s (setEnt v s dp e) := by
  have hv := base_vol h
  obtain ⟨k1, k2, -⟩ := set_spec hr hv hat hw hb
  refine base_next hr h (k2.apart hv k1) (.refl _) k1 ?_
  have h1 := h.dirs d (by simp)
  rw [hos] at h1
  rw [k2.ents]
  exact dir_update h1 he hs hb

/-- Removing an object. -/
theorem base_remove {v : Vol} {i : Info} (hr : Ready v i) {d : Dir} {R : List Dir} {F : List (List Nat)} {s : St} (h : Base v i (d :: R) F s) {dp : Dp} (hdp : dp.sclust = d.sclust) {o : Obj} {x y : List Obj} (hos : d.os = x ++ o :: y)
    (hat : At v i d.loc o.pos dp) {blk : Option Nat} (hblk : blk.getD o.pos = o.pos - width o) {r : Ret} (hrr : r = dirRemove v i s dp (blk.map (32 * ·))) :
    r.res = FR_DISK_ERR ∧ ¬ Sound v ∨ r.res = FR_OK ∧ Base v i ({ d with os := x ++ y } :: R) F r.st ∧ Alike v F s r.st := by
  have hv := base_vol h
  have hle : ∀ n, blk = some n → n ≤ o.pos := fun n hn => by rw [hn] at hblk; simp only [Option.getD_some] at hblk; omega
  have hrm := remove_dev hr hv (by rw [hdp]; exact h.starts d (by simp)) hat hle
  rw [← hrr] at hrm
  rcases hrm.cases with ⟨d1, d2, -⟩ | ⟨d1, -⟩ | ⟨ws, d1, d2, -, d4⟩
  · exact .inl ⟨d1, d2⟩
  · cases d1
  cases d1
  refine .inr ⟨d2, ?_⟩
  have hd := h.dirs d (by simp)
  rw [hos] at hd
  obtain ⟨r1, r2, r3, -⟩ := remove_spec hd.rep (zip_of hd.rep rfl hblk) hd.table hd.ended
  refine base_next hr h (d4.apart hv hrm.vol) (.refl _) hrm.vol ?_
  rw [d4.ents]
  exact ⟨r2, r1, r3⟩

/-- Adding an object. -/
theorem base_register {v : Vol} {i : Info} (hr : Ready v i) {d : Dir} {R : List Dir} {F : List (List Nat)} {s : St} (h : Base v i (d :: R) F s) {dp : Dp} (hdp : dp.sclust = d.sclust)
    {cs : List Nat} {last : Bool} {buf fn : List Nat} {fl : Nat} (hf : FileName cs last buf fn fl) (hff : 0xFFFF ∉ cs) (hb : buf.length = 256) {g : Ret} (hg : g = dirRegister v i s dp fn fl buf) :
    g.dp.sclust = d.sclust ∧ (g.res = FR_DISK_ERR ∧ ¬ Sound v ∨
     g.res = DirDev.FR_DENIED ∧ (∃ loc', Longer d.loc loc' ∧ Base v i ({ d with loc := loc' } :: R) F g.st ∧ Alike v F s g.st ∧
       (Full v i [] (dirChains R ++ F) (view g.st) loc' ∧ NoRoom (entries v i (view g.st) loc') (fl &&& 2 ≠ 0) (units (trimmed cs)).length ∨ ∀ z, 1 ≤ z → z < 100 → ∃ o ∈ d.os, genNumname fn buf z = some o.fn)) ∨
     g.res = FR_OK ∧ ∃ loc' x o y, Longer d.loc loc' ∧ d.os = x ++ y ∧ NewObj (units (trimmed cs)) fn fl d.os o ∧ Base v i ({ d with loc := loc', os := x ++ o :: y } :: R) F g.st ∧ Alike v F s g.st ∧ At v i loc' o.pos g.dp ∧
       dirEnt v g.st g.dp = some o.entry ∧ g.st.winsect = some g.dp.sect) := by
  have hv := base_vol h
  obtain ⟨h1, h2, h3⟩ := C80_register v i hr [] (dirChains R ++ F) d.loc s dp true d.os ⟨hv, h.dirs d (by simp)⟩ (by rw [hdp]; exact h.starts d (by simp)) cs last buf fn fl hf hff hb (.inl rfl)
  rw [← hg] at h1 h2 h3
  refine ⟨h2.trans hdp, ?_⟩
  rcases h3 with h3 | ⟨h3, loc', h4, h5, h6⟩ | ⟨h3, loc', x, o, y, c1, -, c2, c3, c4, c5, c6, c7, -⟩
  · exact .inl h3
  · obtain ⟨k1, k2⟩ := base_next hr h h1 h4 h5.vol h5.dir
    exact .inr (.inl ⟨h3, loc', h4, k1, k2, h6⟩)
  · obtain ⟨k1, k2⟩ := base_next hr h h1 c1 c4.vol c4.dir
    exact .inr (.inr ⟨h3, loc', x, o, y, c1, c2, c3, k1, k2, c5, c6, c7⟩)

end Fpm.Tree
