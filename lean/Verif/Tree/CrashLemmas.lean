import Verif.Tree.UnlinkProps
import Verif.Tree.CrashSpec
import Verif.Fat.CrashProps
/-!
# Contents of the device while objects are removed: lemmas
-/
namespace Fpm.Tree
open Fpm.Fat Fpm.Fat.Spec Fpm.FatFile Fpm.FatFile.Spec Fpm.Lfn Fpm.Names Fpm.Names.Spec Fpm.TextIo.Spec Fpm.FatDir Fpm.FatDir.Spec Fpm.Mount Fpm.Mount.Spec Fpm.DirDev Fpm.DirDev.Spec Fpm.Tree.Spec Fpm.FatSync

/-- Every content of the device is an old one, or differs from what was seen in the FATs only. -/
def Keep (v : Vol) (s s' : St) : Prop := ∀ d ∈ s'.disk :: s'.past, d ∈ s.disk :: s.past ∨ ∀ n, ¬ Fat1 v n → ¬ Fat2 v n → d n = view s n

theorem Keep.refl (v : Vol) (s : St) : Keep v s s := fun _ h => .inl h

theorem Keep.trans {v : Vol} {a b c : St} (h : Keep v a b) (ho : Fat.Out v a b) (h' : Keep v b c) : Keep v a c := by
  intro d hd
  rcases h' d hd with h1 | h1
  · exact h d h1
  · exact .inr fun n n1 n2 => (h1 n n1 n2).trans (ho n n1 n2)

theorem Keep.of_trace {v : Vol} {s s' : St} (h : Trace v s s') : Keep v s s' := fun d hd => (h.1 d hd).imp id fun h n _ n2 => h n n2

theorem keep_one {v : Vol} {s s' : St} (h : Keep v s s') : Keep v s (oneMore v s') := by
  unfold oneMore
  split <;> exact h

/-- `remove_chain` changes nothing but FATs. -/
theorem loop_keep {v : Vol} (hg : Geo v) (hs : Sound v) (hst : ∀ c, 2 ≤ c → c < v.nFatent → ¬ Straddle v c) : ∀ (k : Nat) {s : St} {c : Nat}, Inv v s → 2 ≤ c → c < v.nFatent → Keep v s (removeLoop v k s c).1
  | 0, s, _, _, _, _ => Keep.refl v s
  | k + 1, s, c, hi, c2, cn => by
    rw [removeLoop.eq_def]
    simp only
    have hlt := tab_lt v s c
    obtain ⟨s1, r1, e1, i1, sm1, -, tr1, hr1⟩ := getFat_spec hg hi c2 cn
    have k1 := Keep.of_trace (tr1 hs)
    unfold withFat
    rw [e1]
    simp only
    split
    · exact k1
    split
    · exact k1
    split
    · exact k1
    split
    · exact k1
    obtain ⟨s2, r2, e2, i2, -, o2, -⟩ := put_step hg i1 0 c2 cn
    obtain ⟨s2', r2', e2', -, -, tr2, -⟩ := putFat_spec (val := 0) hg i1 c2 cn
    rw [e2] at e2'
    obtain ⟨rfl, rfl⟩ := Prod.mk.injEq .. ▸ e2'
    have k2 := k1.trans sm1.out (Keep.of_trace (tr2 hs (hst c c2 cn)))
    unfold withPut
    rw [e2]
    simp only
    rename_i hub h0 h1 hd
    split
    · split
      · rename_i hn
        exact (keep_one k2).trans (oneMore_out (sm1.out.trans o2)) (loop_keep hg hs hst k (oneMore_inv i2) (by omega) hn)
      · exact keep_one k2
    · exact k2

theorem chain_keep {v : Vol} (hg : Geo v) (hs : Sound v) (hst : ∀ c, 2 ≤ c → c < v.nFatent → ¬ Straddle v c) {s : St} (hi : Inv v s) (c : Nat) : Keep v s (removeChain v s c 0).1 := by
  unfold removeChain
  split
  · exact Keep.refl v s
  · rw [if_neg (by simp)]
    exact loop_keep hg hs hst _ hi (by omega) (by omega)

/-- `sync_fs` changes nothing behind the reserved sectors but copies of the FAT. -/
theorem sync_keep {v : Vol} {i : Info} (hr : Ready v i) (hs : Sound v) {s : St} (hi : Inv v s) : ∀ d ∈ (syncFs v i.fsi s).1.disk :: (syncFs v i.fsi s).1.past, d ∈ s.disk :: s.past ∨ ∀ n, v.fatbase ≤ n → ¬ Fat2 v n → d n = view s n := by
  obtain ⟨h1, h2, -, -, h5, h6⟩ := sync_spec hr.geo hi
  have h6 := h6 hs
  have plain : ∀ d ∈ (syncWindow v s).1.disk :: (syncWindow v s).1.past, d ∈ s.disk :: s.past ∨ ∀ n, v.fatbase ≤ n → ¬ Fat2 v n → d n = view s n := fun d hd => (h6.1 d hd).imp id fun h n _ hn => h n hn
  unfold syncFs
  generalize syncWindow v s = p at h1 h2 h5 plain
  rcases h5 with ⟨h5, h7⟩ | ⟨-, h5⟩
  rotate_left
  · exact absurd hs h5
  rw [if_pos h5]
  unfold syncInfo
  split
  · rw [(settle_spec v p.1).1]; exact plain
  · rename_i n w hn _
    split
    · rw [(settle_spec v _).1]
      unfold putInfo diskWrite
      rw [show v.io p.1.cnt = .ok from hs _]
      intro d hd
      rcases List.mem_cons.1 hd with rfl | hd
      · refine .inr fun y hy hy2 => ?_
        have hne : y ≠ n := by
          rintro rfl
          exact fsi_free hr hy hn
        show upd p.1.disk n w y = _
        rw [upd_ne _ _ hne, ← view_clean h1 h7 y]
        exact h2 y hy2
      · exact plain d hd
    · rw [(settle_spec v p.1).1]; exact plain
  · split
    · exact plain
    · rw [(settle_spec v p.1).1]; exact plain

/-- Sectors of chains of others are not sectors of a directory. -/
theorem foreign_secs {v : Vol} {i : Info} (hr : Ready v i) {d : Dir} {R : List Dir} {F : List (List Nat)} {s : St} (h : Tree v i (d :: R) F s) {l : List Nat} (hl : l ∈ dirChains R ++ F) {n : Nat} (hn : n ∈ secs v l) : n ∉ dirSecs v i d.loc := by
  have hlink := tree_linked h (d := d) (by simp)
  have e : dirChains (d :: R) ++ F = chainOf d.loc ++ (dirChains R ++ F) := by
    rw [← List.append_assoc]
    rfl
  have hll : Links v.nFatent (tab v s) l := h.chains.chain l (by rw [e]; simp only [List.mem_append] at hl ⊢; exact .inr hl)
  intro hx
  cases hd : d.loc with
  | root =>
    rw [hd] at hx hlink
    have := root_secs hr hlink hx
    have := (chain_secs hr hll hn).2.2
    omega
  | chain m =>
    rw [hd] at hx hlink
    obtain ⟨c, hc, hcs⟩ := secs_mem (show n ∈ secs v m from hx)
    obtain ⟨c', hc', hs⟩ := secs_mem hn
    have := sectors_inj hcs hs (links_mem (show Links v.nFatent (tab v s) m from hlink) c hc).1 (links_mem hll c' hc').1
    subst this
    have hnd := h.chains.nodup
    rw [e, hd, List.flatten_append] at hnd
    exact (List.nodup_append.mp hnd).2.2 c (by simpa [chainOf] using hc) c (List.mem_flatten.mpr ⟨l, hl, hc'⟩) rfl

/-- Other directories and files are as they were if no sector outside of the directory has changed. -/
theorem untouched_secs {v : Vol} {i : Info} (hr : Ready v i) {d : Dir} {R : List Dir} {F : List (List Nat)} {s : St} (h : Tree v i (d :: R) F s) {q : Disk}
    (hq : ∀ n, v.fatbase ≤ n → ¬ Fat1 v n → ¬ Fat2 v n → n ∉ dirSecs v i d.loc → q n = view s n) : (∀ d' ∈ R, entries v i q d'.loc = entries v i (view s) d'.loc) ∧ ∀ l ∈ F, ∀ n ∈ secs v l, q n = view s n := by
  have key : ∀ l ∈ dirChains R ++ F, ∀ n ∈ secs v l, q n = view s n := by
    intro l hl n hn
    have hll : Links v.nFatent (tab v s) l := h.chains.chain l (by
      rw [show d :: R = [] ++ d :: R from rfl, dirChains_mid]
      rcases List.mem_append.mp hl with hl | hl <;> simp [hl])
    obtain ⟨h1, h2, h3⟩ := chain_secs hr hll hn
    have := hr.data.base
    exact hq n (by omega) h1 h2 (foreign_secs hr h hl hn)
  refine ⟨fun d' hd' => entries_congr fun n hn => ?_, fun l hl => key l (by simp [hl])⟩
  cases hloc : d'.loc with
  | chain l =>
    rw [hloc] at hn
    exact key l (List.mem_append_left _ (List.mem_flatMap.mpr ⟨d', hd', by rw [hloc]; simp [chainOf]⟩)) n hn
  | root =>
    have hb := secs_base hr (tree_linked h (d := d') (by simp [hd'])) hn
    rw [hloc] at hn
    have hl' := tree_linked h (d := d') (by simp [hd'])
    rw [hloc] at hl'
    obtain ⟨h1, h2, -⟩ := secs_place hr hl' hn
    refine hq n hb h1 h2 fun hown => ?_
    cases hd : d.loc with
    | chain m =>
      rw [hd] at hown
      obtain ⟨c, -, hc⟩ := secs_mem (show n ∈ secs v m from hown)
      have := (mem_sectors.mp hc).1
      have := root_secs hr hl' hn
      omega
    | root =>
      have e1 := (h.dirs d' (by simp [hd'])).starts
      have e2 := (h.dirs d (by simp)).starts
      rw [hloc] at e1
      rw [hd] at e2
      have := h.once
      rw [List.map_cons, List.nodup_cons] at this
      exact this.1 (by rw [e2.1, ← e1.1]; exact List.mem_map_of_mem hd')

end Fpm.Tree
