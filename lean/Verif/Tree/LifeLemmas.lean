import Verif.Tree.OpenProps
import Verif.Tree.LifeSpec
import Verif.FatSync.Props
/-!
# Open files and their directories: lemmas
-/
namespace Fpm.Tree
open Fpm.Fat Fpm.Fat.Spec Fpm.FatFile Fpm.FatFile.Spec Fpm.Lfn Fpm.Names Fpm.Names.Spec Fpm.TextIo.Spec Fpm.FatDir Fpm.FatDir.Spec Fpm.Mount Fpm.Mount.Spec Fpm.DirDev Fpm.DirDev.Spec Fpm.Tree.Spec Fpm.FatSync Fpm.FatBytes Fpm.FatBytes.Spec

/-- A file object with a chain that nothing else has. -/
theorem shape_put {v : Vol} {d d2 : Dir} {R : List Dir} {F : List (List Nat)} {m : List Nat} (h : Shape v (d :: R) F) {x y : List Obj} {o : Obj} (hos : d.os = x ++ y) (h1 : d2.sclust = d.sclust) (h2 : d2.os = x ++ o :: y)
    (hdo : ¬ Dotted o) (hs : ¬ IsDir o) (h0 : first v o = m.headD 0) (hz : size o ≤ m.length * (v.csize * v.ss))
    (hno : m ≠ [] → m.headD 0 ≠ 0 ∧ (∀ q ∈ d :: R, q.sclust ≠ m.headD 0) ∧ ∀ l ∈ F, l ≠ [] → l.headD 0 ≠ m.headD 0) : Shape v (d2 :: R) (withRest [] m F) := by
  have hm : ∀ q ∈ d :: R, ∃ q' ∈ d2 :: R, q'.sclust = q.sclust ∧ ∀ o ∈ q.os, o ∈ q'.os := by
    intro q hq
    rcases List.mem_cons.mp hq with rfl | hq
    · exact ⟨d2, by simp, h1, fun o' ho => by rw [h2]; exact mem_new.mpr (.inr (hos ▸ ho))⟩
    · exact ⟨q, by simp [hq], rfl, fun o ho => ho⟩
  have hb : ∀ q' ∈ d2 :: R, ∃ q ∈ d :: R, q'.sclust = q.sclust ∧ ∀ o' ∈ q'.os, o' = o ∨ o' ∈ q.os := by
    intro q hq
    rcases List.mem_cons.mp hq with rfl | hq
    · exact ⟨d, by simp, h1, fun o' ho' => by rw [h2] at ho'; rw [hos]; exact mem_new.mp ho'⟩
    · exact ⟨q, by simp [hq], rfl, fun o ho => .inr ho⟩
  refine ⟨?_, ?_, ?_, fun q' hq' o' ho a b => ?_, fun q' hq' o' ho a b => ?_, fun q' hq' o' ho a => ?_⟩
  · obtain ⟨q, hq, e⟩ := h.root
    obtain ⟨q', hq', e', -⟩ := hm q hq
    exact ⟨q', hq', e'.trans e⟩
  · have := h.once
    rw [List.map_cons] at this ⊢
    rw [h1]
    exact this
  · have := h.refs
    rw [List.flatMap_cons] at this ⊢
    by_cases hmn : m = []
    · subst hmn
      rw [h2, claims_append, claims_none (.inr h0), ← claims_append, ← hos]
      exact this
    · obtain ⟨n1, n2, n3⟩ := hno hmn
      rw [h2, claims_append, claims_cons hdo (by rw [h0]; exact n1)]
      have hp : (claims v x ++ first v o :: claims v y ++ R.flatMap fun d => claims v d.os).Perm (first v o :: (claims v d.os ++ R.flatMap fun d => claims v d.os)) := by
        rw [hos, claims_append, ← List.cons_append]
        exact List.Perm.append_right _ List.perm_middle
      refine hp.nodup_iff.mpr (List.nodup_cons.mpr ⟨fun hx => ?_, this⟩)
      have hx : first v o ∈ (d :: R).flatMap fun d => claims v d.os := by rw [List.flatMap_cons]; exact hx
      obtain ⟨q, hq, hc⟩ := List.mem_flatMap.mp hx
      unfold claims at hc
      obtain ⟨o', ho', e⟩ := List.mem_map.mp (List.mem_filter.mp hc).1
      obtain ⟨ho', hd'⟩ := List.mem_filter.mp ho'
      exact first_ne h n1 n2 n3 hq ho' (by simpa using hd') (e.trans h0)
  · obtain ⟨q, hq, -, e⟩ := hb q' hq'
    rcases e o' ho with rfl | e
    · refine ⟨m, ?_, h0, hz⟩
      by_cases hmn : m = []
      · exact .inl hmn
      · right
        rw [rest_nil, if_neg hmn]
        simp
    · exact fileok_sub (fun l hl => rest_mem hl) (h.files q hq o' e a b)
  · obtain ⟨q, hq, -, e⟩ := hb q' hq'
    rcases e o' ho with rfl | e
    · exact absurd b hs
    · exact subok_map hm (h.subs q hq o' e a b)
  · obtain ⟨q, hq, e1, e⟩ := hb q' hq'
    rcases e o' ho with rfl | e
    · exact absurd a hdo
    · exact dotok_map hm e1 (h.dots q hq o' e a)

/-- Forgetting the chain of a file with its object. -/
theorem shape_less {v : Vol} {d : Dir} {R : List Dir} {F : List (List Nat)} {m : List Nat} (h : Shape v (d :: R) (withRest [] m F)) (hm0 : m ≠ [] → m.headD 0 ≠ 0) {x y : List Obj} {o : Obj} (hos : d.os = x ++ o :: y) (hdo : ¬ Dotted o) (hs : ¬ IsDir o)
    (h0 : first v o = m.headD 0) : Shape v ({ d with os := x ++ y } :: R) F := by
  have h1 := shape_file h hos hs
  rw [rest_nil] at h1
  by_cases hmn : m = []
  · rw [if_pos hmn] at h1
    exact h1
  · rw [if_neg hmn] at h1
    obtain ⟨r1, r2⟩ := refs_only h.refs hos hdo (by rw [h0]; exact hm0 hmn)
    refine shape_drop h1 hmn fun q hq o' ho' hd' => ?_
    rw [← h0]
    rcases List.mem_cons.mp hq with rfl | hq
    · exact r1 o' ho' hd'
    · exact r2 q hq o' ho' hd'

/-- Reading does not change what is seen. -/
theorem keepsQuiet {v : Vol} (hg : Geo v) (s : St) : Keeps v (Quiet v s) := by
  refine keeps_of (fun t k h => h.trans (quiet_cnt h.inv k)) fun t c h => ?_
  by_cases hc : c < 2 ∨ c ≥ v.nFatent
  · rw [(C50_range v t c 0 hc).1]
    exact h
  · obtain ⟨s', r, e, h1, h2, h3, h4, -⟩ := getFat_spec hg h.inv (c := c) (by omega) (by omega)
    rw [e]
    exact h.trans ⟨h1, h2, h3, h4⟩

/-- One entry of a directory changes. -/
theorem entries_one {v : Vol} {i : Info} (hr : Ready v i) {loc : Loc} (hu : Uniq (dirSecs v i loc)) {j n0 : Nat} (hj : j < 65536) (hsec : (dirSecs v i loc)[32 * j / v.ss]? = some n0) {D D' : Disk}
    (hother : ∀ n ∈ dirSecs v i loc, n ≠ n0 → D' n = D n) (hent : ∀ k, k < 32 * j % v.ss ∨ 32 * j % v.ss + 32 ≤ k → (D' n0)[k]? = (D n0)[k]?) :
    entries v i D' loc = (entries v i D loc).set j (((D' n0).drop (32 * j % v.ss)).take 32) := by
  refine List.ext_getElem? fun k => ?_
  rw [List.getElem?_set]
  by_cases hk : k < 65536
  rotate_left
  · have ht : DirDev.total v i loc ≤ 65536 := by unfold DirDev.total; omega
    rw [if_neg (by omega), List.getElem?_eq_none (by rw [entries_length]; omega), List.getElem?_eq_none (by rw [entries_length]; omega)]
  rw [entries_get hr _ loc hk]
  by_cases hkj : j = k
  · subst hkj
    have hlt : j < (entries v i D loc).length := by
      refine Nat.lt_of_not_le fun hx => ?_
      have := entries_get hr D loc hj
      rw [List.getElem?_eq_none hx, hsec] at this
      cases this
    rw [if_pos rfl, if_pos hlt, hsec]
    rfl
  · rw [if_neg hkj, entries_get hr _ loc hk]
    cases hn : (dirSecs v i loc)[32 * k / v.ss]? with
    | none => rfl
    | some n =>
      simp only [Option.map_some]
      by_cases hnd : n = n0
      · subst hnd
        have heq := hu _ _ _ hn hsec
        congr 1
        obtain ⟨hs, hp⟩ := per_ss hr
        have e1 := Nat.div_add_mod (32 * k) v.ss
        have e2 := Nat.div_add_mod (32 * j) v.ss
        rw [heq] at e1
        refine List.ext_getElem? fun z => ?_
        rw [List.getElem?_take, List.getElem?_take]
        split
        · rw [List.getElem?_drop, List.getElem?_drop, hent _ (by omega)]
        · rfl
      · rw [hother n (List.mem_of_getElem? hn) hnd]

theorem field_part {l : List Nat} {off p n : Nat} (h : p + n ≤ 32) : FatSync.Spec.field ((l.drop off).take 32) p n = FatSync.Spec.field l (off + p) n := by
  unfold FatSync.Spec.field
  refine congrArg _ (List.ext_getElem? fun k => ?_)
  rw [List.getElem?_take, List.getElem?_take]
  split
  · rw [List.getElem?_drop, List.getElem?_drop, List.getElem?_take, if_pos (by omega), List.getElem?_drop]
    congr 1
    omega
  · rfl

/-- A chain is known by its clusters. -/
theorem links_part {n : Nat} {f : Nat → Nat} {l k : List Nat} (hl : Links n f l) (hk : Links n f k) (hs : ∀ c ∈ k, c ∈ l) : ∃ p, l = p ++ k := by
  cases k with
  | nil => exact hk.elim
  | cons c k =>
    obtain ⟨p, q, rfl⟩ := List.append_of_mem (hs c (by simp))
    have hq : Links n f (c :: q) := by
      clear hs
      induction p with
      | nil => exact hl
      | cons a p ih =>
        refine ih ?_
        cases p with
        | nil => exact hl.2.2.2
        | cons b p => exact hl.2.2.2
    exact ⟨p, by rw [links_unique hq hk rfl]⟩

theorem chain_same {n : Nat} {f : Nat → Nat} {a : List (List Nat)} {l k : List Nat} (hl : Chains n f (withRest a l [])) (hk : Chains n f (withRest a k [])) : l = k := by
  have used : ∀ {l k : List Nat}, Chains n f (withRest a l []) → Chains n f (withRest a k []) → ∀ c ∈ k, c ∈ l := by
    intro l k hl hk c hc
    have hkn : k ≠ [] := fun e => by rw [e] at hc; cases hc
    have hkw : withRest a k [] = a ++ [k] := by unfold withRest; rw [if_neg hkn]
    rw [hkw] at hk
    have hm := links_mem (hk.chain k (by simp)) c hc
    have := hl.used c hm.1 hm.2 (by have := links_used (hk.chain k (by simp)) c hc; omega)
    obtain ⟨z, hz, hcz⟩ := List.mem_flatten.mp this
    have hza : z ∉ a := by
      intro hz'
      have hn := hk.nodup
      rw [List.flatten_append] at hn
      exact (List.nodup_append.mp hn).2.2 c (List.mem_flatten.mpr ⟨z, hz', hcz⟩) c (by simpa using hc) rfl
    unfold withRest at hz
    split at hz
    · exact absurd (by simpa using hz) hza
    · rcases List.mem_append.mp hz with hz | hz
      · exact absurd hz hza
      · have : z = l := by simpa using hz
        subst this
        exact hcz
  have u1 := used hl hk
  have u2 := used hk hl
  have lk : ∀ {l : List Nat}, Chains n f (withRest a l []) → l ≠ [] → Links n f l := by
    intro l hl hn
    refine hl.chain l ?_
    unfold withRest
    rw [if_neg hn]
    simp
  by_cases hln : l = []
  · subst hln
    cases k with
    | nil => rfl
    | cons c k => exact absurd (u1 c (by simp)) (by simp)
  · have hkn : k ≠ [] := by
      rintro rfl
      cases l with
      | nil => exact hln rfl
      | cons c l => exact absurd (u2 c (by simp)) (by simp)
    obtain ⟨p, hp⟩ := links_part (lk hl hln) (lk hk hkn) u1
    obtain ⟨q, hq⟩ := links_part (lk hk hkn) (lk hl hln) u2
    have e1 := congrArg List.length hp
    have e2 := congrArg List.length hq
    rw [List.length_append] at e1 e2
    cases p with
    | nil => exact hp
    | cons a p =>
      simp only [List.length_cons] at e1
      omega

theorem dirsec_own {v : Vol} {i : Info} {d : Dir} {R : List Dir} {F : List (List Nat)} {s : St} (h : Tree v i (d :: R) F s) {n : Nat} (hn : n ∈ dirSecs v i d.loc) : DirOwn v i [] (dirChains R ++ F) d.loc n := by
  have hl := tree_linked h (d := d) (by simp)
  have hnd := h.chains.nodup
  rw [show d :: R = [] ++ d :: R from rfl, dirChains_mid] at hnd
  cases hloc : d.loc with
  | root =>
    rw [hloc] at hn
    exact hn
  | chain l =>
    rw [hloc] at hn hl hnd
    obtain ⟨c, hc, hs⟩ := secs_mem (show n ∈ secs v l from hn)
    obtain ⟨c2, c3⟩ := links_mem (show Links v.nFatent (tab v s) l from hl) c hc
    refine ⟨c, ⟨c2, c3, fun hx => ?_⟩, hs⟩
    have e : (dirChains [] ++ (chainOf (.chain l) ++ dirChains R) ++ F).flatten = l ++ (dirChains R ++ F).flatten := by simp [dirChains, chainOf]
    rw [e] at hnd
    exact (List.nodup_append.mp hnd).2.2 c hc c (by simpa using hx) rfl

/-- Directories do not share sectors, and files have no sectors of directories. -/
theorem dirs_apart {v : Vol} {i : Info} (hr : Ready v i) {d : Dir} {R : List Dir} {F : List (List Nat)} {s : St} (h : Tree v i (d :: R) F s) {n : Nat} (hn : n ∈ dirSecs v i d.loc) : (∀ q ∈ R, n ∉ dirSecs v i q.loc) ∧ ∀ l ∈ F, n ∉ secs v l := by
  have hd := tree_linked h (d := d) (by simp)
  have hown := dirsec_own h hn
  have key : ∀ l ∈ dirChains R ++ F, n ∉ secs v l := fun l hl hx => own_chain hr hd (h.chains.chain l (by
      rw [show d :: R = [] ++ d :: R from rfl, dirChains_mid]
      rcases List.mem_append.mp hl with hl | hl <;> simp [hl])) hl hx hown
  refine ⟨fun q hq hx => ?_, fun l hl => key l (by simp [hl])⟩
  cases hloc : q.loc with
  | chain l =>
    rw [hloc] at hx
    exact key l (List.mem_append_left _ (List.mem_flatMap.mpr ⟨q, hq, by rw [hloc]; simp [chainOf]⟩)) hx
  | root =>
    have hl' := tree_linked h (d := q) (by simp [hq])
    rw [hloc] at hl' hx
    have h1 := root_secs hr hl' hx
    cases hd' : d.loc with
    | chain m =>
      rw [hd'] at hn hd
      have := (chain_secs hr (show Links v.nFatent (tab v s) m from hd) hn).2.2
      omega
    | root =>
      have e1 := (h.dirs q (by simp [hq])).starts
      have e2 := (h.dirs d (by simp)).starts
      rw [hloc] at e1
      rw [hd'] at e2
      have := h.once
      rw [List.map_cons, List.nodup_cons] at this
      exact this.1 (by rw [e2.1, ← e1.1]; exact List.mem_map_of_mem hq)

/-- `f_sync` of a changed file, on a sound device. -/
theorem sync_tree {v : Vol} {i : Info} (hr : Ready v i) (hbig : i.fsi ≠ none → 512 ≤ v.ss) (hs : Sound v) {d : Dir} {R : List Dir} {F : List (List Nat)} {m : List Nat} {s : St} (h : Tree v i (d :: R) (withRest [] m F) s) {x y : List Obj} {o : Obj}
    (hos : d.os = x ++ o :: y) (hsd : ¬ IsDir o) (hfst : first v o = m.headD 0) {pl : Place} (hpl : EntryAt v i d o pl) {t : St} (ho : Beside v (dirChains (d :: R) ++ F) [] s t) {m' : List Nat} {fp : FatFile.File} {A : Arr}
    (hR : FatFile.Spec.Repr v (dirChains (d :: R) ++ F) [] m' t fp A) (hm : fp.modified = true) (tm : Nat) :
    ∃ o', Saved tm o o' ∧ size o' = A.data.length ∧ first v o' = m'.headD 0 ∧ Tree v i ({ d with os := x ++ o' :: y } :: R) (withRest [] m' F) (fSync v pl tm t fp).st ∧
      bytesOf v (fSync v pl tm t fp).st m' o' = A.data ∧ ∀ l ∈ F, ∀ n ∈ secs v l, view (fSync v pl tm t fp).st n = view s n := by
  have hp := C84_place v i hr hbig (d :: R) F m s h d (by simp) o pl hpl
  have hfl : (dirChains (d :: R) ++ F ++ []).flatten = (dirChains (d :: R) ++ F).flatten := by rw [List.append_nil]
  obtain ⟨k1, k2⟩ := fsync_spec hr.geo hr.data hR (by rw [hfl]; exact hp) tm hm
  obtain ⟨k2, k3, k4, -⟩ := k2 hs
  have k1 := k1 k2
  generalize (fSync v pl tm t fp).st = u at k1 k3 k4 ⊢
  have hvol := k3.toVolOk
  have hview : ∀ n, u.disk n = view u n := fun n => (view_clean hvol.inv k4 n).symm
  have hlk : ∀ q ∈ d :: R, Linked v (tab v s) q.loc := fun q hq => tree_linked h hq
  have hdsec : ∀ q ∈ d :: R, ∀ n ∈ dirSecs v i q.loc, ¬ OwnSect v (dirChains (d :: R) ++ F ++ []).flatten n := fun q hq n hn => dir_own hr h hq hn fun c hc => by rw [hfl]; simp [hc]
  have hdir : ∀ q ∈ d :: R, ∀ n ∈ dirSecs v i q.loc, n ≠ pl.sect → view u n = view s n := by
    intro q hq n hn hne
    obtain ⟨c1, c2, -⟩ := secs_place hr (hlk q hq) hn
    have hown := hdsec q hq n hn
    rw [← hview, k1.other n hne (by rw [hpl.info]; exact fsi_free hr (secs_base hr (hlk q hq) hn)) c2 hown]
    exact ho.2 n c1 c2 hown
  have hfile : ∀ l ∈ F, ∀ n ∈ secs v l, view u n = view s n := by
    intro l hl n hn
    have hll := h.chains.chain l (List.mem_append_right _ (rest_mem hl))
    obtain ⟨c1, c2, c3⟩ := chain_secs hr hll hn
    have hown : ¬ OwnSect v (dirChains (d :: R) ++ F ++ []).flatten n := by
      rintro ⟨c, ⟨h2, -, h3⟩, hc⟩
      obtain ⟨c', hc', hs⟩ := secs_mem hn
      have := sectors_inj hc hs h2 (links_mem hll c' hc').1
      subst this
      exact h3 (List.mem_flatten.mpr ⟨l, by simp [hl], hc'⟩)
    have hb := hr.data.base
    rw [← hview, k1.other n ?_ (by rw [hpl.info]; exact fsi_free hr (by omega)) c2 hown]
    · exact ho.2 n c1 c2 hown
    · rintro rfl
      exact (dirs_apart hr h (List.mem_of_getElem? hpl.sect)).2 l (rest_mem hl) hn
  have hmem := List.mem_of_getElem? hpl.sect
  have hdd := h.dirs d (by simp)
  have hobj : o ∈ d.os := by rw [hos]; simp
  have hent := rep_entry hdd.dir.rep o hobj
  have hpos : o.pos < 65536 := by
    refine Nat.lt_of_not_le fun hx => ?_
    have ht : DirDev.total v i d.loc ≤ 65536 := by unfold DirDev.total; omega
    rw [List.getElem?_eq_none (by rw [entries_length]; omega)] at hent
    cases hent
  have hob := obj_ent hdd.dir hobj
  have hdo : ¬ Dotted o := fun hx => hsd (h.dots d (by simp) o hobj hx).1
  have hts : view t pl.sect = view s pl.sect := by
    obtain ⟨c1, c2, -⟩ := secs_place hr (hlk d (by simp)) hmem
    exact ho.2 _ c1 c2 (hdsec d (by simp) _ hmem)
  -- the entry before and after
  have he : o.entry = ((view s pl.sect).drop pl.off).take 32 := by
    have := entries_get hr (view s) d.loc hpos
    rw [hpl.sect, hent, Option.map_some] at this
    rw [hpl.off]
    exact Option.some.inj this
  have hents := entries_one hr (dir_uniq hr (tree_vol h (A := []) rfl)) hpos hpl.sect (D := view s) (D' := view u) (fun n hn hne => hdir d (by simp) n hn hne) (fun k hk => by
    rw [← hview, k1.entry k (by rw [hpl.off]; omega), hts])
  rw [← hpl.off] at hents
  have hsecU := view_sec hvol.inv pl.sect
  have hoff := hp.off
  generalize hw : view u pl.sect = w at hents hsecU
  have hlen : ((w.drop pl.off).take 32).length = 32 := by
    rw [List.length_take, List.length_drop, hsecU.1]
    omega
  have hget : ∀ k, k < 32 → ((w.drop pl.off).take 32)[k]? = w[pl.off + k]? := fun k hk => by rw [List.getElem?_take, if_pos hk, List.getElem?_drop]
  have hold : ∀ k, k < 32 → o.entry[k]? = (view s pl.sect)[pl.off + k]? := fun k hk => by rw [he, List.getElem?_take, if_pos hk, List.getElem?_drop]
  have hsame : ∀ k, k < 11 ∨ 12 ≤ k ∧ k < 18 → ((w.drop pl.off).take 32)[k]? = o.entry[k]? := by
    intro k hk
    rw [hget k (by omega), hold k (by omega), ← hts, ← k1.entry (pl.off + k) (.inr (.inr ⟨by omega, by unfold FatSync.Spec.Untouched; omega⟩)), hview, hw]
  have hbyte : ∀ b ∈ (w.drop pl.off).take 32, b < 256 := fun b hb => hsecU.2 b (List.mem_of_mem_drop (List.mem_of_mem_take hb))
  have hsize := k1.holds.size
  have hfirst := k1.holds.first
  have hst := k1.stamp
  rw [hview, hw] at hsize hfirst hst
  generalize he' : (w.drop pl.off).take 32 = e' at hents hlen hget hsame hbyte
  have hattr : byte e' 11 = byte o.entry 11 ||| 0x20 := by
    obtain ⟨z, z1, z2⟩ := hst.attr
    rw [hts, ← hold 11 (by omega)] at z1
    rw [← hget 11 (by omega)] at z2
    rw [byte_at z1, byte_at z2]
  have hsz' : size { o with entry := e' } = A.data.length := by
    show FatSync.Spec.field e' 28 4 = _
    rw [← he', field_part (by omega), hsize]
  have hfst' : first v { o with entry := e' } = m'.headD 0 := by
    show FatSync.Spec.first v e' 0 = _
    rw [← hfirst, ← he']
    unfold FatSync.Spec.first
    rw [Nat.zero_add, Nat.zero_add, field_part (by omega), field_part (by omega)]
  have h11 : e'.take 11 = o.entry.take 11 := take_eq fun k hk => hsame k (.inl hk)
  have hbits : ∀ b < 256, (b ||| 0x20) &&& 8 = b &&& 8 ∧ (b ||| 0x20) &&& 0x10 = b &&& 0x10 := by decide +kernel
  have hb11 := hbits _ (byte_lt hob.2 11)
  have hsf := rep_sfn hdd.dir.rep o hobj
  have hsf' : Sfn e' := ⟨by rw [byte_take h11 (by decide)]; exact hsf.used, by rw [hattr, hb11.1]; exact hsf.attr⟩
  have hdo' : ¬ Dotted { o with entry := e' } := fun hx => hdo ((byte_take h11 (by decide)).symm.trans hx)
  have hsd' : ¬ IsDir { o with entry := e' } := by
    show ¬ (byte e' 11 &&& 0x10 ≠ 0)
    rw [hattr, hb11.2]
    exact hsd
  refine ⟨{ o with entry := e' }, ⟨rfl, rfl, h11, hattr, ?_, ?_⟩, hsz', hfst', ?_, ?_, hfile⟩
  · exact field_out fun k h1 h2 => hsame k (by omega)
  · show FatSync.Spec.field e' 22 4 = _
    rw [← he', field_part (by omega), hst.time]
  · refine tree_of hvol.inv hvol.count ?_ (fun q hq => ?_) ?_
    · exact chains_perm (rest_end _ _ _).symm hvol.chains
    · rcases List.mem_cons.mp hq with rfl | hq
      · have h1 := hdd.dir
        have h2 := hdd.names
        rw [hos] at h1 h2
        refine ⟨hdd.starts, ?_, names_update (o := o) h11 rfl h2, fun p hp => ?_⟩
        · show Directory true (entries v i (view u) d.loc) _
          rw [hents]
          exact dir_update h1 h11 hsf' ⟨hlen, hbyte⟩
        · rcases mem_new.mp (show p ∈ x ++ { o with entry := e' } :: y from hp) with rfl | hp
          · exact hdd.nodot o hobj
          · exact hdd.nodot p (by rw [hos]; exact mem_new.mpr (.inr hp))
      · have hok := h.dirs q (by simp [hq])
        refine ⟨hok.starts, ?_, hok.names, hok.nodot⟩
        rw [entries_congr fun n hn => hdir q (by simp [hq]) n hn fun e => (dirs_apart hr h hmem).1 q hq (e ▸ hn)]
        exact hok.dir
    · have hm0 : m ≠ [] → m.headD 0 ≠ 0 := by
        intro hmn
        have hl := h.chains.chain m (by rw [rest_nil, if_neg hmn]; simp)
        cases m with
        | nil => exact absurd rfl hmn
        | cons c m =>
          have := (links_mem hl c (by simp)).1
          show c ≠ 0
          omega
      refine shape_put (d := { d with os := x ++ y }) (shape_less (tree_shape h) hm0 hos hdo hsd hfst) rfl rfl rfl hdo' hsd' hfst' ?_ fun hmn => ?_
      · rw [hsz', hR.data, contents_len hR.toBase]
        exact hR.size
      · have hch := chains_perm (rest_end _ _ _).symm hvol.chains
        have hl := hch.chain m' (by rw [rest_nil, if_neg hmn]; simp)
        have hnd := hch.nodup
        rw [rest_nil, if_neg hmn] at hnd
        cases m' with
        | nil => exact absurd rfl hmn
        | cons c m' =>
          have hc2 := (links_mem hl c (by simp)).1
          rw [List.flatten_append, List.flatten_cons] at hnd
          obtain ⟨-, n2, n3⟩ := List.nodup_append.mp hnd
          refine ⟨by show c ≠ 0; omega, fun q hq e => ?_, fun l hlF hln e => ?_⟩
          · have e : q.sclust = c := e
            have hq : q.sclust ∈ (dirChains (d :: R)).flatten := by
              rcases List.mem_cons.mp hq with rfl | hq
              · exact sclust_mem (d := d) (by simp) hdd (by rw [show d.sclust = c from e]; omega)
              · exact sclust_mem (by simp [hq]) (h.dirs q (by simp [hq])) (by rw [e]; omega)
            exact n3 _ hq _ (by rw [e]; simp) rfl
          · have e : l.headD 0 = c := e
            cases l with
            | nil => exact hln rfl
            | cons c' l =>
              have e : c' = c := e
              subst e
              exact (List.nodup_append.mp n2).2.2 c' (by simp) c' (List.mem_flatten.mpr ⟨_, hlF, by simp⟩) rfl
  · unfold bytesOf
    rw [hsz']
    have hb := k1.holds.bytes
    rw [flat_congr fun n _ => hview n] at hb
    exact hb

end Fpm.Tree
