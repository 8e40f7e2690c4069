import Verif.Tree.GrowLemmas
/-!
# Making directories: lemmas
-/
namespace Fpm.Tree
open Fpm.Fat Fpm.Fat.Spec Fpm.FatFile Fpm.FatFile.Spec Fpm.FatBytes Fpm.FatBytes.Spec Fpm.Lfn Fpm.Names Fpm.Names.Spec Fpm.TextIo.Spec Fpm.FatDir Fpm.FatDir.Spec Fpm.Mount Fpm.Mount.Spec Fpm.DirDev Fpm.DirDev.Spec Fpm.Tree.Spec Fpm.FatSync

/-- A cluster for a new directory or file. -/
theorem tree_new {v : Vol} {i : Info} (hr : Ready v i) {T : List Dir} {F : List (List Nat)} {s : St} (h : Tree v i T F s) {p : St × Nat} (hp : p = createChain v s 0) :
    (∀ n, ¬ Fat1 v n → ¬ Fat2 v n → view p.1 n = view s n) ∧
    (p.2 = 0 ∧ (dirChains T ++ F).flatten.length = v.nFatent - 2 ∧ Tree v i T F p.1 ∨ 2 ≤ p.2 ∧ p.2 < v.nFatent ∧ p.2 ∉ (dirChains T ++ F).flatten ∧ Tree v i T ([p.2] :: F) p.1 ∨ p.2 = 0xFFFFFFFF ∧ ¬ Sound v) := by
  obtain ⟨s', r⟩ := p
  obtain ⟨h1, h2, h3⟩ := C51_new v hr.geo s h.inv _ h.chains h.count s' r hp.symm
  refine ⟨h2, ?_⟩
  rcases h3 with ⟨rfl, h3, h4, h5⟩ | ⟨h3, h4, h5, h6, -, h7⟩ | ⟨h3, h4, -⟩
  · exact .inl ⟨rfl, chains_full h.chains h3, tree_of h1 h5 (by rw [h4]; exact h.chains) (fun d hd => dirok_fat hr (tree_linked h hd) h2 (h.dirs d hd)) (tree_shape h)⟩
  · refine .inr (.inl ⟨h3, h4, ?_, ?_⟩)
    · have := h6.nodup
      rw [List.flatten_cons] at this
      intro hx
      exact (List.nodup_append.mp this).2.2 r (by simp) r hx rfl
    · have hsh := tree_shape h
      refine tree_of h1 h7 (chains_perm (List.perm_middle.symm) h6) (fun d hd => dirok_fat hr (tree_linked h hd) h2 (h.dirs d hd)) ?_
      exact ⟨hsh.root, hsh.once, hsh.refs, fun d hd o ho a b => fileok_sub (fun l hl => by simp [hl]) (hsh.files d hd o ho a b), hsh.subs, hsh.dots⟩
  · exact .inr (.inr ⟨h3, h4⟩)

/-- Sectors of a cluster that is not in a chain. -/
theorem secs_away {v : Vol} {f : Nat → Nat} {l : List Nat} (hl : Links v.nFatent f l) {c : Nat} (h2 : 2 ≤ c) (hc : c ∉ l) {n : Nat} (hn : n ∈ secs v l) : n ∉ sectors v c := by
  intro h
  obtain ⟨c', hc', hs⟩ := secs_mem hn
  exact hc (sectors_inj h hs h2 (links_mem hl c' hc').1 ▸ hc')

/-- What is written to a cluster that nothing refers to leaves the tree as it is. -/
theorem tree_away {v : Vol} {i : Info} (hr : Ready v i) {T : List Dir} {F : List (List Nat)} {c : Nat} {s s' : St} (h : Tree v i T F s) (h2 : 2 ≤ c) (hc : c ∉ (dirChains T).flatten) (hi : Inv v s') (hk : s'.freeClst = s.freeClst)
    (hv : ∀ n, ¬ Fat2 v n → n ∉ sectors v c → view s' n = view s n) : Tree v i T F s' := by
  have hb : ∀ n, n < v.database → n ∉ sectors v c := fun n hn hx => by
    have := (mem_sectors.mp hx).1
    omega
  have htab : tab v s' = tab v s := tab_congr fun n hn => hv n (fun hx => by have := hn.2; have := hx.2.1; omega) (hb n (by
    have h1 := hn.2
    have h2 := hr.data.base
    have h3 := hr.geo.nFats
    have : v.fsize ≤ v.nFats * v.fsize := Nat.le_mul_of_pos_left _ (by omega)
    omega))
  refine tree_of hi ?_ (by rw [htab]; exact h.chains) (fun d hd => ?_) (tree_shape h)
  · unfold CountOk
    rw [htab, hk]
    exact h.count
  · have hok := h.dirs d hd
    have hl := tree_linked h hd
    refine ⟨hok.starts, ?_, hok.names, hok.nodot⟩
    rw [entries_congr (d := view s) fun n hn => hv n (secs_place hr hl hn).2.1 ?_]
    · exact hok.dir
    · cases hloc : d.loc with
      | root =>
        rw [hloc] at hn hl
        exact hb n (root_secs hr hl hn)
      | chain l =>
        rw [hloc] at hn hl
        refine secs_away hl h2 (fun hx => hc (List.mem_flatten.mpr ⟨l, ?_, hx⟩)) hn
        exact List.mem_flatMap.mpr ⟨d, hd, by rw [hloc]; simp [chainOf]⟩

/-- `dir_clear` leaves the first sector in the window. -/
theorem clear_win {v : Vol} {i : Info} (hr : Ready v i) {s : St} (hi : Inv v s) {c : Nat} (h2 : 2 ≤ c) (hn : c < v.nFatent) (hok : (dirClear v s c).2 = FR_OK) :
    (dirClear v s c).1.winsect = some (v.database + v.csize * (c - 2)) ∧ (dirClear v s c).1.win = List.replicate v.ss 0 := by
  obtain ⟨a1, -⟩ := sync_spec hr.geo hi
  unfold dirClear at hok ⊢
  rw [clst_sect h2 hn] at hok ⊢
  generalize syncWindow v s = p at a1 hok
  by_cases hp : p.2 = FR_OK
  · rw [if_pos hp]
    obtain ⟨s', r, e, -, b2, b3, -⟩ := clear_loop hr.geo (zeros_sec v) v.csize (s := { p.1 with winsect := some (v.database + v.csize * (c - 2)), win := List.replicate v.ss 0 })
      (sect := v.database + v.csize * (c - 2)) a1.disk
    rw [e]
    exact ⟨b3, b2⟩
  · rw [if_neg hp] at hok
    cases hok

/-- The entries `.` and `..`. -/
theorem dot_entries {v : Vol} (hg : Geo v) (h64 : 64 ≤ v.ss) (tm : Nat) {dcl pcl : Nat} (hd : dcl < v.nFatent) (hp : pcl < v.nFatent) :
    ∃ e1 e2, dotEntries v (List.replicate v.ss 0) tm dcl pcl = some (e1 ++ e2 ++ List.replicate (v.ss - 64) 0) ∧ (e1.length = 32 ∧ ∀ b ∈ e1, b < 256) ∧ (e2.length = 32 ∧ ∀ b ∈ e2, b < 256) ∧ e1.take 11 = pad 11 [46] ∧
      e2.take 11 = pad 11 [46, 46] ∧ byte e1 11 = 0x10 ∧ byte e2 11 = 0x10 ∧ FatSync.Spec.first v e1 0 = dcl ∧ FatSync.Spec.first v e2 0 = pcl := by
  unfold dotEntries
  have he0 : (List.replicate 11 32).set 0 46 ++ [0x10] ++ ((List.replicate v.ss 0).drop 12).take 20 = (List.replicate 11 32).set 0 46 ++ [0x10] ++ List.replicate 20 0 := by
    rw [List.drop_replicate, List.take_replicate, Nat.min_eq_left (by omega)]
  rw [he0, List.drop_replicate]
  obtain ⟨w1, r1, p1⟩ := put_dword (w := (List.replicate 11 32).set 0 46 ++ [0x10] ++ List.replicate 20 0) (p := 22) (x := tm) (by decide)
  have lb := bytes_length 4 tm
  have l1 : w1.length = 32 := p1.len
  have b1 : ∀ b ∈ w1, b < 256 := p1.byte (by decide)
  rw [r1, Option.bind_some]
  obtain ⟨e1, r2, k1, k2, k3, k4⟩ := put_clust hg l1 hd
  rw [r2, Option.bind_some]
  have lset : (e1.set 1 46).length = 32 := by rw [List.length_set]; exact k1
  obtain ⟨e2, r3, m1, m2, m3, m4⟩ := put_clust hg lset hp
  rw [r3, Option.bind_some]
  have g1 : ∀ k, k < 20 → e1[k]? = ((List.replicate 11 32).set 0 46 ++ [0x10] ++ List.replicate 20 0)[k]? := fun k hk => by rw [k4 k (.inl hk), p1.out k (by omega)]
  have t1 : e1.take 11 = pad 11 [46] := (take_eq fun k hk => g1 k (by omega)).trans (by decide)
  refine ⟨e1, e2, rfl, ⟨k1, k2 b1⟩, ⟨m1, m2 fun b hb => ?_⟩, t1, ?_, byte_at ((g1 11 (by decide)).trans (by decide)), byte_at ?_, k3, m3⟩
  · rcases List.mem_or_eq_of_mem_set hb with hb | rfl
    · exact k2 b1 b hb
    · decide
  · rw [take_eq fun k hk => m4 k (.inl (by omega)), List.take_set, t1]
    decide
  · rw [m4 11 (by decide), List.getElem?_set_ne (by decide)]
    exact (g1 11 (by decide)).trans (by decide)

/-- The first sector of a new directory. -/
theorem dot_pieces {v : Vol} {i : Info} (hr : Ready v i) (h64 : 64 ≤ v.ss) {e1 e2 : List Nat} (h1 : e1.length = 32) (h2 : e2.length = 32) :
    pieces v (e1 ++ e2 ++ List.replicate (v.ss - 64) 0) = [e1, e2] ++ List.replicate (per v - 2) blank := by
  obtain ⟨hs, hp⟩ := per_ss hr
  refine List.ext_getElem? fun k => ?_
  by_cases hk : k < per v
  · rw [pieces_get hk]
    rcases k with _ | _ | k
    · rw [Nat.mul_zero, List.drop_zero, List.append_assoc, List.take_append_of_le_length (by omega), List.take_of_length_le (by omega)]
      rfl
    · rw [List.append_assoc, List.drop_append_of_le_length (by omega), List.drop_of_length_le (by omega), List.nil_append, List.take_append_of_le_length (by omega), List.take_of_length_le (by omega)]
      rfl
    · rw [List.getElem?_append_right (by simp), List.drop_append, List.drop_of_length_le (by simp; omega), List.nil_append, List.drop_replicate, List.take_replicate]
      simp only [List.length_append, List.length_cons, List.length_nil]
      rw [List.getElem?_replicate_of_lt (by omega)]
      congr 1
      unfold blank
      congr 1
      omega
  · have : (pieces v (e1 ++ e2 ++ List.replicate (v.ss - 64) 0)).length = per v := pieces_length v _
    rw [List.getElem?_eq_none (by omega), List.getElem?_eq_none (by simp; omega)]

theorem flat_blank {v : Vol} {i : Info} (hr : Ready v i) {d : Disk} : ∀ {L : List Nat}, (∀ n ∈ L, d n = List.replicate v.ss 0) → (L.flatMap fun n => pieces v (d n)) = List.replicate (L.length * per v) blank
  | [], _ => by simp
  | n :: L, h => by
    rw [List.flatMap_cons, flat_blank hr fun m hm => h m (by simp [hm]), h n (by simp), pieces_zeros hr, List.replicate_append_replicate]
    congr 1
    rw [List.length_cons, Nat.add_mul, Nat.one_mul, Nat.add_comm]

/-- A new directory. -/
theorem dot_dir {v : Vol} {i : Info} (hr : Ready v i) (h64 : 64 ≤ v.ss) {e1 e2 : List Nat} (h1 : e1.length = 32) (h2 : e2.length = 32) {c : Nat} {d : Disk}
    (hd : d (v.database + v.csize * (c - 2)) = e1 ++ e2 ++ List.replicate (v.ss - 64) 0) (hz : ∀ n ∈ sectors v c, n ≠ v.database + v.csize * (c - 2) → d n = List.replicate v.ss 0) :
    ∃ m, entries v i d (.chain [c]) = [e1, e2] ++ List.replicate m blank := by
  have hc := csize_pos hr
  obtain ⟨k, hk⟩ : ∃ k, v.csize = k + 1 := ⟨v.csize - 1, by omega⟩
  have hsec : sectors v c = (v.database + v.csize * (c - 2)) :: (List.range k).map fun j => v.database + v.csize * (c - 2) + (j + 1) := by
    unfold sectors
    rw [show List.range v.csize = List.range (k + 1) by rw [hk], List.range_succ_eq_map, List.map_cons, List.map_map]
    rfl
  unfold entries
  rw [show dirSecs v i (.chain [c]) = sectors v c by simp [dirSecs, secs], hsec, List.flatMap_cons, hd, dot_pieces hr h64 h1 h2, flat_blank hr, List.append_assoc, List.replicate_append_replicate,
    List.take_append, List.take_of_length_le (by simp), List.take_replicate]
  · exact ⟨_, rfl⟩
  · intro n hn
    refine hz n (by rw [hsec]; simp [hn]) fun e => ?_
    obtain ⟨j, -, e'⟩ := List.mem_map.mp hn
    omega

theorem plain_dot {e : List Nat} (h : e.take 11 = pad 11 [46] ∨ e.take 11 = pad 11 [46, 46]) (h11 : byte e 11 = 0x10) (p : Nat) : Dotted ⟨p, none, e⟩ ∧ IsDir ⟨p, none, e⟩ ∧ Sfn e := by
  have h0 : byte e 0 = 46 := by
    rcases h with h | h
    · rw [byte_take (b := pad 11 [46]) (by rw [h]; decide) (by decide)]; decide
    · rw [byte_take (b := pad 11 [46, 46]) (by rw [h]; decide) (by decide)]; decide
  refine ⟨h0, ?_, ⟨by rw [h0]; decide, by rw [h11]; decide⟩⟩
  unfold IsDir
  rw [h11]
  decide

/-- Directories have clusters of the volume. -/
theorem sclust_lt {v : Vol} {i : Info} (hr : Ready v i) {T : List Dir} {F : List (List Nat)} {s : St} (h : Tree v i T F s) {d : Dir} (hd : d ∈ T) : d.sclust < v.nFatent := by
  by_cases h0 : d.sclust = 0
  · have := hr.geo.pos
    omega
  · obtain ⟨l, hl, he⟩ := dir_chain (h.dirs d hd) h0
    have hlk := tree_linked h hd
    rw [hl] at hlk
    cases l with
    | nil => exact absurd he.symm h0
    | cons c l =>
      have := (links_mem hlk c (by simp)).2
      rw [List.headD_cons] at he
      omega

/-- Directories refer to clusters of their chains. -/
theorem sclust_mem {v : Vol} {i : Info} {T : List Dir} {s : St} {d : Dir} (hd : d ∈ T) (hok : DirOk v i s d) (h0 : d.sclust ≠ 0) : d.sclust ∈ (dirChains T).flatten := by
  obtain ⟨l, hl, he⟩ := dir_chain hok h0
  refine List.mem_flatten.mpr ⟨l, List.mem_flatMap.mpr ⟨d, hd, by rw [hl]; simp [chainOf]⟩, ?_⟩
  cases l with
  | nil => exact absurd he.symm h0
  | cons c l => rw [← he]; simp

theorem leads_free {v : Vol} {T : List Dir} {d0 d : Dir} {l : List (List Nat)} {G : Goal} {cs : List Nat} (h : Leads v T d0 l G) (hG : G = .free d cs) : cs ∈ l ∧ ∀ o ∈ d.os, ¬ Calls cs o := by
  induction h with
  | bad => cases hG
  | stay _ _ _ ih =>
    obtain ⟨h1, h2⟩ := ih hG
    exact ⟨by simp [h1], h2⟩
  | self => cases hG
  | free h1 h2 h3 =>
    cases hG
    exact ⟨by simp, h3⟩
  | missing => cases hG
  | object => cases hG
  | noDir => cases hG
  | enter _ _ _ _ _ _ _ ih =>
    obtain ⟨h1, h2⟩ := ih hG
    exact ⟨by simp [h1], h2⟩

theorem longer_refl : ∀ loc : Loc, Longer loc loc
  | .root => rfl
  | .chain l => ⟨[], by rw [List.append_nil]⟩

theorem plain_long {i : Nat} {es : List (List Nat)} : ∀ o ∈ plain i es, o.long = none := by
  intro o ho
  obtain ⟨p, -, rfl⟩ := List.mem_map.mp ho
  rfl

theorem setwin_spec {v : Vol} {s : St} (hi : Inv v s) {n : Nat} (hw : s.winsect = some n) {w : List Nat} (hs : Sec v w) :
    Inv v (setWin s w) ∧ (∀ m, m ≠ n → view (setWin s w) m = view s m) ∧ view (setWin s w) n = w := by
  refine ⟨⟨hi.disk, hs, (fun h => by cases h), (fun _ => by rw [show (setWin s w).winsect = s.winsect from rfl, hw]; simp), hi.fat2⟩, fun m hm => ?_, ?_⟩
  · unfold view setWin
    simp only
    rw [if_neg (by rw [hw]; simpa using fun h => hm h.symm), if_neg (by rw [hw]; simpa using fun h => hm h.symm)]
  · unfold view setWin
    simp only
    rw [if_pos hw]

theorem calls_update {cs : List Nat} {o : Obj} {e : List Nat} (he : e.take 11 = o.entry.take 11) (h : Calls cs o) : Calls cs { o with entry := e } := by
  unfold Calls at h ⊢
  have hfn : Obj.fn { o with entry := e } = o.fn := he
  split at h
  · rw [if_pos ‹_›, hfn]
    exact h
  · rw [if_neg ‹_›]
    unfold Means at h ⊢
    rw [hfn]
    exact h

/-- No object has a cluster that nothing refers to. -/
theorem first_ne {v : Vol} {T : List Dir} {F : List (List Nat)} (h : Shape v T F) {c : Nat} (h0 : c ≠ 0) (hc1 : ∀ q ∈ T, q.sclust ≠ c) (hc2 : ∀ l ∈ F, l ≠ [] → l.headD 0 ≠ c) {d' : Dir} (hd : d' ∈ T) {o : Obj} (ho : o ∈ d'.os)
    (hdo : ¬ Dotted o) : first v o ≠ c := by
  intro e
  by_cases hs : IsDir o
  · obtain ⟨-, p, hp, e'⟩ := h.subs d' hd o ho hdo hs
    exact hc1 p hp (e'.trans e)
  · obtain ⟨m, hm, e', -⟩ := h.files d' hd o ho hdo hs
    rcases hm with rfl | hm
    · exact h0 (e.symm.trans e')
    · by_cases hmn : m = []
      · subst hmn
        exact h0 (e.symm.trans e')
      · exact hc2 m hm hmn (e'.symm.trans e)

theorem rep_sfn {c : Bool} {i : Nat} {t : List (List Nat)} {os : List Obj} (h : Rep c i t os) : ∀ o ∈ os, Sfn o.entry := by
  induction h with
  | nil => intro o ho; cases ho
  | fin => intro o ho; cases ho
  | skip _ _ _ ih => exact ih
  | obj _ _ hs _ ih =>
    intro o ho
    rcases List.mem_cons.mp ho with rfl | ho
    · exact hs
    · exact ih o ho

/-- `f_mkdir` when the name is free, on a sound device. -/
theorem mkdir_new {v : Vol} {i : Info} (hr : Ready v i) (hbig : i.fsi ≠ none → 512 ≤ v.ss) (h64 : 64 ≤ v.ss) (hs : Sound v) {d : Dir} {R : List Dir} {F : List (List Nat)} {f : Fol} (h : Tree v i (d :: R) F f.st) (hdp : f.dp.sclust = d.sclust)
    {cs : List Nat} (hf : FileName cs true f.buf f.fn f.fl) (hff : 0xFFFF ∉ cs) (hb : f.buf.length = 256) (hno : ∀ o ∈ d.os, ¬ Calls cs o) (tm : Nat) {p : St × Nat} (hp : p = mkdirNew v i tm f (createChain v f.st 0)) :
    (∀ l ∈ F, ∀ n ∈ secs v l, view p.1 n = view f.st n) ∧
    (p.2 = DirDev.FR_DENIED ∧ (∃ loc, Longer d.loc loc ∧ Tree v i ({ d with loc := loc } :: R) F p.1 ∧ NoPlace v i ({ d with loc := loc } :: R) F (view p.1) { d with loc := loc } cs) ∨
     p.2 = FR_OK ∧ p.1.wflag = false ∧ ∃ T2, Made v tm cs d (d :: R) T2 ∧ Tree v i T2 F p.1) := by
  have hfile : ∀ l ∈ F, ∀ n ∈ secs v l, ¬ Fat1 v n ∧ ¬ Fat2 v n ∧ v.database ≤ n := fun l hl n hn => chain_secs hr (h.chains.chain l (by simp [hl])) hn
  obtain ⟨n1, n2⟩ := tree_new hr h (p := createChain v f.st 0) rfl
  generalize createChain v f.st 0 = q at n1 n2 hp
  have hlt := nFatent_lt hr.geo
  rcases n2 with ⟨n2, n3, n4⟩ | ⟨n2, n3, n4, n5⟩ | ⟨-, n2⟩
  rotate_right
  · exact absurd hs n2
  · have e0 : mkdirNew v i tm f q = (q.1, DirDev.FR_DENIED) := by
      unfold mkdirNew mkdirUndo removeChain
      rw [n2, if_neg (by decide), if_pos rfl, if_pos (by omega)]
    rw [e0] at hp
    subst hp
    refine ⟨fun l hl n hn => n1 n (hfile l hl n hn).1 (hfile l hl n hn).2.1, .inl ⟨rfl, d.loc, longer_refl _, n4, .inl ?_⟩⟩
    have : (dirChains (d :: R) ++ F).flatten.length = v.nFatent - 2 := n3
    show v.nFatent - 2 ≤ (dirChains (d :: R) ++ F).flatten.length + 1
    omega
  obtain ⟨s2, c⟩ := q
  simp only at n1 n2 n3 n4 n5
  have e0 : mkdirNew v i tm f (s2, c) = mkdirCleared v i tm f c (dirClear v s2 c) := by
    unfold mkdirNew
    simp only
    rw [if_neg (show ¬ c = UB by unfold UB; omega), if_neg (by omega), if_neg (by omega), if_neg (show ¬ c = DERR by unfold DERR; omega)]
  rw [e0] at hp
  clear e0
  have hcd : c ∉ (dirChains (d :: R)).flatten := fun hx => n4 (by rw [List.flatten_append]; exact List.mem_append_left _ hx)
  have hcf : ∀ l ∈ F, c ∉ l := fun l hl hx => n4 (by rw [List.flatten_append]; exact List.mem_append_right _ (List.mem_flatten.mpr ⟨l, hl, hx⟩))
  have hq1 : ∀ q ∈ d :: R, q.sclust ≠ c := by
    rintro q hq rfl
    exact hcd (sclust_mem hq (h.dirs q hq) (by omega))
  have hq2 : ∀ l ∈ F, l ≠ [] → l.headD 0 ≠ c := by
    intro l hl hn e
    cases l with
    | nil => exact hn rfl
    | cons a l => exact hcf _ hl (by rw [← e]; simp)
  have hsec : ∀ l ∈ F, ∀ n ∈ secs v l, n ∉ sectors v c := fun l hl n hn => secs_away (h.chains.chain l (by simp [hl])) n2 (hcf l hl) hn
  -- the cluster is cleared
  obtain ⟨s3, r3, e3, k1, k2, k3⟩ := clear_spec hr n5.inv n2 n3
  have k3 := k3.resolve_right fun hx => hx.2 hs
  obtain ⟨rfl, k4, k5⟩ := k3
  obtain ⟨w1, w2⟩ := clear_win hr n5.inv n2 n3 (by rw [e3])
  rw [e3] at hp w1 w2
  have t3 := tree_away hr n5 n2 hcd k4 k1.2.1 k2
  -- the entries `.` and `..`
  obtain ⟨e1, e2, d1, d2, d3, d4, d5, d6, d7, d8, d9⟩ := dot_entries hr.geo h64 tm n3 (sclust_lt hr h (d := d) (by simp))
  unfold mkdirCleared at hp
  rw [if_pos rfl, w2, hdp, d1] at hp
  simp only at hp w1 w2
  have hwsec : Sec v (e1 ++ e2 ++ List.replicate (v.ss - 64) 0) := by
    refine ⟨by simp only [List.length_append, d2.1, d3.1, List.length_replicate]; omega, fun b hb => ?_⟩
    rcases List.mem_append.mp hb with hb | hb
    · rcases List.mem_append.mp hb with hb | hb
      · exact d2.2 b hb
      · exact d3.2 b hb
    · rw [(List.mem_replicate.mp hb).2]; decide
  obtain ⟨u1, u2, u3⟩ := setwin_spec k4 w1 hwsec
  have hbase : v.database + v.csize * (c - 2) ∈ sectors v c := mem_sectors.mpr ⟨Nat.le_refl _, by have := csize_pos hr; omega⟩
  have t4 := tree_away hr (c := c) t3 n2 hcd u1 rfl (fun n _ hn => u2 n (fun e => hn (e ▸ hbase)))
  have v4 : ∀ l ∈ F, ∀ n ∈ secs v l, view (setWin s3 (e1 ++ e2 ++ List.replicate (v.ss - 64) 0)) n = view f.st n := fun l hl n hn =>
    (u2 n (fun e => hsec l hl n hn (e ▸ hbase))).trans ((k2 n (hfile l hl n hn).2.1 (hsec l hl n hn)).trans (n1 n (hfile l hl n hn).1 (hfile l hl n hn).2.1))
  have z4 : ∀ n ∈ sectors v c, n ≠ v.database + v.csize * (c - 2) → view (setWin s3 (e1 ++ e2 ++ List.replicate (v.ss - 64) 0)) n = List.replicate v.ss 0 := fun n hn hne => (u2 n hne).trans (k5 n hn)
  generalize setWin s3 (e1 ++ e2 ++ List.replicate (v.ss - 64) 0) = s4 at hp u3 t4 v4 z4
  clear u1 u2 t3 k2 k5 k1 k4 w1 w2 e3 hwsec
  -- the entry of the directory
  obtain ⟨g1, g2⟩ := register_tree hr t4 hdp hf hff hb hno (g := dirRegister v i s4 f.dp f.fn f.fl f.buf) rfl
  generalize dirRegister v i s4 f.dp f.fn f.fl f.buf = g at g1 g2 hp
  have a5 := (apart_dirs hr t4 g1).2
  have g2 := g2.resolve_left fun hx => hx.2 hs
  unfold mkdirEnd at hp
  rcases g2 with ⟨g2, loc, g3, g4, g5⟩ | ⟨g2, loc, x, o, y, g3, g4, g5, g6, g7, g8, g9, g10⟩
  · rw [if_neg (by rw [g2]; decide), g2] at hp
    unfold mkdirUndo at hp
    obtain ⟨-, y2, -, y4⟩ := tree_freed hr g4 (c := c) (m := []) (fun q hq o ho hdo => by
      rcases List.mem_cons.mp hq with rfl | hq
      · exact first_ne (tree_shape h) (by omega) hq1 hq2 (d' := d) (by simp) ho hdo
      · exact first_ne (tree_shape h) (by omega) hq1 hq2 (d' := q) (by simp [hq]) ho hdo)
    generalize removeChain v g.st c 0 = z at hp y2 y4
    subst hp
    have y4 := (y4.resolve_left fun hx => hx.2 hs).2
    refine ⟨fun l hl n hn => (y2 n (hfile l hl n hn).1 (hfile l hl n hn).2.1).trans ((a5 l (by simp [hl]) n hn).trans (v4 l hl n hn)), .inl ⟨rfl, loc, g3, y4, ?_⟩⟩
    have hent : entries v i (view z.1) loc = entries v i (view g.st) loc := by
      have hl : Linked v (tab v z.1) loc := tree_linked y4 (d := { d with loc := loc }) (by simp)
      exact entries_congr fun n hn => y2 n (secs_place hr hl hn).1 (secs_place hr hl hn).2.1
    rcases g5 with ⟨g5, g6⟩ | g5
    · rcases g5 with g5 | g5 | g5
      · exact .inr ⟨_, _, _, hf, .inl ⟨.inl g5, by simp only; rw [hent]; exact g6⟩⟩
      · exact .inr ⟨_, _, _, hf, .inl ⟨.inr (by simp only; rw [hent]; exact g5), by simp only; rw [hent]; exact g6⟩⟩
      · refine .inl ?_
        rw [allchains_cons R ([c] :: F) d loc d.os] at g5
        show v.nFatent - 2 ≤ (dirChains (⟨d.sclust, loc, d.os⟩ :: R) ++ F).flatten.length + 1
        rw [← g5, List.flatten_append, List.flatten_append, List.flatten_cons]
        simp only [List.length_append, List.length_cons, List.length_nil]
        omega
    · exact .inr ⟨_, _, _, hf, .inr g5⟩
  · rw [if_pos g2, g9, Option.bind_some] at hp
    have hob : o.entry.length = 32 ∧ ∀ b ∈ o.entry, b < 256 := by
      have hdir := (g7.dirs _ List.mem_cons_self).dir
      exact hdir.table _ (List.mem_of_getElem? (rep_entry hdir.rep o (by simp)))
    obtain ⟨e', q1, q2, q3, q4, q5, q6, -, q8⟩ := dir_entry hr.geo hob.1 hob.2 tm n3
    rw [q1] at hp
    simp only at hp
    have hsf : Sfn e' := by
      have hsf := rep_sfn (g7.dirs _ List.mem_cons_self).dir.rep o (by simp)
      exact ⟨by rw [byte_take q4 (by decide)]; exact hsf.used, by rw [q5]; decide⟩
    obtain ⟨x1, x2, x3⟩ := set_tree hr g7 (o := o) (x := x) (y := y) rfl g8 g10 q4 hsf ⟨q2, q3⟩
    have a6 := (apart_dirs hr g7 x2).2
    generalize setEnt v g.st g.dp e' = s6 at hp x1 x3 a6
    have hc6 : ∀ n ∈ sectors v c, view s6 n = view s4 n := fun n hn => by
      have : n ∈ secs v [c] := by simpa [secs] using hn
      exact (a6 [c] (by simp) n this).trans (a5 [c] (by simp) n this)
    obtain ⟨mm, hent⟩ := dot_dir (i := i) hr h64 d2.1 d3.1 (c := c) (d := view s6) ((hc6 _ hbase).trans u3) (fun n hn hne => (hc6 n hn).trans (z4 n hn hne))
    obtain ⟨f1, f2, f3⟩ := plain_dot (.inl d4) d6 0
    obtain ⟨f4, f5, f6⟩ := plain_dot (.inr d5) d7 1
    obtain ⟨nw1, -⟩ := new_entry (v := v) g5
    have ho' : ¬ Dotted { o with entry := e' } := fun hx => nw1 ((byte_take q4 (by decide)).symm.trans hx)
    have hod' : IsDir { o with entry := e' } := by unfold IsDir; rw [show byte _ 11 = _ from q5]; decide
    have hcall : Calls cs { o with entry := e' } := calls_update q4 g6
    have htree : Tree v i ({ d with loc := loc, os := x ++ { o with entry := e' } :: y } :: ⟨c, .chain [c], plain 0 [e1, e2]⟩ :: R) F s6 := by
      refine tree_of x1.inv x1.count ?_ (fun d' hd' => ?_) (shape_dir_new (tree_shape h) (x := x) (y := y) (o := { o with entry := e' }) (a := ⟨0, none, e1⟩) (b := ⟨1, none, e2⟩) g4 rfl rfl ho' hod' ?_ ?_ rfl
        ⟨f1, f2, rfl, d4, ?_⟩ ⟨f4, f5, rfl, d5, d9⟩ ?_ ?_)
      · have := x1.chains
        rw [allchains_cons R ([c] :: F) d loc (x ++ { o with entry := e' } :: y)] at this
        refine chains_perm ?_ this
        unfold dirChains
        rw [List.flatMap_cons, List.flatMap_cons, List.flatMap_cons]
        simp only [chainOf, List.append_assoc]
        refine List.Perm.append_left _ ?_
        exact List.perm_middle
      · rcases List.mem_cons.mp hd' with rfl | hd'
        · exact x3 _ List.mem_cons_self
        · rcases List.mem_cons.mp hd' with rfl | hd'
          · refine ⟨⟨by rw [if_neg (show ¬ c = 0 by omega)]; rfl, fun e => absurd e (show c ≠ 0 by omega)⟩, ?_, plain_names ?_ ?_, ?_⟩
            · show Directory true (entries v i (view s6) (.chain [c])) _
              rw [hent]
              refine plain_dir ?_ ?_
              · intro e he
                simp only [List.mem_cons, List.not_mem_nil, or_false] at he
                rcases he with rfl | rfl
                · exact f3
                · exact f6
              · intro e he
                simp only [List.mem_cons, List.not_mem_nil, or_false] at he
                rcases he with rfl | rfl
                · exact d2
                · exact d3
            · exact plain_long
            · show List.Pairwise _ [(⟨0, none, e1⟩ : Obj), ⟨1, none, e2⟩]
              simp only [List.pairwise_cons, List.mem_cons, List.not_mem_nil, or_false, forall_eq, false_imp_iff, implies_true, List.Pairwise.nil, and_true]
              show e1.take 11 ≠ e2.take 11
              rw [d4, d5]
              decide
            · intro o' ho'
              rw [plain_long o' ho']
              exact ⟨(fun h => by cases h), (fun h => by cases h)⟩
          · exact x3 d' (List.mem_cons_of_mem _ hd')
      · show FatSync.Spec.first v e' 0 ≠ 0
        rw [q6]; omega
      · exact q6.symm
      · show FatSync.Spec.first v e1 0 = FatSync.Spec.first v e' 0
        rw [d8, q6]
      · intro q hq
        show q.sclust ≠ FatSync.Spec.first v e' 0
        rw [q6]
        exact hq1 q hq
      · intro l hl hn
        show l.headD 0 ≠ FatSync.Spec.first v e' 0
        rw [q6]
        exact hq2 l hl hn
    obtain ⟨r1, r2, r3, r4⟩ := tree_synced hr hbig hs htree
    rw [← hp] at r1 r2 r3 r4
    refine ⟨fun l hl n hn => (r4 l hl n hn).trans ((a6 l (by simp [hl]) n hn).trans ((a5 l (by simp [hl]) n hn).trans (v4 l hl n hn))), .inr ⟨r1, r3, _, ?_, r2⟩⟩
    refine .mk g4 g3 hcall hod' ?_ ho' q8 q6.symm rfl d4 d5 rfl rfl
    unfold ReadOnly
    rw [show byte _ 11 = _ from q5]
    decide

end Fpm.Tree
