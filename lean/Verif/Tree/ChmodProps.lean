import Verif.Tree.ChmodLemmas
import Verif.Tree.UnlinkProps
import Verif.Tree.StatProps
/-!
# C96: changing attributes and times of objects
-/
namespace Fpm.Tree
open Fpm.Fat Fpm.Fat.Spec Fpm.FatFile Fpm.FatFile.Spec Fpm.Lfn Fpm.Names Fpm.Names.Spec Fpm.TextIo.Spec Fpm.FatDir Fpm.FatDir.Spec Fpm.Mount Fpm.Mount.Spec Fpm.DirDev Fpm.DirDev.Spec Fpm.Tree.Spec Fpm.FatSync

theorem changed {v : Vol} {i : Info} (hr : Ready v i) (hbig : i.fsi ≠ none → 512 ≤ v.ss) (hs : Sound v) {T : List Dir} {F : List (List Nat)} {s : St} (h : Tree v i T F s) {cdir : Nat} (hc : ∃ d ∈ T, d.sclust = cdir)
    {g : List Nat → Option (List Nat)} {Q : Obj → Obj → Prop} (hg : Edits g Q) (hQ : ∀ {o o' : Obj}, Q o o' → Twin v o o') {path : List Nat} {abs : Bool} {l : List (List Nat)} (hp : PathOf path abs l) (dp : Dp) {buf : List Nat}
    (hb : buf.length = 256) {G : Goal} (hG : Resolves v T cdir abs l G) {r : St × Nat} (he : r = changeAt v i g (followPath v i cdir path s dp buf)) : Changed v i T F s G Q r := by
  rcases change_spec hr hbig h hc hg hQ hp dp hb hG he with ⟨h1, h2, h3⟩ | ⟨d, cs, o, o', d', T', s1, rfl, h2, h3, h4, h5, rfl, h6⟩
  · exact .inl ⟨h1.resolve_left fun hx => hx.2 hs, h2, h3⟩
  · obtain ⟨k1, k2, k3, k4⟩ := tree_synced hr hbig hs h5
    exact .inr ⟨d, cs, o, o', d', T', rfl, h2, k1, k3, h3, h4, k2, fun l hl n hn => (k4 l hl n hn).trans (h6 l hl n hn)⟩

theorem changed_any {v : Vol} {i : Info} (hr : Ready v i) (hbig : i.fsi ≠ none → 512 ≤ v.ss) {T : List Dir} {F : List (List Nat)} {s : St} (h : Tree v i T F s) {cdir : Nat} (hc : ∃ d ∈ T, d.sclust = cdir)
    {g : List Nat → Option (List Nat)} {Q : Obj → Obj → Prop} (hg : Edits g Q) (hQ : ∀ {o o' : Obj}, Q o o' → Twin v o o') {path : List Nat} {abs : Bool} {l : List (List Nat)} (hp : PathOf path abs l) (dp : Dp) {buf : List Nat}
    (hb : buf.length = 256) {G : Goal} (hG : Resolves v T cdir abs l G) {r : St × Nat} (he : r = changeAt v i g (followPath v i cdir path s dp buf)) : ChangedAny v i T F s G Q r := by
  rcases change_spec hr hbig h hc hg hQ hp dp hb hG he with h1 | ⟨d, cs, o, o', d', T', s1, rfl, h2, h3, h4, h5, rfl, h6⟩
  · exact .inl h1
  · obtain ⟨k1, k2, -⟩ := syncfs_spec hr hbig h5.inv
    refine .inr ⟨d, cs, o, o', d', T', rfl, h2, k2, h3, h4, fun q hq => ?_, fun l hl n hn => ?_, ?_⟩
    · exact dirok_base hr (tree_linked h5 hq) (fun n hb _ hn => k1 n hn (fsi_free hr hb)) (h5.dirs q hq)
    · obtain ⟨-, c2, c3⟩ := chain_secs hr (h.chains.chain l (by simp [hl])) hn
      have := hr.data.base
      exact (k1 n c2 (fsi_free hr (by omega))).trans (h6 l hl n hn)
    · rw [tab_congr fun n hn => k1 n (fun hx => by have := hn.2; have := hx.2.1; omega) (fsi_free hr hn.1)]
      exact h5.chains.chain

/-- `f_chmod` on a device that does not fail changes only the attributes that the mask selects, only of the object that the path leads to, and all is on the device; else it changes nothing and says why. -/
theorem C96_chmod (v : Vol) (i : Info) (hr : Ready v i) (hbig : i.fsi ≠ none → 512 ≤ v.ss) (hs : Sound v) (T : List Dir) (F : List (List Nat)) (s : St) (h : Tree v i T F s) (cdir : Nat) (hc : ∃ d ∈ T, d.sclust = cdir)
    (attr mask : Nat) (path : List Nat) (abs : Bool) (l : List (List Nat)) (hp : PathOf path abs l) (dp : Dp) (buf : List Nat) (hb : buf.length = 256) (G : Goal) (hG : Resolves v T cdir abs l G) :
    Changed v i T F s G (Remarked attr mask) (fChmod v i cdir attr mask path s dp buf) :=
  changed hr hbig hs h hc (chmod_edits attr mask) remarked_twin hp dp hb hG rfl

/-- The same for the time with `f_utime`. -/
theorem C96_utime (v : Vol) (i : Info) (hr : Ready v i) (hbig : i.fsi ≠ none → 512 ≤ v.ss) (hs : Sound v) (T : List Dir) (F : List (List Nat)) (s : St) (h : Tree v i T F s) (cdir : Nat) (hc : ∃ d ∈ T, d.sclust = cdir)
    (date time : Nat) (hd : date < 2 ^ 16) (ht : time < 2 ^ 16) (path : List Nat) (abs : Bool) (l : List (List Nat)) (hp : PathOf path abs l) (dp : Dp) (buf : List Nat) (hb : buf.length = 256) (G : Goal)
    (hG : Resolves v T cdir abs l G) : Changed v i T F s G (Retimed date time) (fUtime v i cdir date time path s dp buf) :=
  changed hr hbig hs h hc (utime_edits hd ht) retimed_twin hp dp hb hG rfl

/-- Whatever the device does, success or failure is told, and no other object, no file and no chain suffers. -/
theorem C96_others (v : Vol) (i : Info) (hr : Ready v i) (hbig : i.fsi ≠ none → 512 ≤ v.ss) (T : List Dir) (F : List (List Nat)) (s : St) (h : Tree v i T F s) (cdir : Nat) (hc : ∃ d ∈ T, d.sclust = cdir)
    (attr mask date time : Nat) (hd : date < 2 ^ 16) (ht : time < 2 ^ 16) (path : List Nat) (abs : Bool) (l : List (List Nat)) (hp : PathOf path abs l) (dp : Dp) (buf : List Nat) (hb : buf.length = 256) (G : Goal)
    (hG : Resolves v T cdir abs l G) :
    ChangedAny v i T F s G (Remarked attr mask) (fChmod v i cdir attr mask path s dp buf) ∧ ChangedAny v i T F s G (Retimed date time) (fUtime v i cdir date time path s dp buf) :=
  ⟨changed_any hr hbig h hc (chmod_edits attr mask) remarked_twin hp dp hb hG rfl, changed_any hr hbig h hc (utime_edits hd ht) retimed_twin hp dp hb hG rfl⟩

theorem places {v : Vol} {T T' : List Dir} {d d' : Dir} {o o' : Obj} (hsw : Swapped d o o' T d' T') (ht : Twin v o o') {cdir : Nat} {abs : Bool} {l : List (List Nat)} {G : Goal} (hG : Resolves v T cdir abs l G) :
    ∃ G', SamePlace d d' o o' G G' ∧ Resolves v T' cdir abs l G' := by
  obtain ⟨x, y, R, hos, hd', hT, rfl⟩ := hsw
  obtain ⟨q, hq, hqc, h1⟩ := hG
  obtain ⟨q', h2, h3, h4⟩ := now_dir (v := v) hos hd' q (hT.mem_iff.mp hq)
  rcases h1 with ⟨rfl, rfl⟩ | h1
  · exact ⟨.self q', .self h3, q', h2, h4.trans hqc, .inl ⟨rfl, rfl⟩⟩
  · obtain ⟨G', h5, h6⟩ := leads_twin (fun q hq => hT.mem_iff.mp hq) hos hd' ht h1 h3
    exact ⟨G', h5, q', h2, h4.trans hqc, .inr h6⟩

/-- After either change all paths lead to the same places as before. -/
theorem C96_places (v : Vol) (T T' : List Dir) (d d' : Dir) (o o' : Obj) (attr mask date time : Nat) (hQ : Remarked attr mask o o' ∨ Retimed date time o o') (hsw : Swapped d o o' T d' T') (cdir : Nat) (abs : Bool)
    (l : List (List Nat)) (G : Goal) (hG : Resolves v T cdir abs l G) : ∃ G', SamePlace d d' o o' G G' ∧ Resolves v T' cdir abs l G' :=
  places hsw (hQ.elim remarked_twin retimed_twin) hG

/-- After a change, for what comes next with the same path. -/
theorem changed_next {v : Vol} {i : Info} {T : List Dir} {F : List (List Nat)} {s : St} {cdir : Nat} (hc : ∃ d ∈ T, d.sclust = cdir) {Q : Obj → Obj → Prop} (hQ : ∀ {o o' : Obj}, Q o o' → Twin v o o') {abs : Bool}
    {l : List (List Nat)} {d : Dir} {cs : List Nat} {o : Obj} (hG : Resolves v T cdir abs l (.object d cs o)) (hdn : ¬ DotName cs) {r : St × Nat} (hr : Changed v i T F s (.object d cs o) Q r) :
    r.2 = FR_OK ∧ ∃ o' d' T', Q o o' ∧ Swapped d o o' T d' T' ∧ Tree v i T' F r.1 ∧ (∃ d ∈ T', d.sclust = cdir) ∧ Resolves v T' cdir abs l (.object d' cs o') := by
  rcases hr with ⟨h1, -⟩ | ⟨d1, cs1, o1, o', d', T', h1, -, h3, -, h4, h5, h6, -⟩
  · exact absurd h1.1 hdn
  · cases h1
    refine ⟨h3, o', d', T', h4, h5, h6, ?_, ?_⟩
    · obtain ⟨x, y, R, hos, hd', hT, rfl⟩ := h5
      obtain ⟨q, hq, e⟩ := hc
      obtain ⟨q', h7, -, h8⟩ := now_dir (v := v) hos hd' q (hT.mem_iff.mp hq)
      exact ⟨q', h7, h8.trans e⟩
    · obtain ⟨G', h7, h8⟩ := places h5 (hQ h4) hG
      cases h7 with
      | this => exact h8
      | object _ hx => exact absurd ⟨rfl, rfl⟩ hx

/-- `f_stat` with the same path tells the attributes that `f_chmod` has set, and the rest as before. -/
theorem C96_told (v : Vol) (i : Info) (hr : Ready v i) (hbig : i.fsi ≠ none → 512 ≤ v.ss) (hs : Sound v) (T : List Dir) (F : List (List Nat)) (s : St) (h : Tree v i T F s) (cdir : Nat) (hc : ∃ d ∈ T, d.sclust = cdir)
    (attr mask : Nat) (path : List Nat) (abs : Bool) (l : List (List Nat)) (hp : PathOf path abs l) (dp dp' : Dp) (buf buf' : List Nat) (hb : buf.length = 256) (hb' : buf'.length = 256) (old : FInfo) (d : Dir) (cs : List Nat)
    (o : Obj) (hdn : ¬ DotName cs) (hG : Resolves v T cdir abs l (.object d cs o)) (r : St × Nat) (he : r = fChmod v i cdir attr mask path s dp buf) :
    r.2 = FR_OK ∧ ∃ x, (fStat v i cdir path r.1 dp' buf' old).2 = (FR_OK, some x) ∧ (∀ b, b < 6 → x.attr.testBit b = if Settable b ∧ mask.testBit b = true then attr.testBit b else (byte o.entry 11).testBit b) ∧
      x.size = size o ∧ x.time + 65536 * x.date = stamp o := by
  have h1 := C96_chmod v i hr hbig hs T F s h cdir hc attr mask path abs l hp dp buf hb _ hG
  rw [← he] at h1
  obtain ⟨h2, o', d', T', h3, h4, h5, h6, h7⟩ := changed_next hc remarked_twin hG hdn h1
  refine ⟨h2, ?_⟩
  obtain ⟨-, -, h8⟩ := C88_stat v i hr T' F r.1 h5 cdir h6 path abs l hp dp' buf' hb' old _ h7 _ rfl
  rcases h8 with ⟨-, -, h8⟩ | ⟨h8, x, h9, k, -⟩
  · exact absurd hs h8
  · refine ⟨x, Prod.ext h8 h9, fun b hb => ?_, ?_, ?_⟩
    · rw [k.attr, show (64 : Nat) = 2 ^ 6 from rfl, Nat.testBit_mod_two_pow, decide_eq_true hb, Bool.true_and, h3.bits b (by omega)]
    · rw [k.size]
      exact (remarked_twin (v := v) h3).size
    · rw [k.time]
      exact field_same fun j hj => bytes_get h3.size (h3.rest _ (by omega))

/-- `f_stat` with the same path tells the time that `f_utime` has set, and the rest as before. -/
theorem C96_told_time (v : Vol) (i : Info) (hr : Ready v i) (hbig : i.fsi ≠ none → 512 ≤ v.ss) (hs : Sound v) (T : List Dir) (F : List (List Nat)) (s : St) (h : Tree v i T F s) (cdir : Nat) (hc : ∃ d ∈ T, d.sclust = cdir)
    (date time : Nat) (hd : date < 2 ^ 16) (ht : time < 2 ^ 16) (path : List Nat) (abs : Bool) (l : List (List Nat)) (hp : PathOf path abs l) (dp dp' : Dp) (buf buf' : List Nat) (hb : buf.length = 256) (hb' : buf'.length = 256)
    (old : FInfo) (d : Dir) (cs : List Nat) (o : Obj) (hdn : ¬ DotName cs) (hG : Resolves v T cdir abs l (.object d cs o)) (r : St × Nat) (he : r = fUtime v i cdir date time path s dp buf) :
    r.2 = FR_OK ∧ ∃ x, (fStat v i cdir path r.1 dp' buf' old).2 = (FR_OK, some x) ∧ x.date = date ∧ x.time = time ∧ x.attr = byte o.entry 11 % 64 ∧ x.size = size o := by
  have h1 := C96_utime v i hr hbig hs T F s h cdir hc date time hd ht path abs l hp dp buf hb _ hG
  rw [← he] at h1
  obtain ⟨h2, o', d', T', h3, h4, h5, h6, h7⟩ := changed_next hc retimed_twin hG hdn h1
  refine ⟨h2, ?_⟩
  obtain ⟨-, -, h8⟩ := C88_stat v i hr T' F r.1 h5 cdir h6 path abs l hp dp' buf' hb' old _ h7 _ rfl
  rcases h8 with ⟨-, -, h8⟩ | ⟨h8, x, h9, k, -⟩
  · exact absurd hs h8
  · have e1 := k.time
    have e2 := k.time_lt
    rw [show FatSync.Spec.field o'.entry 22 4 = date * 65536 + time from h3.time] at e1
    have e3 : time < 65536 := ht
    refine ⟨x, Prod.ext h8 h9, by omega, by omega, ?_, ?_⟩
    · rw [k.attr, h3.rest 11 (by decide)]
    · rw [k.size]
      exact (retimed_twin (v := v) h3).size

theorem readonly_bit (o : Obj) : ReadOnly o ↔ (byte o.entry 11).testBit 0 = true := by
  unfold ReadOnly
  have := and_bit (byte o.entry 11) 0
  rw [show (2 : Nat) ^ 0 = 1 from rfl] at this
  rw [Ne, this]
  simp

/-- An object that `f_chmod` has made read-only cannot be removed, and one that is a file and is read-only no longer can. -/
theorem C96_protects (v : Vol) (i : Info) (hr : Ready v i) (hbig : i.fsi ≠ none → 512 ≤ v.ss) (hs : Sound v) (T : List Dir) (F : List (List Nat)) (s : St) (h : Tree v i T F s) (cdir : Nat) (hc : ∃ d ∈ T, d.sclust = cdir)
    (attr mask : Nat) (hm : mask.testBit 0 = true) (share : Dp → Nat) (hsh : ∀ dp, share dp = FR_OK) (path : List Nat) (abs : Bool) (l : List (List Nat)) (hp : PathOf path abs l) (dp dp' : Dp) (buf buf' : List Nat)
    (hb : buf.length = 256) (hb' : buf'.length = 256) (d : Dir) (cs : List Nat) (o : Obj) (hdn : ¬ DotName cs) (hG : Resolves v T cdir abs l (.object d cs o)) (r : St × Nat) (he : r = fChmod v i cdir attr mask path s dp buf) :
    (attr.testBit 0 = true → (fUnlink v i cdir share path r.1 dp' buf').2 = DirDev.FR_DENIED) ∧ (attr.testBit 0 = false → ¬ IsDir o → (fUnlink v i cdir share path r.1 dp' buf').2 = FR_OK) := by
  have h1 := C96_chmod v i hr hbig hs T F s h cdir hc attr mask path abs l hp dp buf hb _ hG
  rw [← he] at h1
  obtain ⟨h2, o', d', T', h3, h4, h5, h6, h7⟩ := changed_next hc remarked_twin hG hdn h1
  have hro : ReadOnly o' ↔ attr.testBit 0 = true := by
    rw [readonly_bit, h3.bits 0 (by decide), if_pos ⟨by decide, hm⟩]
  have hdir := (remarked_twin (v := v) h3).dir
  rcases C82_unlink v i hr hbig hs T' F r.1 h5 cdir h6 share path abs l hp dp' buf' hb' _ h7 _ rfl with ⟨h8, -⟩ | ⟨d1, cs1, o1, h8, -, h9, -, h10, -⟩
  · rcases h8 with ⟨hx, -⟩ | ⟨-, dp1, -, -, hx, -⟩ | ⟨-, h8, h9⟩
    · exact absurd hx hdn
    · exact absurd (hsh dp1) hx
    · refine ⟨fun _ => h9, fun ha hf => ?_⟩
      rcases h8 with h8 | ⟨h8, -⟩
      · rw [hro, ha] at h8
        cases h8
      · exact absurd (hdir.mp h8) hf
  · cases h8
    exact ⟨fun ha => absurd (.inl (hro.mpr ha)) h9, fun _ _ => h10⟩

/-! The file `X.C` gets read-only and hidden, loses its archive attribute, and gets a time; the directory `A` can be changed as well, but not the root directory. -/

example : Ready trV trI ∧ (trI.fsi ≠ none → 512 ≤ trV.ss) ∧ Sound trV ∧ Tree trV trI trT trF trS ∧ (∃ d ∈ trT, d.sclust = 0) ∧ PathOf [120, 46, 99, 0] false [[120, 46, 99]] ∧ ¬ DotName [120, 46, 99] ∧
    Resolves trV trT 0 false [[120, 46, 99]] (.object trRoot [120, 46, 99] ⟨1, none, trX⟩) ∧ (0x23 : Nat).testBit 0 = true :=
  ⟨tr_ready, by decide, tr_sound, tr_tree, ⟨trRoot, by simp [trT], rfl⟩, tr_path_x, by decide, ⟨trRoot, by simp [trT], rfl, .inr (.object (by decide) (by decide) tr_calls_x)⟩, by decide⟩

example : (fChmod trV trI 0 3 0x23 [120, 46, 99, 0] trS trDp (List.replicate 256 7)).2 = FR_OK ∧ ((fChmod trV trI 0 3 0x33 [120, 46, 99, 0] trS trDp (List.replicate 256 7)).1.disk 2)[43]? = some 3 ∧
    (fChmod trV trI 0 3 3 [47, 0] trS trDp (List.replicate 256 7)).2 = FR_INVALID_NAME ∧ (fChmod trV trI 0 2 2 [97, 0] trS trDp (List.replicate 256 7)).2 = FR_OK ∧
    (fUnlink trV trI 0 (fun _ => 0) [120, 46, 99, 0] (fChmod trV trI 0 1 1 [120, 46, 99, 0] trS trDp (List.replicate 256 7)).1 trDp (List.replicate 256 7)).2 = DirDev.FR_DENIED ∧
    (((fUtime trV trI 0 0x5A21 0x6003 [120, 46, 99, 0] trS trDp (List.replicate 256 7)).1.disk 2).drop 54).take 4 = [3, 0x60, 0x21, 0x5A] := by decide +kernel

/-- An object before and after. -/
example : Remarked 3 0x23 ⟨1, none, trX⟩ ⟨1, none, trX.set 11 3⟩ ∧ Retimed 1 2 ⟨1, none, trX⟩ ⟨1, none, ((trX.set 22 2).set 24 1)⟩ := by
  have key : ∀ k < 32, (k ≠ 11 → byte (trX.set 11 3) k = byte trX k) ∧ (k < 22 ∨ 26 ≤ k → byte ((trX.set 22 2).set 24 1) k = byte trX k) := by decide
  have out : ∀ (w : List Nat) k, w.length = 32 → 32 ≤ k → byte w k = 0 := fun w k h1 h2 => by
    unfold byte
    rw [List.getD_eq_getElem?_getD, List.getElem?_eq_none (by omega)]
    rfl
  refine ⟨⟨rfl, rfl, rfl, fun k hk => ?_, by decide⟩, ⟨rfl, rfl, rfl, fun k hk => ?_, by decide⟩⟩
  · by_cases h : k < 32
    · exact (key k h).1 hk
    · show byte (trX.set 11 3) k = byte trX k
      rw [out _ _ (by decide) (by omega), out _ _ (by decide) (by omega)]
  · by_cases h : k < 32
    · exact (key k h).2 hk
    · show byte ((trX.set 22 2).set 24 1) k = byte trX k
      rw [out _ _ (by decide) (by omega), out _ _ (by decide) (by omega)]

end Fpm.Tree
