import Verif.Tree.RmSpec
import Verif.Tree.CwdLemmas
import Verif.Tree.UnlinkProps
/-!
# Lemmas about rm: one object
-/
namespace Fpm.Tree
open Fpm.Fat Fpm.Fat.Spec Fpm.FatFile.Spec Fpm.Lfn Fpm.Names Fpm.Names.Spec Fpm.TextIo.Spec Fpm.FatDir Fpm.FatDir.Spec Fpm.Mount Fpm.Mount.Spec Fpm.DirDev Fpm.DirDev.Spec Fpm.Tree.Spec Fpm.FatSync

/-! ## What stays in a directory -/

theorem write_drop : ∀ (ws : List (Nat × List Nat)) (t : List (List Nat)) (p : Nat), (∀ w ∈ ws, w.1 ≤ p) → (writeAll t ws).drop (p + 1) = t.drop (p + 1)
  | [], _, _, _ => rfl
  | w :: ws, t, p, h => by
    rw [FatDir.writeAll, write_drop ws _ p fun x hx => h x (by simp [hx]), List.drop_set_of_lt (by have := h w (by simp); omega)]

theorem mark_le (t : List (List Nat)) : ∀ (k i : Nat), ∀ w ∈ markWrites t i k, w.1 ≤ i + k
  | 0, i, w, h => by
    rw [markWrites, List.mem_singleton] at h
    subst h
    exact Nat.le_refl _
  | k + 1, i, w, h => by
    rw [markWrites] at h
    rcases List.mem_cons.mp h with rfl | h
    · exact Nat.le_add_right _ _
    · have := mark_le t k (i + 1) w h
      omega

theorem remove_le (t : List (List Nat)) {p : Nat} {blk : Option Nat} (hb : ∀ x, blk = some x → x ≤ p) : ∀ w ∈ removeWrites t p blk, w.1 ≤ p := by
  intro w hw
  have := mark_le t _ _ w hw
  cases blk with
  | none => simp at this; omega
  | some x =>
    have := hb x rfl
    simp at *
    omega

theorem remove_rest {v : Vol} {i : Info} (hr : Ready v i) (hs : Sound v) {d : Dir} {R : List Dir} {F : List (List Nat)} {s : St} (h : Tree v i (d :: R) F s) {dp : Dp} (hdp : dp.sclust = d.sclust) {o : Obj}
    (hat : At v i d.loc o.pos dp) {buf fn : List Nat} {fl : Nat} {blk : Option Nat} {buf' : List Nat} (hfind : FatDir.dirFind (entries v i (view s) d.loc) fn fl buf = .found o.pos blk buf') :
    (entries v i (view (dirRemove v i s dp (blk.map (32 * ·))).st) d.loc).drop (o.pos + 1) = (entries v i (view s) d.loc).drop (o.pos + 1) := by
  have hd := h.dirs d (by simp)
  have hv : DirVol v [] (dirChains R ++ F) d.loc s := tree_vol h (A := []) rfl
  have hblk : ∀ x, blk = some x → x ≤ o.pos := (find_blk fn fl buf _ 0 _ (fun x hx => by cases hx) o.pos blk buf' hfind).2
  have hrm := remove_dev hr hv (by rw [hdp]; exact hd.starts) hat hblk
  rcases hrm.cases with ⟨-, d2, -⟩ | ⟨d1, -⟩ | ⟨ws, d1, -, -, d4⟩
  · exact absurd hs d2
  · cases d1
  · cases d1
    rw [d4.ents]
    exact write_drop _ _ _ (remove_le _ hblk)

theorem apart_ents {v : Vol} {i : Info} (hr : Ready v i) {d : Dir} {R : List Dir} {F : List (List Nat)} {s s' : St} (h : Tree v i (d :: R) F s) (ha : Apart v i [] (dirChains R ++ F) d.loc s s') :
    ∀ d' ∈ R, entries v i (view s') d'.loc = entries v i (view s) d'.loc := by
  have hlink := tree_linked h (d := d) (by simp)
  intro d' hd'
  refine entries_congr fun n hn => ?_
  have hl' := tree_linked h (d := d') (by simp [hd'])
  cases hloc : d'.loc with
  | chain l =>
    rw [hloc] at hn hl'
    have hm : l ∈ dirChains R ++ F := List.mem_append_left _ (List.mem_flatMap.mpr ⟨d', hd', by rw [hloc]; simp [chainOf]⟩)
    have hll : Links v.nFatent (tab v s) l := h.chains.chain l (by
      rw [show d :: R = [] ++ d :: R from rfl, dirChains_mid]
      rcases List.mem_append.mp hm with hl | hl <;> simp [hl])
    obtain ⟨h1, h2, -⟩ := chain_secs hr hll hn
    exact ha.2 n h1 h2 (own_chain hr hlink hll hm hn)
  | root =>
    rw [hloc] at hn hl'
    obtain ⟨h1, h2, -⟩ := secs_place hr hl' hn
    refine ha.2 n h1 h2 fun hown => ?_
    cases hd : d.loc with
    | chain m =>
      rw [hd] at hown
      obtain ⟨c, -, hc⟩ := hown
      have := (FatFile.mem_sectors.mp hc).1
      have := root_secs hr hl' hn
      omega
    | root =>
      have e1 := (h.dirs d' (by simp [hd'])).starts
      have e2 := (h.dirs d (by simp)).starts
      rw [hloc] at e1
      rw [hd] at e2
      have := h.once
      rw [List.map_cons, List.nodup_cons] at this
      exact this.1 (by rw [e2.1, ← e1.1]; exact List.mem_map_of_mem hd')

/-! ## One object has gone -/

/-- Object `o` of directory `d` has gone. -/
structure Gone (v : Vol) (i : Info) (d : Dir) (o : Obj) (T : List Dir) (F : List (List Nat)) (s : St) (T' : List Dir) (F' : List (List Nat)) (s' : St) : Prop where
  mem : d ∈ T
  nodot : ¬ Dotted o
  left : ∃ x y, d.os = x ++ o :: y ∧ { d with os := x ++ y } ∈ T'
  uniq : (T'.map Dir.sclust).Nodup
  dirs : ∀ e ∈ T', e.sclust ≠ d.sclust → e ∈ T ∧ ¬ (IsDir o ∧ e.sclust = first v o)
  same : ∀ e ∈ T, e.sclust ≠ d.sclust → ¬ (IsDir o ∧ e.sclust = first v o) → e ∈ T'
  vacant : IsDir o → ∀ e ∈ T, e.sclust = first v o → ∀ o' ∈ e.os, Dotted o'
  chains : ∀ m ∈ F', m ∈ F
  kept : ∀ m ∈ F, m ∈ F' ∨ Owns v o m
  freed : ∀ m ∈ F', ¬ Owns v o m
  data : ∀ m ∈ F', ∀ n ∈ secs v m, view s' n = view s n
  ents : ∀ e ∈ T', e.sclust ≠ d.sclust → entries v i (view s') e.loc = entries v i (view s) e.loc
  rest : (entries v i (view s') d.loc).drop (o.pos + 1) = (entries v i (view s) d.loc).drop (o.pos + 1)

theorem refused_ne {v : Vol} {i : Info} {T : List Dir} {cdir : Nat} {share : Dp → Nat} {r : Nat} {G : Goal} (h : Refused v i T cdir share r G) : r ≠ FR_OK := by
  cases G with
  | badName => rw [show r = _ from h]; decide
  | noPath => rw [show r = _ from h]; decide
  | free d cs => rw [show r = _ from h]; decide
  | self d =>
    rcases h with h | ⟨dp, -, h1, h2⟩
    · rw [h]; decide
    · rw [h2]; exact h1
  | object d cs o =>
    rcases h with ⟨-, h⟩ | ⟨-, dp, -, -, h1, h2⟩ | ⟨-, -, h⟩
    · rw [h]; decide
    · rw [h2]; exact h1
    · rw [h]; decide

theorem head_once {n : Nat} {f : Nat → Nat} {A F : List (List Nat)} {m m' : List Nat} (h : Chains n f (A ++ m :: F)) (hm : m' ∈ F) (hn : m ≠ []) (he : m.headD 0 = m'.headD 0) : False := by
  have hl := h.chain m' (by simp [hm])
  have h1 := h.nodup
  rw [List.flatten_append, List.flatten_cons] at h1
  have h2 := (List.nodup_append.mp (List.nodup_append.mp h1).2.1).2.2
  cases m with
  | nil => exact hn rfl
  | cons c m =>
    cases m' with
    | nil => cases hl
    | cons c' m' =>
      simp only [List.headD_cons] at he
      exact h2 c (by simp) c' (List.mem_flatten.mpr ⟨_, hm, by simp⟩) he

theorem unlink_step {v : Vol} {i : Info} (hr : Ready v i) (hbig : i.fsi ≠ none → 512 ≤ v.ss) (hs : Sound v) {T : List Dir} {F : List (List Nat)} {s : St} (h : Tree v i T F s) {cdir : Nat} (hc : ∃ d ∈ T, d.sclust = cdir)
    (share : Dp → Nat) {path : List Nat} {abs : Bool} {l : List (List Nat)} (hp : PathOf path abs l) (dp : Dp) {buf : List Nat} (hb : buf.length = 256) {G : Goal} (hG : Resolves v T cdir abs l G) {p : St × Nat}
    (hu : p = fUnlink v i cdir share path s dp buf) :
    Quiet v s p.1 ∧ Refused v i T cdir share p.2 G ∨
    ∃ d cs o, G = .object d cs o ∧ ¬ DotName cs ∧ p.2 = FR_OK ∧ ∃ T' F', Tree v i T' F' p.1 ∧ (∃ d ∈ T', d.sclust = cdir) ∧ Gone v i d o T F s T' F' p.1 := by
  rcases unlink_cases hr h hc share hp dp hb hG hu with ⟨q, h1⟩ | ⟨d, cs, o, s1, dp1, buf1, fn1, fl1, blk, rfl, q, hri, hu⟩
  · exact .inl ⟨q, h1.resolve_left fun hx => hx.2 hs⟩
  obtain ⟨R, hT, hdir⟩ := ripe_perm hri
  have ht := tree_perm hT (.refl _) hri.tree
  obtain ⟨h1, h2, h3⟩ := remove_tree hr ht hri.start hri.obj hri.place hri.name hri.means hri.find
  have hrest := remove_rest hr hs ht hri.start hri.place hri.find
  have hents := apart_ents hr ht h2
  generalize dirRemove v i s1 dp1 (blk.map (32 * ·)) = r at h1 h2 h3 hu hrest hents
  rcases h3 with ⟨-, h3⟩ | ⟨h3, x, y, hos, h4, -⟩
  · exact absurd hs h3
  obtain ⟨m, R', F', hm, hmid, hno, -, F1, hF, hun, hsub, -⟩ := mid_tree ht hri.nodots hos h1 h4 fun hx => ⟨(hdir hx).1, (hdir hx).2.2⟩
  obtain ⟨k1, k2, k3, k4⟩ := chain_tree hr hbig hs h3 hmid hno
  obtain ⟨-, k5, -⟩ := chain_any hr hbig h3 hmid hno rfl
  rw [← hm, ← hu] at k1 k2 k3 k4 k5
  have hcd : ∃ e ∈ { d with os := x ++ y } :: R', e.sclust = cdir := by
    obtain ⟨d2, hd2, e2⟩ := hc
    exact unlinked_cdir hun (fun hx => (hdir hx).2.1) ⟨d2, hT.mem_iff.mp hd2, e2⟩
  have hent : ∀ e ∈ T, entries v i (view p.1) e.loc = entries v i (view r.st) e.loc := fun e he =>
    entries_congr fun n hn => k5 n (secs_base hr (tree_linked h he) hn) (secs_place hr (tree_linked h he) hn).1 (secs_place hr (tree_linked h he) hn).2.1
  have honce := ht.once
  rw [List.map_cons, List.nodup_cons] at honce
  have hvac : IsDir o → ∀ e ∈ T, e.sclust = first v o → ∀ o' ∈ e.os, Dotted o' := fun hd e he hes => by
    obtain ⟨-, -, d', R'', rfl, hd', hemp⟩ := hdir hd
    rw [dir_unique h.once he (hT.mem_iff.mpr (by simp)) (hes.trans hd'.symm)]
    exact hemp
  have hdirs : (∀ e ∈ R', e ∈ R ∧ ¬ (IsDir o ∧ e.sclust = first v o)) ∧ ∀ e ∈ R, ¬ (IsDir o ∧ e.sclust = first v o) → e ∈ R' := by
    generalize hT1 : d :: R = T1 at hun
    generalize hT2 : { d with os := x ++ y } :: R' = T2 at hun
    cases hun with
    | empty _ hnd =>
      cases hT1
      have hT2 := (List.cons.inj hT2).2
      subst hT2
      exact ⟨fun e he => ⟨he, fun hx => hnd hx.1⟩, fun e he _ => he⟩
    | file _ hnd =>
      cases hT1
      have hT2 := (List.cons.inj hT2).2
      subst hT2
      exact ⟨fun e he => ⟨he, fun hx => hnd hx.1⟩, fun e he _ => he⟩
    | @dir _ _ d' _ _ _ hd hd' =>
      cases hT1
      have hT2 := (List.cons.inj hT2).2
      subst hT2
      have h5 := honce.2
      rw [List.map_cons, List.nodup_cons] at h5
      refine ⟨fun e he => ⟨by simp [he], fun hx => ?_⟩, fun e he hx => ?_⟩
      · exact h5.1 (by rw [hd', ← hx.2]; exact List.mem_map_of_mem he)
      · rcases List.mem_cons.mp he with rfl | he
        · exact absurd ⟨hd, hd'⟩ hx
        · exact he
  have hR : ∀ e ∈ T, e.sclust ≠ d.sclust → e ∈ R := fun e he hne => (List.mem_cons.mp (hT.mem_iff.mp he)).resolve_left fun hx => hne (by rw [hx])
  have hR' : ∀ e ∈ { d with os := x ++ y } :: R', e.sclust ≠ d.sclust → e ∈ R' := fun e he hne => (List.mem_cons.mp he).resolve_left fun hx => hne (by rw [hx])
  have hfr : (∀ l ∈ F, l ∈ F' ∨ Owns v o l) ∧ ∀ l ∈ F', ¬ Owns v o l := by
    generalize hT1 : d :: R = T1 at hun
    generalize hT2 : { d with os := x ++ y } :: R' = T2 at hun
    cases hun with
    | empty _ hnd h0 => exact ⟨fun l hl => .inl (hF.mem_iff.mp hl), fun l _ hx => hx.2.2.1 h0⟩
    | @file _ _ _ _ m' _ hnd hm0 hm1 =>
      have hl' : ∀ l ∈ F', ¬ Owns v o l := fun l hl hx => by
        have h5 := (tree_perm (.refl _) hF h).chains
        exact head_once h5 hl hm0 (by rw [← hm1]; exact hx.2.2.2)
      refine ⟨fun l hl => ?_, hl'⟩
      rcases List.mem_cons.mp (hF.mem_iff.mp hl) with rfl | hl
      · refine .inr ⟨hri.nodots, hnd, ?_, hm1⟩
        have := links_mem (h.chains.chain l (by simp [hl])) (l.headD 0) (by cases l with | nil => exact absurd rfl hm0 | cons a b => simp)
        rw [hm1]
        omega
      · exact .inl hl
    | dir _ hd _ => exact ⟨fun l hl => .inl (hF.mem_iff.mp hl), fun l _ hx => hx.2.1 hd⟩
  refine .inr ⟨d, cs, o, rfl, hri.nodot, k1, _, F', k2, hcd, hri.mem, hri.nodots, ⟨x, y, hos, by simp⟩, k2.once, fun e he hne => ?_, fun e he hne hx => ?_, hvac, hsub, hfr.1, hfr.2, fun l hl n hn => ?_, fun e he hne => ?_, ?_⟩
  · have := hdirs.1 e (hR' e he hne)
    exact ⟨hT.mem_iff.mpr (by simp [this.1]), this.2⟩
  · exact List.mem_cons_of_mem _ (hdirs.2 e (hR e he hne) hx)
  · exact (k4 l hl n hn).trans (((apart_dirs hr ht h2).2 l (hsub l hl) n hn).trans (q.same n (chain_secs hr (h.chains.chain l (by simp [hsub l hl])) hn).2.1))
  · have he' := (hdirs.1 e (hR' e he hne)).1
    have heT : e ∈ T := hT.mem_iff.mpr (by simp [he'])
    rw [hent e heT, hents e he', entries_same hr (tree_linked h heT) q.same]
  · rw [hent d hri.mem, hrest, entries_same hr (tree_linked h hri.mem) q.same]

end Fpm.Tree
