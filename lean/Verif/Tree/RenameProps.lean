import Verif.Tree.RenameLemmas
import Verif.Tree.LifeProps
import Verif.Tree.Example
/-!
# C86: renaming
-/
namespace Fpm.Tree
open Fpm.Fat Fpm.Fat.Spec Fpm.FatFile Fpm.FatFile.Spec Fpm.FatBytes Fpm.FatBytes.Spec Fpm.Lfn Fpm.Names Fpm.Names.Spec Fpm.TextIo.Spec Fpm.FatDir Fpm.FatDir.Spec Fpm.Mount Fpm.Mount.Spec Fpm.DirDev Fpm.DirDev.Spec Fpm.Tree.Spec Fpm.FatSync

theorem leads_name {v : Vol} {T : List Dir} {d0 d : Dir} {l : List (List Nat)} {G : Goal} {cs : List Nat} {o : Obj} (h : Leads v T d0 l G) (hG : G = .object d cs o) : cs ∈ l := by
  induction h with
  | stay _ _ _ ih => exact List.mem_cons_of_mem _ (ih hG)
  | object _ h2 =>
    cases hG
    simp
  | enter _ _ _ _ h5 _ _ ih => exact List.mem_cons_of_mem _ (ih hG)
  | _ => cases hG

theorem calls_means {cs : List Nat} {o : Obj} (h : Calls cs o) (hd : ¬ DotName cs) : Means (units (trimmed cs)) o := by
  unfold Calls at h
  rw [if_neg hd] at h
  exact h

/-- The name of a dotted object means dotted objects only. -/
theorem dotted_calls {cs : List Nat} {o : Obj} (h : Calls cs o) (hd : DotName cs) : Dotted o := by
  unfold Calls at h
  rw [if_pos hd] at h
  unfold Dotted
  rw [byte_take (a := o.entry) (b := o.fn) (by rw [Obj.fn, List.take_take, Nat.min_self]) (by omega), h]
  rcases hd with rfl | rfl <;> decide

/-- Renaming by path, on a device that does not fail; a directory that is moved has `..` as second entry.  Either it is refused for one of the reasons in `RenameRefused`, and nothing changes.  Or there is no place for the
new entry; then all that may have changed is that its directory has got more clusters (with free entries).  Or the object has the new name in the new directory, with the same clusters, size, times and attributes
(a file gets the archive attribute), it has gone from the old directory, and if it is a directory that has moved then its `..` leads to the new one.  All other objects, and all data of files, are as before; the
volume is in order, and all is written. -/
theorem C86_rename (v : Vol) (i : Info) (hr : Ready v i) (hbig : i.fsi ≠ none → 512 ≤ v.ss) (h64 : 64 ≤ v.ss) (hs : Sound v) (T : List Dir) (F : List (List Nat)) (s : St) (h : Tree v i T F s) (cdir : Nat) (hc : ∃ d ∈ T, d.sclust = cdir)
    (share : Dp → Nat) (old new : List Nat) (abs abs' : Bool) (l l' : List (List Nat)) (hp : PathOf old abs l) (hp' : PathOf new abs' l') (hff : ∀ cs ∈ l', 0xFFFF ∉ cs) (dp : Dp) (buf : List Nat) (hb : buf.length = 256) (G G' : Goal)
    (hG : Resolves v T cdir abs l G) (hG' : Resolves v T cdir abs' l' G') (hdots : ∀ d cs o, G = .object d cs o → ¬ DotName cs → IsDir o → ∀ q ∈ T, q.sclust = first v o → DotsSecond q) (p : St × Nat)
    (hu : p = fRename v i cdir share old new s dp buf) :
    (RenameRefused v i share p.2 G G' ∧ Tree v i T F p.1 ∧ ∀ n, ¬ Fat2 v n → view p.1 n = view s n) ∨
    ∃ d cs o n cs', G = .object d cs o ∧ ¬ DotName cs ∧ (∃ dp : Dp, dp.sclust = d.sclust ∧ At v i d.loc o.pos dp ∧ share dp = FR_OK) ∧ Target d o n cs' G' ∧ (∀ l ∈ F, ∀ n ∈ secs v l, view p.1 n = view s n) ∧
      ((∃ R loc, T.Perm (n :: R) ∧ p.2 = DirDev.FR_DENIED ∧ Longer n.loc loc ∧ Tree v i ({ n with loc := loc } :: R) F p.1 ∧ NoEntry v i ({ n with loc := loc } :: R) F (view p.1) { n with loc := loc } cs') ∨
       p.2 = FR_OK ∧ ∃ T', Renamed v d n cs' o T T' ∧ Tree v i T' F p.1 ∧ p.1.wflag = false) := by
  have hfile : ∀ l ∈ F, ∀ n ∈ secs v l, ¬ Fat2 v n := fun l hl n hn => (chain_secs hr (h.chains.chain l (by simp [hl])) hn).2.1
  obtain ⟨q, h1⟩ := follow_spec hr h hc hp dp hb
  unfold fRename at hu
  generalize followPath v i cdir old s dp buf = f at q h1 hu
  unfold renameAt at hu
  obtain ⟨G1, h1, h2⟩ := h1.resolve_left fun hx => hx.2 hs
  obtain ⟨G0, -, hun⟩ := C81_place v i T F s h cdir hc abs l
  cases (hun G1 h1).trans (hun G hG).symm
  clear h1 hun
  have hqt := tree_quiet hr q h
  cases G with
  | badName =>
    rw [if_neg (by rw [show f.res = _ from h2]; decide)] at hu
    subst hu
    exact .inl ⟨h2, hqt, q.same⟩
  | noPath =>
    rw [if_neg (by rw [show f.res = _ from h2]; decide)] at hu
    subst hu
    exact .inl ⟨h2, hqt, q.same⟩
  | free d cs =>
    rw [if_neg (by rw [h2.1]; decide)] at hu
    subst hu
    exact .inl ⟨h2.1, hqt, q.same⟩
  | self d =>
    rw [if_pos h2.1, h2.2.2.2, if_pos (by decide)] at hu
    subst hu
    exact .inl ⟨rfl, hqt, q.same⟩
  | object d cs o =>
    obtain ⟨c1, c2, c3, c4, c5, c6, c7, c8, c9, -, c10, blk, c11, c12⟩ := h2
    obtain ⟨-, b1, b2⟩ := named_bits c5
    rw [if_pos c1] at hu
    have hbits : f.fl &&& 0xA0 ≠ 0 ↔ DotName cs := by
      rw [← b1]
      have e : f.fl &&& 0xA0 = (f.fl &&& 0x20) ||| (f.fl &&& 0x80) := Nat.and_or_distrib_left f.fl 0x20 0x80
      rw [e, b2, Nat.or_zero]
    by_cases hdn : DotName cs
    · rw [if_pos (hbits.mpr hdn)] at hu
      subst hu
      exact .inl ⟨.inl ⟨hdn, rfl⟩, hqt, q.same⟩
    rw [if_neg (fun hx => hdn (hbits.mp hx))] at hu
    by_cases hsh : share f.dp = FR_OK
    case neg =>
      rw [if_pos hsh] at hu
      subst hu
      exact .inl ⟨.inr (.inl ⟨hdn, f.dp, c3, c9, hsh, rfl⟩), hqt, q.same⟩
    rw [if_neg (by simpa using hsh), c10] at hu
    dsimp only at hu
    have hm : Means (units (trimmed cs)) o := calls_means c8 hdn
    have hdo : ¬ Dotted o := fun hx => means_dotted hm (h.dots d c2 o c7 hx)
    have hblk := found_blk (h.dirs d c2).dir ⟨c4, hdn, c5⟩ c7 c12
    obtain ⟨q', k1⟩ := follow_spec hr hqt hc hp' f.dp c6
    generalize followPath v i cdir new f.st f.dp f.buf = g at q' k1 hu
    obtain ⟨G1', k1, k2⟩ := k1.resolve_left fun hx => hx.2 hs
    obtain ⟨G0', -, hun⟩ := C81_place v i T F s h cdir hc abs' l'
    cases (hun G1' k1).trans (hun G' hG').symm
    clear k1 hun
    have hqq := q.trans q'
    have hqt' := tree_quiet hr q' hqt
    -- a result of following the new path is passed on
    have fail : ∀ res, renameRes f g = res → res ≠ FR_OK → res ≠ FR_NO_FILE → RenameRefused v i share res (.object d cs o) G' →
        RenameRefused v i share p.2 (.object d cs o) G' ∧ Tree v i T F p.1 ∧ ∀ n, ¬ Fat2 v n → view p.1 n = view s n := by
      intro res e1 e2 e3 e4
      unfold renameTo at hu
      rw [e1, if_neg e3] at hu
      unfold renameEnd at hu
      rw [if_neg (show ¬ (g.st, res).2 = FR_OK from e2)] at hu
      subst hu
      exact ⟨e4, hqt', hqq.same⟩
    -- the new name is free, or means the object itself
    have go : ∀ n cs', Target d o n cs' G' → renameRes f g = FR_NO_FILE → n ∈ T → g.dp.sclust = n.sclust → FileName cs' true g.buf g.fn g.fl → cs' ∈ l' → g.buf.length = 256 → ((∀ a ∈ n.os, ¬ Means (units (trimmed cs')) a) ∨ n = d ∧ Means (units (trimmed cs')) o) →
        ∃ d1 cs1 o1 n cs', Goal.object d cs o = .object d1 cs1 o1 ∧ ¬ DotName cs1 ∧ (∃ dp : Dp, dp.sclust = d1.sclust ∧ At v i d1.loc o1.pos dp ∧ share dp = FR_OK) ∧ Target d1 o1 n cs' G' ∧ (∀ l ∈ F, ∀ n ∈ secs v l, view p.1 n = view s n) ∧
          ((∃ R loc, T.Perm (n :: R) ∧ p.2 = DirDev.FR_DENIED ∧ Longer n.loc loc ∧ Tree v i ({ n with loc := loc } :: R) F p.1 ∧ NoEntry v i ({ n with loc := loc } :: R) F (view p.1) { n with loc := loc } cs') ∨
           p.2 = FR_OK ∧ ∃ T', Renamed v d1 n cs' o1 T T' ∧ Tree v i T' F p.1 ∧ p.1.wflag = false) := by
      intro n cs' e1 e2 e3 e4 e5 e6 e7 e8
      unfold renameTo at hu
      rw [if_pos e2] at hu
      obtain ⟨m1, m2⟩ := rename_spec hr hbig h64 hs c11 (n := n) (cs := cs') (dpn := g.dp) (buf := g.buf) (fn := g.fn) (fl := g.fl) (o := o) (d := d)
        ⟨hqt', c2, c7, hdo, c3, c9, hblk, e3, e4, e5, hff cs' e6, e7, e8, hdots d cs o rfl hdn⟩ hu
      exact ⟨d, cs, o, n, cs', rfl, hdn, ⟨f.dp, c3, c9, hsh⟩, e1, fun l hl n hn => (m1 l hl n hn).trans (hqq.same n (hfile l hl n hn)), m2⟩
    cases G' with
    | badName => exact .inl (fail FR_INVALID_NAME (by unfold renameRes; rw [show g.res = _ from k2]; rfl) (by decide) (by decide) (.inr (.inr ⟨hdn, rfl⟩)))
    | noPath => exact .inl (fail FR_NO_PATH (by unfold renameRes; rw [show g.res = _ from k2]; rfl) (by decide) (by decide) (.inr (.inr ⟨hdn, rfl⟩)))
    | self d' =>
      obtain ⟨k3, -, -, k4⟩ := k2
      by_cases hx : g.dp.sclust = f.dp.sclust ∧ g.dp.dptr = f.dp.dptr
      · have e : renameRes f g = FR_NO_FILE := by unfold renameRes; rw [if_pos k3, if_pos hx]
        unfold renameTo at hu
        rw [if_pos e] at hu
        have er : DirDev.dirRegister v i g.st g.dp g.fn g.fl g.buf = ⟨g.st, g.dp, FR_INVALID_NAME⟩ := by unfold DirDev.dirRegister; rw [k4, if_pos (by decide)]
        rw [er] at hu
        unfold renameNew at hu
        rw [if_neg (show ¬ FR_INVALID_NAME = FR_OK by decide)] at hu
        unfold renameEnd at hu
        rw [if_neg (show ¬ FR_INVALID_NAME = FR_OK by decide)] at hu
        subst hu
        exact .inl ⟨.inr (.inr ⟨hdn, .inr rfl⟩), hqt', hqq.same⟩
      · exact .inl (fail FR_EXIST (by unfold renameRes; rw [if_pos k3, if_neg hx]) (by decide) (by decide) (.inr (.inr ⟨hdn, .inl rfl⟩)))
    | free n cs' =>
      obtain ⟨k3, k4, k5, k6, k7⟩ := k2
      obtain ⟨d0, -, -, hl⟩ := hG'
      have hleads : Leads v T d0 l' (.free n cs') := by
        rcases hl with ⟨-, hl⟩ | hl
        · cases hl
        · exact hl
      obtain ⟨hcs, hno⟩ := leads_free hleads rfl
      refine .inr (go n cs' ⟨rfl, rfl⟩ (by unfold renameRes; rw [k3]; rfl) k4 k5 k6 hcs k7 (.inl fun a ha hx => hno a ha ?_))
      unfold Calls
      rw [if_neg (show ¬ DotName cs' from k6.nodot)]
      exact hx
    | object d' cs' o' =>
      obtain ⟨k3, k4, k5, k6, k7, k8, k9, k10, k11, -⟩ := k2
      have hiff : (g.dp.sclust = f.dp.sclust ∧ g.dp.dptr = f.dp.dptr) ↔ d' = d ∧ o' = o := by
        constructor
        · rintro ⟨e1, e2⟩
          have e3 : d' = d := dir_unique h.once k4 c2 (by rw [← k5, e1, c3])
          subst e3
          refine ⟨rfl, ?_⟩
          rw [k11.dptr, c9.dptr] at e2
          obtain ⟨x, y, hxy⟩ := List.append_of_mem c7
          rw [hxy] at k9
          rcases mem_new.mp k9 with e | e
          · exact e
          · exact absurd (by omega : o'.pos = o.pos) (rep_inj (h.dirs d' k4).dir.rep hxy o' e)
        · rintro ⟨rfl, rfl⟩
          exact ⟨by rw [k5, c3], by rw [k11.dptr, c9.dptr]⟩
      by_cases hx : g.dp.sclust = f.dp.sclust ∧ g.dp.dptr = f.dp.dptr
      · obtain ⟨rfl, rfl⟩ := hiff.mp hx
        have hdn' : ¬ DotName cs' := fun hy => hdo (dotted_calls k10 hy)
        obtain ⟨d0, -, -, hl⟩ := hG'
        have hleads : Leads v T d0 l' (.object d' cs' o') := by
          rcases hl with ⟨-, hl⟩ | hl
          · cases hl
          · exact hl
        exact .inr (go d' cs' ⟨rfl, rfl, rfl, rfl⟩ (by unfold renameRes; rw [if_pos k3, if_pos hx]) k4 k5 ⟨k6, hdn', k7⟩ (leads_name hleads rfl) k8 (.inr ⟨rfl, calls_means k10 hdn'⟩))
      · exact .inl (fail FR_EXIST (by unfold renameRes; rw [if_pos k3, if_neg hx]) (by decide) (by decide) (.inr (.inr ⟨hdn, fun hy => hx (hiff.mpr hy), rfl⟩)))

/-! ## Can all directories still be reached? -/

/-- One object only refers to a cluster. -/
theorem refs_same {v : Vol} {T : List Dir} (h : (T.flatMap fun d => claims v d.os).Nodup) {d1 d2 : Dir} (h1 : d1 ∈ T) (h2 : d2 ∈ T) {a b : Obj} (ha : a ∈ d1.os) (hb : b ∈ d2.os) (hda : ¬ Dotted a) (hdb : ¬ Dotted b)
    (h0 : first v a ≠ 0) (he : first v b = first v a) : d1.sclust = d2.sclust := by
  obtain ⟨A, B, hAB⟩ := List.append_of_mem h1
  have hp : T.Perm (d1 :: (A ++ B)) := by rw [hAB]; exact List.perm_middle
  obtain ⟨x, y, hxy⟩ := List.append_of_mem ha
  have key := (refs_only ((hp.flatMap_right _).nodup_iff.mp h) hxy hda h0).2
  rcases List.mem_cons.mp (hp.mem_iff.mp h2) with rfl | hx
  · rfl
  · exact absurd he (key d2 hx b hb hdb)

/-- Objects that are not dotted, after renaming. -/
theorem renamed_keep {v : Vol} {d n : Dir} {cs : List Nat} {o : Obj} {T T' : List Dir} (h : Renamed v d n cs o T T') :
    (∀ p ∈ T, ∃ p' ∈ T', p'.sclust = p.sclust ∧ ∀ w ∈ p.os, ¬ Dotted w → w ∈ p'.os ∨ w = o ∧ p.sclust = d.sclust) ∧
    ∃ o', ¬ Dotted o' ∧ Carried v o o' ∧ (Calls cs o' ∧ Spelled cs o') ∧ ∃ n' ∈ T', n'.sclust = n.sclust ∧ o' ∈ n'.os := by
  obtain ⟨o', T1, T2, h1, hcall, hspell, h2, hne, h3, h4, h5⟩ := h
  have mid : ∀ p ∈ T1, ∃ p' ∈ T2, p'.sclust = p.sclust ∧ ∀ w ∈ p.os, ¬ Dotted w → w ∈ p'.os := by
    intro p hp
    by_cases hx : IsDir o ∧ d.sclust ≠ n.sclust
    · rw [if_pos hx] at h4
      obtain ⟨p', a1, a2, -, a3⟩ := turned_keep h4 p hp
      exact ⟨p', a1, a2, a3⟩
    · rw [if_neg hx] at h4
      subst h4
      exact ⟨p, hp, rfl, fun w hw _ => hw⟩
  refine ⟨fun p hp => ?_, o', h2, h3, ⟨hcall, hspell⟩, ?_⟩
  · obtain ⟨p1, a1, a2, -, a3⟩ := added_keep h1 p hp
    obtain ⟨p2, b1, b2, b3⟩ := mid p1 a1
    obtain ⟨p3, c1, c2, c3⟩ := dropped_keep h5 p2 b1
    exact ⟨p3, c1, by rw [c2, b2, a2], fun w hw hd => (c3 w (b3 w (a3 w hw) hd)).imp id fun hx => ⟨hx.1, by rw [← hx.2, b2, a2]⟩⟩
  · obtain ⟨n1, a1, a2, a3⟩ := added_in h1
    obtain ⟨p2, b1, b2, b3⟩ := mid n1 a1
    obtain ⟨p3, c1, c2, c3⟩ := dropped_keep h5 p2 b1
    exact ⟨p3, c1, by rw [c2, b2, a2], (c3 o' (b3 o' a3 h2)).resolve_right fun hx => hne (by rw [← hx.2, b2, a2]) (by rw [hx.1])⟩

/-- The directory where an object is that leads to a directory which can be reached. -/
theorem within_parent {v : Vol} {T : List Dir} (hrefs : (T.flatMap fun d => claims v d.os).Nodup) {k : Nat} (h : Within v T 0 k) (h0 : k ≠ 0) {p : Dir} {w : Obj} (hp : p ∈ T) (hw : w ∈ p.os) (hd : ¬ Dotted w)
    (he : first v w = k) : Within v T 0 p.sclust := by
  cases h with
  | self => exact absurd rfl h0
  | @sub d o h1 h2 h3 h4 h5 =>
    rw [← refs_same hrefs h2 hp h3 hw h4 hd h0 he]
    exact h1

/-- Paths that start in a directory that can be reached lead to such directories. -/
theorem leads_within {v : Vol} {i : Info} {T : List Dir} {F : List (List Nat)} {s : St} (h : Tree v i T F s) {d0 : Dir} {l : List (List Nat)} {G : Goal} (hl : Leads v T d0 l G) : d0 ∈ T → Within v T 0 d0.sclust →
    (∀ d cs, G = .free d cs → Within v T 0 d.sclust) ∧ ∀ d cs o, G = .object d cs o → Within v T 0 d.sclust := by
  induction hl with
  | stay _ _ _ ih => exact ih
  | free => exact fun _ hw => ⟨fun d cs e => by cases e; exact hw, fun d cs o e => by cases e⟩
  | object => exact fun _ hw => ⟨fun d cs e => (by cases e), fun d cs o e => by cases e; exact hw⟩
  | @enter d d' cs l o g h1 h2 h3 h4 h5 h6 _ ih =>
    intro hd hw
    refine ih h5 ?_
    rw [h6]
    by_cases hdo : Dotted o
    · rcases (h.dots d hd o h2 hdo).2.2 with ⟨-, e⟩ | ⟨-, p, hp, e, o', ho', a1, a2, a3⟩
      · rw [e]
        exact hw
      · rw [← e]
        have := h.subs p hp o' ho' a1 a2
        exact within_parent h.refs hw (by rw [← a3]; exact this.1) hp ho' a1 a3
    · exact .sub hw hd h2 hdo h4
  | _ => exact fun _ _ => ⟨fun d cs e => (by cases e), fun d cs o e => (by cases e)⟩

/-- Full statement: after renaming, every directory that could be reached from the root directory still can. -/
def C86_full : Prop := ∀ (v : Vol) (i : Info), Ready v i → (i.fsi ≠ none → 512 ≤ v.ss) → 64 ≤ v.ss → Sound v → ∀ (T : List Dir) (F : List (List Nat)) (s : St), Tree v i T F s → ∀ (cdir : Nat), (∃ d ∈ T, d.sclust = cdir) → Within v T 0 cdir →
  ∀ (share : Dp → Nat) (old new : List Nat) (abs abs' : Bool) (l l' : List (List Nat)), PathOf old abs l → PathOf new abs' l' → (∀ cs ∈ l', 0xFFFF ∉ cs) → ∀ (dp : Dp) (buf : List Nat), buf.length = 256 → ∀ (d : Dir) (cs : List Nat) (o : Obj) (G' : Goal),
  Resolves v T cdir abs l (.object d cs o) → Resolves v T cdir abs' l' G' → (IsDir o → ∀ q ∈ T, q.sclust = first v o → DotsSecond q) → (fRename v i cdir share old new s dp buf).2 = FR_OK →
  ∀ (n : Dir) (cs' : List Nat) (T' : List Dir), Target d o n cs' G' → Renamed v d n cs' o T T' → Tree v i T' F (fRename v i cdir share old new s dp buf).1 → ∀ k, Within v T 0 k → Within v T' 0 k

/-- A directory that is moved into itself, or into a directory below it, is lost: neither it nor anything below it can be reached from the root directory. -/
theorem C86_lost (v : Vol) (i : Info) (T T' : List Dir) (F F' : List (List Nat)) (s s' : St) (h : Tree v i T F s) (h' : Tree v i T' F' s') (d n : Dir) (cs : List Nat) (o : Obj) (hd : d ∈ T) (ho : o ∈ d.os) (hdo : ¬ Dotted o) (hdir : IsDir o)
    (hr : Renamed v d n cs o T T') (hin : Within v T (first v o) n.sclust) (k : Nat) (hk : Within v T (first v o) k) : ¬ Within v T' 0 k := by
  obtain ⟨h0, -⟩ := h.subs d hd o ho hdo hdir
  obtain ⟨hkeep, o', c1, c2, -, n', hn', c3, c4⟩ := renamed_keep hr
  have hzero : ∀ k, Within v T (first v o) k → k ≠ 0 := by
    intro k hk
    cases hk with
    | self => exact h0
    | sub _ h2 h3 h4 h5 => exact (h.subs _ h2 _ h3 h4 h5).1
  have href : ∀ k, Within v T (first v o) k → ∃ p ∈ T', ∃ w ∈ p.os, ¬ Dotted w ∧ first v w = k ∧ Within v T (first v o) p.sclust := by
    intro k hk
    cases hk with
    | self => exact ⟨n', hn', o', c4, c1, c2.first, by rw [c3]; exact hin⟩
    | @sub p w h1 h2 h3 h4 h5 =>
      obtain ⟨p', a1, a2, a3⟩ := hkeep p h2
      rcases a3 w h3 h4 with a3 | ⟨rfl, -⟩
      · exact ⟨p', a1, w, a3, h4, rfl, by rw [a2]; exact h1⟩
      · exact ⟨n', hn', o', c4, c1, c2.first, by rw [c3]; exact hin⟩
  have key : ∀ k, Within v T' 0 k → ¬ Within v T (first v o) k := by
    intro k hk
    induction hk with
    | self => exact fun hx => hzero 0 hx rfl
    | @sub p w h1 h2 h3 h4 h5 ih =>
      intro hx
      obtain ⟨p2, b1, w2, b2, b3, b4, b5⟩ := href _ hx
      refine ih ?_
      rw [refs_same h'.refs h2 b1 h3 b2 h4 b3 (hzero _ hx) b4]
      exact b5
  exact fun hx => key k hx hk

theorem renamed_reach {v : Vol} {T T' : List Dir} {d n : Dir} {cs : List Nat} {o : Obj} (hn : Within v T 0 n.sclust) (hr : Renamed v d n cs o T T') (hin : IsDir o → ¬ Within v T (first v o) n.sclust) {k : Nat} (hk : Within v T 0 k) :
    Within v T' 0 k := by
  obtain ⟨hkeep, o', c1, c2, -, n', hn', c3, c4⟩ := renamed_keep hr
  have step : ∀ p w, p ∈ T → w ∈ p.os → ¬ Dotted w → IsDir w → Within v T' 0 p.sclust → Within v T' 0 (first v w) ∨ w = o := by
    intro p w h1 h2 h3 h4 h5
    obtain ⟨p', a1, a2, a3⟩ := hkeep p h1
    refine (a3 w h2 h3).imp (fun hx => .sub (by rw [a2]; exact h5) a1 hx h3 h4) fun hx => hx.1
  by_cases hdir : IsDir o
  · have hfirst : ∀ k, Within v T 0 k → Within v T' 0 k ∨ Within v T (first v o) k := by
      intro k hk
      induction hk with
      | self => exact .inl .self
      | @sub p w h1 h2 h3 h4 h5 ih =>
        rcases ih with ih | ih
        · rcases step p w h2 h3 h4 h5 ih with hx | rfl
          · exact .inl hx
          · exact .inr .self
        · exact .inr (.sub ih h2 h3 h4 h5)
    have hroot : Within v T' 0 (first v o) := by
      rw [← c2.first]
      exact .sub (by rw [c3]; exact (hfirst _ hn).resolve_right (hin hdir)) hn' c4 c1 ((carried_dir c2).mpr hdir)
    have hrest : ∀ k, Within v T (first v o) k → Within v T' 0 k := by
      intro k hk
      induction hk with
      | self => exact hroot
      | @sub p w h1 h2 h3 h4 h5 ih =>
        rcases step p w h2 h3 h4 h5 ih with hx | rfl
        · exact hx
        · exact hroot
    exact (hfirst k hk).elim id (hrest k)
  · induction hk with
    | self => exact .self
    | @sub p w h1 h2 h3 h4 h5 ih =>
      rcases step p w h2 h3 h4 h5 ih with hx | rfl
      · exact hx
      · exact absurd h5 hdir

/-- If a directory is not moved into itself or into a directory below it, then all directories that could be reached before renaming still can.  The first hypotheses are about the paths; after them `hr` is what `C86_rename` says
about a rename that succeeds. -/
theorem C86_reach_partial (v : Vol) (i : Info) (T T' : List Dir) (F : List (List Nat)) (s : St) (h : Tree v i T F s) (cdir : Nat) (hw : Within v T 0 cdir) (abs abs' : Bool) (l l' : List (List Nat)) (d n : Dir) (cs cs' : List Nat) (o : Obj) (G' : Goal)
    (hG : Resolves v T cdir abs l (.object d cs o)) (hG' : Resolves v T cdir abs' l' G') (ht : Target d o n cs' G') (hr : Renamed v d n cs' o T T') (hin : IsDir o → ¬ Within v T (first v o) n.sclust) (k : Nat) (hk : Within v T 0 k) :
    Within v T' 0 k := by
  refine renamed_reach ?_ hr hin hk
  have start : ∀ {ab : Bool} {d0 : Dir}, d0.sclust = (if ab then 0 else cdir) → Within v T 0 d0.sclust := by
    intro ab d0 e
    rw [e]
    cases ab
    · exact hw
    · exact .self
  have goal : ∀ {ab : Bool} {l : List (List Nat)} {G : Goal}, Resolves v T cdir ab l G → (∀ d cs, G = .free d cs → Within v T 0 d.sclust) ∧ ∀ d cs o, G = .object d cs o → Within v T 0 d.sclust := by
    rintro ab l G ⟨d0, hd0, e, ⟨-, rfl⟩ | hl⟩
    · exact ⟨fun d cs e => (by cases e), fun d cs o e => (by cases e)⟩
    · exact leads_within h hl hd0 (start e)
  cases G' with
  | free d' c =>
    obtain ⟨rfl, -⟩ := ht
    exact (goal hG').1 _ _ rfl
  | object d' c o1 =>
    obtain ⟨rfl, -⟩ := ht
    exact (goal hG).2 _ _ _ rfl
  | _ => cases ht

theorem tr_path_a : PathOf [97, 0] false [[97]] := .segs (z := []) (p := [97, 0]) (by decide) (.last (cs := [97]) (t := [0]) (rest := []) (by decide) (by decide) (.fin (by decide)))

theorem tr_leads_a : Resolves trV trT 0 false [[97]] (.object trRoot [97] ⟨0, none, trA⟩) := by
  refine ⟨trRoot, by simp [trT], rfl, .inr (.object (by decide) (by decide) ?_)⟩
  unfold Calls
  rw [if_neg (by decide)]
  exact .inr ⟨[97], [], ⟨by decide, by decide, by decide, by decide, by decide, by decide⟩, by decide⟩

theorem tr_second : ∀ q ∈ trT, q.sclust = 2 → DotsSecond q := by
  intro q hq e
  simp only [trT, List.mem_cons, List.not_mem_nil, or_false] at hq
  rcases hq with rfl | rfl | rfl
  · cases e
  · exact ⟨⟨1, none, trDots 0⟩, by decide, rfl, by decide⟩
  · cases e

/-- What holds of the example: renaming directory `a` to `/A/c`, which is in that directory. -/
theorem tr_moved : ∃ T', Renamed trV trRoot trDirA [99] ⟨0, none, trA⟩ trT T' ∧ Tree trV trI T' trF (fRename trV trI 0 (fun _ => 0) [97, 0] [47, 65, 47, 99, 0] trS trDp (List.replicate 256 7)).1 := by
  have hok : (fRename trV trI 0 (fun _ => 0) [97, 0] [47, 65, 47, 99, 0] trS trDp (List.replicate 256 7)).2 = FR_OK := by decide +kernel
  have := C86_rename trV trI tr_ready (fun h => absurd rfl h) (by decide) tr_sound trT trF trS tr_tree 0 ⟨trRoot, by simp [trT], rfl⟩ (fun _ => 0) [97, 0] [47, 65, 47, 99, 0] false true [[97]] [[65], [99]] tr_path_a tr_path_c (by decide) trDp (List.replicate 256 7)
    (List.length_replicate) _ _ tr_leads_a tr_leads_c (fun d cs o e _ _ => by cases e; exact tr_second) _ rfl
  rcases this with ⟨h1, -⟩ | ⟨d, cs, o, n, cs', e, -, -, ht, -, h1⟩
  · rw [hok] at h1
    rcases h1 with ⟨-, e⟩ | ⟨-, dp, -, -, h, -⟩ | ⟨-, h⟩
    · cases e
    · exact absurd rfl h
    · cases h
  · cases e
    obtain ⟨rfl, rfl⟩ := ht
    rcases h1 with ⟨R, loc, -, h1, -⟩ | ⟨-, T', h1, h2, -⟩
    · rw [hok] at h1; cases h1
    · exact ⟨T', h1, h2⟩

theorem tr_within : Within trV trT 0 2 := Within.sub (d := trRoot) (o := ⟨0, none, trA⟩) .self (by simp [trT]) (by decide) (by decide) (by decide)

/-- Directory `A` can be moved to `/A/c`; then it cannot be reached. -/
theorem C86_violated : ¬ C86_full := by
  intro hx
  obtain ⟨T', h1, h2⟩ := tr_moved
  have hok : (fRename trV trI 0 (fun _ => 0) [97, 0] [47, 65, 47, 99, 0] trS trDp (List.replicate 256 7)).2 = FR_OK := by decide +kernel
  refine C86_lost trV trI trT T' trF trF trS _ tr_tree h2 trRoot trDirA [99] ⟨0, none, trA⟩ (by simp [trT]) (by decide) (by decide) (by decide) h1 .self 2 .self ?_
  exact hx trV trI tr_ready (fun h => absurd rfl h) (by decide) tr_sound trT trF trS tr_tree 0 ⟨trRoot, by simp [trT], rfl⟩ .self (fun _ => 0) [97, 0] [47, 65, 47, 99, 0] false true [[97]] [[65], [99]] tr_path_a tr_path_c (by decide) trDp
    (List.replicate 256 7) (List.length_replicate) trRoot [97] ⟨0, none, trA⟩ _ tr_leads_a tr_leads_c (fun _ => tr_second) hok trDirA [99] T' ⟨rfl, rfl⟩ h1 h2 2 tr_within

/-! The hypotheses of `C86_rename` and `C86_lost` hold for directory `a` and the new name `/A/c`; those of `C86_reach_partial` for file `x.c` and that name. -/

example : Ready trV trI ∧ (trI.fsi ≠ none → 512 ≤ trV.ss) ∧ 64 ≤ trV.ss ∧ Sound trV ∧ Tree trV trI trT trF trS ∧ (∃ d ∈ trT, d.sclust = 0) ∧ PathOf [97, 0] false [[97]] ∧ PathOf [47, 65, 47, 99, 0] true [[65], [99]] ∧
    (∀ cs ∈ [[65], [99]], 0xFFFF ∉ cs) ∧ Resolves trV trT 0 false [[97]] (.object trRoot [97] ⟨0, none, trA⟩) ∧ Resolves trV trT 0 true [[65], [99]] (.free trDirA [99]) ∧ (∀ q ∈ trT, q.sclust = first trV ⟨0, none, trA⟩ → DotsSecond q) ∧
    Target trRoot ⟨0, none, trA⟩ trDirA [99] (.free trDirA [99]) ∧ IsDir ⟨0, none, trA⟩ ∧ Within trV trT (first trV ⟨0, none, trA⟩) trDirA.sclust :=
  ⟨tr_ready, fun h => absurd rfl h, by decide, tr_sound, tr_tree, ⟨trRoot, by simp [trT], rfl⟩, tr_path_a, tr_path_c, by decide, tr_leads_a, tr_leads_c, tr_second, ⟨rfl, rfl⟩, by decide, .self⟩

example : ∃ T', Resolves trV trT 0 false [[120, 46, 99]] (.object trRoot [120, 46, 99] ⟨1, none, trX⟩) ∧ Target trRoot ⟨1, none, trX⟩ trDirA [99] (.free trDirA [99]) ∧ Renamed trV trRoot trDirA [99] ⟨1, none, trX⟩ trT T' ∧
    ¬ IsDir ⟨1, none, trX⟩ ∧ Within trV trT 0 2 := by
  have hG : Resolves trV trT 0 false [[120, 46, 99]] (.object trRoot [120, 46, 99] ⟨1, none, trX⟩) := ⟨trRoot, by simp [trT], rfl, .inr (.object (by decide) (by decide) tr_calls_x)⟩
  have hok : (fRename trV trI 0 (fun _ => 0) [120, 46, 99, 0] [47, 65, 47, 99, 0] trS trDp (List.replicate 256 7)).2 = FR_OK := by decide +kernel
  have := C86_rename trV trI tr_ready (fun h => absurd rfl h) (by decide) tr_sound trT trF trS tr_tree 0 ⟨trRoot, by simp [trT], rfl⟩ (fun _ => 0) [120, 46, 99, 0] [47, 65, 47, 99, 0] false true [[120, 46, 99]] [[65], [99]] tr_path_x tr_path_c (by decide) trDp
    (List.replicate 256 7) (List.length_replicate) _ _ hG tr_leads_c (fun d cs o e _ hx => by cases e; exact absurd hx (by decide)) _ rfl
  rcases this with ⟨h1, -⟩ | ⟨d, cs, o, n, cs', e, -, -, ht, -, h1⟩
  · rw [hok] at h1
    rcases h1 with ⟨-, e⟩ | ⟨-, dp, -, -, h, -⟩ | ⟨-, h⟩
    · cases e
    · exact absurd rfl h
    · cases h
  · cases e
    obtain ⟨rfl, rfl⟩ := ht
    rcases h1 with ⟨R, loc, -, h1, -⟩ | ⟨-, T', h1, -⟩
    · rw [hok] at h1; cases h1
    · exact ⟨T', hG, ⟨rfl, rfl⟩, h1, by decide, tr_within⟩

/-- Names of the example after renaming, one way and back; to the name of another object, of itself in other case, in no directory, or of an object in use. -/
def trRename (old new : List Nat) (s : St) : St × Nat := fRename trV trI 0 (fun _ => 0) old new s trDp (List.replicate 256 7)

example : (trRename [97, 0] [120, 46, 99, 0] trS).2 = FR_EXIST ∧ (trRename [97, 0] [98, 0] trS).2 = FR_OK ∧ (trRename [98, 47, 98, 0] [99, 0] (trRename [97, 0] [98, 0] trS).1).2 = FR_OK ∧
    (trRename [99, 0] [97, 0] (trRename [97, 0] [98, 0] trS).1).2 = FR_NO_FILE ∧ (trRename [98, 0] [97, 0] (trRename [97, 0] [98, 0] trS).1).2 = FR_OK ∧ (trRename [97, 0] [65, 0] trS).2 = FR_OK ∧
    (trRename [97, 0] [120, 46, 99, 47, 97, 0] trS).2 = FR_NO_PATH ∧ (fRename trV trI 0 (fun _ => 16) [97, 0] [98, 0] trS trDp (List.replicate 256 7)).2 = 16 := by decide +kernel

end Fpm.Tree
