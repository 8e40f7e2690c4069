import Verif.Tree.HistLemmas
import Verif.Tree.LifeProps
import Verif.Tree.UnlinkProps
/-!
# One call of a series
-/
namespace Fpm.Tree
open Fpm.Fat Fpm.Fat.Spec Fpm.FatFile Fpm.FatFile.Spec Fpm.FatBytes Fpm.FatBytes.Spec Fpm.Lfn Fpm.Names Fpm.Names.Spec Fpm.TextIo.Spec Fpm.FatDir Fpm.FatDir.Spec Fpm.Mount Fpm.Mount.Spec Fpm.DirDev Fpm.DirDev.Spec Fpm.Tree.Spec Fpm.FatSync
open Fpm.FatLock (chkShare)

/-- All files that are not among the exceptions are still there, and none of the exceptions is on the paths `P`. -/
def Same (v : Vol) (T : List Dir) (F : List (List Nat)) (s : St) (T' : List Dir) (F' : List (List Nat)) (s' : St) (P : List (List Nat) → Prop) : Prop :=
  ∃ bad, Keeps T T' bad ∧ Carries v T F s F' s' bad ∧
    ∀ d0 ∈ T, d0.sclust = 0 → ∀ l d cs o, Plain l → ¬ IsDir o → Leads v T d0 l (.object d cs o) → P l → Clear v T bad d0 l (.object d cs o)

/-- What one call leaves: a volume in order, with all files but those on the paths that are not `P`, and no others but those on the paths that are not `Q`. -/
def Next (v : Vol) (i : Info) (T : List Dir) (F : List (List Nat)) (s : St) (w : World) (P : List (List Nat) → Prop) (Q : List Dir → List (List Nat) → Prop) : Prop :=
  ∃ T' F', InOrder v i T' F' w ∧ Same v T F s T' F' w.st P ∧ Same v T' F' w.st T F s (Q T')

theorem clear_all {v : Vol} {i : Info} {T : List Dir} {F : List (List Nat)} {s : St} (h : Tree v i T F s) {d0 : Dir} (h0 : d0 ∈ T) {l : List (List Nat)} {d : Dir} {cs : List Nat} {o : Obj} (hp : Plain l) (hl : Leads v T d0 l (.object d cs o)) :
    Clear v T (fun _ _ => False) d0 l (.object d cs o) := clear_prefix h hl h0 hp ⟨_, _, _, rfl⟩ fun _ _ _ _ _ _ => id

/-- Files, when nothing has been written but second copies of the allocation table. -/
theorem alike_fat {v : Vol} {i : Info} (hr : Ready v i) {T : List Dir} {F : List (List Nat)} {s s' : St} (h : Tree v i T F s) (hv : ∀ n, ¬ Fat2 v n → view s' n = view s n) : ∀ l ∈ F, ∀ n ∈ secs v l, view s' n = view s n :=
  fun l hl n hn => hv n (chain_secs hr (h.chains.chain l (by simp [hl])) hn).2.1

theorem next_same {v : Vol} {i : Info} {T T' : List Dir} {F : List (List Nat)} {s : St} {w : World} {P : List (List Nat) → Prop} {Q : List Dir → List (List Nat) → Prop} (h : Tree v i T F s) (h' : Tree v i T' F w.st) (hd : DotsKeep T T') (hp : (T'.map Dir.sclust).Perm (T.map Dir.sclust))
    (hk : Keeps T T' fun _ _ => False) (hk' : Keeps T' T fun _ _ => False) (hdots : ∀ q ∈ T, q.sclust ≠ 0 → DotsSecond q) (hc : ∃ d ∈ T, d.sclust = w.cdir) (hv : ∀ l ∈ F, ∀ n ∈ secs v l, view w.st n = view s n) : Next v i T F s w P Q :=
  ⟨T', F, ⟨h', here_perm hp hc, second_next h'.once hd hp hdots⟩, ⟨_, hk, fun _ _ _ _ _ _ _ m _ hm _ => ⟨hm, hv m hm⟩, fun _ h0 _ _ _ _ _ hl _ hL _ => clear_all h h0 hl hL⟩,
   ⟨_, hk', fun _ _ _ _ _ _ _ m _ hm _ => ⟨hm, fun n hn => (hv m hm n hn).symm⟩, fun _ h0 _ _ _ _ _ hl _ hL _ => clear_all h' h0 hl hL⟩⟩

theorem next_quiet {v : Vol} {i : Info} {T : List Dir} {F : List (List Nat)} {s : St} {w : World} {P : List (List Nat) → Prop} {Q : List Dir → List (List Nat) → Prop} (h : Tree v i T F s) (h' : Tree v i T F w.st) (hdots : ∀ q ∈ T, q.sclust ≠ 0 → DotsSecond q) (hc : ∃ d ∈ T, d.sclust = w.cdir)
    (hv : ∀ l ∈ F, ∀ n ∈ secs v l, view w.st n = view s n) : Next v i T F s w P Q :=
  next_same h h' (fun p hp => ⟨p, hp, rfl, id⟩) (.refl _) (fun d hd => .inr ⟨d, hd, rfl, fun _ ho _ => .inl ho⟩) (fun d hd => .inr ⟨d, hd, rfl, fun _ ho _ => .inl ho⟩) hdots hc hv

/-- A directory may have got longer. -/
theorem next_longer {v : Vol} {i : Info} {T R : List Dir} {F : List (List Nat)} {s : St} {w : World} {P : List (List Nat) → Prop} {Q : List Dir → List (List Nat) → Prop} {d : Dir} {loc : Loc} (h : Tree v i T F s) (hT : T.Perm (d :: R)) (h' : Tree v i ({ d with loc := loc } :: R) F w.st)
    (hdots : ∀ q ∈ T, q.sclust ≠ 0 → DotsSecond q) (hc : ∃ d ∈ T, d.sclust = w.cdir) (hv : ∀ l ∈ F, ∀ n ∈ secs v l, view w.st n = view s n) : Next v i T F s w P Q := by
  have key : ∀ p ∈ T, ∃ p' ∈ { d with loc := loc } :: R, p'.sclust = p.sclust ∧ p'.os = p.os := by
    intro p hp
    rcases List.mem_cons.mp (hT.mem_iff.mp hp) with rfl | hp
    · exact ⟨_, List.mem_cons_self, rfl, rfl⟩
    · exact ⟨p, List.mem_cons_of_mem _ hp, rfl, rfl⟩
  refine next_same h h' (fun p hp => ?_) ?_ (fun p hp => ?_) (fun p hp => ?_) hdots hc hv
  · obtain ⟨p', a1, a2, a3⟩ := key p hp
    refine ⟨p', a1, a2, fun hx => ?_⟩
    unfold DotsSecond
    rw [a3]
    exact hx
  · rw [List.map_cons]
    exact (hT.map Dir.sclust).symm
  · obtain ⟨p', a1, a2, a3⟩ := key p hp
    exact .inr ⟨p', a1, a2, fun o ho _ => .inl (by rw [a3]; exact ho)⟩
  · rcases List.mem_cons.mp hp with rfl | hp
    · exact .inr ⟨d, hT.mem_iff.mpr List.mem_cons_self, rfl, fun o ho _ => .inl ho⟩
    · exact .inr ⟨p, hT.mem_iff.mpr (List.mem_cons_of_mem _ hp), rfl, fun o ho _ => .inl ho⟩

theorem dotted_one {o : Obj} (h : o.fn = pad 11 [46]) : Dotted o := by
  unfold Dotted
  rw [byte_take (b := pad 11 [46]) (by rw [show o.entry.take 11 = pad 11 [46] from h]; decide) (by decide)]
  decide

theorem next_mkdir {v : Vol} {i : Info} (hr : Ready v i) (hbig : i.fsi ≠ none → 512 ≤ v.ss) (h64 : 64 ≤ v.ss) (hs : Sound v) {T : List Dir} {F : List (List Nat)} {w : World} (h : InOrder v i T F w) {path : List Nat} (hp : IsPath path) (tm : Nat) (dp : Dp)
    {buf : List Nat} (hb : buf.length = 256) {P : List (List Nat) → Prop} {Q : List Dir → List (List Nat) → Prop} : Next v i T F w.st ⟨(fMkdir v i w.cdir tm path w.st dp buf).1, w.cdir⟩ P Q := by
  obtain ⟨abs, l, hp, hcl⟩ := hp
  obtain ⟨G, hG, -⟩ := C81_place v i T F w.st h.tree w.cdir h.here abs l
  obtain ⟨h1, h2⟩ := C83_mkdir v i hr hbig h64 hs T F w.st h.tree w.cdir h.here tm path abs l hp hcl dp buf hb G hG _ rfl
  rcases h2 with ⟨-, h2, h3⟩ | ⟨d, cs, R, -, hT, ⟨-, loc, -, h2, -⟩ | ⟨-, -, T2, hm, h2⟩⟩
  · exact next_quiet h.tree h2 h.dots h.here h1
  · exact next_longer h.tree hT h2 h.dots h.here h1
  · cases hm with
    | @mk x y o a b loc n R hos hloc hcall hdir hro hdo hst hn hnos ha hb2 hap hbp =>
      have hdotn : ∀ c ∈ n.os, Dotted c := by
        rw [hnos]
        intro c hc
        simp only [List.mem_cons, List.not_mem_nil, or_false] at hc
        rcases hc with rfl | rfl
        · exact dotted_one ha
        · exact dotted_fn hb2
      have key : ∀ p ∈ T, ∃ p' ∈ ({ d with loc := loc, os := x ++ o :: y } : Dir) :: n :: R, p'.sclust = p.sclust ∧ ∀ a ∈ p.os, a ∈ p'.os := by
        intro p hp
        rcases List.mem_cons.mp (hT.mem_iff.mp hp) with rfl | hp
        · exact ⟨_, List.mem_cons_self, rfl, fun a ha => mem_new.mpr (.inr (by rw [← hos]; exact ha))⟩
        · exact ⟨p, by simp [hp], rfl, fun _ h => h⟩
      refine ⟨_, F, ⟨h2, ?_, fun q hq h0 => ?_⟩, ⟨fun _ _ => False, fun p hp => ?_, fun _ _ _ _ _ _ _ m _ hm _ => ⟨hm, h1 m hm⟩, fun _ h0 _ _ _ _ _ hl _ hL _ => clear_all h.tree h0 hl hL⟩,
        ⟨fun k a => a = o ∧ k = d.sclust, fun p hp => ?_, fun _ _ _ _ _ _ _ m _ hm _ => ⟨hm, fun n hn => (h1 m hm n hn).symm⟩, fun d0 h0 _ l d1 c1 o1 hl hnd hL _ => clear_end h2 ?_ hL h0 hl ⟨d1, c1, o1, rfl, fun hx => hnd (hx.1 ▸ hdir)⟩⟩⟩
      · obtain ⟨p, p1, p2⟩ := h.here
        obtain ⟨p', a1, a2, -⟩ := key p p1
        exact ⟨p', a1, a2.trans p2⟩
      · rcases List.mem_cons.mp hq with rfl | hq
        · exact second_keep (q := d) (fun b hb _ => mem_new.mpr (.inr (by rw [← hos]; exact hb))) (h.dots d (hT.mem_iff.mpr List.mem_cons_self) h0)
        · rcases List.mem_cons.mp hq with rfl | hq
          · exact ⟨b, by rw [hnos]; simp, hbp, hb2⟩
          · exact h.dots q (hT.mem_iff.mpr (List.mem_cons_of_mem _ hq)) h0
      · obtain ⟨p', a1, a2, a3⟩ := key p hp
        exact .inr ⟨p', a1, a2, fun o ho _ => .inl (a3 o ho)⟩
      · rcases List.mem_cons.mp hp with rfl | hp
        · refine .inr ⟨d, hT.mem_iff.mpr List.mem_cons_self, rfl, fun a ha _ => ?_⟩
          rw [hos]
          exact (mem_new.mp ha).symm.imp id fun e => ⟨e, rfl⟩
        · rcases List.mem_cons.mp hp with rfl | hp
          · exact .inl hdotn
          · exact .inr ⟨p, hT.mem_iff.mpr (List.mem_cons_of_mem _ hp), rfl, fun a ha _ => .inl ha⟩
      · rintro q - a - - ⟨rfl, -⟩ p hp e
        have := dir_unique h2.once hp (d' := n) (by simp) (by rw [e, hn])
        subst this
        exact hdotn

theorem leads_object {v : Vol} {T : List Dir} {d0 : Dir} {l : List (List Nat)} {G : Goal} (h : Leads v T d0 l G) : d0 ∈ T → ∀ d cs o, G = .object d cs o → d ∈ T ∧ o ∈ d.os ∧ Calls cs o := by
  induction h with
  | stay _ _ _ ih => exact ih
  | object h1 h2 h3 =>
    rintro hd _ _ _ ⟨⟩
    exact ⟨hd, h2, h3⟩
  | enter _ _ _ _ h5 _ _ ih => exact fun _ => ih h5
  | _ =>
    rintro - _ _ _ hG
    cases hG

theorem leads_self {v : Vol} {T : List Dir} {d0 : Dir} {l : List (List Nat)} {G : Goal} (h : Leads v T d0 l G) : d0 ∈ T → ∀ d, G = .self d → d ∈ T := by
  induction h with
  | stay _ _ _ ih => exact ih
  | self =>
    rintro hd _ ⟨⟩
    exact hd
  | enter _ _ _ _ h5 _ _ ih => exact fun _ => ih h5
  | _ =>
    rintro - _ hG
    cases hG

theorem resolves_object {v : Vol} {T : List Dir} {cdir : Nat} {abs : Bool} {l : List (List Nat)} {d : Dir} {cs : List Nat} {o : Obj} (h : Resolves v T cdir abs l (.object d cs o)) : d ∈ T ∧ o ∈ d.os ∧ Calls cs o := by
  obtain ⟨d0, h0, -, ⟨-, hl⟩ | hl⟩ := h
  · cases hl
  · exact leads_object hl h0 d cs o rfl

/-- A path that does not meet the object of a call. -/
theorem not_meets {v : Vol} {i : Info} {T : List Dir} {F : List (List Nat)} {s : St} (h : Tree v i T F s) {cdir : Nat} {path : List Nat} {abs : Bool} {l0 l : List (List Nat)} {d : Dir} {cs : List Nat} {o : Obj} (hp : PathOf path abs l0)
    (hG : Resolves v T cdir abs l0 (.object d cs o)) (hn : ¬ Meets v T cdir path l) {d0 : Dir} (h0 : d0 ∈ T) (hz : d0.sclust = 0) {d1 : Dir} {c1 : List Nat} {o1 : Obj} (hl : Leads v T d0 l (.object d1 c1 o1)) : ¬ (o1 = o ∧ d1.sclust = d.sclust) := by
  rintro ⟨rfl, e⟩
  have hd1 := (leads_object hl h0 _ _ _ rfl).1
  have := dir_unique h.once hd1 (resolves_object hG).1 e
  subst this
  exact hn ⟨abs, l0, d1, cs, o1, c1, hp, hG, d0, h0, hz, .inr hl⟩

/-- Chains begin with a cluster. -/
theorem chain_head {N : Nat} {f : Nat → Nat} {C : List (List Nat)} (h : Chains N f C) {m : List Nat} (hm : m ∈ C) : m.headD 0 ≠ 0 := by
  have := h.chain m hm
  match m, this with
  | [c], h => exact fun hx => by have : c = 0 := hx; have := h.1; omega
  | c :: d :: l, h => exact fun hx => by have : c = 0 := hx; have := h.1; omega

/-- Objects with the same chain are one. -/
theorem chain_once {v : Vol} {i : Info} {T : List Dir} {F : List (List Nat)} {s : St} (h : Tree v i T F s) {d1 d2 : Dir} (h1 : d1 ∈ T) (h2 : d2 ∈ T) {a b : Obj} (ha : a ∈ d1.os) (hb : b ∈ d2.os) (hda : ¬ Dotted a) (hdb : ¬ Dotted b) {m : List Nat}
    (hm : m ∈ F) (hfa : first v a = m.headD 0) (hfb : first v b = m.headD 0) : a = b ∧ d1.sclust = d2.sclust := by
  obtain ⟨rfl, rfl⟩ := refs_inj h.once h.refs h1 h2 ha hb hda hdb (by rw [hfa]; exact chain_head h.chains (by simp [hm])) (by rw [hfa, hfb])
  exact ⟨rfl, rfl⟩

theorem next_unlink {v : Vol} {i : Info} (hr : Ready v i) (hbig : i.fsi ≠ none → 512 ≤ v.ss) (hs : Sound v) {T : List Dir} {F : List (List Nat)} {w : World} (h : InOrder v i T F w) {path : List Nat} (hp : IsPath path) (share : Dp → Nat) (dp : Dp)
    {buf : List Nat} (hb : buf.length = 256) {Q : List Dir → List (List Nat) → Prop} : Next v i T F w.st ⟨(fUnlink v i w.cdir share path w.st dp buf).1, w.cdir⟩ (fun l => ¬ Meets v T w.cdir path l) Q := by
  obtain ⟨abs, l, hp, hcl⟩ := hp
  obtain ⟨G, hG, -⟩ := C81_place v i T F w.st h.tree w.cdir h.here abs l
  rcases C82_unlink v i hr hbig hs T F w.st h.tree w.cdir h.here share path abs l hp dp buf hb G hG _ rfl with ⟨-, h1, h2⟩ | ⟨d, cs, o, rfl, hcs, hpr, -, -, -, T1, F1, T2, F2, hT, hF, hun, ht, hc, hv⟩
  · exact next_quiet h.tree h1 h.dots h.here (alike_fat hr h.tree h2)
  · obtain ⟨hd, ho, hcall⟩ := resolves_object hG
    have hdo := calls_nodot h.tree hd ho hcall hcs
    have hvac : ∀ q ∈ T, ∀ a ∈ q.os, IsDir a → (a = o ∧ q.sclust = d.sclust) → Vacant v T a := by
      rintro q - a - hda ⟨rfl, -⟩
      exact Classical.byContradiction fun hx => hpr (.inr ⟨hda, .inr hx⟩)
    have hnot : ∀ d0 ∈ T, d0.sclust = 0 → ∀ l d1 c1 o1, Plain l → ¬ IsDir o1 → Leads v T d0 l (.object d1 c1 o1) → ¬ Meets v T w.cdir path l → Clear v T (fun k a => a = o ∧ k = d.sclust) d0 l (.object d1 c1 o1) :=
      fun d0 h0 hz l d1 c1 o1 hpl _ hl hn => clear_end h.tree hvac hl h0 hpl ⟨d1, c1, o1, rfl, not_meets h.tree hp hG hn h0 hz hl⟩
    cases hun with
    | @empty x y R F hos hnd hfst =>
      refine ⟨_, _, ⟨ht, hc, fun q hq h0 => ?_⟩, ⟨_, fun q hq => ?_, fun q hq a ha hda hnd' hbad m hm0 hm hfa => ?_, hnot⟩, ⟨fun _ _ => False, fun q hq => ?_, fun q hq a ha hda hnd' hbad m hm0 hm hfa => ?_, fun d0 h0 _ l d1 c1 o1 hl _ hL _ => clear_all ht h0 hl hL⟩⟩
      · rcases List.mem_cons.mp hq with rfl | hq
        · exact second_keep (q := d) (fun b hb hx => ((mem_new (o := o) (x := x) (y := y)).mp (by rw [hos] at hb; exact hb)).resolve_left fun e => hdo (e ▸ hx)) (h.dots d hd h0)
        · exact h.dots q (hT.mem_iff.mpr (List.mem_cons_of_mem _ hq)) h0
      · rcases List.mem_cons.mp (hT.mem_iff.mp hq) with rfl | hq'
        · refine .inr ⟨_, List.mem_cons_self, rfl, fun a ha _ => ?_⟩
          rw [hos] at ha
          exact (mem_new.mp ha).symm.imp id fun e => ⟨e, rfl⟩
        · exact .inr ⟨q, List.mem_cons_of_mem _ hq', rfl, fun a ha _ => .inl ha⟩
      · exact ⟨hF.mem_iff.mp hm, hv m (hF.mem_iff.mp hm)⟩
      · rcases List.mem_cons.mp hq with rfl | hq
        · exact .inr ⟨d, hd, rfl, fun a ha _ => .inl (by rw [hos]; exact mem_new.mpr (.inr ha))⟩
        · exact .inr ⟨q, hT.mem_iff.mpr (by simp [hq]), rfl, fun a ha _ => .inl ha⟩
      · exact ⟨hF.mem_iff.mpr (by simp [hm]), fun n hn => (hv m hm n hn).symm⟩
    | @file x y R F m0 hos hnd hm00 hfst =>
      refine ⟨_, _, ⟨ht, hc, fun q hq h0 => ?_⟩, ⟨_, fun q hq => ?_, fun q hq a ha hda hnd' hbad m hm0 hm hfa => ?_, hnot⟩, ⟨fun _ _ => False, fun q hq => ?_, fun q hq a ha hda hnd' hbad m hm0 hm hfa => ?_, fun d0 h0 _ l d1 c1 o1 hl _ hL _ => clear_all ht h0 hl hL⟩⟩
      · rcases List.mem_cons.mp hq with rfl | hq
        · exact second_keep (q := d) (fun b hb hx => ((mem_new (o := o) (x := x) (y := y)).mp (by rw [hos] at hb; exact hb)).resolve_left fun e => hdo (e ▸ hx)) (h.dots d hd h0)
        · exact h.dots q (hT.mem_iff.mpr (List.mem_cons_of_mem _ hq)) h0
      · rcases List.mem_cons.mp (hT.mem_iff.mp hq) with rfl | hq'
        · refine .inr ⟨_, List.mem_cons_self, rfl, fun a ha _ => ?_⟩
          rw [hos] at ha
          exact (mem_new.mp ha).symm.imp id fun e => ⟨e, rfl⟩
        · exact .inr ⟨q, List.mem_cons_of_mem _ hq', rfl, fun a ha _ => .inl ha⟩
      · have hm2 := (List.mem_cons.mp (hF.mem_iff.mp hm)).resolve_left fun e => hbad (by subst e; exact chain_once h.tree hq hd ha ho hda hdo hm hfa hfst)
        exact ⟨hm2, hv m hm2⟩
      · rcases List.mem_cons.mp hq with rfl | hq
        · exact .inr ⟨d, hd, rfl, fun a ha _ => .inl (by rw [hos]; exact mem_new.mpr (.inr ha))⟩
        · exact .inr ⟨q, hT.mem_iff.mpr (by simp [hq]), rfl, fun a ha _ => .inl ha⟩
      · exact ⟨hF.mem_iff.mpr (by simp [hm]), fun n hn => (hv m hm n hn).symm⟩
    | @dir x y d' R F hos hdir hfst =>
      have hd' : d' ∈ T := hT.mem_iff.mpr (by simp)
      refine ⟨_, _, ⟨ht, hc, fun q hq h0 => ?_⟩, ⟨_, fun q hq => ?_, fun q hq a ha hda hnd' hbad m hm0 hm hfa => ?_, hnot⟩, ⟨fun _ _ => False, fun q hq => ?_, fun q hq a ha hda hnd' hbad m hm0 hm hfa => ?_, fun d0 h0 _ l d1 c1 o1 hl _ hL _ => clear_all ht h0 hl hL⟩⟩
      · rcases List.mem_cons.mp hq with rfl | hq
        · exact second_keep (q := d) (fun b hb hx => ((mem_new (o := o) (x := x) (y := y)).mp (by rw [hos] at hb; exact hb)).resolve_left fun e => hdo (e ▸ hx)) (h.dots d hd h0)
        · exact h.dots q (hT.mem_iff.mpr (by simp [hq])) h0
      · rcases List.mem_cons.mp (hT.mem_iff.mp hq) with rfl | hq'
        · refine .inr ⟨_, List.mem_cons_self, rfl, fun a ha _ => ?_⟩
          rw [hos] at ha
          exact (mem_new.mp ha).symm.imp id fun e => ⟨e, rfl⟩
        · rcases List.mem_cons.mp hq' with rfl | hq'
          · exact .inl (hvac d hd o ho hdir ⟨rfl, rfl⟩ q hq hfst)
          · exact .inr ⟨q, List.mem_cons_of_mem _ hq', rfl, fun a ha _ => .inl ha⟩
      · exact ⟨hF.mem_iff.mp hm, hv m (hF.mem_iff.mp hm)⟩
      · rcases List.mem_cons.mp hq with rfl | hq
        · exact .inr ⟨d, hd, rfl, fun a ha _ => .inl (by rw [hos]; exact mem_new.mpr (.inr ha))⟩
        · exact .inr ⟨q, hT.mem_iff.mpr (by simp [hq]), rfl, fun a ha _ => .inl ha⟩
      · exact ⟨hF.mem_iff.mpr (by simp [hm]), fun n hn => (hv m hm n hn).symm⟩

/-- What is there after renaming was there before, but for the new object. -/
theorem renamed_back {v : Vol} {d n : Dir} {cs : List Nat} {o : Obj} {T T' : List Dir} (h : Renamed v d n cs o T T') :
    ∃ o', Calls cs o' ∧ ∀ p' ∈ T', ∃ p ∈ T, p.sclust = p'.sclust ∧ ∀ w ∈ p'.os, ¬ Dotted w → w ∈ p.os ∨ w = o' ∧ p'.sclust = n.sclust := by
  obtain ⟨o', T1, T2, h1, hcall, -, h2, hne, h3, h4, h5⟩ := h
  have mid : ∀ p' ∈ T2, ∃ p ∈ T1, p.sclust = p'.sclust ∧ ∀ w ∈ p'.os, ¬ Dotted w → w ∈ p.os := by
    intro p' hp'
    by_cases hx : IsDir o ∧ d.sclust ≠ n.sclust
    · rw [if_pos hx] at h4
      obtain ⟨p, a1, a2, a3⟩ := turned_back h4 p' hp'
      exact ⟨p, a1, a2, fun w hw hd => (a3 w hw).resolve_right fun ⟨_, b, _, hb, he, _⟩ => hd (dotted_fn (he.trans hb))⟩
    · rw [if_neg hx] at h4
      subst h4
      exact ⟨p', hp', rfl, fun w hw _ => hw⟩
  refine ⟨o', hcall, fun p' hp' => ?_⟩
  obtain ⟨p2, a1, a2, a3⟩ := dropped_back h5 p' hp'
  obtain ⟨p1, b1, b2, b3⟩ := mid p2 a1
  obtain ⟨p0, c1, c2, c3⟩ := added_back h1 p1 b1
  exact ⟨p0, c1, by rw [c2, b2, a2], fun w hw hd => (c3 w (b3 w (a3 w hw) hd)).imp id fun hx => ⟨hx.1, by rw [← a2, ← b2, ← c2, hx.2]⟩⟩

theorem next_rename {v : Vol} {i : Info} (hr : Ready v i) (hbig : i.fsi ≠ none → 512 ≤ v.ss) (h64 : 64 ≤ v.ss) (hs : Sound v) {T : List Dir} {F : List (List Nat)} {w : World} (h : InOrder v i T F w) {old new : List Nat} (hp : IsPath old) (hp' : IsPath new)
    (share : Dp → Nat) (dp : Dp) {buf : List Nat} (hb : buf.length = 256) : Next v i T F w.st ⟨(fRename v i w.cdir share old new w.st dp buf).1, w.cdir⟩
      (fun l => ¬ ∃ l1, l1 <+: l ∧ Meets v T w.cdir old l1) fun T' l => ¬ ∃ l1, l1 <+: l ∧ Lands v T T' w.cdir new l1 := by
  obtain ⟨abs, l, hp, -⟩ := hp
  obtain ⟨abs', l', hp', hcl⟩ := hp'
  obtain ⟨G, hG, -⟩ := C81_place v i T F w.st h.tree w.cdir h.here abs l
  obtain ⟨G', hG', -⟩ := C81_place v i T F w.st h.tree w.cdir h.here abs' l'
  have hdots : ∀ d cs o, G = .object d cs o → ¬ DotName cs → IsDir o → ∀ q ∈ T, q.sclust = first v o → DotsSecond q := by
    rintro d cs o rfl hcs hdir q hq hqs
    obtain ⟨hd, ho, hcall⟩ := resolves_object hG
    exact h.dots q hq (by rw [hqs]; exact (h.tree.subs d hd o ho (calls_nodot h.tree hd ho hcall hcs) hdir).1)
  rcases C86_rename v i hr hbig h64 hs T F w.st h.tree w.cdir h.here share old new abs abs' l l' hp hp' hcl dp buf hb G G' hG hG' hdots _ rfl with ⟨-, h1, h2⟩ | ⟨d, cs, o, n, cs', rfl, hcs, -, htg, hv, ⟨R, loc, hT, -, -, h1, -⟩ | ⟨-, T', hre, ht, -⟩⟩
  · exact next_quiet h.tree h1 h.dots h.here (alike_fat hr h.tree h2)
  · exact next_longer h.tree hT h1 h.dots h.here hv
  · obtain ⟨hd, ho, hcall⟩ := resolves_object hG
    have hdo := calls_nodot h.tree hd ho hcall hcs
    obtain ⟨k1, k2⟩ := dots_renamed hdo hre
    obtain ⟨o', hcall', hback⟩ := renamed_back hre
    refine ⟨T', F, ⟨ht, here_perm k2 h.here, second_next ht.once k1 k2 h.dots⟩, ⟨fun k a => a = o ∧ k = d.sclust, fun q hq => .inr ((renamed_keep hre).1 q hq), fun _ _ _ _ _ _ _ m _ hm _ => ⟨hm, hv m hm⟩, ?_⟩,
      ⟨fun k a => a = o' ∧ k = n.sclust, fun q hq => .inr (hback q hq), fun _ _ _ _ _ _ _ m _ hm _ => ⟨hm, fun n hn => (hv m hm n hn).symm⟩, ?_⟩⟩
    rotate_left
    · refine fun d0 h0 hz l d1 c1 o1 hpl _ hl hn => clear_prefix ht hl h0 hpl ⟨_, _, _, rfl⟩ fun l1 d2 c2 o2 hl1 hl2 hx => hn ⟨l1, hl1, abs', l', G', n, cs', d2, c2, o2, hp', hG', ?_, ⟨d0, h0, hz, .inr hl2⟩, hx.2, hx.1 ▸ hcall'⟩
      cases G' with
      | free d' c' => exact .inl (by rw [htg.1, htg.2])
      | object d' c' o1 => exact .inr ⟨o1, by rw [htg.1, htg.2.1, htg.2.2.2]⟩
      | badName => exact htg.elim
      | noPath => exact htg.elim
      | self _ => exact htg.elim
    exact fun d0 h0 hz l d1 c1 o1 hpl _ hl hn => clear_prefix h.tree hl h0 hpl ⟨_, _, _, rfl⟩ fun l1 d2 c2 o2 hl1 hl2 => not_meets h.tree hp hG (fun hx => hn ⟨l1, hl1, hx⟩) h0 hz hl2

theorem chdir_at {v : Vol} {i : Info} (hr : Ready v i) (hs : Sound v) {T : List Dir} {F : List (List Nat)} {s : St} (h : Tree v i T F s) {cdir : Nat} (hc : ∃ d ∈ T, d.sclust = cdir) {path : List Nat} {abs : Bool} {l : List (List Nat)} (hp : PathOf path abs l) (dp : Dp)
    {buf : List Nat} (hb : buf.length = 256) {G : Goal} (hG : Resolves v T cdir abs l G) {p : St × Nat × Nat} (hu : p = fChdir v i cdir path s dp buf) :
    Tree v i T F p.1 ∧ (∀ n, ¬ Fat2 v n → view p.1 n = view s n) ∧ ChdirTo v cdir p.2.2 p.2.1 G ∧ ∃ d ∈ T, d.sclust = p.2.1 := by
  obtain ⟨h1, h2, h3⟩ := C81_follow v i hr T F s h cdir hc path abs l hp dp buf hb G hG
  unfold fChdir at hu
  generalize followPath v i cdir path s dp buf = f at h1 h2 h3 hu
  have h3 := h3.resolve_left fun hx => hx.2 hs
  unfold chdirAt at hu
  cases G with
  | badName =>
    rw [if_neg (by rw [show f.res = _ from h3]; decide), show f.res = _ from h3] at hu
    subst hu
    exact ⟨h1, h2, ⟨rfl, rfl⟩, hc⟩
  | noPath =>
    rw [if_neg (by rw [show f.res = _ from h3]; decide), show f.res = _ from h3] at hu
    subst hu
    exact ⟨h1, h2, ⟨rfl, rfl⟩, hc⟩
  | free d cs =>
    rw [if_neg (by rw [h3.1]; decide), h3.1] at hu
    subst hu
    exact ⟨h1, h2, ⟨rfl, rfl⟩, hc⟩
  | self d =>
    rw [if_pos h3.1, if_pos h3.2.2, h3.2.1] at hu
    subst hu
    refine ⟨h1, h2, ⟨rfl, rfl⟩, ?_⟩
    obtain ⟨d0, h0, -, ⟨-, hl⟩ | hl⟩ := hG
    · cases hl
      exact ⟨d, h0, rfl⟩
    · exact ⟨d, leads_self hl h0 d rfl, rfl⟩
  | object d cs o =>
    obtain ⟨k1, k2, k3, k4, k5, k6⟩ := h3
    obtain ⟨hd, ho, hcall⟩ := resolves_object hG
    have hob := obj_ent (h.dirs d hd).dir ho
    unfold chdirObj at hu
    rw [if_pos k1, if_neg (by rw [k3]; decide), k6] at hu
    dsimp only at hu
    rw [(attr_dir hob.2).1, ld_clust hob.2 (by rw [hob.1]; decide)] at hu
    by_cases hx : IsDir o
    · rw [if_pos (show byte o.entry 11 &&& 16 ≠ 0 from hx)] at hu
      subst hu
      refine ⟨h1, h2, .inl ⟨hx, rfl, rfl⟩, ?_⟩
      by_cases hdo : Dotted o
      · obtain ⟨-, -, ⟨-, e⟩ | ⟨-, q, hq, e, -⟩⟩ := h.dots d hd o ho hdo
        · exact ⟨d, hd, e.symm⟩
        · exact ⟨q, hq, e⟩
      · exact (h.subs d hd o ho hdo hx).2
    · rw [if_neg (show ¬ byte o.entry 11 &&& 16 ≠ 0 from hx)] at hu
      subst hu
      exact ⟨h1, h2, .inr ⟨hx, rfl, rfl⟩, hc⟩

theorem next_chdir {v : Vol} {i : Info} (hr : Ready v i) (hs : Sound v) {T : List Dir} {F : List (List Nat)} {w : World} (h : InOrder v i T F w) {path : List Nat} (hp : IsPath path) (dp : Dp) {buf : List Nat} (hb : buf.length = 256) {P : List (List Nat) → Prop} {Q : List Dir → List (List Nat) → Prop} :
    Next v i T F w.st ⟨(fChdir v i w.cdir path w.st dp buf).1, (fChdir v i w.cdir path w.st dp buf).2.1⟩ P Q := by
  obtain ⟨abs, l, hp, -⟩ := hp
  obtain ⟨G, hG, -⟩ := C81_place v i T F w.st h.tree w.cdir h.here abs l
  obtain ⟨h1, h2, -, h3⟩ := chdir_at hr hs h.tree h.here hp dp hb hG rfl
  exact next_quiet h.tree h1 h.dots h3 (alike_fat hr h.tree h2)

/-- Names differ, so do objects. -/
theorem fn_same {os : List Obj} (h : FatDir.Spec.Names os) {a b : Obj} (ha : a ∈ os) (hb : b ∈ os) (he : a.fn = b.fn) : a = b := by
  obtain ⟨x, y, rfl⟩ := List.append_of_mem hb
  have hp : (x ++ b :: y).Perm (b :: (x ++ y)) := List.perm_middle
  have hd : (b :: (x ++ y)).Pairwise Distinct := (hp.pairwise_iff fun h => ⟨h.short.symm, fun n n' h1 h2 hx => h.long n' n h2 h1 hx.symm, h.right, h.left⟩).mp h.distinct
  rcases mem_new.mp ha with ha | ha
  · exact ha
  · exact absurd he.symm ((List.pairwise_cons.mp hd).1 a ha).short

theorem fn_other {x y : List Obj} {o : Obj} (h : FatDir.Spec.Names (x ++ o :: y)) : ∀ a ∈ x ++ y, o.fn ≠ a.fn := by
  have hd : (o :: (x ++ y)).Pairwise Distinct := (List.perm_middle.pairwise_iff fun h => distinct_symm h).mp h.distinct
  exact fun a ha => ((List.pairwise_cons.mp hd).1 a ha).short

theorem calls_names {cs : List Nat} {o o' : Obj} (h1 : o'.fn = o.fn) (h2 : o'.long = o.long) (h : Calls cs o) : Calls cs o' := by
  unfold Calls Means at h ⊢
  rw [h1, h2]
  exact h

/-- What opening a file leaves, with another object in its place. -/
theorem next_opened {v : Vol} {i : Info} {T T1 R : List Dir} {F F1 F2 : List (List Nat)} {w : World} {w' : World} {path : List Nat} {abs : Bool} {l : List (List Nat)} {G : Goal} {tm mode : Nat} {d : Dir} {o o' : Obj} {x y : List Obj} {m m' : List Nat}
    (h : InOrder v i T F w) (hp : PathOf path abs l) (hG : Resolves v T w.cdir abs l G) (hT : T.Perm T1) (hF : F.Perm F1) (ho : Opened v tm mode G T1 F1 d R F2 o m) (hos : d.os = x ++ o :: y) (ht : Tree v i ({ d with os := x ++ o' :: y } :: R) (withRest [] m' F2) w'.st)
    (hv : ∀ l ∈ F2, ∀ n ∈ secs v l, view w'.st n = view w.st n) (hc : w'.cdir = w.cdir) (hfn : o'.fn = o.fn) (hlong : o'.long = o.long) (hfile : ¬ IsDir o') (hfst : first v o' = m'.headD 0) :
    Next v i T F w.st w' (fun l => ¬ Meets v T w.cdir path l) fun T' l => ¬ Lands v T T' w.cdir path l := by
  have hF2 : ∀ l ∈ F2, l ∈ withRest [] m' F2 := by
    intro l hl
    unfold withRest
    split <;> simp [hl]
  have rest : ∀ m F, (∀ n ∈ withRest [] m F, n = m ∨ n ∈ F) := by
    intro m F n hn
    unfold withRest at hn
    split at hn
    · exact .inr (by simpa using hn)
    · simpa using hn
  have rest' : ∀ m F, (∀ n ∈ F, n ∈ withRest [] m F) := by
    intro m F n hn
    unfold withRest
    split <;> simp [hn]
  have back : ∃ d2 cs, (G = .free d2 cs ∨ ∃ o, G = .object d2 cs o) ∧ d2.sclust = d.sclust ∧ T.Perm (d2 :: R) ∧ Calls cs o' ∧ (∀ a ∈ d.os, a ≠ o → a ∈ d2.os) ∧ ∀ n ∈ F2, n ∈ F1 := by
    have hcalls : ∀ cs, Calls cs o → Calls cs o' := fun cs hx => calls_names hfn hlong hx
    cases ho with
    | @kept d cs o R F m h1 h2 h3 h4 h5 => exact ⟨d, cs, .inr ⟨o, rfl⟩, rfl, hT, hcalls cs (resolves_object hG).2.2, fun a ha _ => ha, rest' _ _⟩
    | @wiped d cs o1 o x1 y1 R F m h1 h2 h3 h4 hos1 h5 hpos hl1 hf1 hbl =>
      exact ⟨d, cs, .inr ⟨o1, rfl⟩, rfl, hT, hcalls cs (calls_names hf1 hl1 (resolves_object hG).2.2), fun a ha hx => by rw [hos1]; exact mem_new.mpr (.inr ((mem_new.mp ha).resolve_left hx)), rest' _ _⟩
    | @new d cs o x1 y1 loc R F h1 hos1 hloc hcall hbl => exact ⟨d, cs, .inl rfl, rfl, hT, hcalls cs hcall, fun a ha hx => by rw [hos1]; exact (mem_new.mp ha).resolve_left hx, fun n hn => hn⟩
  -- the directory before
  have key : ∃ bad : Nat → Obj → Prop, (∃ d1 ∈ T, d1.sclust = d.sclust ∧ (T.Perm (d1 :: R)) ∧ (∀ a ∈ d1.os, a ∈ x ∨ a ∈ y ∨ bad d.sclust a) ∧ ∀ a ∈ d1.os, Dotted a → a ∈ x ∨ a ∈ y) ∧
      (∀ q ∈ T, ∀ a ∈ q.os, ¬ Dotted a → ¬ bad q.sclust a → ∀ n ∈ F, first v a = n.headD 0 → n ∈ F2) ∧
      ∀ d0 ∈ T, d0.sclust = 0 → ∀ l d cs o, Plain l → ¬ IsDir o → Leads v T d0 l (.object d cs o) → ¬ Meets v T w.cdir path l → Clear v T bad d0 l (.object d cs o) := by
    have old : ∀ d1 cs o1, G = .object d1 cs o1 → ¬ IsDir o1 → ∀ d0 ∈ T, d0.sclust = 0 → ∀ l d cs o, Plain l → ¬ IsDir o → Leads v T d0 l (.object d cs o) → ¬ Meets v T w.cdir path l → Clear v T (fun k a => a = o1 ∧ k = d1.sclust) d0 l (.object d cs o) := by
      rintro d1 cs o1 rfl hnd d0 h0 hz l d2 c2 o2 hpl - hl hn
      exact clear_end h.tree (fun q _ a _ hda hx => absurd (hx.1 ▸ hda) hnd) hl h0 hpl ⟨d2, c2, o2, rfl, not_meets h.tree hp hG hn h0 hz hl⟩
    cases ho with
    | @kept d cs o R F m h1 h2 h3 h4 h5 =>
      obtain ⟨hd, hod, hcall⟩ := resolves_object hG
      have hdo : ¬ Dotted o := fun hx => h3 (h.tree.dots d hd o hod hx).1
      refine ⟨fun k a => a = o ∧ k = d.sclust, ⟨d, hd, rfl, hT, fun a ha => ?_, fun a ha hx => ?_⟩, fun q hq a ha hda hbad n hn hfa => ?_, old d cs o rfl h3⟩
      · rw [hos] at ha
        rcases mem_new.mp ha with ha | ha
        · exact .inr (.inr ⟨ha, rfl⟩)
        · exact (List.mem_append.mp ha).imp id .inl
      · rw [hos] at ha
        exact List.mem_append.mp ((mem_new.mp ha).resolve_left fun e => hdo (e ▸ hx))
      · exact (rest m F2 n (hF.mem_iff.mp hn)).resolve_left fun e => hbad (chain_once h.tree hq hd ha hod hda hdo hn hfa (by rw [e]; exact h5))
    | @wiped d cs o1 o x1 y1 R F m h1 h2 h3 h4 hos1 h5 hpos hlong hfn hbl =>
      obtain ⟨hd, hod, hcall⟩ := resolves_object hG
      have hdo : ¬ Dotted o1 := fun hx => h3 (h.tree.dots d hd o1 hod hx).1
      have key : ∀ a ∈ d.os, a = o1 ∨ a ∈ x ∨ a ∈ y := by
        intro a ha
        by_cases hx : a = o1
        · exact .inl hx
        · right
          have ha' := ha
          rw [hos1] at ha
          have : a ∈ x1 ++ o :: y1 := mem_new.mpr (.inr ((mem_new.mp ha).resolve_left hx))
          rw [show x1 ++ o :: y1 = x ++ o :: y from hos] at this
          exact List.mem_append.mp ((mem_new.mp this).resolve_left fun e => hx (fn_same (h.tree.dirs d hd).names ha' hod (by rw [e, hfn])))
      refine ⟨fun k a => a = o1 ∧ k = d.sclust, ⟨d, hd, rfl, hT, fun a ha => ?_, fun a ha hx => (key a ha).resolve_left fun e => hdo (e ▸ hx)⟩, fun q hq a ha hda hbad n hn hfa => ?_, old d cs o1 rfl h3⟩
      · rcases key a ha with e | e | e
        · exact .inr (.inr ⟨e, rfl⟩)
        · exact .inl e
        · exact .inr (.inl e)
      · exact (rest m F2 n (hF.mem_iff.mp hn)).resolve_left fun e => hbad (chain_once h.tree hq hd ha hod hda hdo hn hfa (by rw [e]; exact h5))
    | @new d cs o x1 y1 loc R F h1 hos1 hloc hcall hbl =>
      have hd : d ∈ T := hT.mem_iff.mpr List.mem_cons_self
      have hno : ∀ a ∈ d.os, ¬ Calls cs a := by
        obtain ⟨d0, -, -, ⟨-, hl⟩ | hl⟩ := hG
        · cases hl
        · exact (leads_free hl rfl).2
      have key : ∀ a ∈ d.os, a ∈ x ∨ a ∈ y := by
        intro a ha
        have ha' := ha
        rw [hos1] at ha
        have : a ∈ x1 ++ o :: y1 := mem_new.mpr (.inr ha)
        rw [show x1 ++ o :: y1 = x ++ o :: y from hos] at this
        exact List.mem_append.mp ((mem_new.mp this).resolve_left fun e => hno a ha' (e ▸ hcall))
      exact ⟨fun _ _ => False, ⟨d, hd, rfl, hT, fun a ha => (key a ha).imp id .inl, fun a ha _ => key a ha⟩, fun q hq a ha hda hbad n hn hfa => hF.mem_iff.mp hn, fun d0 h0 hz l d2 c2 o2 hpl _ hl _ => clear_all h.tree h0 hpl hl⟩
  obtain ⟨bad, ⟨d1, hd1, e1, hT1, hk, hkd⟩, hcar, hcl⟩ := key
  obtain ⟨d2, cs, hG2, e2, hT2, hcall, hk2, hF1⟩ := back
  have hsc : (({ d with os := x ++ o' :: y } :: R).map Dir.sclust).Perm (T.map Dir.sclust) := by
    rw [List.map_cons]
    refine .trans ?_ (hT1.map Dir.sclust).symm
    rw [List.map_cons, e1]
  have hin : o' ∈ x ++ o' :: y := mem_new.mpr (.inl rfl)
  have hdo : ¬ Dotted o' := fun hx => hfile (ht.dots _ List.mem_cons_self o' hin hx).1
  refine ⟨_, _, ⟨ht, ?_, ?_⟩, ⟨bad, fun q hq => ?_, fun q hq a ha hda _ hbad n hn0 hn hfa => ⟨hF2 n (hcar q hq a ha hda hbad n hn hfa), hv n (hcar q hq a ha hda hbad n hn hfa)⟩, hcl⟩,
    ⟨fun k a => a = o' ∧ k = d.sclust, fun q hq => ?_, fun q hq a ha hda _ hbad n hn0 hn hfa => ?_, fun d0 h0 hz l' d3 c3 o3 hl _ hL hn => ?_⟩⟩
  · rw [hc]
    exact here_perm hsc h.here
  · refine second_next ht.once (fun q hq => ?_) hsc h.dots
    rcases List.mem_cons.mp (hT1.mem_iff.mp hq) with rfl | hq'
    · exact ⟨_, List.mem_cons_self, e1.symm, second_keep fun b hb hx => mem_new.mpr (.inr (List.mem_append.mpr (hkd b hb hx)))⟩
    · exact ⟨q, List.mem_cons_of_mem _ hq', rfl, id⟩
  · rcases List.mem_cons.mp (hT1.mem_iff.mp hq) with rfl | hq'
    · refine .inr ⟨_, List.mem_cons_self, e1.symm, fun a ha _ => ?_⟩
      rw [e1]
      rcases hk a ha with hx | hx | hx
      · exact .inl (mem_new.mpr (.inr (List.mem_append.mpr (.inl hx))))
      · exact .inl (mem_new.mpr (.inr (List.mem_append.mpr (.inr hx))))
      · exact .inr hx
    · exact .inr ⟨q, List.mem_cons_of_mem _ hq', rfl, fun a ha _ => .inl ha⟩
  · rcases List.mem_cons.mp hq with rfl | hq'
    · refine .inr ⟨d2, hT2.mem_iff.mpr List.mem_cons_self, e2, fun a ha _ => ?_⟩
      rcases mem_new.mp ha with e | ha'
      · exact .inr ⟨e, rfl⟩
      · refine .inl (hk2 a (by rw [hos]; exact mem_new.mpr (.inr ha')) fun e => ?_)
        exact fn_other (ht.dirs _ List.mem_cons_self).names a ha' (by rw [hfn, e])
    · exact .inr ⟨q, hT2.mem_iff.mpr (List.mem_cons_of_mem _ hq'), rfl, fun a ha _ => .inl ha⟩
  · have : n ∈ F2 := by
      rcases rest m' F2 n hn with e | hn
      · exact absurd (chain_once ht hq (d2 := { d with os := x ++ o' :: y }) List.mem_cons_self ha hin hda hdo hn hfa (by rw [e]; exact hfst)) hbad
      · exact hn
    exact ⟨hF.mem_iff.mpr (hF1 n this), fun k hk => (hv n this k hk).symm⟩
  · refine clear_end ht (fun q _ a _ hda hx => absurd (hx.1 ▸ hda) hfile) hL h0 hl ⟨d3, c3, o3, rfl, fun hx => hn ⟨abs, l, G, d2, cs, d3, c3, o3, hp, hG, hG2, ⟨d0, h0, hz, .inr hL⟩, by rw [hx.2, e2], ?_⟩⟩
    rw [hx.1]
    exact hcall

theorem blank_file {v : Vol} {tm : Nat} {o : Obj} (h : Blank v tm o) : ¬ IsDir o := by
  unfold IsDir
  rw [h.attr]
  decide

theorem next_edit {v : Vol} {i : Info} (hr : Ready v i) (hbig : i.fsi ≠ none → 512 ≤ v.ss) (hs : Sound v) {T : List Dir} {F : List (List Nat)} {w : World} (h : InOrder v i T F w) {path : List Nat} (hp : IsPath path) (files : List FatLock.Sem) {fs : Nat} (hfs : fs ≠ 0)
    (mode tm old : Nat) (dp : Dp) {buf : List Nat} (hb : buf.length = 256) {ops : List Op} (ha : ∀ op ∈ ops, Arg op) (tm' : Nat) :
    Next v i T F w.st ⟨editEnd v tm' ops (fOpen v i w.cdir files fs tm mode old path w.st dp buf), w.cdir⟩ (fun l => ¬ Meets v T w.cdir path l) fun T' l => ¬ Lands v T T' w.cdir path l := by
  obtain ⟨abs, l, hp, hcl⟩ := hp
  obtain ⟨G, hG, -⟩ := C81_place v i T F w.st h.tree w.cdir h.here abs l
  have ho := C84_open v i hr hs T F w.st h.tree w.cdir h.here files fs hfs tm mode old path abs l hp hcl dp buf hb G hG _ rfl
  have hl := C85_cycle v i hr hbig hs T F w.st h.tree w.cdir h.here files fs hfs tm mode old path abs l hp hcl dp buf hb G hG _ rfl
  generalize fOpen v i w.cdir files fs tm mode old path w.st dp buf = p at ho hl
  have hend : ∀ fp, p.fp = some fp → editEnd v tm' ops p = (fSync v p.place tm' (calls v p.st fp ops).1 (calls v p.st fp ops).2.1).st := by
    intro fp hfp
    unfold editEnd
    rw [hfp]
  have hend0 : p.fp = none → editEnd v tm' ops p = p.st := by
    intro hfp
    unfold editEnd
    rw [hfp]
  rcases ho with ⟨h1, -, -, h2, h3⟩ | ⟨d, cs, R, loc, -, hT, -, -, h1, -, h3, -, h2, -⟩ | ⟨T1, F1, d1, R, F2, o, m, hT, hF, hop, ht, hpl, hv, ⟨-, h1, -, ⟨d, cs, rfl⟩, -⟩ | ⟨-, -, fp, h1, -, -⟩⟩
  · rw [hend0 h1]
    exact next_quiet h.tree h2 h.dots h.here (alike_fat hr h.tree h3)
  · rw [hend0 h1]
    exact next_longer h.tree hT h2 h.dots h.here h3
  · rw [hend0 h1]
    cases hop with
    | @new d cs o x y loc R F hcr hos hlo hcall hbl =>
      exact next_opened h hp hG hT hF (.new hcr hos hlo hcall hbl) rfl (o' := o) (m' := []) ht (fun l hl => hv l (by simpa [withRest] using hl)) rfl rfl rfl (blank_file hbl) hbl.first
  · rw [hend fp h1]
    obtain ⟨T1, F1, d, R, F2, o, m, x, y, B, m', o', cs, hT, hF, hop, hos, -, -, ht, hsv, hfst, -, -, hv, -, hnd⟩ := hl fp h1 ops ha tm' _ rfl
    refine next_opened h hp hG hT hF hop hos ht hv rfl ?_ ?_ hnd hfst
    · rcases hsv with ⟨e, -⟩ | e
      · rw [e]
      · exact e.fn
    · rcases hsv with ⟨e, -⟩ | e
      · rw [e]
      · exact e.long

end Fpm.Tree
