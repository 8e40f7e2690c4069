import Verif.Tree.MoveCrashLemmas
/-!
# C117: loss of power while an object is renamed
-/
namespace Fpm.Tree
open Fpm.Fat Fpm.Fat.Spec Fpm.FatFile Fpm.FatFile.Spec Fpm.Lfn Fpm.Names Fpm.Names.Spec Fpm.TextIo.Spec Fpm.FatDir Fpm.FatDir.Spec Fpm.Mount Fpm.Mount.Spec Fpm.DirDev Fpm.DirDev.Spec Fpm.Tree.Spec Fpm.FatSync

/-- The claim, with a condition `C` on the new name and a property `P` of what the device shows: while an object is renamed or moved, it is shown at all times with its old or with its new name, and so is all else; or nothing changes, if it is refused. -/
def C117_statement (C : Vol → Info → St → Dir → List Nat → Prop) (P : Vol → Info → List Dir → Disk → Prop) : Prop :=
  ∀ (v : Vol) (i : Info), Ready v i → (i.fsi ≠ none → 512 ≤ v.ss) → 64 ≤ v.ss → Sound v → ∀ (T : List Dir) (F : List (List Nat)) (s : St), Tree v i T F s → ∀ (cdir : Nat), (∃ d ∈ T, d.sclust = cdir) →
    ∀ (share : Dp → Nat) (old new : List Nat) (abs abs' : Bool) (l l' : List (List Nat)), PathOf old abs l → PathOf new abs' l' → (∀ cs ∈ l', 0xFFFF ∉ cs) → ∀ (dp : Dp) (buf : List Nat), buf.length = 256 → ∀ (d : Dir) (cs : List Nat) (o : Obj) (G : Goal),
    Resolves v T cdir abs l (.object d cs o) → Resolves v T cdir abs' l' G → (IsDir o → ∀ q ∈ T, q.sclust = first v o → DotsSecond q) → (fRename v i cdir share old new s dp buf).2 = FR_OK →
    ∀ (n : Dir) (cs' : List Nat), Target d o n cs' G → C v i s n cs' → AtAllTimes s (fRename v i cdir share old new s dp buf).1 fun q => Survives v i T F s d n cs' o q ∧ P v i T q

/-- It holds if there is room for the new name. -/
theorem C117_rename_partial : C117_statement HasRoom fun _ _ _ _ => True := by
  intro v i hr hbig h64 hs T F s h cdir hc share old new abs abs' l l' hp hp' hff dp buf hb d cs o G' hG hG' hdots hok n cs' htar hroom
  suffices hx : AtAllTimes s (fRename v i cdir share old new s dp buf).1 (Survives v i T F s d n cs' o) from ⟨fun q hq => (hx.1 q hq).imp id fun h => ⟨h, trivial⟩, hx.2, trivial⟩
  generalize hu : fRename v i cdir share old new s dp buf = p at hok ⊢
  have hu := hu.symm
  have hstart : Survives v i T F s d n cs' o (view s) → ∀ t : St, Quiet v s t → AtAllTimes s t (Survives v i T F s d n cs' o) := fun hx t q =>
    ⟨fun w hw => ((q.trace hs).1 w hw).imp id fun h1 => surv_congr hr h hx fun k _ => h1 k, surv_congr hr h hx fun k _ => q.same k⟩
  obtain ⟨q, h1⟩ := follow_spec hr h hc hp dp hb
  unfold fRename at hu
  generalize followPath v i cdir old s dp buf = f at q h1 hu
  unfold renameAt at hu
  obtain ⟨G1, h1, h2⟩ := h1.resolve_left fun hx => hx.2 hs
  obtain ⟨G0, -, hun⟩ := C81_place v i T F s h cdir hc abs l
  cases (hun G1 h1).trans (hun _ hG).symm
  clear h1 hun
  have hqt := tree_quiet hr q h
  obtain ⟨c1, c2, c3, c4, c5, c6, c7, c8, c9, -, c10, blk, c11, c12⟩ := h2
  have hstart := hstart ⟨rfl, fun _ _ _ _ => rfl, false, fun e he => ⟨e.os, dir_loose (h.dirs e he).dir, fun a ha _ _ => ha, fun a ha => .inl ha, fun _ he => by subst he; exact .inl c7, fun hx => by cases hx⟩⟩
  obtain ⟨-, b1, b2⟩ := named_bits c5
  rw [if_pos c1] at hu
  have hbits : f.fl &&& 0xA0 ≠ 0 ↔ DotName cs := by
    rw [← b1]
    have e : f.fl &&& 0xA0 = (f.fl &&& 0x20) ||| (f.fl &&& 0x80) := Nat.and_or_distrib_left f.fl 0x20 0x80
    rw [e, b2, Nat.or_zero]
  by_cases hdn : DotName cs
  · rw [if_pos (hbits.mpr hdn)] at hu
    rw [hu] at hok
    cases hok
  rw [if_neg (fun hx => hdn (hbits.mp hx))] at hu
  by_cases hsh : share f.dp = FR_OK
  case neg =>
    rw [if_pos hsh] at hu
    rw [hu] at hok
    exact absurd hok hsh
  rw [if_neg (by simpa using hsh), c10] at hu
  dsimp only at hu
  have hm : Means (units (trimmed cs)) o := calls_means c8 hdn
  have hdo : ¬ Dotted o := fun hx => means_dotted hm (h.dots d c2 o c7 hx)
  have hblk := found_blk (h.dirs d c2).dir ⟨c4, hdn, c5⟩ c7 c12
  obtain ⟨q', k1⟩ := follow_spec hr hqt hc hp' f.dp c6
  generalize followPath v i cdir new f.st f.dp f.buf = g at q' k1 hu
  obtain ⟨G1', k1, k2⟩ := k1.resolve_left fun hx => hx.2 hs
  obtain ⟨G0', -, hun⟩ := C81_place v i T F s h cdir hc abs' l'
  cases (hun G1' k1).trans (hun G' hG').symm
  clear k1 hun
  have hqq := q.trans q'
  have hqt' := tree_quiet hr q' hqt
  have go : renameRes f g = FR_NO_FILE → n ∈ T → g.dp.sclust = n.sclust → FileName cs' true g.buf g.fn g.fl → cs' ∈ l' → g.buf.length = 256 → ((∀ a ∈ n.os, ¬ Means (units (trimmed cs')) a) ∨ n = d ∧ Means (units (trimmed cs')) o) →
      AtAllTimes s p.1 (Survives v i T F s d n cs' o) := by
    intro e2 e3 e4 e5 e6 e7 e8
    unfold renameTo at hu
    rw [if_pos e2] at hu
    have hnr : ¬ NoRoom (entries v i (view g.st) n.loc) (g.fl &&& 2 ≠ 0) (units (trimmed cs')).length := by
      rw [entries_same hr (tree_linked h e3) hqq.same]
      exact hroom _ _ _ e5
    have ht := rename_times hr hbig h64 hs c11 (n := n) (cs := cs') (dpn := g.dp) (buf := g.buf) (fn := g.fn) (fl := g.fl) (o := o) (d := d)
      ⟨hqt', c2, c7, hdo, c3, c9, hblk, e3, e4, e5, hff cs' e6, e7, e8, hdots⟩ hnr hu hok
    have conv : ∀ w, Survives v i T F g.st d n cs' o w → Survives v i T F s d n cs' o w := fun w ⟨m1, m2, m3⟩ =>
      ⟨m1.trans (tab_same hqq.same), fun l hl k hk => (m2 l hl k hk).trans (hqq.same k (chain_secs hr (h.chains.chain l (by simp [hl])) hk).2.1), m3⟩
    exact times_trans (hstart _ hqq) ⟨fun w hw => (ht.1 w hw).imp id (conv w), conv _ ht.2⟩
  cases G' with
  | badName => cases htar
  | noPath => cases htar
  | self d' => cases htar
  | free n' cs1 =>
    obtain ⟨rfl, rfl⟩ := htar
    obtain ⟨k3, k4, k5, k6, k7⟩ := k2
    obtain ⟨d0, -, -, hl⟩ := hG'
    have hleads : Leads v T d0 l' (.free n cs') := by
      rcases hl with ⟨-, hl⟩ | hl
      · cases hl
      · exact hl
    obtain ⟨hcs, hno⟩ := leads_free hleads rfl
    refine go (by unfold renameRes; rw [k3]; rfl) k4 k5 k6 hcs k7 (.inl fun a ha hx => hno a ha ?_)
    unfold Calls
    rw [if_neg (show ¬ DotName cs' from k6.nodot)]
    exact hx
  | object d' cs1 o' =>
    obtain ⟨rfl, rfl, rfl, rfl⟩ := htar
    obtain ⟨k3, k4, k5, k6, k7, k8, k9, k10, k11, -⟩ := k2
    have hdn' : ¬ DotName cs' := fun hy => hdo (dotted_calls k10 hy)
    obtain ⟨d0, -, -, hl⟩ := hG'
    have hleads : Leads v T d0 l' (.object d' cs' o') := by
      rcases hl with ⟨-, hl⟩ | hl
      · cases hl
      · exact hl
    exact go (by unfold renameRes; rw [if_pos k3, if_pos ⟨by rw [k5, c3], by rw [k11.dptr, c9.dptr]⟩]) k4 k5 ⟨k6, hdn', k7⟩ (leads_name hleads rfl) k8 (.inr ⟨rfl, calls_means k10 hdn'⟩)

/-! ## Both names at once -/

/-- One object only refers to a cluster. -/
def OneName (v : Vol) (i : Info) (T : List Dir) (q : Disk) : Prop :=
  ∀ e ∈ T, ∀ e' ∈ T, ∀ os os', Directory false (entries v i q e.loc) os → Directory false (entries v i q e'.loc) os' → ∀ a ∈ os, ∀ a' ∈ os', ¬ Dotted a → ¬ Dotted a' → first v a ≠ 0 → first v a = first v a' → e = e' ∧ a = a'

/-- The claim without a condition, and with one name only at any time. -/
def C117_full : Prop := C117_statement (fun _ _ _ _ _ => True) OneName

/-- The file `x.c` is moved to `/A/c`. -/
def mvMove : St × Nat := fRename trV trI 0 (fun _ => 0) [120, 46, 99, 0] [47, 65, 47, 99, 0] trS trDp (List.replicate 256 7)
/-- The new entry. -/
def mvC : List Nat := pad 11 [67] ++ [0x20, 8] ++ List.replicate 13 0 ++ [4, 0] ++ [100, 0, 0, 0]

/-- While a file is moved there is a time when both the old and the new name refer to its clusters. -/
theorem C117_violated : ¬ C117_full := by
  intro hx
  have hG : Resolves trV trT 0 false [[120, 46, 99]] (.object trRoot [120, 46, 99] ⟨1, none, trX⟩) := ⟨trRoot, by simp [trT], rfl, .inr (.object (by decide) (by decide) tr_calls_x)⟩
  have hok : mvMove.2 = FR_OK := by decide +kernel
  obtain ⟨h1, -⟩ : AtAllTimes trS mvMove.1 fun q => Survives trV trI trT trF trS trRoot trDirA [99] ⟨1, none, trX⟩ q ∧ OneName trV trI trT q := hx trV trI tr_ready (fun h => absurd rfl h) (by decide) tr_sound trT trF trS tr_tree 0 ⟨trRoot, by simp [trT], rfl⟩ (fun _ => 0) [120, 46, 99, 0] [47, 65, 47, 99, 0] false true [[120, 46, 99]] [[65], [99]] tr_path_x tr_path_c
    (by decide) trDp (List.replicate 256 7) (List.length_replicate) trRoot [120, 46, 99] ⟨1, none, trX⟩ _ hG tr_leads_c (fun h => absurd h (by decide)) hok trDirA [99] ⟨rfl, rfl⟩ trivial
  have hl : mvMove.1.past.map (fun q => (entries trV trI q .root, entries trV trI q (.chain [2, 3]))) = [([trA, trX, blank, blank], [trDot 2, trDots 0, trB, mvC]), ([trA, trX, blank, blank], [trDot 2, trDots 0, trB, blank])] := by decide +kernel
  generalize mvMove.1.past = past at hl h1
  cases past with
  | nil => cases hl
  | cons q past =>
    simp only [List.map_cons, List.map_nil, List.cons.injEq, Prod.mk.injEq, and_true] at hl
    obtain ⟨⟨e1, e2⟩, -⟩ := hl
    rcases h1 q (by simp) with h1 | ⟨-, h1⟩
    · have hn : entries trV trI trS.disk (.chain [2, 3]) ≠ [trDot 2, trDots 0, trB, mvC] := by decide +kernel
      rcases List.mem_cons.mp h1 with rfl | h1
      · exact hn e2
      · cases h1
    · have a1 : Directory false (entries trV trI q trRoot.loc) (plain 0 [trA, trX]) := by
        rw [show trRoot.loc = .root from rfl, e1]
        exact dir_loose (plain_dir (n := 2) (es := [trA, trX]) (by decide) (by unfold FatDir.Spec.Table; decide))
      have a2 : Directory false (entries trV trI q trDirA.loc) (plain 0 [trDot 2, trDots 0, trB, mvC]) := by
        rw [show trDirA.loc = .chain [2, 3] from rfl, e2]
        exact dir_loose (plain_dir (n := 0) (es := [trDot 2, trDots 0, trB, mvC]) (by decide) (by unfold FatDir.Spec.Table; decide))
      obtain ⟨h2, -⟩ := h1 trRoot (by simp [trT]) trDirA (by simp [trT]) _ _ a1 a2 ⟨1, none, trX⟩ (by decide) ⟨3, none, mvC⟩ (by decide) (by decide) (by decide) (by decide) (by decide)
      exact absurd (congrArg Dir.sclust h2) (by decide)

/-! ## The hypotheses hold -/

/-- There is room in the root directory for a file `c`. -/
theorem tr_room : HasRoom trV trI trS trRoot [99] := by
  intro buf fn fl _ hx
  have he : entries trV trI (view trS) trRoot.loc = [trA, trX, blank, blank] := by decide +kernel
  rw [he] at hx
  by_cases hl : fl &&& 2 ≠ 0
  · obtain ⟨e, h1, h2, -⟩ := hx [trA, trX] [blank, blank] [] rfl (by rw [if_pos hl]; decide)
    simp only [List.mem_cons, List.not_mem_nil, or_false, or_self] at h1
    subst h1
    exact h2 rfl
  · obtain ⟨e, h1, h2, -⟩ := hx [trA, trX] [blank] [blank] rfl (by rw [if_neg hl]; rfl)
    simp only [List.mem_cons, List.not_mem_nil, or_false] at h1
    subst h1
    exact h2 rfl

theorem tr_path_cc : PathOf [99, 0] false [[99]] := .segs (z := []) (p := [99, 0]) (by decide) (.last (cs := [99]) (t := [0]) (rest := []) (by decide) (by decide) (.fin (by decide)))

theorem tr_leads_cc : Resolves trV trT 0 false [[99]] (.free trRoot [99]) := by
  refine ⟨trRoot, by simp [trT], rfl, .inr (.free (by decide) (by decide) ?_)⟩
  intro o ho hx
  unfold Calls at hx
  rw [if_neg (by decide)] at hx
  rcases hx with ⟨m, hm, -⟩ | ⟨body, ext, h8, e⟩
  · rw [plain_long o ho] at hm; cases hm
  · have he : [99] = body ++ if ext = [] then [] else 46 :: ext := h8.eq
    cases body with
    | nil => exact h8.ne rfl
    | cons b body =>
      rw [List.cons_append] at he
      obtain ⟨rfl, he2⟩ := List.cons.inj he
      obtain ⟨hb, he⟩ := List.append_eq_nil_iff.mp he2.symm
      subst hb
      have hx : ext = [] := by
        by_cases h : ext = []
        · exact h
        · rw [if_neg h] at he; cases he
      subst hx
      have key : ∀ o ∈ trRoot.os, o.fn ≠ form [99] [] := by decide
      exact key o ho e

/-- The file `x.c` is renamed to `c`. -/
example : Ready trV trI ∧ (trI.fsi ≠ none → 512 ≤ trV.ss) ∧ 64 ≤ trV.ss ∧ Sound trV ∧ Tree trV trI trT trF trS ∧ (∃ d ∈ trT, d.sclust = 0) ∧ PathOf [120, 46, 99, 0] false [[120, 46, 99]] ∧ PathOf [99, 0] false [[99]] ∧ (∀ cs ∈ [[99]], 0xFFFF ∉ cs) ∧
    Resolves trV trT 0 false [[120, 46, 99]] (.object trRoot [120, 46, 99] ⟨1, none, trX⟩) ∧ Resolves trV trT 0 false [[99]] (.free trRoot [99]) ∧ ¬ IsDir ⟨1, none, trX⟩ ∧
    (fRename trV trI 0 (fun _ => 0) [120, 46, 99, 0] [99, 0] trS trDp (List.replicate 256 7)).2 = FR_OK ∧ Target trRoot ⟨1, none, trX⟩ trRoot [99] (.free trRoot [99]) ∧ HasRoom trV trI trS trRoot [99] ∧
    (fRename trV trI 0 (fun _ => 0) [120, 46, 99, 0] [99, 0] trS trDp (List.replicate 256 7)).1.past.length = 2 :=
  ⟨tr_ready, fun h => absurd rfl h, by decide, tr_sound, tr_tree, ⟨trRoot, by simp [trT], rfl⟩, tr_path_x, tr_path_cc, by decide, ⟨trRoot, by simp [trT], rfl, .inr (.object (by decide) (by decide) tr_calls_x)⟩, tr_leads_cc, by decide,
    by decide +kernel, ⟨rfl, rfl⟩, tr_room, by decide +kernel⟩

end Fpm.Tree
