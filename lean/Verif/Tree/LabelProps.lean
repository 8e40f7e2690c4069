import Verif.Tree.LabelLemmas
import Verif.Tree.Example
/-!
# C97 and C98: volume labels
-/
namespace Fpm.Tree
open Fpm.Fat Fpm.Fat.Spec Fpm.FatFile Fpm.FatFile.Spec Fpm.Lfn Fpm.Names Fpm.Names.Spec Fpm.TextIo Fpm.TextIo.Spec Fpm.FatDir Fpm.FatDir.Spec Fpm.Mount Fpm.Mount.Spec Fpm.DirDev Fpm.DirDev.Spec Fpm.Tree.Spec Fpm.FatSync

theorem serial_spec {v : Vol} {i : Info} (hr : Ready v i) (hss : (if v.fsType = 3 then 67 else 39) + 4 ≤ v.ss) {s : St} (hi : Fat.Spec.Inv v s) (label : List Nat) :
    Quiet v s (serial v i s label).st ∧ ((serial v i s label).res = FR_DISK_ERR ∧ ¬ Sound v ∨
      (serial v i s label).res = FR_OK ∧ (serial v i s label).label = label ∧ (serial v i s label).vsn = some (serialOf v i (view s))) := by
  have hn : ¬ Fat2 v i.volbase := fun h => by
    have := h.2.1
    have := hr.reserved
    have := h.1
    omega
  obtain ⟨q, h1⟩ := move_quiet hr.geo hi hn
  unfold serial
  generalize moveWindow v s i.volbase = m at q h1
  rcases h1 with ⟨h1, h2⟩ | ⟨h1, h2⟩
  · rw [if_pos h1]
    have hw : m.1.win = view s i.volbase := by
      rw [← q.same _ hn]
      unfold view
      rw [if_pos h2]
    rw [(ld_dword q.inv.win.2 (by rw [q.inv.win.1]; exact hss)).1]
    exact ⟨q, .inr ⟨rfl, rfl, by rw [hw]; rfl⟩⟩
  · rw [if_neg (by rw [h1]; decide)]
    exact ⟨q, .inl ⟨h1, h2⟩⟩

theorem get_quiet {v : Vol} {i : Info} (hr : Ready v i) (hss : (if v.fsType = 3 then 67 else 39) + 4 ≤ v.ss) {T : List Dir} {F : List (List Nat)} {s : St} (h : Tree v i T F s) {d : Dir} (hd : d ∈ T) (h0 : d.sclust = 0)
    {label : List Nat} (hb : 23 ≤ label.length) (dp : Dp) {r : Lab} (he : r = fGetlabel v i label s dp) :
    Quiet v s r.st ∧ (r.res = FR_DISK_ERR ∧ ¬ Sound v ∨
      r.res = FR_OK ∧ Has r.label (shown (labels (entries v i (view s) d.loc))) ∧ r.vsn = some (serialOf v i (view s))) := by
  have hok := h.dirs d hd
  have hlk := tree_linked h hd
  obtain ⟨q, -, h1⟩ := read_label hr h.inv hlk (by rw [← h0]; exact hok.starts) dp rfl
  unfold fGetlabel at he
  generalize rootLabel v i s dp = g at q h1 he
  have hvol : ¬ Fat2 v i.volbase := fun h => by
    have := h.2.1
    have := hr.reserved
    have := h.1
    omega
  have hser : serialOf v i (view g.st) = serialOf v i (view s) := by
    unfold serialOf
    rw [q.same _ hvol]
  unfold getAt at he
  have fin : ∀ l, r = serial v i g.st l → Has l (shown (labels (entries v i (view s) d.loc))) → Quiet v s r.st ∧ (r.res = FR_DISK_ERR ∧ ¬ Sound v ∨
      r.res = FR_OK ∧ Has r.label (shown (labels (entries v i (view s) d.loc))) ∧ r.vsn = some (serialOf v i (view s))) := by
    intro l hl hh
    obtain ⟨k1, k2⟩ := serial_spec hr hss q.inv l
    rw [hser] at k2
    rw [hl]
    exact ⟨q.trans k1, k2.imp id fun ⟨k, k', k''⟩ => ⟨k, by rw [k']; exact hh, k''⟩⟩
  rcases h1 with ⟨h1, h2⟩ | ⟨h1, h2⟩ | ⟨h1, x, e, y, h2, h3, h4, h5, h6, h7⟩
  · rw [if_neg (by rw [h1]; decide), if_neg (by rw [h1]; decide)] at he
    subst he
    exact ⟨q, .inl ⟨h1, h2⟩⟩
  · rw [if_neg (by rw [h1]; decide), if_pos h1, show putAt label 0 [0] = some ([] ++ [0] ++ label.drop 1) from putAt_mid (t := []) (by simp; omega)] at he
    exact fin _ he (by rw [h2]; exact ⟨by simp [shown], label.drop 1, rfl⟩)
  · rw [if_pos h1] at he
    obtain ⟨e2, c1, c2, -⟩ := ent_spec hr q.inv h6 h7
    rw [entries_same hr hlk q.same, h2] at c2
    have hee : e2 = e := by simpa using c2.symm
    subst hee
    have hb' := hok.dir.table e2 (by rw [h2]; simp)
    obtain ⟨buf', t1, t2⟩ := text_spec (name := e2.take 11) (labels y) (fun b hm => hb'.2 b (List.mem_of_mem_take hm)) (by have := hb'.1; simp; omega) hb
    rw [c1, Option.bind_some, t1] at he
    refine fin buf' he ?_
    rw [h2, labels_append h3, h4, labels_label h5]
    exact t2

/-- `f_getlabel` finds the label of the root directory and the serial number in the boot sector and changes nothing; an array of 23 bytes is enough.  It fails only if the device does. -/
theorem C97_get (v : Vol) (i : Info) (hr : Ready v i) (hss : (if v.fsType = 3 then 67 else 39) + 4 ≤ v.ss) (T : List Dir) (F : List (List Nat)) (s : St) (h : Tree v i T F s) (d : Dir) (hd : d ∈ T) (h0 : d.sclust = 0)
    (label : List Nat) (hb : 23 ≤ label.length) (dp : Dp) (r : Lab) (he : r = fGetlabel v i label s dp) :
    Tree v i T F r.st ∧ (∀ n, ¬ Fat2 v n → view r.st n = view s n) ∧ (r.res = FR_DISK_ERR ∧ ¬ Sound v ∨
      r.res = FR_OK ∧ Has r.label (shown (labels (entries v i (view s) d.loc))) ∧ r.vsn = some (serialOf v i (view s))) := by
  obtain ⟨q, h1⟩ := get_quiet hr hss h hd h0 hb dp he
  exact ⟨tree_quiet hr q h, q.same, h1⟩

theorem perm_mem {α : Type} {a : α} {l : List α} (h : a ∈ l) : ∃ r, l.Perm (a :: r) := by
  obtain ⟨x, y, rfl⟩ := List.append_of_mem h
  exact ⟨x ++ y, List.perm_middle⟩

theorem full_room {v : Vol} {i : Info} {d : Dir} {R : List Dir} {F : List (List Nat)} {loc : Loc} {disk : Disk} (h : Full v i [] (dirChains R ++ F) disk loc) : NoRoom v i ({ d with loc := loc } :: R) F disk { d with loc := loc } := by
  rcases h with h | h | h
  · exact .inl h
  · exact .inr (.inl h)
  · refine .inr (.inr ?_)
    rw [allchains_cons R F d loc d.os] at h
    exact h

/-- `f_setlabel` on a device that does not fail: a label that is not allowed is refused, and nothing happens.  Else the first label entry of the root directory gets the new label, in upper case and padded with spaces, or is removed if the label is void;
if there is none, one is made, unless there is no room for it.  All objects of all directories and the contents of all files stay as they are, and the change is on the device. -/
theorem C97_set (v : Vol) (i : Info) (hr : Ready v i) (hbig : i.fsi ≠ none → 512 ≤ v.ss) (hs : Sound v) (T : List Dir) (F : List (List Nat)) (s : St) (h : Tree v i T F s) (d : Dir) (hd : d ∈ T) (h0 : d.sclust = 0)
    (p : List Nat) (hp : ∀ c ∈ p, 32 ≤ c ∧ c < 256) (b : Nat) (hb : b < 32) (rest : List Nat) (hrest : ∀ x ∈ rest, x < 256) (old : List Nat) (dp : Dp) (r : St × Nat) (he : r = fSetlabel v i (p ++ b :: rest) old s dp) :
    ¬ GoodLabel p ∧ r = (s, FR_INVALID_NAME) ∨ GoodLabel p ∧ Labelled v i T F s d p r := by
  unfold fSetlabel at he
  rcases make_spec hp hb hrest old with ⟨h1, h2⟩ | ⟨h1, z, di, h2, h3⟩
  · rw [h2] at he
    exact .inl ⟨h1, he⟩
  rw [h2] at he
  dsimp only at he
  refine .inr ⟨h1, ?_⟩
  obtain ⟨R, hR⟩ : ∃ R, T.Perm (d :: R) := perm_mem hd
  rcases set_label hr (tree_perm hR (.refl F) h) h0 h1 h3 dp he with ⟨-, k, -⟩ | ⟨k1, k2, k3, k4, k5⟩ | ⟨loc, s1, k1, k2, k3, k4⟩
  · exact absurd hs k
  · refine ⟨d, d :: R, ⟨d.loc, R, longer_refl _, rfl, hR, rfl⟩, k4, fun l hl n hn => k5 n (chain_secs hr (h.chains.chain l (by simp [hl])) hn).2.1, .inl ⟨k1, ?_, .inr ⟨k2, k3⟩⟩⟩
    rw [entries_congr fun n hn => k5 n (secs_place hr (tree_linked h hd) hn).2.1, k3]
    unfold relabelled
    rw [if_pos k2]
    rfl
  · rcases k4 with ⟨k4, k5, k6, k7, k8, k9⟩ | ⟨k4, k5, k6⟩
    · rw [k4]
      exact ⟨_, _, ⟨loc, R, k1, rfl, hR, rfl⟩, k2, k3, .inr ⟨rfl, k5, k6, k7, k8, full_room k9⟩⟩
    · obtain ⟨t1, t2, t3, t4⟩ := tree_synced hr hbig hs k2
      obtain ⟨u1, -⟩ := syncfs_spec hr hbig k2.inv
      rw [← k4] at t1 t2 t3 t4 u1
      refine ⟨_, _, ⟨loc, R, k1, rfl, hR, rfl⟩, t2, fun l hl n hn => (t4 l hl n hn).trans (k3 l hl n hn), .inl ⟨t1, ?_, .inl t3⟩⟩
      have hlk := tree_linked k2 (d := { d with loc := loc }) (by simp)
      rw [entries_congr fun n hn => u1 n (secs_place hr hlk hn).2.1 (fsi_free hr (secs_base hr hlk hn))]
      exact k5

/-- Whatever the device does: failures are told, and no file and no other directory suffers. -/
theorem C97_others (v : Vol) (i : Info) (hr : Ready v i) (hbig : i.fsi ≠ none → 512 ≤ v.ss) (T : List Dir) (F : List (List Nat)) (s : St) (h : Tree v i T F s) (d : Dir) (hd : d ∈ T) (h0 : d.sclust = 0)
    (p : List Nat) (hp : ∀ c ∈ p, 32 ≤ c ∧ c < 256) (b : Nat) (hb : b < 32) (rest : List Nat) (hrest : ∀ x ∈ rest, x < 256) (old : List Nat) (dp : Dp) (r : St × Nat) (he : r = fSetlabel v i (p ++ b :: rest) old s dp) :
    (r.2 = FR_INVALID_NAME ↔ ¬ GoodLabel p) ∧ (r.2 ∈ [FR_OK, FR_INVALID_NAME, DirDev.FR_DENIED] ∨ r.2 = FR_DISK_ERR ∧ ¬ Sound v) ∧
      (∀ l ∈ F, ∀ n ∈ secs v l, view r.1 n = view s n) ∧ ∀ q ∈ T, q.sclust ≠ 0 → DirOk v i r.1 q := by
  unfold fSetlabel at he
  rcases make_spec hp hb hrest old with ⟨h1, h2⟩ | ⟨h1, z, di, h2, h3⟩
  · rw [h2] at he
    subst he
    exact ⟨⟨fun _ => h1, fun _ => rfl⟩, .inl (by simp), fun _ _ _ _ => rfl, fun q hq _ => h.dirs q hq⟩
  rw [h2] at he
  dsimp only at he
  obtain ⟨R, hR⟩ : ∃ R, T.Perm (d :: R) := perm_mem hd
  have hq : ∀ q ∈ T, q.sclust ≠ 0 → q ∈ R := fun q hq hn => (List.mem_cons.mp (hR.mem_iff.mp hq)).resolve_left fun hx => hn (by rw [hx]; exact h0)
  have hno : r.2 ≠ FR_INVALID_NAME → (r.2 = FR_INVALID_NAME ↔ ¬ GoodLabel p) := fun hx => ⟨fun hy => absurd hy hx, fun hy => absurd h1 hy⟩
  rcases set_label hr (tree_perm hR (.refl F) h) h0 h1 h3 dp he with ⟨k1, k2, k3, k4⟩ | ⟨k1, k2, k3, k4, k5⟩ | ⟨loc, s1, k1, k2, k3, k4⟩
  · exact ⟨hno (by rw [k1]; decide), .inr ⟨k1, k2⟩, k3, fun q hq' hn => k4 q (hq q hq' hn)⟩
  · exact ⟨hno (by rw [k1]; decide), .inl (by rw [k1]; simp), fun l hl n hn => k5 n (chain_secs hr (h.chains.chain l (by simp [hl])) hn).2.1, fun q hq' hn => k4.dirs q (by simp [hq q hq' hn])⟩
  · rcases k4 with ⟨k4, -⟩ | ⟨k4, -⟩
    · rw [k4]
      exact ⟨⟨(fun hx => by cases hx), fun hx => absurd h1 hx⟩, .inl (by simp), k3, fun q hq' hn => k2.dirs q (by simp [hq q hq' hn])⟩
    · obtain ⟨u1, u2, -⟩ := syncfs_spec hr hbig k2.inv
      rw [← k4] at u1 u2
      refine ⟨hno ?_, u2.imp (fun hx => by rw [hx]; simp) id, fun l hl n hn => ?_, fun q hq' hn => ?_⟩
      · rcases u2 with u2 | ⟨u2, -⟩ <;> rw [u2] <;> decide
      · obtain ⟨-, c2, c3⟩ := chain_secs hr (h.chains.chain l (by simp [hl])) hn
        have := hr.data.base
        exact (u1 n c2 (fsi_free hr (by omega))).trans (k3 l hl n hn)
      · have hq2 := hq q hq' hn
        exact dirok_base hr (tree_linked k2 (d := q) (by simp [hq2])) (fun n hb _ hn => u1 n hn (fsi_free hr hb)) (k2.dirs q (by simp [hq2]))

theorem text_ascii : ∀ {l : List Nat}, (∀ c ∈ l, c < 128) → text l = l
  | [], _ => rfl
  | c :: l, h => by
    have := text_ascii (l := l) fun x hx => h x (by simp [hx])
    unfold text at this ⊢
    rw [List.flatMap_cons, this]
    unfold uenc
    rw [if_pos (by have := h c (by simp); omega)]
    rfl

theorem unspaced_pad (l : List Nat) : ∀ k, unspaced (l ++ List.replicate k 32) = unspaced l
  | 0 => by simp
  | k + 1 => by rw [List.replicate_succ', ← List.append_assoc, unspaced_snoc, if_pos rfl, unspaced_pad l k]

/-- A label that has been set is found again, in upper case and without spaces at the end. -/
theorem C97_roundtrip (v : Vol) (i : Info) (hr : Ready v i) (hbig : i.fsi ≠ none → 512 ≤ v.ss) (hss : (if v.fsType = 3 then 67 else 39) + 4 ≤ v.ss) (hs : Sound v) (T : List Dir) (F : List (List Nat)) (s : St) (h : Tree v i T F s)
    (d : Dir) (hd : d ∈ T) (h0 : d.sclust = 0) (p : List Nat) (hp : GoodLabel p) (b : Nat) (hb : b < 32) (rest : List Nat) (hrest : ∀ x ∈ rest, x < 256) (old : List Nat) (dp : Dp) (r : St × Nat)
    (he : r = fSetlabel v i (p ++ b :: rest) old s dp) (hok : r.2 = FR_OK) (hone : Void p → (labels (entries v i (view s) d.loc)).length ≤ 1) (label : List Nat) (hl : 23 ≤ label.length) (dp' : Dp) :
    (fGetlabel v i label r.1 dp').res = FR_OK ∧ Has (fGetlabel v i label r.1 dp').label (unspaced (p.map up)) := by
  rcases C97_set v i hr hbig hs T F s h d hd h0 p (fun c hc => ⟨(hp.2 c hc).1, by have := (hp.2 c hc).2.1; omega⟩) b hb rest hrest old dp r he with ⟨h1, -⟩ | ⟨-, d', T', h1, h2, -, h3⟩
  · exact absurd hp h1
  rcases h3 with ⟨-, h3, -⟩ | ⟨h3, -⟩
  rotate_left
  · rw [hok] at h3
    cases h3
  obtain ⟨loc, R, -, rfl, -, rfl⟩ := h1
  obtain ⟨-, -, h4⟩ := C97_get v i hr hss _ F r.1 h2 { d with loc := loc } (by simp) h0 label hl dp' _ rfl
  rcases h4 with ⟨-, h4⟩ | ⟨h4, h5, -⟩
  · exact absurd hs h4
  refine ⟨h4, ?_⟩
  rw [h3] at h5
  unfold relabelled at h5
  by_cases hv : Void p
  · rw [if_pos hv] at h5
    have ht : (labels (entries v i (view s) d.loc)).tail = [] := by
      have := hone hv
      exact List.eq_nil_of_length_eq_zero (by simp; omega)
    rw [ht] at h5
    have hpe : p = List.replicate p.length 32 := List.eq_replicate_iff.mpr ⟨rfl, hv⟩
    have : unspaced (p.map up) = [] := by
      rw [hpe, List.map_replicate, show up 32 = 32 from rfl]
      have := unspaced_pad [] p.length
      rw [List.nil_append] at this
      rw [this]
      rfl
    rw [this]
    exact h5
  · rw [if_neg hv] at h5
    have hf := form_byte hp
    have : shown (pad 11 (p.map up) :: (labels (entries v i (view s) d.loc)).tail) = unspaced (p.map up) := by
      rw [shown, if_neg (fun hx => by have := (hf 0 hx).1; omega), text_ascii fun c hc => by have := (hf c hc).2.1; omega]
      exact unspaced_pad _ _
    rw [this] at h5
    exact h5

/-! The root directory gets a label, in the third of four entries.  It is found again, changed and removed; a text that is too long is refused. -/

def trLabel : List Nat := [77, 121, 32, 100, 105, 115, 107, 0]

example : Ready trV trI ∧ (trI.fsi ≠ none → 512 ≤ trV.ss) ∧ (if trV.fsType = 3 then 67 else 39) + 4 ≤ trV.ss ∧ Sound trV ∧ Tree trV trI trT trF trS ∧ trRoot ∈ trT ∧ trRoot.sclust = 0 ∧ trLabel = [77, 121, 32, 100, 105, 115, 107] ++ 0 :: [] ∧
    GoodLabel [77, 121, 32, 100, 105, 115, 107] ∧ ¬ Void [77, 121, 32, 100, 105, 115, 107] ∧ (fSetlabel trV trI trLabel (List.replicate 22 9) trS trDp).2 = FR_OK :=
  ⟨tr_ready, by decide, by decide, tr_sound, tr_tree, by simp [trT], rfl, rfl, by decide, by decide, by decide +kernel⟩

example : (fGetlabel trV trI (List.replicate 32 9) (fSetlabel trV trI trLabel (List.replicate 22 9) trS trDp).1 trDp).label.take 8 = [77, 89, 32, 68, 73, 83, 75, 0] ∧
    ((fSetlabel trV trI trLabel (List.replicate 22 9) trS trDp).1.disk 3).take 12 = [77, 89, 32, 68, 73, 83, 75, 32, 32, 32, 32, 8] ∧
    (fSetlabel trV trI (List.replicate 12 65 ++ [0]) (List.replicate 22 9) trS trDp).2 = FR_INVALID_NAME ∧
    (fGetlabel trV trI (List.replicate 32 9) (fSetlabel trV trI [32, 0] (List.replicate 22 9) (fSetlabel trV trI trLabel (List.replicate 22 9) trS trDp).1 trDp).1 trDp).label.take 1 = [0] := by decide +kernel

/-! ## C98 -/

/-- The array of `vol`, kernel/cmd/cmd_vol.c:33, is large enough for all labels. -/
def C98_full : Prop := (∀ name, name.length = 11 → (∀ b ∈ name, b < 256) → ∀ buf : List Nat, buf.length = 32 → ∃ buf', labelText name buf = some buf') ∧
  ∀ us : List Nat, us.length ≤ 11 → (∀ u ∈ us, u < 65536) → ∀ buf : List Nat, buf.length = 32 → ∃ buf', unitText us buf = some buf'

/-- It is not: eleven characters of an exFAT label may take three bytes each. -/
theorem C98_violated : ¬ C98_full := by
  intro h
  obtain ⟨b, hb⟩ := h.2 (List.replicate 11 0x4E00) (by decide) (by decide) (List.replicate 32 0) (by decide)
  have : unitText (List.replicate 11 0x4E00) (List.replicate 32 0) = none := by decide +kernel
  rw [this] at hb
  cases hb

theorem put_some {buf bs : List Nat} {di : Nat} (h : di + bs.length ≤ buf.length) : ∃ b, putAt buf di bs = some b ∧ b.length = buf.length := by
  unfold putAt
  rw [if_pos h]
  exact ⟨_, rfl, by simp; omega⟩

/-- A unit, or a pair of them, takes three bytes at most for each. -/
theorem utf_short (hs wc : Nat) : (putUtf (hs * 65536 + wc) 4).length ≤ if hs = 0 ∧ wc < 65536 then 3 else 4 := by
  unfold putUtf
  repeat' split
  all_goals first | (simp; done) | (simp; omega) | omega | (dsimp only; split <;> simp)

theorem unit_loop : ∀ (us buf : List Nat) (di hs : Nat), (∀ u ∈ us, u < 65536) → di + 3 * us.length + (if hs = 0 then 0 else 3) < buf.length →
    ∃ b di' hs', unitLoop us buf di hs = some (b, di', hs') ∧ b.length = buf.length ∧ di' < b.length
  | [], buf, di, hs, _, h => ⟨buf, di, hs, rfl, rfl, by simp at h; omega⟩
  | wc :: r, buf, di, hs, hu, h => by
    rw [List.length_cons] at h
    have hr : ∀ u ∈ r, u < 65536 := fun u hx => hu u (by simp [hx])
    have hl := utf_short hs wc
    have hw := hu wc (by simp)
    rw [unitLoop]
    by_cases h1 : hs = 0 ∧ isSurrogate wc = true
    · rw [if_pos h1]
      refine unit_loop r buf di wc hr ?_
      split <;> split at h <;> omega
    rw [if_neg h1]
    by_cases h2 : (putUtf (hs * 65536 + wc) 4).length = 0
    · rw [if_pos h2]
      exact ⟨buf, 0, hs, rfl, rfl, by omega⟩
    rw [if_neg h2]
    have hfit : di + (putUtf (hs * 65536 + wc) 4).length + 3 * r.length < buf.length := by
      by_cases hz : hs = 0
      · rw [if_pos hz] at h
        rw [if_pos ⟨hz, hw⟩] at hl
        omega
      · rw [if_neg hz] at h
        rw [if_neg (fun hx => hz hx.1)] at hl
        omega
    obtain ⟨b, hb, hbl⟩ := put_some (buf := buf) (bs := putUtf (hs * 65536 + wc) 4) (di := di) (by omega)
    rw [hb]
    dsimp only
    obtain ⟨b', di', hs', k1, k2, k3⟩ := unit_loop r b (di + (putUtf (hs * 65536 + wc) 4).length) 0 hr (by rw [if_pos rfl]; omega)
    exact ⟨b', di', hs', k1, by omega, k3⟩

/-- What holds: the array is large enough for labels of FAT volumes, and for those of exFAT volumes with up to ten units; 34 bytes would be enough for all.
Missing: labels of eleven units, and the bytes written behind the array. -/
theorem C98_partial : (∀ name, name.length = 11 → (∀ b ∈ name, b < 256) → ∀ buf : List Nat, 23 ≤ buf.length → ∃ buf', labelText name buf = some buf') ∧
    ∀ us : List Nat, (∀ u ∈ us, u < 65536) → ∀ buf : List Nat, 3 * us.length < buf.length → ∃ buf', unitText us buf = some buf' := by
  refine ⟨fun name hn hb buf hl => ?_, fun us hu buf hl => ?_⟩
  · obtain ⟨b, h, -⟩ := text_spec [] hb hn hl
    exact ⟨b, h⟩
  · obtain ⟨b, di, hs, h1, h2, h3⟩ := unit_loop us buf 0 0 hu (by rw [if_pos rfl]; omega)
    unfold unitText
    rw [h1, Option.bind_some]
    obtain ⟨b', h4, -⟩ := put_some (buf := b) (bs := [0]) (di := if hs ≠ 0 then 0 else di) (by simp; split <;> omega)
    exact ⟨b', h4⟩

example : unitText (List.replicate 10 0x4E00) (List.replicate 32 7) = some ((List.replicate 10 [0xE4, 0xB8, 0x80]).flatten ++ [0, 7]) ∧ (∃ b, unitText (List.replicate 11 0x4E00) (List.replicate 34 7) = some b) ∧
    labelText (List.replicate 11 0xE4) (List.replicate 23 7) = some ((List.replicate 11 [0xC3, 0xA4]).flatten ++ [0]) :=
  ⟨by decide +kernel, C98_partial.2 _ (by decide) _ (by decide), by decide +kernel⟩

end Fpm.Tree
