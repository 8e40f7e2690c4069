import Verif.Tree.FillLemmas
import Verif.Tree.MkdirProps
/-!
# C84: opening files
-/
namespace Fpm.Tree
open Fpm.Fat Fpm.Fat.Spec Fpm.FatFile Fpm.FatFile.Spec Fpm.Lfn Fpm.Names Fpm.Names.Spec Fpm.TextIo.Spec Fpm.FatDir Fpm.FatDir.Spec Fpm.Mount Fpm.Mount.Spec Fpm.DirDev Fpm.DirDev.Spec Fpm.Tree.Spec Fpm.FatSync Fpm.FatBytes Fpm.FatBytes.Spec
open Fpm.FatLock (Sem Key chkShare enqShare incShare decShare)

theorem taken_inc {files : List Sem} {k : Key} {acc : Nat} (h : (incShare files k acc).2 ≠ 0) : Taken files k acc (incShare files k acc).1 (incShare files k acc).2 := by
  generalize hq : incShare files k acc = q at h
  obtain ⟨files', id⟩ := q
  obtain ⟨j, hj, h1⟩ := FatLock.inc_ok hq h
  subst hj
  have hif : ∀ a b : Nat, (if acc ≠ 0 then a else b) = if acc = 0 then b else a := by
    intro a b
    by_cases h : acc = 0
    · rw [if_neg (fun hx => hx h), if_pos h]
    · rw [if_pos h, if_neg h]
  rcases h1 with ⟨e, h1, h2, h3, h4⟩ | ⟨e, h1, h2, h3, h4⟩
  · rw [hif] at h4
    subst h4
    exact .more h1 h2 h3
  · rw [hif] at h4
    subst h4
    exact .first h1 h2 h3

theorem register_sclust {v : Vol} {i : Info} (hr : Ready v i) {d : Dir} {R : List Dir} {F : List (List Nat)} {s : St} (h : Tree v i (d :: R) F s) {dp : Dp} (hdp : dp.sclust = d.sclust) {cs : List Nat} {last : Bool} {buf fn : List Nat} {fl : Nat}
    (hf : FileName cs last buf fn fl) : (dirRegister v i s dp fn fl buf).dp.sclust = dp.sclust := by
  have hv : DirVol v [] (dirChains R ++ F) d.loc s := tree_vol h (A := []) rfl
  obtain ⟨-, hholds, hfo, -⟩ := hf.named.name hf.nodot
  exact (register_dev hr hv (by rw [hdp]; exact (h.dirs d (by simp)).starts) (form_bytes hfo) fl (buf := buf) (by have := named_buf hf.named; omega) (fun z fn' hz => by
    obtain ⟨f2, e, h⟩ := numname_spec (show Ok83 fn from ⟨hfo.len, hfo.chars⟩) hholds z
    rw [hz] at e
    cases e
    exact ok_bytes h)).2.1

theorem chk_codes {files : List Sem} {k : Key} {acc : Nat} : chkShare files k acc ≠ FR_NO_FILE := by
  unfold chkShare
  split <;> split <;> decide

theorem attr_both : ∀ b < 256, (b &&& 0x3F) &&& 0x11 ≠ 0 ↔ b &&& 0x10 ≠ 0 ∨ b &&& 1 ≠ 0 := by decide +kernel

/-- The object enters the table, and the file object is filled in. -/
theorem lock_spec {v : Vol} {i : Info} (hr : Ready v i) (hs : Sound v) {d : Dir} {R : List Dir} {F : List (List Nat)} {m : List Nat} {r : Ret} (h : Tree v i (d :: R) (withRest [] m F) r.st) {o : Obj} (ho : o ∈ d.os) (hfst : first v o = m.headD 0)
    (hsz : size o ≤ m.length * (v.csize * v.ss)) (hdp : r.dp.sclust = d.sclust) (hat : At v i d.loc o.pos r.dp) (hw : r.st.winsect = some r.dp.sect) (hres : r.res = FR_OK) {files : List Sem} {fs mode M : Nat} (hk : access M = kind mode)
    (ht : M &&& 0x20 ≠ 0 ↔ AtEnd mode) (hwr : M &&& 2 ≠ 0 ↔ Writes mode) (hrd : M &&& 1 ≠ 0 ↔ mode.testBit 0) (old : Nat) {p : Opd} (hp : p = openLock v i files fs M old r) :
    Quiet v r.st p.st ∧ EntryAt v i d o p.place ∧
    (p.res = FR_INT_ERR ∧ p.fp = none ∧ p.files = files ∧ (incShare files ⟨fs, d.sclust, 32 * o.pos⟩ (kind mode)).2 = 0 ∨
     p.res = FR_OK ∧ Taken files ⟨fs, d.sclust, 32 * o.pos⟩ (kind mode) p.files p.lock ∧ ∃ fp, p.fp = some fp ∧ Handle v mode (dirChains (d :: R) ++ F) m (((secs v m).flatMap (view r.st)).take (size o)) p.st fp ∧
       fp.modified = decide (M &&& 8 ≠ 0)) := by
  have hkey : keyOf fs r.dp = ⟨fs, d.sclust, 32 * o.pos⟩ := by unfold keyOf; rw [hdp, hat.dptr]
  have hpl : EntryAt v i d o ⟨r.st.winsect.getD 0xFFFFFFFF, r.dp.dptr % v.ss, i.fsi⟩ := by
    refine ⟨?_, ?_, rfl⟩
    · rw [hw, Option.getD_some]
      exact hat.sect
    · show r.dp.dptr % v.ss = _
      rw [hat.dptr]
  unfold openLock at hp
  rw [if_pos hres, hkey, hk] at hp
  by_cases h0 : (incShare files ⟨fs, d.sclust, 32 * o.pos⟩ (kind mode)).2 = 0
  · rw [if_pos h0] at hp
    subst hp
    exact ⟨.refl h.inv, hpl, .inl ⟨rfl, rfl, FatLock.inc_fail h0, h0⟩⟩
  · rw [if_neg h0] at hp
    obtain ⟨q1, q2, ⟨q3, q3b⟩, q4, fp, q5, q6, q7, q8, q9, q10, q11⟩ := fill_spec hr hs h (d := d) (by simp) ho hfst hsz hat hw M old hp
    rw [q4, q3, q3b]
    refine ⟨q1, hpl, .inr ⟨q2, taken_inc h0, fp, q5, ⟨?_, ?_, ?_, q10⟩, q9⟩⟩
    · have hlen : (((secs v m).flatMap (view r.st)).take (size o)).length = size o := by
        rw [List.length_take, flat_length (S := v.ss) _ fun n _ => (view_sec h.inv n).1]
        rw [secs_length, Nat.mul_assoc]
        omega
      rw [hlen]
      have : (if AtEnd mode then size o else 0) = if M &&& 0x20 ≠ 0 then size o else 0 := by
        by_cases hx : AtEnd mode
        · rw [if_pos hx, if_pos (ht.mpr hx)]
        · rw [if_neg hx, if_neg fun hy => hx (ht.mp hy)]
      rw [this]
      exact q6
    · rw [q7]
      by_cases hx : mode.testBit 0
      · rw [hx]; exact decide_eq_true (hrd.mpr hx)
      · rw [Bool.eq_false_iff.mpr hx]; exact decide_eq_false fun hy => hx (hrd.mp hy)
    · rw [q8]
      by_cases hx : mode.testBit 1
      · rw [hx]; exact decide_eq_true (hwr.mpr hx)
      · rw [Bool.eq_false_iff.mpr hx]; exact decide_eq_false fun hy => hx (hwr.mp hy)

/-- Opening a file by path, on a device that does not fail.  Either it is refused for one of the reasons in `OpenRefused`, and nothing changes.  Or the file should be made but there is no place for its entry; then
all that may have changed is that its directory has got more clusters (with free entries).  Or there is a file now: the one that was there, as it is; or the one that was there, now empty, and its clusters are free;
or a new one with this name, empty.  All other directories, and all data of files, are as before.  The file object is for this file, it starts at the beginning or at the end, and the table of open objects counts it. -/
theorem C84_open (v : Vol) (i : Info) (hr : Ready v i) (hs : Sound v) (T : List Dir) (F : List (List Nat)) (s : St) (h : Tree v i T F s) (cdir : Nat) (hc : ∃ d ∈ T, d.sclust = cdir) (files : List Sem) (fs : Nat) (hfs : fs ≠ 0)
    (tm mode old : Nat) (path : List Nat) (abs : Bool) (l : List (List Nat)) (hp : PathOf path abs l) (hff : ∀ cs ∈ l, 0xFFFF ∉ cs) (dp : Dp) (buf : List Nat) (hb : buf.length = 256) (G : Goal) (hG : Resolves v T cdir abs l G) (p : Opd)
    (hu : p = fOpen v i cdir files fs tm mode old path s dp buf) :
    (p.fp = none ∧ p.files = files ∧ OpenRefused files fs mode p.res G ∧ Tree v i T F p.st ∧ ∀ n, ¬ Fat2 v n → view p.st n = view s n) ∨
    (∃ d cs R loc, G = .free d cs ∧ T.Perm (d :: R) ∧ Creates mode ∧ p.res = DirDev.FR_DENIED ∧ p.fp = none ∧ p.files = files ∧ (∀ l ∈ F, ∀ n ∈ secs v l, view p.st n = view s n) ∧ Longer d.loc loc ∧
      Tree v i ({ d with loc := loc } :: R) F p.st ∧ NoEntry v i ({ d with loc := loc } :: R) F (view p.st) { d with loc := loc } cs) ∨
    ∃ T1 F1 d1 R F2 o m, T.Perm T1 ∧ F.Perm F1 ∧ Opened v tm mode G T1 F1 d1 R F2 o m ∧ Tree v i (d1 :: R) (withRest [] m F2) p.st ∧ EntryAt v i d1 o p.place ∧ (∀ l ∈ withRest [] m F2, ∀ n ∈ secs v l, view p.st n = view s n) ∧
      (p.res = FR_INT_ERR ∧ p.fp = none ∧ p.files = files ∧ (∃ d cs, G = .free d cs) ∧ (∃ x ∈ files, x.key = ⟨fs, d1.sclust, 32 * o.pos⟩) ∨
       p.res = FR_OK ∧ Taken files ⟨fs, d1.sclust, 32 * o.pos⟩ (kind mode) p.files p.lock ∧ ∃ fp, p.fp = some fp ∧ Handle v mode (dirChains (d1 :: R) ++ F2) m (((secs v m).flatMap (view s)).take (size o)) p.st fp ∧
         (fp.modified = true ↔ Wipes mode ∨ ∃ d cs, G = .free d cs)) := by
  have hfile : ∀ l ∈ F, ∀ n ∈ secs v l, ¬ Fat2 v n := fun l hl n hn => (chain_secs hr (h.chains.chain l (by simp [hl])) hn).2.1
  obtain ⟨q, h1⟩ := follow_spec hr h hc hp dp hb
  unfold fOpen at hu
  have hM := mode_bits mode
  generalize mode &&& 0x3F = M at hu hM
  generalize followPath v i cdir path s dp buf = f at q h1 hu
  obtain ⟨G', h1, h2⟩ := h1.resolve_left fun hx => hx.2 hs
  obtain ⟨G0, -, hun⟩ := C81_place v i T F s h cdir hc abs l
  cases (hun G' h1).trans (hun G hG).symm
  clear h1 hun
  have hqt := tree_quiet hr q h
  have same : ∀ (r : Ret) (M' : Nat), p = openLock v i files fs M' old r → r.st = f.st → r.res ≠ FR_OK → OpenRefused files fs mode r.res G →
      p.fp = none ∧ p.files = files ∧ OpenRefused files fs mode p.res G ∧ Tree v i T F p.st ∧ ∀ n, ¬ Fat2 v n → view p.st n = view s n := by
    intro r M' e1 e2 e3 e4
    unfold openLock at e1
    rw [if_neg e3] at e1
    subst e1
    exact ⟨rfl, rfl, e4, by rw [show (Opd.st _) = r.st from rfl, e2]; exact hqt, by rw [show (Opd.st _) = r.st from rfl, e2]; exact q.same⟩
  -- a result of `follow_path` or of the test is passed on
  have fail : ∀ res, openTest files fs M f = res → res ≠ FR_OK → res ≠ FR_NO_FILE → OpenRefused files fs mode res G →
      p.fp = none ∧ p.files = files ∧ OpenRefused files fs mode p.res G ∧ Tree v i T F p.st ∧ ∀ n, ¬ Fat2 v n → view p.st n = view s n := by
    intro res e1 e2 e3 e4
    unfold openAt at hu
    rw [e1] at hu
    have e5 : openObj v i files tm M f res = ⟨f.st, f.dp, res⟩ := by
      unfold openObj openTrunc openNew openKeep
      rw [if_pos e2, if_neg e3, if_neg e2]
      split
      · rw [if_neg fun hx => e2 hx.1]
      · rfl
    rw [e5] at hu
    exact same _ _ hu rfl e2 e4
  cases G with
  | badName =>
    have e : openTest files fs M f = FR_INVALID_NAME := by unfold openTest; rw [show f.res = _ from h2, if_neg (by decide)]
    exact .inl (fail _ e (by decide) (by decide) rfl)
  | noPath =>
    have e : openTest files fs M f = FR_NO_PATH := by unfold openTest; rw [show f.res = _ from h2, if_neg (by decide)]
    exact .inl (fail _ e (by decide) (by decide) rfl)
  | self d =>
    have e : openTest files fs M f = FR_INVALID_NAME := by unfold openTest; rw [if_pos h2.1, h2.2.2.2, if_pos (by decide)]
    exact .inl (fail _ e (by decide) (by decide) rfl)
  | free d cs =>
    obtain ⟨c1, c2, c3, c4, c5⟩ := h2
    have e : openTest files fs M f = FR_NO_FILE := by unfold openTest; rw [c1, if_neg (by decide)]
    unfold openAt at hu
    rw [e] at hu
    unfold openObj at hu
    by_cases hcr : Creates mode
    · rw [if_pos (hM.create.mpr hcr), if_pos (by decide)] at hu
      have eM : openMode M FR_NO_FILE = M ||| 8 := by unfold openMode; rw [if_pos ⟨hM.create.mpr hcr, by decide⟩]
      rw [eM] at hu
      unfold openNew at hu
      rw [if_pos rfl] at hu
      by_cases henq : enqShare files = true
      · rw [if_pos henq] at hu
        obtain ⟨A, B, hT⟩ := List.append_of_mem c2
        have hperm : T.Perm (d :: (A ++ B)) := by rw [hT]; exact List.perm_middle
        obtain ⟨d0, -, -, hl⟩ := hG
        have hleads : Leads v T d0 l (.free d cs) := by
          rcases hl with ⟨-, hl⟩ | hl
          · cases hl
          · exact hl
        obtain ⟨hcs, hno⟩ := leads_free hleads rfl
        have hqp := tree_perm hperm (.refl F) hqt
        obtain ⟨g1, g2⟩ := register_tree hr hqp c3 c4 (hff cs hcs) c5 hno (g := dirRegister v i f.st f.dp f.fn f.fl f.buf) rfl
        have hdps := register_sclust hr hqp c3 c4
        generalize dirRegister v i f.st f.dp f.fn f.fl f.buf = g at g1 g2 hu hdps
        have a5 := (apart_dirs hr hqp g1).2
        have g2 := g2.resolve_left fun hx => hx.2 hs
        unfold openTrunc at hu
        rcases g2 with ⟨g2, loc, g3, g4, g5⟩ | ⟨g2, loc, x, o, y, g3, g4, g5, g6, g7, g8, g9, g10⟩
        · rw [if_neg (by rw [g2]; exact fun hx => absurd hx.1 (by decide))] at hu
          unfold openLock at hu
          rw [if_neg (by rw [g2]; decide), g2] at hu
          subst hu
          refine .inr (.inl ⟨d, cs, A ++ B, loc, rfl, hperm, hcr, rfl, rfl, rfl, fun l hl n hn => (a5 l hl n hn).trans (q.same n (hfile l hl n hn)), g3, g4, _, _, _, c4, ?_⟩)
          rcases g5 with ⟨g5, g6⟩ | g5
          · refine .inl ⟨g5.imp id fun g5 => g5.imp id fun g5 => ?_, g6⟩
            rw [allchains_cons (A ++ B) F d loc d.os] at g5
            exact g5
          · exact .inr g5
        · have hg : g = ⟨g.st, g.dp, FR_OK⟩ := by rw [← g2]
          rw [if_pos ⟨g2, hM.set8⟩, hg] at hu
          obtain ⟨nw1, nw2, nw3, nw4, nw5, nw6⟩ := new_entry (v := v) g5
          have gdp : g.dp.sclust = d.sclust := hdps.trans c3
          obtain ⟨e', w1, w2, w3, w4, w5, w6, w7⟩ := wipe_tree hr hs (m := []) (F := F) g7 (o := o) (x := x) (y := y) rfl nw1 nw2 nw4 g8 g10 tm rfl
          generalize openWipe v tm ⟨g.st, g.dp, FR_OK⟩ = r at w1 w2 w3 w6 w7 hu
          obtain ⟨k1, k2, k3⟩ := lock_spec hr hs (m := []) (F := F) w6 (o := { o with entry := e' }) (by simp) w5.first (by rw [w5.size]; exact Nat.zero_le _) (by rw [w2]; exact gdp) (by rw [w2]; exact g8) (by rw [w2]; exact w3) w1 (hM.kind8 hcr) hM.tail8 hM.write8
            hM.read8 old hu
          refine .inr (.inr ⟨d :: (A ++ B), F, _, A ++ B, F, _, [], hperm, .refl _, .new hcr g4 g3 (calls_update w4 g6) w5, tree_quiet hr k1 w6, k2, fun l hl n hn => ?_, ?_⟩)
          · exact (k1.same n (hfile l hl n hn)).trans ((w7 l hl n hn).trans ((a5 l hl n hn).trans (q.same n (hfile l hl n hn))))
          · rcases k3 with ⟨k3, k4, k5, k6⟩ | ⟨k3, k4, fp, k5, k6, k7⟩
            · exact .inl ⟨k3, k4, k5, ⟨d, cs, rfl⟩, share_new henq k6⟩
            · refine .inr ⟨k3, k4, fp, k5, k6, ?_⟩
              rw [k7]
              exact ⟨fun _ => .inr ⟨d, cs, rfl⟩, fun _ => decide_eq_true hM.set8⟩
      · rw [if_neg henq] at hu
        unfold openTrunc at hu
        rw [if_neg (fun hx => absurd hx.1 (show ¬ FR_TOO_MANY_OPEN_FILES = FR_OK by decide))] at hu
        refine .inl (same _ _ hu rfl (show FR_TOO_MANY_OPEN_FILES ≠ FR_OK by decide) (.inr ⟨hcr, fun x hx h0 => henq ?_, rfl⟩))
        unfold enqShare
        exact List.any_eq_true.mpr ⟨x, hx, by simpa using h0⟩
    · rw [if_neg fun hx => hcr (hM.create.mp hx)] at hu
      unfold openKeep at hu
      rw [if_neg (by decide)] at hu
      exact .inl (same _ _ hu rfl (show FR_NO_FILE ≠ FR_OK by decide) (.inl ⟨hcr, rfl⟩))
  | object d cs o =>
    obtain ⟨c1, c2, c3, c4, c5, -, c7, c8, c9, c10, c11, -⟩ := h2
    have hkey : keyOf fs f.dp = ⟨fs, d.sclust, 32 * o.pos⟩ := by unfold keyOf; rw [c3, c9.dptr]
    have e : openTest files fs M f = lock files fs mode d o := by
      unfold openTest lock
      rw [if_pos c1, if_neg (by have := (named_bits c5).2.2; omega), hkey, hM.kind]
    by_cases hlk : lock files fs mode d o = 0
    case neg => exact .inl (fail _ e hlk chk_codes (.inl ⟨hlk, rfl⟩))
    have hob := (hqt.dirs d c2).dir.table _ (List.mem_of_getElem? (rep_entry (hqt.dirs d c2).dir.rep o c7))
    obtain ⟨b1, b2⟩ := attr_dir hob.2
    have b3 : attr o.entry &&& 0x11 ≠ 0 ↔ IsDir o ∨ ReadOnly o := attr_both _ (byte_lt hob.2 11)
    have hkind : kind mode ≠ 2 := by unfold kind; split <;> decide
    have hshare := share_kept (files := files) (k := ⟨fs, d.sclust, 32 * o.pos⟩) hfs hkind hlk
    obtain ⟨A, B, hT⟩ := List.append_of_mem c2
    have hperm : T.Perm (d :: (A ++ B)) := by rw [hT]; exact List.perm_middle
    have keep : ¬ Wipes mode → ¬ MustBeNew mode → ¬ IsDir o → (ReadOnly o → ¬ Writes mode ∧ ¬ Creates mode) → p = openLock v i files fs M old ⟨f.st, f.dp, FR_OK⟩ → ∃ T1 F1 d1 R F2 o' m, T.Perm T1 ∧ F.Perm F1 ∧ Opened v tm mode (.object d cs o) T1 F1 d1 R F2 o' m ∧ Tree v i (d1 :: R) (withRest [] m F2) p.st ∧
        EntryAt v i d1 o' p.place ∧ (∀ l ∈ withRest [] m F2, ∀ n ∈ secs v l, view p.st n = view s n) ∧
        (p.res = FR_INT_ERR ∧ p.fp = none ∧ p.files = files ∧ (∃ d' cs', Goal.object d cs o = .free d' cs') ∧ (∃ x ∈ files, x.key = ⟨fs, d1.sclust, 32 * o'.pos⟩) ∨
         p.res = FR_OK ∧ Taken files ⟨fs, d1.sclust, 32 * o'.pos⟩ (kind mode) p.files p.lock ∧ ∃ fp, p.fp = some fp ∧ Handle v mode (dirChains (d1 :: R) ++ F2) m (((secs v m).flatMap (view s)).take (size o')) p.st fp ∧
           (fp.modified = true ↔ Wipes mode ∨ ∃ d' cs', Goal.object d cs o = .free d' cs')) := by
      intro n1 n2 n3 n4 hp'
      obtain ⟨-, m, F', hF, hm1, hm2⟩ := file_long h c2 c7 n3
      have ht1 := tree_perm hperm hF hqt
      obtain ⟨k1, k2, k3⟩ := lock_spec hr hs (r := ⟨f.st, f.dp, FR_OK⟩) ht1 c7 hm1 hm2 c3 c9 c10 rfl hM.kind hM.tail hM.write hM.read old hp'
      have hv2 : ∀ l ∈ withRest [] m F', ∀ n ∈ secs v l, ¬ Fat2 v n := fun l hl => hfile l (hF.mem_iff.mpr hl)
      refine ⟨_, _, d, A ++ B, F', o, m, hperm, hF, .kept n1 n2 n3 n4 hm1, tree_quiet hr k1 ht1, k2, fun l hl n hn => (k1.same n (hv2 l hl n hn)).trans (q.same n (hv2 l hl n hn)), ?_⟩
      rcases k3 with ⟨-, -, -, k6⟩ | ⟨k3, k4, fp, k5, k6, k7⟩
      · exact absurd k6 hshare
      · refine .inr ⟨k3, k4, fp, k5, ?_, ?_⟩
        · have : (secs v m).flatMap (view s) = (secs v m).flatMap (view f.st) := flat_congr fun n hn => by
            by_cases hn0 : m = []
            · subst hn0; cases hn
            · exact (q.same n (hv2 m (by rw [rest_nil, if_neg hn0]; simp) n hn)).symm
          rw [this]
          exact k6
        · rw [k7]
          refine ⟨fun hx => absurd (hM.wipe.mp (of_decide_eq_true hx)) n1, fun hx => ?_⟩
          rcases hx with hx | ⟨_, _, hx⟩
          · exact absurd hx n1
          · cases hx
    unfold openAt at hu
    rw [e, hlk] at hu
    have eM : openMode M 0 = M := by unfold openMode; rw [if_neg fun hx => hx.2 rfl]
    rw [eM] at hu
    unfold openObj at hu
    rw [eM] at hu
    by_cases hcr : Creates mode
    · rw [if_pos (hM.create.mpr hcr), if_neg (fun hx => hx rfl)] at hu
      unfold openOver at hu
      rw [c11] at hu
      simp only at hu
      unfold openTrunc at hu
      simp only at hu
      by_cases hx : IsDir o ∨ ReadOnly o
      · rw [if_pos (b3.mpr hx), if_neg (fun hx => absurd hx.1 (by decide))] at hu
        exact .inl (same _ _ hu rfl (show DirDev.FR_DENIED ≠ FR_OK by decide) (.inr ⟨hlk, .inl ⟨hcr, hx, rfl⟩⟩))
      · rw [if_neg fun hy => hx (b3.mp hy)] at hu
        by_cases hnew : MustBeNew mode
        · rw [if_pos (hM.new.mpr hnew), if_neg (fun hx => absurd hx.1 (by decide))] at hu
          exact .inl (same _ _ hu rfl (show FR_EXIST ≠ FR_OK by decide) (.inr ⟨hlk, .inr (.inl ⟨hcr, fun h => hx (.inl h), fun h => hx (.inr h), hnew, rfl⟩)⟩))
        · rw [if_neg fun hy => hnew (hM.new.mp hy)] at hu
          by_cases hwi : Wipes mode
          · rw [if_pos ⟨rfl, hM.wipe.mpr hwi⟩] at hu
            obtain ⟨x, y, hos⟩ := List.append_of_mem c7
            obtain ⟨hdo, m, F', hF, hm1, hm2⟩ := file_long h c2 c7 (fun h => hx (.inl h))
            have ht1 := tree_perm hperm hF hqt
            obtain ⟨e', w1, w2, w3, w4, w5, w6, w7⟩ := wipe_tree hr hs ht1 hos hdo (fun h => hx (.inl h)) hm1 c9 c10 tm rfl
            generalize openWipe v tm ⟨f.st, f.dp, FR_OK⟩ = r at w1 w2 w3 w6 w7 hu
            obtain ⟨k1, k2, k3⟩ := lock_spec hr hs (m := []) (F := F') w6 (o := { o with entry := e' }) (by simp) w5.first (by rw [w5.size]; exact Nat.zero_le _) (by rw [w2]; exact c3) (by rw [w2]; exact c9) (by rw [w2]; exact w3) w1 hM.kind hM.tail hM.write
              hM.read old hu
            have hv2 : ∀ l ∈ F', ∀ n ∈ secs v l, ¬ Fat2 v n := fun l hl => hfile l (hF.mem_iff.mpr (rest_mem hl))
            refine .inr (.inr ⟨_, _, _, A ++ B, F', _, [], hperm, hF, .wiped (o' := { o with entry := e' }) hwi hnew (fun h => hx (.inl h)) (fun h => hx (.inr h)) hos hm1 rfl rfl w4 w5, tree_quiet hr k1 w6, k2, fun l hl n hn => ?_, ?_⟩)
            · exact (k1.same n (hv2 l hl n hn)).trans ((w7 l hl n hn).trans (q.same n (hv2 l hl n hn)))
            · rcases k3 with ⟨k3, k4, k5, k6⟩ | ⟨k3, k4, fp, k5, k6, k7⟩
              · exact absurd k6 hshare
              · refine .inr ⟨k3, k4, fp, k5, k6, ?_⟩
                rw [k7]
                exact ⟨fun _ => .inl hwi, fun _ => decide_eq_true (hM.wipe.mpr hwi)⟩
          · rw [if_neg fun hy => hwi (hM.wipe.mp hy.2)] at hu
            exact .inr (.inr (keep hwi hnew (fun h => hx (.inl h)) (fun h => absurd h fun h => hx (.inr h)) hu))
    · rw [if_neg fun hy => hcr (hM.create.mp hy)] at hu
      unfold openKeep at hu
      rw [if_pos (show 0 = FR_OK from rfl), c11] at hu
      simp only at hu
      by_cases hdir : IsDir o
      · rw [if_pos (by rw [b1]; exact hdir)] at hu
        exact .inl (same _ _ hu rfl (show FR_NO_FILE ≠ FR_OK by decide) (.inr ⟨hlk, .inr (.inr (.inl ⟨hcr, hdir, rfl⟩))⟩))
      · rw [if_neg (by rw [b1]; exact hdir)] at hu
        by_cases hro : Writes mode ∧ ReadOnly o
        · rw [if_pos (by rw [b2]; exact ⟨hM.write.mpr hro.1, hro.2⟩)] at hu
          exact .inl (same _ _ hu rfl (show DirDev.FR_DENIED ≠ FR_OK by decide) (.inr ⟨hlk, .inr (.inr (.inr ⟨hcr, hdir, hro.1, hro.2, rfl⟩))⟩))
        · rw [if_neg (by rw [b2]; exact fun hy => hro ⟨hM.write.mp hy.1, hy.2⟩)] at hu
          exact .inr (.inr (keep (fun hx => hcr (.inr (.inl hx))) (fun hx => hcr (.inl hx)) hdir (fun h => ⟨fun hw => hro ⟨hw, h⟩, hcr⟩) hu))

/-- The entry of an open file is at a place where it can be stored: that is what the properties of `f_sync`, C77, ask for. -/
theorem C84_place (v : Vol) (i : Info) (hr : Ready v i) (hbig : i.fsi ≠ none → 512 ≤ v.ss) (T : List Dir) (F : List (List Nat)) (m : List Nat) (s : St) (h : Tree v i T (withRest [] m F) s) (d : Dir) (hd : d ∈ T) (o : Obj) (pl : Place) (hp : EntryAt v i d o pl) :
    FatSync.Spec.PlaceOk v (dirChains T ++ F).flatten pl := by
  have hm := List.mem_of_getElem? hp.sect
  have hl := tree_linked h hd
  obtain ⟨p1, p2, -⟩ := secs_place hr hl hm
  have hb := secs_base hr hl hm
  refine ⟨?_, p1, p2, dir_own hr h hd hm fun c hc => by simp [hc], fun n hn => ?_, by rw [hp.info]; exact hbig⟩
  · rw [hp.off]
    exact ofs_le hr o.pos
  · rw [hp.info] at hn
    have hlt : n < v.fatbase := by
      refine Nat.lt_of_not_le fun hx => ?_
      exact fsi_free hr hx hn
    refine ⟨by omega, fun hx => ?_, fun hx => ?_, fun hx => ?_⟩
    · have := hx.1
      omega
    · have := hx.2.1
      omega
    · have := own_data hx
      have := hr.data.base
      omega

theorem leads_mem {v : Vol} {T T2 : List Dir} (hm : ∀ q ∈ T, q ∈ T2) {d0 : Dir} {l : List (List Nat)} {G : Goal} (h : Leads v T d0 l G) : Leads v T2 d0 l G := by
  induction h with
  | bad h => exact .bad h
  | stay h1 h2 _ ih => exact .stay h1 h2 ih
  | self h1 h2 => exact .self h1 h2
  | free h1 h2 h3 => exact .free h1 h2 h3
  | missing h1 h2 h3 h4 => exact .missing h1 h2 h3 h4
  | object h1 h2 h3 => exact .object h1 h2 h3
  | noDir h1 h2 h3 h4 h5 => exact .noDir h1 h2 h3 h4 h5
  | enter h1 h2 h3 h4 h5 h6 _ ih => exact .enter h1 h2 h3 h4 (hm _ h5) h6 ih

theorem calls_same {cs : List Nat} {o o' : Obj} (h1 : o'.fn = o.fn) (h2 : o'.long = o.long) : Calls cs o' ↔ Calls cs o := by
  unfold Calls Means
  rw [h1, h2]

theorem leads_swap {v : Vol} {T T2 : List Dir} {d d2 : Dir} {o o' : Obj} {cs : List Nat} {x y : List Obj} (h1 : d2.sclust = d.sclust) (hos : d.os = x ++ o :: y) (hos2 : d2.os = x ++ o' :: y) (hfn : o'.fn = o.fn) (hlong : o'.long = o.long)
    (hdir : ¬ IsDir o) (hd2 : d2 ∈ T2) (hmem : ∀ q ∈ T, q = d ∨ q ∈ T2) {d0 : Dir} {l : List (List Nat)} {G : Goal} (h : Leads v T d0 l G) (hG : G = .object d cs o) :
    (d0 = d → Leads v T2 d2 l (.object d2 cs o')) ∧ (d0 ≠ d → Leads v T2 d0 l (.object d2 cs o')) := by
  have hno : ∀ c, (∀ a ∈ d.os, ¬ Calls c a) → ∀ a ∈ d2.os, ¬ Calls c a := by
    intro c hc a ha
    rw [hos2] at ha
    rcases mem_new.mp ha with rfl | ha
    · exact fun hx => hc o (by rw [hos]; simp) ((calls_same hfn hlong).mp hx)
    · exact hc a (by rw [hos]; exact mem_new.mpr (.inr ha))
  induction h with
  | bad => cases hG
  | @stay d0 c l G h3 h4 _ ih =>
    obtain ⟨i1, i2⟩ := ih hG
    exact ⟨fun e => .stay h3 (hno c (e ▸ h4)) (i1 e), fun e => .stay h3 h4 (i2 e)⟩
  | self => cases hG
  | free => cases hG
  | missing => cases hG
  | object h3 h4 h5 =>
    cases hG
    exact ⟨fun _ => .object h3 (by rw [hos2]; simp) ((calls_same hfn hlong).mpr h5), fun hx => absurd rfl hx⟩
  | noDir => cases hG
  | @enter d0 d' c l a G h3 h4 h5 h6 h7 h8 _ ih =>
    obtain ⟨i1, i2⟩ := ih hG
    have ha : d0 = d → a ∈ d2.os := by
      rintro rfl
      rw [hos] at h4
      rw [hos2]
      rcases mem_new.mp h4 with rfl | h4
      · exact absurd h6 hdir
      · exact mem_new.mpr (.inr h4)
    by_cases hd' : d' = d
    · subst hd'
      exact ⟨fun e => .enter h3 (ha e) h5 h6 hd2 (h1.trans h8) (i1 rfl), fun _ => .enter h3 h4 h5 h6 hd2 (h1.trans h8) (i1 rfl)⟩
    · have hm := (hmem d' h7).resolve_left hd'
      exact ⟨fun e => .enter h3 (ha e) h5 h6 hm h8 (i2 hd'), fun _ => .enter h3 h4 h5 h6 hm h8 (i2 hd')⟩

/-- After a file has been opened, the path leads to it. -/
theorem C84_found (v : Vol) (tm mode : Nat) (T T1 R : List Dir) (F1 F2 : List (List Nat)) (cdir : Nat) (abs : Bool) (l : List (List Nat)) (G : Goal) (d1 : Dir) (o : Obj) (m : List Nat) (hT : T.Perm T1) (hG : Resolves v T cdir abs l G)
    (ho : Opened v tm mode G T1 F1 d1 R F2 o m) : ∃ cs, Resolves v (d1 :: R) cdir abs l (.object d1 cs o) ∧ ¬ IsDir o := by
  obtain ⟨d0, hd0, hz, hl⟩ := hG
  cases ho with
  | @kept d cs o R F m h1 h2 h3 h4 h5 =>
    have hl : Leads v T d0 l (.object d1 cs o) := by
      rcases hl with ⟨-, hl⟩ | hl
      · cases hl
      · exact hl
    exact ⟨cs, ⟨d0, hT.mem_iff.mp hd0, hz, .inr (leads_mem (fun q hq => hT.mem_iff.mp hq) hl)⟩, h3⟩
  | @wiped d cs a o' x y R F m h1 h2 h3 h4 h5 h6 h7 h8 h9 h10 =>
    have hl : Leads v T d0 l (.object d cs a) := by
      rcases hl with ⟨-, hl⟩ | hl
      · cases hl
      · exact hl
    obtain ⟨k1, k2⟩ := leads_swap (d := d) (T2 := { d with os := x ++ o :: y } :: R) (d2 := { d with os := x ++ o :: y }) rfl h5 rfl h9 h8 h3 (by simp) (fun q hq => by
      rcases List.mem_cons.mp (hT.mem_iff.mp hq) with e | hq
      · exact .inl e
      · exact .inr (by simp [hq])) hl rfl
    refine ⟨cs, ?_, ?_⟩
    · by_cases e : d0 = d
      · exact ⟨_, List.mem_cons_self, by rw [← hz, e], .inr (k1 e)⟩
      · exact ⟨d0, by simp [(List.mem_cons.mp (hT.mem_iff.mp hd0)).resolve_left e], hz, .inr (k2 e)⟩
    · unfold IsDir
      rw [h10.attr]
      decide
  | @new d cs o x y loc R F h1 h2 h3 h4 h5 =>
    have hl : Leads v T d0 l (.free d cs) := by
      rcases hl with ⟨-, hl⟩ | hl
      · cases hl
      · exact hl
    obtain ⟨k1, k2⟩ := leads_made (d := d) (T2 := { d with loc := loc, os := x ++ o :: y } :: R) (d2 := { d with loc := loc, os := x ++ o :: y }) rfl (fun a => by rw [h2]; exact mem_new) h5.nodot h4 (by simp) (fun q hq => by
      rcases List.mem_cons.mp (hT.mem_iff.mp hq) with e | hq
      · exact .inl e
      · exact .inr (by simp [hq])) hl rfl
    refine ⟨cs, ?_, ?_⟩
    · by_cases e : d0 = d
      · exact ⟨_, List.mem_cons_self, by rw [← hz, e], .inr (k1 e)⟩
      · exact ⟨d0, by simp [(List.mem_cons.mp (hT.mem_iff.mp hd0)).resolve_left e], hz, .inr (k2 e)⟩
    · unfold IsDir
      rw [h5.attr]
      decide

/-! In the example `x.c` is a file of 100 bytes, `/A/c` is a free name. -/

theorem sametable_self (a : List FatLock.Sem) : SameTable a a := ⟨rfl, fun j x y hx hy => .inl (Option.some.inj (hx.symm.trans hy))⟩

theorem sametable_set {a : List FatLock.Sem} {j : Nat} {x y : FatLock.Sem} (h : a[j]? = some x) (hxy : x = y ∨ x.key.fs = 0 ∧ y.key.fs = 0) : SameTable a (a.set j y) := by
  refine ⟨by simp, fun n u w hu hw => ?_⟩
  by_cases e : j = n
  · subst e
    have hj : j < a.length := (List.getElem?_eq_some_iff.mp h).1
    rw [List.getElem?_set_self hj] at hw
    cases Option.some.inj hw
    cases Option.some.inj (h.symm.trans hu)
    exact hxy
  · rw [List.getElem?_set_ne e, hu] at hw
    exact .inl (Option.some.inj hw)

/-- `dec_share` undoes `inc_share`. -/
theorem share_undone (files : List FatLock.Sem) (k : FatLock.Key) (acc : Nat) (hk : k.fs ≠ 0) (hok : ∀ x ∈ files, x.key.fs ≠ 0 → x.ctr ≠ 0 ∧ x.ctr ≠ 0xFF) :
    SameTable files (FatLock.decShare (FatLock.incShare files k acc).1 (FatLock.incShare files k acc).2).1 ∧ ((FatLock.incShare files k acc).2 = 0 → SameTable files (FatLock.incShare files k acc).1) := by
  have stop : SameTable files (FatLock.decShare files 0).1 := sametable_self files
  unfold FatLock.incShare
  split
  · rename_i j hj
    obtain ⟨hlt, hkey, -⟩ := List.findIdx?_eq_some_iff_getElem.mp hj
    have hkey : (files[j]).key = k := by simpa using hkey
    have hx := hok files[j] (List.getElem_mem hlt) (by rw [hkey]; exact hk)
    have he : files[j]? = some files[j] := List.getElem?_eq_getElem hlt
    unfold FatLock.incAt
    rw [he]
    dsimp only
    split
    · exact ⟨stop, fun _ => sametable_self files⟩
    · rename_i hn
      have ha : ¬ acc ≠ 0 := fun h => hn ⟨by omega, hx.1⟩
      rw [if_neg ha]
      refine ⟨?_, fun h => by cases h⟩
      unfold FatLock.decShare
      rw [if_neg (by omega)]
      dsimp only
      rw [Nat.add_sub_cancel, List.getElem?_set_self hlt]
      dsimp only
      rw [List.set_set]
      have hc : FatLock.decCtr (files[j].ctr + 1) = files[j].ctr := by
        unfold FatLock.decCtr
        rw [if_neg (by omega)]
        omega
      rw [hc, if_neg hx.1]
      exact sametable_set he (.inl rfl)
  · split
    · exact ⟨stop, fun _ => sametable_self files⟩
    · rename_i j hj
      obtain ⟨hlt, hkey, -⟩ := List.findIdx?_eq_some_iff_getElem.mp hj
      have hkey : (files[j]).key.fs = 0 := by simpa using hkey
      have he : files[j]? = some files[j] := List.getElem?_eq_getElem hlt
      unfold FatLock.incAt
      rw [List.getElem?_set_self hlt]
      dsimp only
      rw [if_neg (fun h => h.2 rfl)]
      refine ⟨?_, fun h => by cases h⟩
      unfold FatLock.decShare
      rw [if_neg (by omega)]
      dsimp only
      rw [Nat.add_sub_cancel, List.set_set, List.getElem?_set_self hlt]
      dsimp only
      rw [List.set_set]
      have hc : FatLock.decCtr (if acc ≠ 0 then 0x100 else 0 + 1) = 0 := by split <;> rfl
      rw [hc, if_pos rfl]
      exact sametable_set he (.inr ⟨hkey, rfl⟩)

/-- Whatever the device and the volume: if a file cannot be opened, then the same objects are open as before.  The objects that are open have less than 255 users (C55). -/
theorem C84_table (v : Vol) (i : Info) (cdir : Nat) (files : List FatLock.Sem) (fs tm mode old : Nat) (path : List Nat) (s : St) (dp : Dp) (buf : List Nat) (hfs : fs ≠ 0) (hok : ∀ x ∈ files, x.key.fs ≠ 0 → x.ctr ≠ 0 ∧ x.ctr ≠ 0xFF) (p : Opd)
    (hp : p = fOpen v i cdir files fs tm mode old path s dp buf) (h1 : p.res ≠ FR_OK) (h2 : p.res ≠ UB) : SameTable files p.files := by
  unfold fOpen openAt at hp
  generalize openMode (mode &&& 0x3F) (openTest files fs (mode &&& 0x3F) (followPath v i cdir path s dp buf)) = m at hp
  generalize openObj v i files tm (mode &&& 0x3F) (followPath v i cdir path s dp buf) _ = r at hp
  obtain ⟨k1, k2⟩ := share_undone files (keyOf fs r.dp) (access m) hfs hok
  unfold openLock at hp
  split at hp
  · split at hp
    · rename_i h0
      subst hp
      exact k2 h0
    · unfold openFill at hp
      split at hp
      · subst hp
        exact absurd rfl h2
      · unfold openOut at hp
        split at hp
        · subst hp
          exact absurd rfl h1
        · subst hp
          exact k1
  · subst hp
    exact sametable_self files

/-- A device that fails while the end of the file is looked for; the object was open for reading before, or not at all. -/
example : let v := { trV with io := fun n => if n = 1 then .fail [] else .ok }
    let p := fOpen v trI 0 [⟨⟨0, 0, 0⟩, 0⟩, ⟨⟨9, 2, 64⟩, 1⟩] 9 12345 0x21 77 [120, 46, 99, 0] trS trDp (List.replicate 256 7)
    p.res = FR_DISK_ERR ∧ p.files = [⟨⟨0, 0, 32⟩, 0⟩, ⟨⟨9, 2, 64⟩, 1⟩] := by decide +kernel

theorem tr_path_x : PathOf [120, 46, 99, 0] false [[120, 46, 99]] := .segs (z := []) (p := [120, 46, 99, 0]) (by decide) (.last (cs := [120, 46, 99]) (t := [0]) (rest := []) (by decide) (by decide) (.fin (by decide)))

theorem tr_calls_x : Calls [120, 46, 99] ⟨1, none, trX⟩ := by
  unfold Calls
  rw [if_neg (by decide)]
  exact .inr ⟨[120], [99], ⟨by decide, by decide, by decide, by decide, by decide, by decide⟩, by decide⟩

example : Ready trV trI ∧ Sound trV ∧ Tree trV trI trT trF trS ∧ (∃ d ∈ trT, d.sclust = 0) ∧ PathOf [120, 46, 99, 0] false [[120, 46, 99]] ∧ (∀ cs ∈ [[120, 46, 99]], 0xFFFF ∉ cs) ∧ Resolves trV trT 0 false [[120, 46, 99]] (.object trRoot [120, 46, 99] ⟨1, none, trX⟩) := by
  refine ⟨tr_ready, tr_sound, tr_tree, ⟨trRoot, by simp [trT], rfl⟩, tr_path_x, by decide, ?_⟩
  exact ⟨trRoot, by simp [trT], rfl, .inr (.object (by decide) (by decide) tr_calls_x)⟩

def trOpen (mode : Nat) (path : List Nat) : Opd := fOpen trV trI 0 [⟨⟨0, 0, 0⟩, 0⟩, ⟨⟨9, 2, 64⟩, 1⟩] 9 12345 mode 77 path trS trDp (List.replicate 256 7)

/-- To open the file for reading, at its end, as new file, as empty file, a directory, a new file in a directory, without asking for it. -/
example : (trOpen 1 [120, 46, 99, 0]).res = FR_OK ∧ (trOpen 1 [120, 46, 99, 0]).fp.map (fun f => (f.objsize, f.fptr, f.canRead, f.canWrite)) = some (100, 0, true, false) ∧
    (trOpen 0x32 [120, 46, 99, 0]).fp.map (fun f => (f.objsize, f.fptr, f.canRead, f.canWrite)) = some (100, 100, false, true) ∧ (trOpen 6 [120, 46, 99, 0]).res = FR_EXIST ∧
    (trOpen 10 [120, 46, 99, 0]).fp.map (fun f => (f.objsize, f.fptr)) = some (0, 0) ∧ (trOpen 10 [120, 46, 99, 0]).st.freeClst = 3 ∧ (trOpen 1 [97, 0]).res = FR_NO_FILE ∧ (trOpen 10 [97, 0]).res = DirDev.FR_DENIED ∧
    (trOpen 10 [47, 65, 47, 99, 0]).res = FR_OK ∧ (trOpen 1 [47, 65, 47, 99, 0]).res = FR_NO_FILE ∧ (trOpen 1 [47, 65, 47, 98, 0]).res = FR_NO_FILE ∧ (trOpen 2 [47, 65, 47, 98, 0]).res = 16 := by decide +kernel

end Fpm.Tree
