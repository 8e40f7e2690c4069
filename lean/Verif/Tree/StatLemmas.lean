import Verif.Tree.StatSpec
import Verif.Tree.PathProps
import Verif.Tree.FillLemmas
/-!
# f_stat and f_opendir
-/
namespace Fpm.Tree
open Fpm.Fat Fpm.Fat.Spec Fpm.FatFile.Spec Fpm.Lfn Fpm.Names Fpm.Names.Spec Fpm.TextIo.Spec Fpm.FatDir Fpm.FatDir.Spec Fpm.Mount Fpm.Mount.Spec Fpm.DirDev Fpm.DirDev.Spec Fpm.Tree.Spec Fpm.FatSync
open Fpm.FatLock (Sem Key incShare incAt)

/-! ## Where the long name begins -/

theorem start_blk {i : Nat} {e : List Nat} {q : Seq} (h : ∀ b, q.blk = some b → b < i) : ∀ b, (seqStart i e q).blk = some b → b < i + 1 := by
  unfold seqStart
  split
  · intro b hb
    cases hb
    omega
  · intro b hb
    have := h b hb
    omega

theorem find_before {fn buf : List Nat} {fl : Nat} : ∀ {t : List (List Nat)} {i : Nat} {q : Seq} {p b : Nat} {buf' : List Nat}, (∀ b, q.blk = some b → b < i) → findLoop fn fl buf t i q = .found p (some b) buf' → b < p
  | [], i, q, p, b, buf', _, h => by cases h
  | e :: t, i, q, p, b, buf', hq, h => by
    rw [findLoop] at h
    split at h
    · cases h
    · split at h
      · exact find_before (by simp) h
      · split at h
        · split at h
          · cases h
          · rename_i q' e1
            refine find_before (q := q') (fun b hb => ?_) h
            unfold findLfn at e1
            split at e1
            · split at e1
              · split at e1
                · cases e1
                · cases e1
                  exact start_blk hq b hb
              · cases e1
                exact start_blk hq b hb
            · cases e1
              have := hq b hb
              omega
        · split at h
          · injection h with h1 h2 h3
            subst h1
            exact hq b h2
          · split at h
            · injection h with h1 h2 h3
              subst h1
              exact hq b h2
            · exact find_before (by simp) h

theorem pos_inj {c : Bool} {i : Nat} {t : List (List Nat)} {os : List Obj} (h : Rep c i t os) : ∀ o ∈ os, ∀ o' ∈ os, o.pos = o'.pos → o = o' := by
  induction h with
  | nil => intro o ho; cases ho
  | fin => intro o ho; cases ho
  | skip _ _ _ ih => exact ih
  | obj _ _ _ hr ih =>
    intro o ho o' ho' e
    rcases List.mem_cons.mp ho with rfl | ho <;> rcases List.mem_cons.mp ho' with rfl | ho'
    · rfl
    · have := (rep_pos hr o' ho').1
      simp only at e
      omega
    · have := (rep_pos hr o ho).1
      simp only at e
      omega
    · exact ih o ho o' ho' e

/-- `blk_ofs` tells whether the object found has a long name. -/
theorem stat_found_blk {n fn buf : List Nat} {fl : Nat} (hn : Lfn.Spec.Name n) (hb : Lfn.Spec.Holds buf n) {t : List (List Nat)} {os : List Obj} (hr : Rep true 0 t os) (ht : FatDir.Spec.Table t) (hf : fl &&& 0x40 = 0) {o : Obj} (ho : o ∈ os)
    {blk : Option Nat} (h : FatDir.dirFind t fn fl buf = .found o.pos blk buf) : blk = none ↔ o.long = none := by
  rcases find_all (fn := fn) (fl := fl) hn hb hr ht with ⟨e, -⟩ | ⟨a, o', b, blk', he, -, -, e, hz⟩
  · rw [e] at h; cases h
  · have hz := hz hf
    rw [e] at h
    injection h with h1 h2 h3
    have ho' : o' = o := pos_inj hr o' (by rw [he]; simp) o ho h1
    subst ho' h2
    obtain ⟨h4, h5⟩ := zip_blk hz
    have hw : FatDir.width o' = 0 ↔ o'.long = none := by
      unfold FatDir.width
      cases hl : o'.long with
      | none => simp
      | some m =>
        obtain ⟨pre, u, w, post, -, -, -, -, -, -, -, -, h6⟩ := hz
        rcases h6 with ⟨h6, -⟩ | ⟨m', h6, h7, -⟩
        · rw [hl] at h6; cases h6
        · rw [hl] at h6
          cases h6
          have := List.length_pos_iff.mpr h7.ne
          constructor
          · intro h; dsimp only at h; unfold Lfn.Spec.parts at h; omega
          · intro h; cases h
    rw [← hw]
    cases blk' with
    | none =>
      rw [Option.getD_none] at h4
      constructor
      · intro _; omega
      · intro _; rfl
    | some p =>
      have := find_before (by simp) e
      rw [Option.getD_some] at h4
      constructor
      · intro h; cases h
      · intro h; omega

/-! ## Entries -/

theorem attr_mod : ∀ b < 256, b &&& 0x3F = b % 64 := by decide +kernel

theorem field_two {e : List Nat} (hl : e.length = 32) : FatSync.Spec.field e 22 2 + 65536 * FatSync.Spec.field e 24 2 = FatSync.Spec.field e 22 4 := by
  have h1 : (e.drop 22).take 4 = (e.drop 22).take 2 ++ (e.drop 24).take 2 := by
    rw [show (4 : Nat) = 2 + 2 from rfl, List.take_add, List.drop_drop]
  unfold FatSync.Spec.field
  rw [h1, num_append]
  simp [hl]

theorem chain_range {v : Vol} {i : Info} {T : List Dir} {F : List (List Nat)} {s : St} (h : Tree v i T F s) {m : List Nat} (hm : m ∈ F) : ∃ c r, m = c :: r ∧ 2 ≤ c ∧ c < v.nFatent := by
  have := h.chains.1 m (by simp [hm])
  cases m with
  | nil => exact absurd this (by simp [Links])
  | cons c r =>
    refine ⟨c, r, rfl, ?_⟩
    cases r with
    | nil => exact ⟨this.1, this.2.1⟩
    | cons d r => exact ⟨this.1, this.2.1⟩

theorem start_of {v : Vol} {i : Info} {T : List Dir} {F : List (List Nat)} {s : St} (h : Tree v i T F s) {d : Dir} (hd : d ∈ T) {o : Obj} (ho : o ∈ d.os) (hn : ¬ IsDir o) :
    clst2sect v (first v o) = if first v o = 0 then 0 else v.database + v.csize * (first v o - 2) := by
  have hdot : ¬ Dotted o := fun hdot => hn (h.dots d hd o ho hdot).1
  obtain ⟨m, hm, hf, -⟩ := h.files d hd o ho hdot hn
  unfold clst2sect
  by_cases h0 : first v o = 0
  · rw [if_pos (by omega), if_pos h0]
  · rcases hm with rfl | hm
    · exact absurd hf h0
    · obtain ⟨c, r, rfl, h1, h2⟩ := chain_range h hm
      have hf : first v o = c := hf
      rw [if_neg (by omega), if_neg h0]

/-- What is told about an object that was found. -/
theorem info_spec {v : Vol} {i : Info} {T : List Dir} {F : List (List Nat)} {s : St} (h : Tree v i T F s) {d : Dir} (hd : d ∈ T) {o : Obj} (ho : o ∈ d.os) {cs fn buf : List Nat} {fl : Nat} (hc : ∀ c ∈ cs, NameChar c)
    (hn : Named cs true buf fn fl) {blk : Option Nat} (hf : FatDir.dirFind (entries v i (view s) d.loc) fn fl buf = .found o.pos blk buf) (hdot : DotName cs → o.long = none) (old : Nat) :
    ∃ x, fileInfo v old (blk.map (32 * ·)) buf o.entry = some x ∧ Told v o x ∧ Echoed cs o x.name := by
  obtain ⟨hl, hb⟩ := obj_ent (h.dirs d hd).dir ho
  have hdir := (h.dirs d hd).dir
  have hblk : blk = none ↔ o.long = none := by
    by_cases hdn : DotName cs
    · obtain ⟨h1, -, h2⟩ := hn.dot hdn
      exact stat_found_blk (n := cs) (by rcases hdn with rfl | rfl <;> exact ⟨by decide, by decide, by decide⟩) h1 hdir.rep hdir.table (by rw [h2]; decide) ho hf
    · obtain ⟨h1, h2, -, h3⟩ := hn.name hdn
      exact stat_found_blk (n := units (trimmed cs)) (name_of ⟨hc, hdn, hn⟩) h2 hdir.rep hdir.table (flags_bits h3).2.1 ho hf
  have hname : ∃ name, listName (if blk.map (32 * ·) = none then none else some buf) o.entry = some name ∧ Echoed cs o name := by
    simp only [Option.map_eq_none_iff]
    cases hlong : o.long with
    | none =>
      obtain ⟨name, h1, h2⟩ := shown_of (o := o) (blk := none) (buf := buf) (fun _ => rfl) (fun n h => by rw [hlong] at h; cases h)
      rw [if_pos rfl] at h1
      rw [if_pos (hblk.mpr hlong)]
      exact ⟨name, h1, fun _ => h2, fun n h => by rw [hlong] at h; cases h⟩
    | some n =>
      rw [if_neg (fun h => by rw [hblk, hlong] at h; cases h)]
      have hdn : ¬ DotName cs := fun h => by rw [hdot h] at hlong; cases hlong
      obtain ⟨h1, h2, -, -⟩ := hn.name hdn
      have := C74_long (trimmed cs) buf o.entry (fun c hc' => have := hc c (trimmed_mem hc'); ⟨this.1, by have := this.2.1; omega⟩) h1 h2
      refine ⟨_, this, (fun h => by rw [hlong] at h; cases h), fun n _ hle => ?_⟩
      rw [if_pos hle]
  obtain ⟨name, e1, h1⟩ := hname
  obtain ⟨e2, -⟩ := ld_dword (p := 28) hb (by omega)
  obtain ⟨e3, h3⟩ := ld_word (p := 22) hb (by omega)
  obtain ⟨e4, -⟩ := ld_word (p := 24) hb (by omega)
  have ha := (attr_dir hb).1
  have e5 : ∃ k, startBlk v old o.entry = some k ∧ (¬ IsDir o → k = if first v o = 0 then 0 else v.database + v.csize * (first v o - 2)) := by
    unfold startBlk
    split
    · rw [ld_clust hb (by omega)]
      exact ⟨_, rfl, fun hnd => start_of h hd ho hnd⟩
    · rename_i hx
      exact ⟨_, rfl, fun hnd => absurd (by rw [ha] at hx; exact hx) hnd⟩
  obtain ⟨k, e5, h5⟩ := e5
  refine ⟨_, by unfold fileInfo; rw [e1, Option.bind_some, e2, Option.bind_some, e3, Option.bind_some, e4, Option.bind_some, e5, Option.bind_some], ⟨attr_mod _ (byte_lt hb 11), rfl, field_two hl, h3, h5⟩, h1⟩

/-! ## f_stat -/

theorem dot_long {v : Vol} {i : Info} {T : List Dir} {F : List (List Nat)} {s : St} (h : Tree v i T F s) {d : Dir} (hd : d ∈ T) {o : Obj} (ho : o ∈ d.os) {cs : List Nat} (hc : Calls cs o) (hdot : DotName cs) : o.long = none := by
  unfold Calls at hc
  rw [if_pos hdot] at hc
  have hb : byte o.entry 0 = 46 := by
    have hlen := (obj_ent (h.dirs d hd).dir ho).1
    have : o.fn = o.entry.take 11 := rfl
    have h0 : o.fn[0]? = some 46 := by rw [hc]; rcases hdot with rfl | rfl <;> decide
    rw [this, List.getElem?_take, if_pos (by decide)] at h0
    unfold byte
    rw [List.getD_eq_getElem?_getD, h0]
    rfl
  exact (h.dots d hd o ho hb).2.1

theorem stat_spec {v : Vol} {i : Info} (hr : Ready v i) {T : List Dir} {F : List (List Nat)} {s : St} (h : Tree v i T F s) {f : Fol} (old : FInfo) {G : Goal} (hG : Arrives v i T s f G) :
    Stated v (statAt v old f).2.1 (statAt v old f).2.2 G ∧ (statAt v old f).1 = f.st := by
  unfold statAt
  cases G with
  | badName =>
    have hG : f.res = FR_INVALID_NAME := hG
    rw [if_neg (by rw [hG]; decide)]
    exact ⟨⟨hG, rfl⟩, rfl⟩
  | noPath =>
    have hG : f.res = FR_NO_PATH := hG
    rw [if_neg (by rw [hG]; decide)]
    exact ⟨⟨hG, rfl⟩, rfl⟩
  | free d cs =>
    rw [if_neg (by rw [hG.1]; decide)]
    exact ⟨⟨hG.1, rfl⟩, rfl⟩
  | self d =>
    rw [if_pos hG.1, if_pos (by rw [hG.2.2.2]; decide)]
    exact ⟨⟨rfl, rfl⟩, rfl⟩
  | object d cs o =>
    obtain ⟨h1, hd, -, hc, hn, -, ho, hcl, hat, -, hent, blk, hblk, hf⟩ := hG
    have hne := (at_place hr (tree_linked h hd) hat).2.2
    rw [if_pos h1, if_neg (by rw [(named_bits hn).2.2]; decide), if_neg hne, hent, Option.bind_some, hblk]
    obtain ⟨x, e, h2⟩ := info_spec h hd ho hc hn hf (dot_long h hd ho hcl) old.startblk
    rw [e]
    exact ⟨⟨rfl, x, rfl, h2⟩, rfl⟩

/-! ## f_opendir -/

theorem inc_read {files : List Sem} {k : Key} : (incShare files k 0).2 = 0 ↔ (∀ x ∈ files, x.key ≠ k) ∧ ∀ x ∈ files, x.key.fs ≠ 0 := by
  have key : ∀ (fl : List Sem) (j : Nat), j < fl.length → (incAt fl 0 j).2 ≠ 0 := by
    intro fl j hj
    unfold incAt
    rw [List.getElem?_eq_getElem hj]
    simp
  unfold incShare
  cases e1 : files.findIdx? (·.key = k) with
  | some j =>
    simp only
    obtain ⟨hj, hk, -⟩ := List.findIdx?_eq_some_iff_getElem.mp e1
    refine ⟨fun h0 => absurd h0 (key files j hj), fun h0 => absurd (by simpa using hk) (h0.1 _ (List.getElem_mem hj))⟩
  | none =>
    simp only
    have h1 : ∀ x ∈ files, x.key ≠ k := by simpa using List.findIdx?_eq_none_iff.mp e1
    cases e2 : files.findIdx? (·.key.fs = 0) with
    | none =>
      have h2 : ∀ x ∈ files, x.key.fs ≠ 0 := by simpa using List.findIdx?_eq_none_iff.mp e2
      exact ⟨fun _ => ⟨h1, h2⟩, fun _ => rfl⟩
    | some j =>
      simp only
      obtain ⟨hj, hk, -⟩ := List.findIdx?_eq_some_iff_getElem.mp e2
      refine ⟨fun h0 => absurd h0 (key _ j (by rw [List.length_set]; exact hj)), fun h0 => absurd (by simpa using hk) (h0.2 _ (List.getElem_mem hj))⟩

theorem find_buf (v : Vol) (i : Info) (s : St) (dp : Dp) (fn : List Nat) (fl : Nat) (buf : List Nat) : (DirDev.dirFind v i s dp fn fl buf).buf = buf := by
  unfold DirDev.dirFind
  split
  · unfold findEnd
    split <;> rfl
  · rfl

theorem step_buf {v : Vol} {fn : List Nat} {fl : Nat} {g : Got} {f : Fol} (h : step v fn fl g = .inl f) : f.buf = g.buf := by
  unfold step at h
  split at h
  · split at h
    · cases h; rfl
    · split at h
      · cases h; rfl
      · split at h
        · cases h; rfl
        · split at h
          · cases h; rfl
          · cases h
  · split at h
    · split at h
      · split at h
        · cases h
        · cases h; rfl
      · cases h; rfl
    · cases h; rfl

theorem loop_buf {v : Vol} {i : Info} {p : List Nat} {l : List (List Nat)} (hp : PathText p l) : ∀ {k : Nat} {s : St} {dp : Dp} {buf : List Nat}, buf.length = 256 → (followLoop v i k p s dp buf).buf.length = 256 := by
  induction hp with
  | @last cs t rest hc hne ht =>
    intro k s dp buf hb
    cases k with
    | zero => exact hb
    | succ k =>
      unfold followLoop
      obtain ⟨c1, c2⟩ := C74_text cs t rest buf true hc ht hb
      by_cases hgood : Good cs
      · obtain ⟨buf', fn, fl, e, hn⟩ := c1 hgood
        rw [e]
        simp only
        cases e1 : step v fn fl (DirDev.dirFind v i s dp fn fl buf') with
        | inl f =>
          simp only
          rw [step_buf e1, find_buf]
          exact named_buf hn
        | inr q =>
          exfalso
          have h4 := (named_bits hn).1
          unfold step at e1
          rw [if_pos (h4.mpr rfl), if_neg (h4.mpr rfl)] at e1
          split at e1
          · cases e1
          · split at e1
            · split at e1 <;> cases e1
            · cases e1
      · rw [c2 hgood]
        exact hb
  | @cons cs t rest l hc hne ht hp ih =>
    intro k s dp buf hb
    cases k with
    | zero => exact hb
    | succ k =>
      unfold followLoop
      obtain ⟨c1, c2⟩ := C74_text cs t rest buf false hc ht hb
      by_cases hgood : Good cs
      · obtain ⟨buf', fn, fl, e, hn⟩ := c1 hgood
        rw [e]
        simp only
        cases e1 : step v fn fl (DirDev.dirFind v i s dp fn fl buf') with
        | inl f =>
          simp only
          rw [step_buf e1, find_buf]
          exact named_buf hn
        | inr q => exact ih (named_buf hn)
      · rw [c2 hgood]
        exact hb

theorem follow_buf {v : Vol} {i : Info} {cdir : Nat} {path : List Nat} {abs : Bool} {l : List (List Nat)} (hp : PathOf path abs l) (s : St) (dp : Dp) {buf : List Nat} (hb : buf.length = 256) :
    (followPath v i cdir path s dp buf).buf.length = 256 := by
  unfold followPath
  cases hp with
  | @empty z rest b hz hbl =>
    rw [drop_seps hz (ctl_sep hbl)]
    simp only
    rw [if_pos hbl]
    exact hb
  | @segs z p l hz hp =>
    obtain ⟨b, r, rfl, hb1, hb2⟩ := path_head hp
    rw [drop_seps hz hb2]
    simp only
    rw [if_neg (by omega)]
    exact loop_buf hp hb

/-- Opening a directory: the state is as before but for what was read, and the object is at the start of the directory. -/
theorem opendir_spec {v : Vol} {i : Info} (hr : Ready v i) {T : List Dir} {F : List (List Nat)} {s : St} (h : Tree v i T F s) (files : List Sem) (fs : Nat) {f : Fol} (hq : Quiet v s f.st) {G : Goal} (hG : Arrives v i T s f G) :
    Quiet v s (opendirAt v i files fs f).st ∧ (opendirAt v i files fs f).buf = f.buf ∧ ((opendirAt v i files fs f).res = FR_DISK_ERR ∧ ¬ Sound v ∨
      (∃ d ∈ T, Into v T G (.inl d) ∧ (opendirAt v i files fs f).dp.sclust = d.sclust ∧ At v i d.loc 0 (opendirAt v i files fs f).dp ∧
        ((opendirAt v i files fs f).res = FR_OK ∨ (opendirAt v i files fs f).res = FR_TOO_MANY_OPEN_FILES ∧ d.sclust ≠ 0 ∧ (∀ x ∈ files, x.key ≠ ⟨fs, d.sclust, 0⟩) ∧ ∀ x ∈ files, x.key.fs ≠ 0)) ∨
      (∃ e, Into v T G (.inr e) ∧ (opendirAt v i files fs f).res = e)) := by
  have main : ∀ (d : Dir) (dp : Dp), d ∈ T → dp.sclust = d.sclust → Into v T G (.inl d) →
      Quiet v s (opendirLock files fs f.buf (dirSdi v i f.st dp 0)).st ∧ (opendirLock files fs f.buf (dirSdi v i f.st dp 0)).buf = f.buf ∧ ((opendirLock files fs f.buf (dirSdi v i f.st dp 0)).res = FR_DISK_ERR ∧ ¬ Sound v ∨
      (∃ d ∈ T, Into v T G (.inl d) ∧ (opendirLock files fs f.buf (dirSdi v i f.st dp 0)).dp.sclust = d.sclust ∧ At v i d.loc 0 (opendirLock files fs f.buf (dirSdi v i f.st dp 0)).dp ∧
        ((opendirLock files fs f.buf (dirSdi v i f.st dp 0)).res = FR_OK ∨ (opendirLock files fs f.buf (dirSdi v i f.st dp 0)).res = FR_TOO_MANY_OPEN_FILES ∧ d.sclust ≠ 0 ∧ (∀ x ∈ files, x.key ≠ ⟨fs, d.sclust, 0⟩) ∧ ∀ x ∈ files, x.key.fs ≠ 0)) ∨
      (∃ e, Into v T G (.inr e) ∧ (opendirLock files fs f.buf (dirSdi v i f.st dp 0)).res = e)) := by
    intro d dp hd hdp hin
    have hs := sdi_spec hr hq.inv (linked_same (tree_linked h hd) hq.same) (dp := dp) (by rw [hdp]; exact (h.dirs d hd).starts) (j := 0) (total_pos hr (tree_linked h hd))
    rw [Nat.mul_zero] at hs
    generalize dirSdi v i f.st dp 0 = r at hs
    have hsc : r.dp.sclust = d.sclust := hs.sclust.trans hdp
    unfold opendirLock
    rcases hs.cases with ⟨c1, c2⟩ | ⟨c1, c2⟩
    · rw [if_pos c1]
      have hkey : keyOf fs r.dp = ⟨fs, d.sclust, 0⟩ := by
        unfold keyOf
        rw [hsc, c2.dptr]
      by_cases h0 : r.dp.sclust ≠ 0
      · rw [if_pos h0]
        refine ⟨hq.trans hs.quiet, rfl, .inr (.inl ⟨d, hd, hin, hsc, c2, ?_⟩)⟩
        rw [hkey]
        simp only
        by_cases h1 : (incShare files ⟨fs, d.sclust, 0⟩ 0).2 = 0
        · rw [if_pos h1]
          exact .inr ⟨rfl, by rw [← hsc]; exact h0, inc_read.mp h1⟩
        · rw [if_neg h1]
          exact .inl rfl
      · rw [if_neg h0]
        exact ⟨hq.trans hs.quiet, rfl, .inr (.inl ⟨d, hd, hin, hsc, c2, .inl rfl⟩)⟩
    · rw [if_neg (by rw [c1]; decide)]
      refine ⟨hq.trans hs.quiet, rfl, .inl ⟨?_, c2⟩⟩
      simp only
      rw [if_neg (by rw [c1]; decide), c1]
  unfold opendirAt
  cases G with
  | badName =>
    have hG : f.res = FR_INVALID_NAME := hG
    rw [if_neg (by rw [hG]; decide)]
    refine ⟨hq, rfl, .inr (.inr ⟨_, .badName, ?_⟩)⟩
    simp only
    rw [if_neg (by rw [hG]; decide), hG]
  | noPath =>
    have hG : f.res = FR_NO_PATH := hG
    rw [if_neg (by rw [hG]; decide)]
    refine ⟨hq, rfl, .inr (.inr ⟨_, .noPath, ?_⟩)⟩
    simp only
    rw [if_neg (by rw [hG]; decide), hG]
  | free d cs =>
    rw [if_neg (by rw [hG.1]; decide)]
    refine ⟨hq, rfl, .inr (.inr ⟨_, .free, ?_⟩)⟩
    simp only
    rw [if_pos hG.1]
  | self d =>
    have e : opendirObj v f = (f.dp, FR_OK) := by unfold opendirObj; rw [if_pos (by rw [hG.2.2.2]; decide)]
    rw [if_pos hG.1, e, if_pos rfl]
    exact main d f.dp hG.2.1 hG.2.2.1 .self
  | object d cs o =>
    obtain ⟨h1, hd, -, hc, hn, -, ho, hcl, hat, -, hent, -⟩ := hG
    obtain ⟨hl, hb⟩ := obj_ent (h.dirs d hd).dir ho
    rw [if_pos h1]
    have hfl : ¬ f.fl &&& 0x80 ≠ 0 := by rw [(named_bits hn).2.2]; decide
    by_cases hdir : IsDir o
    · obtain ⟨d', hd', he⟩ := sub_dir h hd ho hdir
      have e : opendirObj v f = ({ f.dp with sclust := first v o }, FR_OK) := by
        unfold opendirObj
        rw [if_neg hfl, hent]
        simp only
        rw [if_pos (by rw [(attr_dir hb).1]; exact hdir), ld_clust hb (by omega)]
        rfl
      rw [e, if_pos rfl]
      exact main d' { f.dp with sclust := first v o } hd' he.symm (.dir hdir hd' he)
    · have e : opendirObj v f = (f.dp, FR_NO_PATH) := by
        unfold opendirObj
        rw [if_neg hfl, hent]
        simp only
        rw [if_neg (by rw [(attr_dir hb).1]; exact hdir)]
      rw [e, if_neg (show ¬ FR_NO_PATH = FR_OK by decide)]
      exact ⟨hq, rfl, .inr (.inr ⟨_, .file hdir, rfl⟩)⟩

/-! ## Searching -/

theorem next_fuel (v : Vol) (i : Info) (pat : List Nat) : ∀ (k : Nat) {s : St} {dp : Dp} {buf : List Nat}, (listLoop v i k s dp buf).res ≠ HANG → ∀ m, k ≤ m → findNext v i pat m s dp buf = findNext v i pat k s dp buf
  | 0, s, dp, buf, h, m, _ => absurd rfl h
  | k + 1, s, dp, buf, h, m, hm => by
    cases m with
    | zero => omega
    | succ m =>
      rw [listLoop] at h
      rw [findNext, findNext]
      split
      · rename_i hok
        rw [if_pos hok] at h
        cases e : (readdir v i s dp buf).item with
        | none => rfl
        | some x =>
          rw [e] at h
          simp only at h ⊢
          cases Glob.findMatch pat (x.1 ++ [0]) with
          | none => rfl
          | some b =>
            cases b with
            | true => rfl
            | false => exact next_fuel v i pat k h m (by omega)
      · rfl

/-- Searching gives those that match, of what reading gives. -/
theorem search_loop (v : Vol) (i : Info) (pat : List Nat) (hdef : ∀ n : List Nat, Glob.findMatch pat (n ++ [0]) ≠ none) (m : Nat) : ∀ (k : Nat) {s : St} {dp : Dp} {buf : List Nat}, k ≤ m → (listLoop v i k s dp buf).res ≠ HANG → ∀ n, k ≤ n →
    searchLoop v i pat m n s dp buf = ⟨(listLoop v i k s dp buf).st, (listLoop v i k s dp buf).res, (listLoop v i k s dp buf).items.filter fun x => Glob.findMatch pat (x.1 ++ [0]) = some true⟩
  | 0, s, dp, buf, _, h, n, _ => absurd rfl h
  | k + 1, s, dp, buf, hm, h, n, hn => by
    cases n with
    | zero => omega
    | succ n =>
      have hf := next_fuel v i pat (k + 1) h m hm
      rw [searchLoop, hf, findNext, listLoop]
      rw [listLoop] at h
      by_cases hok : (readdir v i s dp buf).res = FR_OK
      · rw [if_pos hok] at h ⊢
        rw [if_pos hok]
        cases e : (readdir v i s dp buf).item with
        | none =>
          simp only
          rw [if_pos hok, e]
          rfl
        | some x =>
          rw [e] at h
          simp only at h ⊢
          cases e1 : Glob.findMatch pat (x.1 ++ [0]) with
          | none => exact absurd e1 (hdef x.1)
          | some b =>
            cases b with
            | true =>
              simp only
              rw [if_pos hok, e]
              simp only
              rw [search_loop v i pat hdef m k (by omega) h n (by omega), List.filter_cons_of_pos (by simp [e1])]
            | false =>
              simp only
              have := search_loop v i pat hdef m k (by omega) h (n + 1) (by omega)
              rw [searchLoop, next_fuel v i pat k h m (by omega)] at this
              rw [this, List.filter_cons_of_neg (by simp [e1])]
      · rw [if_neg hok, if_neg hok]
        rw [if_neg hok]; rfl

end Fpm.Tree
