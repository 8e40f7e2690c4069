import Verif.Tree.CpSpec
import Verif.Tree.CpLemmas
import Verif.Tree.RmDoneLemmas
/-!
# Copying a file: opening and closing
-/
namespace Fpm.Tree
open Fpm.Fat Fpm.Fat.Spec Fpm.FatFile Fpm.FatFile.Spec Fpm.FatSync Fpm.DirDev Fpm.Tree.Spec Fpm.Mount Fpm.Mount.Spec Fpm.FatDir Fpm.FatDir.Spec Fpm.DirDev.Spec
open Fpm.FatLock (Sem Key decShare decCtr)


/-- A file that has just been opened at its start has nothing in its buffer, and the window shows its entry. -/
theorem open_window {v : Vol} {i : Info} {cdir : Nat} {files : List Sem} {fs tm mode old : Nat} {path : List Nat} {s : St} {dp : Dp} {buf : List Nat} (hm : ∀ res, openMode (mode &&& 0x3F) res &&& 0x20 = 0) {p : Opd}
    (hp : p = Tree.fOpen v i cdir files fs tm mode old path s dp buf) {fp : File} (hfp : p.fp = some fp) : fp.sect = 0 ∧ ∀ n, p.st.winsect = some n → p.place.sect = n := by
  unfold Tree.fOpen openAt at hp
  generalize openTest files fs (mode &&& 0x3F) _ = res at hp
  generalize openObj v i files tm (mode &&& 0x3F) _ res = r at hp
  have hm := hm res
  generalize openMode (mode &&& 0x3F) res = M at hp hm
  unfold openLock at hp
  split at hp
  · split at hp
    · rw [hp] at hfp; cases hfp
    · unfold openFill at hp
      split at hp
      · rw [hp] at hfp; cases hfp
      · unfold openSeek openOut at hp
        rw [if_neg (c := M &&& 0x20 ≠ 0 ∧ _) (fun z => z.1 hm)] at hp
        simp only at hp
        rw [if_pos trivial] at hp
        subst hp
        cases hfp
        exact ⟨rfl, fun n hn => by show (r.st.winsect.getD _) = n; rw [show r.st.winsect = some n from hn]; rfl⟩
  · rw [hp] at hfp; cases hfp

/-- Releasing what has been taken. -/
theorem dec_taken {files f' g : List Sem} {k : Key} {acc j : Nat} (h : Taken files k acc f' j) (hk : k.fs ≠ 0) (hc : ∀ x ∈ files, x.key = k → x.ctr ≠ 0 ∧ x.ctr ≠ 0xFF) (ha : SameLocks f' g) : SameLocks files (decShare g j).1 := by
  have main : ∀ (j : Nat) (e : Sem) (c : Nat), files[j]? = some e → SameLocks (files.set j ⟨k, c⟩) g → (e.key = k ∧ decCtr c = e.ctr ∧ e.ctr ≠ 0 ∨ e.key.fs = 0 ∧ decCtr c = 0) → SameLocks files (decShare g (j + 1)).1 := by
    intro j e c hx ha hcc
    have hj := (List.getElem?_eq_some_iff.mp hx).1
    have hlen : g.length = files.length := by rw [ha.1, List.length_set]
    have hf : g[j]? = some ⟨k, c⟩ := by
      have hg := List.getElem?_eq_getElem (l := g) (i := j) (by omega)
      rcases ha.2 j ⟨k, c⟩ _ (by rw [List.getElem?_set_self hj]) hg with e | e
      · rw [hg, ← e]
      · exact absurd e.1 hk
    unfold decShare
    rw [if_neg (by omega), Nat.add_sub_cancel, hf]
    refine ⟨by simp [hlen], fun n a b h1 h2 => ?_⟩
    by_cases hn : n = j
    · subst hn
      cases hx.symm.trans h1
      simp only at h2
      rw [List.getElem?_set_self (by omega)] at h2
      rcases hcc with ⟨e1, e2, e3⟩ | ⟨e1, e2⟩
      · rw [e2, if_neg e3] at h2
        cases h2
        left
        cases e
        cases e1
        rfl
      · rw [e2, if_pos rfl] at h2
        cases h2
        exact .inr ⟨e1, rfl⟩
    · simp only at h2
      rw [List.getElem?_set_ne (by omega)] at h2
      exact ha.2 n a b (by rw [List.getElem?_set_ne (by omega)]; exact h1) h2
  cases h with
  | @more j e h1 h2 h3 =>
    obtain ⟨c1, c2⟩ := hc e (List.mem_of_getElem? h1) h2
    refine main j e _ h1 ha (.inl ⟨h2, ?_, c1⟩)
    rw [if_pos (h3.resolve_right c1)]
    unfold decCtr
    rw [if_neg (by omega)]
    omega
  | @first j e h1 h2 h3 =>
    refine main j e _ h1 ha (.inr ⟨h2, ?_⟩)
    unfold decCtr
    split
    · rfl
    · rfl

theorem dec_none {f : List Sem} {j : Nat} (hj : j ≠ 0) (h : f[j - 1]? = none) : (decShare f j).1 = f := by
  unfold decShare
  rw [if_neg hj, h]

theorem dec_some {f : List Sem} {j : Nat} {a : Sem} (hj : j ≠ 0) (h : f[j - 1]? = some a) : (decShare f j).1 = f.set (j - 1) ⟨if decCtr a.ctr = 0 then { a.key with fs := 0 } else a.key, decCtr a.ctr⟩ := by
  unfold decShare
  rw [if_neg hj, h]

/-- The table while two files are open, and after closing them in the same order. -/
theorem dec_two {files f1 f2 : List Sem} {k1 k2 : Key} {acc j1 j2 : Nat} (h1 : Taken files k1 acc f1 j1) (hk1 : k1.fs ≠ 0) (hc : Counted files) (h2 : Taken f1 k2 1 f2 j2) (hk2 : k2.fs ≠ 0) :
    k1 ≠ k2 ∧ SameLocks files (decShare (decShare f2 j1).1 j2).1 := by
  have hfree : ∀ x ∈ f1, x.key.fs ≠ 0 → x.ctr ≠ 0 := by
    intro x hx h0
    cases h1 with
    | @more j e g1 g2 g3 =>
      rcases List.mem_or_eq_of_mem_set hx with hx | rfl
      · exact (hc x hx h0).1
      · show (if acc = 0 then e.ctr + 1 else 0x100) ≠ 0
        split <;> omega
    | @first j e g1 g2 g3 =>
      rcases List.mem_or_eq_of_mem_set hx with hx | rfl
      · exact (hc x hx h0).1
      · show (if acc = 0 then 1 else 0x100) ≠ 0
        split <;> omega
  have hin : ∃ x, f1[j1 - 1]? = some x ∧ x.key = k1 ∧ 1 ≤ j1 := by
    cases h1 with
    | @more j e g1 g2 g3 => exact ⟨_, by rw [Nat.add_sub_cancel, List.getElem?_set_self (List.getElem?_eq_some_iff.mp g1).1], rfl, by omega⟩
    | @first j e g1 g2 g3 => exact ⟨_, by rw [Nat.add_sub_cancel, List.getElem?_set_self (List.getElem?_eq_some_iff.mp g1).1], rfl, by omega⟩
  obtain ⟨x, hx, hxk, hj1⟩ := hin
  have hno : ∀ x ∈ f1, x.key ≠ k2 := by
    cases h2 with
    | @more j e g1 g2 g3 => exact absurd (g3.resolve_left (by decide)) (hfree e (List.mem_of_getElem? g1) (by rw [g2]; exact hk2))
    | @first j e g1 g2 g3 => exact g3
  have hne : k1 ≠ k2 := fun e => hno x (List.mem_of_getElem? hx) (hxk.trans e)
  refine ⟨hne, ?_⟩
  have hjj : j1 ≠ j2 := by
    rintro rfl
    cases h2 with
    | @more j e g1 g2 g3 => exact hno e (List.mem_of_getElem? g1) g2
    | @first j e g1 g2 g3 =>
      rw [Nat.add_sub_cancel] at hx
      cases hx.symm.trans g1
      rw [hxk] at g2
      exact hk1 g2
  have hcomm : (decShare (decShare f2 j1).1 j2).1 = (decShare (decShare f2 j2).1 j1).1 := by
    have hj2 : j2 ≠ 0 := by
      cases h2 with
      | more => omega
      | first => omega
    have hj1 : j1 ≠ 0 := by omega
    cases e1 : f2[j1 - 1]? with
    | none =>
      cases e2 : f2[j2 - 1]? with
      | none => rw [dec_none hj1 e1, dec_none hj2 e2, dec_none hj1 e1]
      | some b => rw [dec_none hj1 e1, dec_some hj2 e2, dec_none hj1 (by rw [List.getElem?_set_ne (by omega), e1])]
    | some a =>
      cases e2 : f2[j2 - 1]? with
      | none => rw [dec_none hj2 e2, dec_some hj1 e1, dec_none hj2 (by rw [List.getElem?_set_ne (by omega), e2])]
      | some b =>
        rw [dec_some hj1 e1, dec_some hj2 e2, dec_some hj2 (a := b) (by rw [List.getElem?_set_ne (by omega), e2]), dec_some hj1 (a := a) (by rw [List.getElem?_set_ne (by omega), e1])]
        exact List.set_comm _ _ (by omega)
  rw [hcomm]
  exact dec_taken h1 hk1 (fun x hx hxk => hc x hx (by rw [hxk]; exact hk1)) (dec_taken h2 hk2 (fun x hx e => absurd e (hno x hx)) (locks_refl _))

/-! ## The chains of both files -/

theorem rest_perm {m : List Nat} {F F' : List (List Nat)} (h : F.Perm F') : (withRest [] m F).Perm (withRest [] m F') := by
  rw [rest_nil, rest_nil]
  split
  · exact h
  · exact h.cons m

theorem opened_perm {v : Vol} {tm mode : Nat} {G : Goal} {T1 : List Dir} {F1 : List (List Nat)} {d : Dir} {R : List Dir} {F2 F3 : List (List Nat)} {o : Obj} {m : List Nat} (h : Opened v tm mode G T1 F1 d R F2 o m) (hp : F2.Perm F3) :
    ∃ F1', F1.Perm F1' ∧ Opened v tm mode G T1 F1' d R F3 o m := by
  cases h with
  | kept h1 h2 h3 h4 h5 => exact ⟨_, rest_perm hp, .kept h1 h2 h3 h4 h5⟩
  | wiped h1 h2 h3 h4 h5 h6 h7 h8 h9 h10 => exact ⟨_, rest_perm hp, .wiped h1 h2 h3 h4 h5 h6 h7 h8 h9 h10⟩
  | new h1 h2 h3 h4 h5 => exact ⟨_, hp, .new h1 h2 h3 h4 h5⟩

theorem opened_sclust {v : Vol} {tm mode : Nat} {G : Goal} {T1 : List Dir} {F1 : List (List Nat)} {d : Dir} {R : List Dir} {F2 : List (List Nat)} {o : Obj} {m : List Nat} (h : Opened v tm mode G T1 F1 d R F2 o m) :
    T1.map Dir.sclust = (d :: R).map Dir.sclust := by
  cases h <;> rfl

/-- Objects that are still there. -/
theorem opened_split {v : Vol} {tm mode : Nat} (hw : Wipes mode) {G : Goal} {T1 : List Dir} {F1 : List (List Nat)} {d : Dir} {R : List Dir} {F2 : List (List Nat)} {o : Obj} {m : List Nat} (h : Opened v tm mode G T1 F1 d R F2 o m) :
    m = [] ∧ ∃ x y, d.os = x ++ o :: y ∧ ∀ e ∈ T1, ∀ a ∈ e.os, (∀ cs, G ≠ .object e cs a) → e ∈ R ∨ e.sclust = d.sclust ∧ a ∈ x ++ y := by
  cases h with
  | kept h1 => exact absurd hw h1
  | @wiped d0 cs old o' x y R F m h1 h2 h3 h4 h5 h6 h7 h8 h9 h10 =>
    refine ⟨rfl, x, y, rfl, fun e he a ha hG => ?_⟩
    rcases List.mem_cons.mp he with rfl | he
    · refine .inr ⟨rfl, ?_⟩
      rw [h5] at ha
      rcases List.mem_append.mp ha with ha | ha
      · exact List.mem_append_left _ ha
      · rcases List.mem_cons.mp ha with rfl | ha
        · exact absurd rfl (hG cs)
        · exact List.mem_append_right _ ha
    · exact .inl he
  | @new d0 cs o x y loc R F h1 h2 h3 h4 h5 =>
    refine ⟨rfl, x, y, rfl, fun e he a ha hG => ?_⟩
    rcases List.mem_cons.mp he with rfl | he
    · exact .inr ⟨rfl, by rw [h2] at ha; exact ha⟩
    · exact .inl he

theorem lone_perm {m : List Nat} {F : List (List Nat)} (h : m = [] ∨ m ∈ F) : ∃ F3, F.Perm (F3 ++ lone m) := by
  by_cases e : m = []
  · subst e
    exact ⟨F, by rw [show lone [] = [] from rfl, List.append_nil]⟩
  · obtain ⟨a, b, rfl⟩ := List.append_of_mem (h.resolve_left e)
    refine ⟨a ++ b, ?_⟩
    rw [show lone m = [m] by unfold lone; simp [e], List.append_assoc]
    exact List.Perm.append_left _ (List.perm_append_singleton m b).symm

theorem win_apart {v : Vol} {i : Info} (hr : Ready v i) {T : List Dir} {F : List (List Nat)} {s : St} (h : Tree v i T F s) {d : Dir} (hd : d ∈ T) {n : Nat} (hn : n ∈ dirSecs v i d.loc) {l : List Nat} (hl : l ∈ F) : n ∉ secs v l := by
  obtain ⟨a, b, rfl⟩ := List.append_of_mem hd
  exact (dirs_apart hr (tree_perm List.perm_middle (List.Perm.refl _) h) hn).2 l hl

/-- A file that has just been opened, as one of several. -/
theorem fresh_ok {v : Vol} {i : Info} (hr : Ready v i) {C : List (List Nat)} {m : List Nat} {s : St} {fp : File} {D : List Nat} (hR : FatFile.Spec.Repr v C [] m s fp ⟨D, 0⟩) (hm : m = [] ∨ Links v.nFatent (tab v s) m) (h0 : fp.sect = 0) (hc : fp.dirty = false) :
    FatFile.Spec.FileOk v s ⟨m, fp, ⟨D, 0⟩⟩ := by
  have hp : fp.fptr = 0 := hR.at_.symm
  have hb := hr.data.pos
  refine ⟨hR.sclust, hR.buf, .inr ⟨hc, ?_⟩, fun _ hx => ?_, hR.size, hR.small, hR.pos, fun hx => ?_, fun hx => ?_, hR.noErr, hR.data, hR.at_⟩
  · rw [h0]
    intro hx
    have := own_data hx
    omega
  · rw [h0] at hx
    rcases hm with rfl | hm
    · cases hx
    · have := (chain_secs hr hm hx).2.2
      omega
  · exact absurd hx (by show ¬ 0 < fp.fptr; omega)
  · exact absurd (by rw [hp]; exact Nat.zero_mod _) hx

end Fpm.Tree
