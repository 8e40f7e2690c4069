import Verif.Tree.CpModel
import Verif.Tree.LifeProps
import Verif.Tree.HistLemmas
import Verif.FatFile.ManyProps
/-!
# Copying a file: lemmas
-/
namespace Fpm.Tree
open Fpm.Fat Fpm.Fat.Spec Fpm.FatFile Fpm.FatFile.Spec Fpm.FatSync Fpm.DirDev

/-! ## Reading -/

theorem modified_flush {v : Vol} {s : St} {fp : File} {k : St → File → FatFile.Out} {b : Bool} (h : fp.modified = b) (hk : ∀ t (f : File), f.modified = b → (k t f).fp.modified = b) : (flush v s fp k).fp.modified = b := by
  unfold flush
  split
  · split
    · exact hk _ _ h
    · exact h
  · exact hk _ _ h

theorem modified_fill {v : Vol} {s : St} {fp : File} {n : Nat} {k : St → File → FatFile.Out} {b : Bool} (h : fp.modified = b) (hk : ∀ t (f : File), f.modified = b → (k t f).fp.modified = b) : (fill v s fp n k).fp.modified = b := by
  unfold fill
  split
  · exact hk _ _ h
  · exact h

theorem modified_sector (v : Vol) (n : Nat) (s : St) (fp : File) : (readSector v n s fp).fp.modified = fp.modified := by
  unfold readSector
  split
  · rfl
  · split
    · unfold readDirect
      split <;> rfl
    · unfold readCached
      split
      · exact modified_flush rfl fun _ _ h => modified_fill h fun _ _ h => h
      · rfl

theorem modified_round (v : Vol) (s : St) (fp : File) (n : Nat) : (readRound v s fp n).fp.modified = fp.modified := by
  unfold readRound
  split
  · split
    · unfold entered
      split
      · rfl
      · split
        · rfl
        · split
          · rfl
          · exact modified_sector _ _ _ _
    · exact modified_sector _ _ _ _
  · rfl

theorem modified_loop (v : Vol) : ∀ (k : Nat) (s : St) (fp : File) (n : Nat) (acc : List Nat), (readLoop v k s fp n acc).fp.modified = fp.modified
  | 0, _, _, _, _ => rfl
  | k + 1, s, fp, n, acc => by
    unfold readLoop
    split
    · rfl
    · split
      · exact (modified_loop v k _ _ _ _).trans (modified_round v s fp n)
      · exact modified_round v s fp n

theorem modified_read (v : Vol) (s : St) (fp : File) (n : Nat) : (fRead v s fp n).fp.modified = fp.modified := by
  unfold fRead
  split
  · rfl
  · split
    · rfl
    · exact modified_loop _ _ _ _ _ _

/-- Reading from an unchanged file changes nothing that can be seen. -/
theorem read_quiet {v : Vol} (hg : Geo v) {s : St} (hi : Inv v s) {fp : File} (hm : fp.modified = false) (hd : fp.dirty = false) (n : Nat) :
    Quiet v s (fRead v s fp n).st ∧ (fRead v s fp n).fp.modified = false ∧ (fRead v s fp n).fp.dirty = false := by
  have h1 := (modified_read v s fp n).trans hm
  rcases tidy_read (keepsQuiet hg s) n (N := fp.objsize) (.inr ⟨.refl hi, hd, rfl⟩ : Tidy (Quiet v s) fp.objsize s fp) with h | ⟨h2, h3, -⟩
  · rw [h1] at h; cases h
  · exact ⟨h2, h1, h3⟩

theorem ran_read {K : Nat} {wr : Bool} {A B : Arr} {n r : Nat} {g : List Nat} (h : Ran K true wr A (.read n) r g B) : r = 0 ∧ g = (A.data.drop A.pos).take n ∧ B = ⟨A.data, A.pos + ((A.data.drop A.pos).take n).length⟩ := by
  cases h with
  | read => exact ⟨rfl, rfl, rfl⟩
  | denyRead _ h => cases h

theorem ran_put {K : Nat} {rd : Bool} {A B : Arr} {b : List Nat} {r : Nat} {g : List Nat} (h : Ran K rd true A (.write b) r g B) :
    r = 0 ∧ g = b.take (min b.length (limit K - A.pos)) ∧ B = ⟨overwrite A.data A.pos g, A.pos + min b.length (limit K - A.pos)⟩ := by
  cases h with
  | write _ k _ hk =>
    subst hk
    exact ⟨rfl, rfl, rfl⟩
  | denyWrite _ h => cases h

/-! ## The loop -/

/-- Both files while the loop runs: the destination has what has been read so far. -/
structure Halfway (v : Vol) (C : List (List Nat)) (m1 : List Nat) (D : List Nat) (s : St) (a b : File) (m2 : List Nat) (pos j : Nat) : Prop where
  desk : Desk v C s [⟨m2, b, ⟨D.take j, j⟩⟩, ⟨m1, a, ⟨D, pos⟩⟩]
  rd : a.canRead = true
  wr : b.canWrite = true
  fresh : a.modified = false
  clean : a.dirty = false
  changed : b.modified = true

/-- The chain of a file, if it has one. -/
def lone (m : List Nat) : List (List Nat) := [m].filter fun m => m ≠ []

theorem copy_loop_spec {v : Vol} (hg : Geo v) (hd : DataGeo v) (hs : Sound v) {C : List (List Nat)} {m1 D : List Nat} (hD : ∀ x ∈ D, x < 256) :
    ∀ (k : Nat) (s : St) (a b : File) (m2 : List Nat) (pos : Nat), Halfway v C m1 D s a b m2 pos pos → pos ≤ D.length → pos ≤ limit (capacity v (C ++ lone m1).flatten) → D.length - pos < k →
    ∃ m2' pos' j, Halfway v C m1 D (cpLoop v k s a b).st (cpLoop v k s a b).src (cpLoop v k s a b).dst m2' pos' j ∧ Beside v (C ++ lone m1) [] s (cpLoop v k s a b).st ∧
      j = min D.length (limit (capacity v (C ++ lone m1).flatten)) ∧ (cpLoop v k s a b).msg = if D.length ≤ limit (capacity v (C ++ lone m1).flatten) then none else some .noSpace
  | 0, _, _, _, _, _, _, _, _, h => absurd h (Nat.not_lt_zero _)
  | k + 1, s, a, b, m2, pos, h, hp, hK, hk => by
    -- reading
    obtain ⟨q, q1, q2⟩ := read_quiet hg h.desk.inv h.fresh h.clean 4096
    obtain ⟨m1', B, r1, r2, r3, -, r5⟩ := desk_step hg hd hs (L1 := [⟨m2, b, ⟨D.take pos, pos⟩⟩]) (L2 := []) (x := ⟨m1, a, ⟨D, pos⟩⟩) h.desk (.read 4096) trivial (fun e => by cases e)
    change Ran _ a.canRead _ _ _ (fRead v s a 4096).res (fRead v s a 4096).got _ at r1
    change Desk v C (fRead v s a 4096).st [⟨m2, b, ⟨D.take pos, pos⟩⟩, ⟨m1', (fRead v s a 4096).fp, B⟩] at r2
    change (fRead v s a 4096).fp.canRead = a.canRead at r3
    rw [h.rd] at r1 r3
    obtain ⟨e1, e2, e3⟩ := ran_read r1
    have hmm : m1' = m1 := by
      have c1 := (desk_repr (L1 := [⟨m2, b, ⟨D.take pos, pos⟩⟩]) (L2 := []) r2).toVolOk.chains
      rw [tab_same q.same] at c1
      exact chain_same c1 (desk_repr (L1 := [⟨m2, b, ⟨D.take pos, pos⟩⟩]) (L2 := []) h.desk).toVolOk.chains
    subst hmm
    have hq : Beside v (C ++ lone m1') [] s (fRead v s a 4096).st := by
      refine ⟨fun l hl => ?_, fun n _ h2 _ => q.same n h2⟩
      rw [tab_same q.same]
      have hch := h.desk.chains
      refine hch.chain l ?_
      rw [List.append_nil] at hl
      rcases List.mem_append.mp hl with hl | hl
      · exact List.mem_append_left _ hl
      · refine List.mem_append_right _ ?_
        unfold lone at hl
        have hl' := List.mem_filter.mp hl
        exact List.mem_filter.mpr ⟨by simpa using Or.inr (List.mem_singleton.mp hl'.1), hl'.2⟩
    clear r1 r5
    unfold cpLoop
    generalize fRead v s a 4096 = u at *
    obtain ⟨s1, a1, res1, got1, full1⟩ := u
    simp only at *
    subst e1 e2 e3
    rw [if_neg (fun z => z rfl)]
    have hlen : ((D.drop pos).take 4096).length = min 4096 (D.length - pos) := by rw [List.length_take, List.length_drop]
    by_cases h0 : ((D.drop pos).take 4096).length = 0
    · rw [if_pos h0]
      have hpos : pos = D.length := by omega
      subst hpos
      refine ⟨m2, _, D.length, ⟨r2, r3, h.wr, q1, q2, h.changed⟩, hq, by omega, ?_⟩
      rw [if_pos hK]
    · rw [if_neg h0]
      -- writing
      have hg0 : Arg (.write ((D.drop pos).take 4096)) := ⟨fun x hx => hD x (List.mem_of_mem_drop (List.mem_of_mem_take hx)), by rw [hlen]; omega⟩
      obtain ⟨m2', B, w1, w2, -, w4, w5⟩ := desk_step hg hd hs (L1 := []) (L2 := [⟨m1', a1, ⟨D, pos + ((D.drop pos).take 4096).length⟩⟩]) (x := ⟨m2, b, ⟨D.take pos, pos⟩⟩) r2 (.write ((D.drop pos).take 4096)) hg0 (fun e => by cases e)
      change Ran (capacity v ((C ++ []) ++ lone m1').flatten) _ b.canWrite _ _ (fWrite v s1 b ((D.drop pos).take 4096)).res (fWrite v s1 b ((D.drop pos).take 4096)).got _ at w1
      change Desk v C (fWrite v s1 b ((D.drop pos).take 4096)).st [⟨m2', (fWrite v s1 b ((D.drop pos).take 4096)).fp, B⟩, ⟨m1', a1, _⟩] at w2
      change (fWrite v s1 b ((D.drop pos).take 4096)).fp.canWrite = b.canWrite at w4
      change Others v (C ++ []) (lone m1') s1 (fWrite v s1 b ((D.drop pos).take 4096)).st at w5
      rw [List.append_nil] at w1 w5
      rw [h.wr] at w1 w4
      obtain ⟨f1, f2, f3⟩ := ran_put w1
      have hmod : (fWrite v s1 b ((D.drop pos).take 4096)).fp.modified = true := by
        have hnoerr := (r2.files _ (List.mem_cons_self)).noErr
        have f1' := f1
        unfold fWrite at f1' ⊢
        rw [if_neg (fun z => z hnoerr), if_neg (by rw [h.wr]; decide)] at f1' ⊢
        exact write_modified _ f1'
      have ho : Beside v (C ++ lone m1') [] s (fWrite v s1 b ((D.drop pos).take 4096)).st := by
        refine ⟨fun l hl => w5.1 l (by rwa [List.append_nil] at hl), fun n h1 h2 h3 => ?_⟩
        rw [List.append_nil] at h3
        exact (w5.2.1 n h1 h2 h3).trans (q.same n h2)
      generalize fWrite v s1 b ((D.drop pos).take 4096) = w at *
      obtain ⟨s2, b1, res2, got2, full2⟩ := w
      simp only at *
      subst f1 f2 f3
      rw [if_neg (fun z => z rfl)]
      generalize hKK : limit (capacity v (C ++ lone m1').flatten) = K at *
      have hB : overwrite (D.take pos) pos (((D.drop pos).take 4096).take (min ((D.drop pos).take 4096).length (K - pos))) = D.take (pos + min ((D.drop pos).take 4096).length (K - pos)) := by
        unfold overwrite
        generalize hn : min ((D.drop pos).take 4096).length (K - pos) = n
        have e1 : (D.take pos).take pos = D.take pos := by rw [List.take_take, Nat.min_self]
        have e2 : ((D.drop pos).take 4096).take n = (D.drop pos).take n := by rw [List.take_take, Nat.min_eq_left (by omega)]
        have e3 : ∀ k, (D.take pos).drop (pos + k) = [] := fun k => List.drop_eq_nil_of_le (by rw [List.length_take]; omega)
        rw [e1, e2, e3, List.append_nil, ← List.take_add]
      rw [hB] at w2
      by_cases hf : ((((D.drop pos).take 4096).take (min ((D.drop pos).take 4096).length (K - pos))).length ≠ ((D.drop pos).take 4096).length)
      · rw [if_pos hf]
        rw [List.length_take] at hf
        refine ⟨m2', _, _, ⟨w2, r3, w4, q1, q2, hmod⟩, ho, by omega, ?_⟩
        rw [if_neg (by omega)]
      · rw [if_neg hf]
        rw [List.length_take] at hf
        have e : min ((D.drop pos).take 4096).length (K - pos) = ((D.drop pos).take 4096).length := by omega
        rw [e] at w2
        obtain ⟨m3, pos3, j3, z1, z2, z3, z4⟩ := copy_loop_spec hg hd hs hD k s2 a1 b1 m2' (pos + ((D.drop pos).take 4096).length) ⟨w2, r3, w4, q1, q2, hmod⟩ (by omega) (by omega) (by omega)
        rw [hKK] at z3 z4
        refine ⟨m3, pos3, j3, z1, ⟨z2.1, fun n h1 h2 h3 => (z2.2 n h1 h2 h3).trans (ho.2 n h1 h2 h3)⟩, z3, z4⟩

end Fpm.Tree
