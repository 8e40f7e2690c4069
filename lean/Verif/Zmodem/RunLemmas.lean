import Verif.Zmodem.SessionLemmas
/-!
# Invariants of the receiver for any input
-/
namespace Fpm.Zmodem
open Fpm.Zmodem.Spec Fpm.Crc

variable {t : Target} {fs : Fs} {beyond : List Nat}

/-- A condition on value and rest of the input if there is a value. -/
def Part {α : Type} (P : α → List Nat → Prop) (o : Out α) : Prop := ∀ a r, o = .ok a r → P a r

theorem Post.part {α : Type} {P : α → List Nat → Prop} {x : Out α} (h : Post P x) : Part P x := fun _ _ hx => h.ok hx

theorem Part.pure {α : Type} {P : α → List Nat → Prop} {a : α} {r : List Nat} (h : P a r) : Part P (.ok a r) := by
  intro a' r' hx
  cases hx
  exact h

theorem Part.bind {α β : Type} {P : α → List Nat → Prop} {Q : β → List Nat → Prop} {x : Out α} {f : α → List Nat → Out β}
    (h : Part P x) (hf : ∀ a r, P a r → Part Q (f a r)) : Part Q (x.then f) := by
  cases x with
  | ok a r => exact hf a r (h a r rfl)
  | wait => intro a r hx; cases hx
  | killed => intro a r hx; cases hx
  | ub => intro a r hx; cases hx

theorem snoc_split {l pre post : List Op} {x y : Op} (h : l ++ [x] = pre ++ y :: post) :
    (post = [] ∧ l = pre ∧ x = y) ∨ ∃ post', post = post' ++ [x] ∧ l = pre ++ y :: post' := by
  rcases List.eq_nil_or_concat post with rfl | ⟨post', z, rfl⟩
  · left
    have := List.append_inj' h rfl
    exact ⟨rfl, this.1, by simpa using this.2⟩
  · right
    rw [List.concat_eq_append] at h ⊢
    have h2 : l ++ [x] = (pre ++ y :: post') ++ [z] := by rw [h]; simp
    have := List.append_inj' h2 rfl
    have hz : x = z := by simpa using this.2
    exact ⟨post', by rw [hz], this.1⟩

theorem orderly_nil : Orderly [] where
  write := fun pre d post h => by simp at h
  close := fun pre post h => by simp at h
  send := fun pre b post h => by simp at h

theorem orderly_send {log : List Op} {b : List Nat} (h : Orderly log) (hc : Op.close ∉ log) (ha : Answer log b) : Orderly (log ++ [.send b]) where
  write := fun pre d post e => by
    rcases snoc_split e with ⟨-, -, h2⟩ | ⟨post', -, h2⟩
    · cases h2
    · exact h.write pre d post' h2
  close := fun pre post e => by
    rcases snoc_split e with ⟨-, -, h2⟩ | ⟨post', -, h2⟩
    · cases h2
    · exact absurd (by rw [h2]; simp) hc
  send := fun pre b' post e => by
    rcases snoc_split e with ⟨-, h1, h2⟩ | ⟨post', -, h2⟩
    · cases h2; rw [← h1]; exact ha
    · exact h.send pre b' post' h2

theorem orderly_open {log : List Op} {name : List Nat} (h : Orderly log) (hc : Op.close ∉ log) : Orderly (log ++ [.open name]) where
  write := fun pre d post e => by
    rcases snoc_split e with ⟨-, -, h2⟩ | ⟨post', -, h2⟩
    · cases h2
    · exact h.write pre d post' h2
  close := fun pre post e => by
    rcases snoc_split e with ⟨-, -, h2⟩ | ⟨post', -, h2⟩
    · cases h2
    · exact absurd (by rw [h2]; simp) hc
  send := fun pre b' post e => by
    rcases snoc_split e with ⟨-, -, h2⟩ | ⟨post', -, h2⟩
    · cases h2
    · exact h.send pre b' post' h2

theorem orderly_write {log : List Op} {d : List Nat} (h : Orderly log) (hc : Op.close ∉ log) (ho : ∃ name, Op.open name ∈ log) : Orderly (log ++ [.write d]) where
  write := fun pre d' post e => by
    rcases snoc_split e with ⟨-, h1, h2⟩ | ⟨post', -, h2⟩
    · rw [← h1]; exact ⟨ho, hc⟩
    · exact h.write pre d' post' h2
  close := fun pre post e => by
    rcases snoc_split e with ⟨-, -, h2⟩ | ⟨post', -, h2⟩
    · cases h2
    · exact absurd (by rw [h2]; simp) hc
  send := fun pre b' post e => by
    rcases snoc_split e with ⟨-, -, h2⟩ | ⟨post', -, h2⟩
    · cases h2
    · exact h.send pre b' post' h2

theorem orderly_close {log : List Op} (h : Orderly log) (hc : Op.close ∉ log) (ho : ∃ name, Op.open name ∈ log) : Orderly (log ++ [.close]) where
  write := fun pre d' post e => by
    rcases snoc_split e with ⟨-, -, h2⟩ | ⟨post', -, h2⟩
    · cases h2
    · exact h.write pre d' post' h2
  close := fun pre post e => by
    rcases snoc_split e with ⟨h0, h1, h2⟩ | ⟨post', -, h2⟩
    · rw [← h1]; exact ⟨ho, h0, hc⟩
    · exact absurd (by rw [h2]; simp) hc
  send := fun pre b' post e => by
    rcases snoc_split e with ⟨-, -, h2⟩ | ⟨post', -, h2⟩
    · cases h2
    · exact h.send pre b' post' h2

theorem total_append (a b : List Op) : total (a ++ b) = total a + total b := by
  induction a with
  | nil => simp [total]
  | cons x a ih => cases x <;> simp [total, ih, Nat.add_assoc]

theorem written_append (a b : List Op) : written (a ++ b) = written a ++ written b := by
  induction a with
  | nil => rfl
  | cons x a ih => cases x <;> simp [written, ih]

theorem carries_right {u : List Nat} {ps : List (List Nat)} (h : Carries u ps) (x : List Nat) : Carries (u ++ x) ps := by
  induction h with
  | nil w => exact .nil _
  | sub in32 pre p w rest e ps hg _ ih => rw [List.append_assoc]; exact .sub in32 pre p w _ e ps hg ih

theorem carries_snoc {u : List Nat} {ps : List (List Nat)} (h : Carries u ps) {in32 : Bool} {p w : List Nat} {e : Nat} (hg : GoodSub in32 p e w) (x : List Nat) :
    Carries (u ++ x ++ w) (ps ++ [p]) := by
  induction h with
  | nil u =>
    have := Carries.sub in32 (u ++ x) p w [] e [] hg (.nil [])
    simpa using this
  | sub in32' pre p' w' rest e' ps hg' _ ih =>
    have := Carries.sub in32' pre p' w' _ e' _ hg' ih
    simpa using this

/-- Invariant; `u` is the input read so far. -/
structure Inv (u : List Nat) (c : Mode × Rz) : Prop where
  len : c.2.dataBuf.length = 2048
  log : Orderly c.2.log
  going : c.1 ≠ .done → Op.close ∉ c.2.log ∧ c.2.received = total c.2.log % 2 ^ 32 ∧ (c.2.fsStatus = 0 → ∃ name, Op.open name ∈ c.2.log)
  carries : Carries u (written c.2.log)

/-- The same while the program runs. -/
structure Run (u : List Nat) (z : Rz) : Prop where
  len : z.dataBuf.length = 2048
  log : Orderly z.log
  noclose : Op.close ∉ z.log
  recv : z.received = total z.log % 2 ^ 32
  opened : z.fsStatus = 0 → ∃ name, Op.open name ∈ z.log
  carries : Carries u (written z.log)

theorem Run.inv {u : List Nat} {z : Rz} (h : Run u z) (m : Mode) : Inv u (m, z) :=
  ⟨h.len, h.log, fun _ => ⟨h.noclose, h.recv, h.opened⟩, h.carries⟩

theorem Inv.run {u : List Nat} {m : Mode} {z : Rz} (h : Inv u (m, z)) (hm : m ≠ .done) : Run u z :=
  ⟨h.len, h.log, (h.going hm).1, (h.going hm).2.1, (h.going hm).2.2, h.carries⟩

theorem Run.more {u : List Nat} {z : Rz} (h : Run u z) (x : List Nat) : Run (u ++ x) z := { h with carries := carries_right h.carries x }

theorem Run.cleanup {u : List Nat} {z : Rz} (h : Run u z) : Inv u (.done, cleanup z) := by
  rw [Zmodem.cleanup]
  split
  · rename_i h0
    exact ⟨h.len, orderly_close h.log h.noclose (h.opened h0), fun hm => absurd rfl hm, by
      simp only [written_append, written, List.append_nil]; exact h.carries⟩
  · exact h.inv .done

theorem Run.send {u : List Nat} {z : Rz} (h : Run u z) {b : List Nat} (ha : Answer z.log b) : Run u { z with log := z.log ++ [.send b] } where
  len := h.len
  log := orderly_send h.log h.noclose ha
  noclose := by simp [h.noclose]
  recv := by simp only [total_append, total, Nat.add_zero]; exact h.recv
  opened := fun h0 => by obtain ⟨n, hn⟩ := h.opened h0; exact ⟨n, by simp [hn]⟩
  carries := by simp only [written_append, written, List.append_nil]; exact h.carries

theorem reply_pos_run {m u : List Nat} {z : Rz} (h : Run u z) (ty : Nat) (hty : ty = 3 ∨ ty = 6 ∨ ty = 9) (md : Mode) (s : List Nat) :
    Part (fun c r => r = s ∧ ∃ b, Answer z.log b ∧ c = (md, { z with log := z.log ++ [.send b] })) (reply (sendPosHdr (0 :: m) ty z.received) md z s) := by
  obtain ⟨w, h1, h2⟩ := C48_pos_partial m ty z.received (by omega)
  rw [h2]
  refine Part.pure ⟨rfl, w ++ [17], ⟨.say ty (le4 (total z.log)), ⟨w, ?_, rfl⟩, .inr (.inr ⟨ty, hty, rfl⟩)⟩, rfl⟩
  rw [h.recv, le4_mod] at h1; exact h1

theorem reply_run {m u s0 : List Nat} {z : Rz} (h : Run u z) (ty : Nat) (hty : ty = 3 ∨ ty = 6 ∨ ty = 9) (md : Mode) (s : List Nat) (hs : ∃ w, s0 = w ++ s)
    : Part (fun c r => (∃ w, s0 = w ++ r) ∧ Inv u c) (reply (sendPosHdr (0 :: m) ty z.received) md z s) := by
  intro c r hx
  obtain ⟨rfl, b, hb, rfl⟩ := reply_pos_run h ty hty md s c r hx
  exact ⟨hs, (h.send hb).inv md⟩

/-- One pass keeps the invariant. -/
theorem step_inv {m u : List Nat} {c : Mode × Rz} (h : Inv u c) (s : List Nat) (hs : ∀ b ∈ s, b < 256) :
    Part (fun c' r => ∃ w, s = w ++ r ∧ Inv (u ++ w) c') (step t fs (0 :: m) c s) := by
  obtain ⟨md, z⟩ := c
  cases md with
  | done => exact Part.pure ⟨[], rfl, by rw [List.append_nil]; exact h⟩
  | start =>
    have h := h.run (by simp)
    rw [step]
    refine (awaitLoop_post t z.h _ s hs).part.bind fun h' r ⟨pre, w, e1, _, _⟩ => ?_
    have hr := suffix_bytes hs e1
    have h1 : Run (u ++ (pre ++ w)) { z with h := h' } := { h.more (pre ++ w) with }
    -- a reply with a position
    have hrep : ∀ ty, (ty = 3 ∨ ty = 6 ∨ ty = 9) → ∀ md, Part (fun c' r => ∃ w, s = w ++ r ∧ Inv (u ++ w) c')
        (reply (sendPosHdr (0 :: m) ty z.received) md { z with h := h' } r) := by
      intro ty hty md c' r' hx
      obtain ⟨rfl, b, hb, rfl⟩ := reply_pos_run h1 ty hty md r c' r' hx
      exact ⟨pre ++ w, e1, (h1.send hb).inv md⟩
    rw [onResult]
    split
    · exact Part.pure ⟨pre ++ w, e1, h1.cleanup⟩
    split
    · rw [onHeader]
      simp only
      split
      · obtain ⟨b, hb1, hb2⟩ := reply_ready (m := m) .start { z with h := h' }
        rw [hb2]
        exact Part.pure ⟨pre ++ w, e1, (h1.send ⟨_, hb1, .inl rfl⟩).inv .start⟩
      split
      · obtain ⟨w8, g1, g2⟩ := C48_pos_partial m 8 0 (by decide)
        rw [g2, reply, then_ok]
        exact Part.pure ⟨pre ++ w, e1, (h1.send ⟨.say 8 (le4 0), ⟨w8, g1, rfl⟩, .inr (.inl rfl)⟩).cleanup⟩
      split
      · rw [onFile]
        refine (readDataBlock_post t _ _ _ r hr (by show DATA_BUF_LEN ≤ z.dataBuf.length; rw [h.len, DATA_BUF_LEN])).part.bind fun x r2 ⟨w2, p, k1, k2, k3, k4, _⟩ => ?_
        obtain ⟨res, buf', n⟩ := x
        simp only at k2 k3 k4 ⊢
        have hlen : buf'.length = 2048 := by
          rw [k2, put_len (by rw [h.len]; unfold DATA_BUF_LEN at k4; omega), h.len]
        have e2 : s = (pre ++ w ++ w2) ++ r2 := by rw [e1, k1, List.append_assoc (pre ++ w)]
        have h2 : Run (u ++ (pre ++ w ++ w2)) { z with h := h', dataBuf := buf' } := { h.more _ with len := hlen }
        split
        · exact Part.pure ⟨_, e2, h2.cleanup⟩
        split
        · exact Part.pure ⟨_, e2, h2.inv .start⟩
        · rw [openFile]
          split
          · intro a b hx; cases hx
          · rename_i name _
            simp only
            have h3 : Run (u ++ (pre ++ w ++ w2)) { z with h := h', dataBuf := buf', fsStatus := fs.openRes (z.log ++ [.open name]), log := z.log ++ [.open name] } :=
              ⟨hlen, orderly_open h.log h.noclose, by simp [h.noclose], by simp only [total_append, total, Nat.add_zero]; exact h.recv,
                fun _ => ⟨name, by simp⟩, by simp only [written_append, written, List.append_nil]; exact h2.carries⟩
            split
            · exact Part.pure ⟨_, e2, h3.cleanup⟩
            · intro c' r' hx
              obtain ⟨rfl, b, hb, rfl⟩ := reply_pos_run h3 9 (by simp) .start r2 c' r' hx
              exact ⟨_, e2, (h3.send hb).inv .start⟩
      split
      · exact Part.pure ⟨pre ++ w, e1, h1.inv .data⟩
      · exact Part.pure ⟨pre ++ w, e1, h1.inv .start⟩
    · exact hrep 6 (by simp) .start
  | data =>
    have h := h.run (by simp)
    rw [step, onData]
    refine (readDataBlock_post t _ _ _ s hs (by show DATA_BUF_LEN ≤ z.dataBuf.length; rw [h.len, DATA_BUF_LEN])).part.bind fun x r2 ⟨w2, p, k1, k2, k3, k4, k5⟩ => ?_
    obtain ⟨res, buf', n⟩ := x
    simp only at k2 k3 k4 k5 ⊢
    have hlen : buf'.length = 2048 := by
      rw [k2, put_len (by rw [h.len]; unfold DATA_BUF_LEN at k4; omega), h.len]
    have h2 : Run (u ++ w2) { z with dataBuf := buf' } := { h.more _ with len := hlen }
    split
    · exact Part.pure ⟨_, k1, h2.cleanup⟩
    rename_i hst
    split
    · exact Part.pure ⟨_, k1, h2.cleanup⟩
    split
    · intro c' r' hx
      obtain ⟨rfl, b, hb, rfl⟩ := reply_pos_run h2 9 (by simp) .start r2 c' r' hx
      exact ⟨_, k1, (h2.send hb).inv .start⟩
    · rename_i herr
      obtain ⟨p0, e, rfl, -, hg⟩ := k5 (by simpa using herr)
      have htk : buf'.take (n - 1) = p0 := by
        rw [k2, k3]; simp [put]
      have hn : n - 1 = p0.length := by rw [k3]; simp
      rw [writeBlock]
      simp only
      rw [htk, hn]
      have hc : Carries (u ++ w2) (written (z.log ++ [.write p0])) := by
        have := carries_snoc h.carries hg []
        rw [written_append]; simpa [written] using this
      have ho : ∃ name, Op.open name ∈ z.log := h.opened (by simpa using hst)
      have q1 := orderly_write (d := p0) h.log h.noclose ho
      have q2 : Op.close ∉ z.log ++ [.write p0] := by simp [h.noclose]
      have q3 : ∃ name, Op.open name ∈ z.log ++ [.write p0] := by obtain ⟨n, hn⟩ := ho; exact ⟨n, by simp [hn]⟩
      have hcl : ∀ st, Inv (u ++ w2) (.done, cleanup { z with dataBuf := buf', fsStatus := st, log := z.log ++ [.write p0] }) := by
        intro st
        rw [cleanup]
        split
        · exact ⟨hlen, orderly_close q1 q2 q3, fun hm => absurd rfl hm, by
            rw [written_append]; simp only [written, List.append_nil]; exact hc⟩
        · exact ⟨hlen, q1, fun hm => absurd rfl hm, hc⟩
      split
      · exact Part.pure ⟨_, k1, hcl _⟩
      split
      · exact Part.pure ⟨_, k1, hcl _⟩
      · have h3 : Run (u ++ w2) { z with dataBuf := buf', fsStatus := (fs.writeRes (z.log ++ [.write p0])).1, log := z.log ++ [.write p0], received := (z.received + p0.length) % 2 ^ 32 } :=
          ⟨hlen, q1, q2, by
            show (z.received + p0.length) % 2 ^ 32 = _
            rw [h.recv, total_append, Nat.mod_add_mod]; simp [total], fun _ => q3, hc⟩
        rw [afterWrite]
        split
        · exact Part.pure ⟨_, k1, h3.inv .start⟩
        split
        · exact Part.pure ⟨_, k1, h3.inv .data⟩
        split
        · intro c' r' hx
          obtain ⟨rfl, b, hb, rfl⟩ := reply_pos_run h3 3 (by simp) .data r2 c' r' hx
          exact ⟨_, k1, (h3.send hb).inv .data⟩
        split
        · intro c' r' hx
          obtain ⟨rfl, b, hb, rfl⟩ := reply_pos_run h3 3 (by simp) .start r2 c' r' hx
          exact ⟨_, k1, (h3.send hb).inv .start⟩
        · exact Part.pure ⟨_, k1, h3.inv .data⟩

theorem run_inv {m : List Nat} (n : Nat) {u : List Nat} {c : Mode × Rz} (h : Inv u c) (s : List Nat) (hs : ∀ b ∈ s, b < 256) :
    Part (fun c' r => ∃ w, s = w ++ r ∧ Inv (u ++ w) c') (run t fs (0 :: m) n c s) := by
  induction n generalizing u c s with
  | zero => exact Part.pure ⟨[], rfl, by rw [List.append_nil]; exact h⟩
  | succ n ih =>
    rw [run]
    refine (step_inv h s hs).bind fun c1 r1 ⟨w1, e1, i1⟩ => ?_
    intro c2 r2 hx
    obtain ⟨w2, e2, i2⟩ := ih i1 r1 (suffix_bytes hs e1) c2 r2 hx
    exact ⟨w1 ++ w2, by rw [e1, e2, List.append_assoc], by rw [← List.append_assoc]; exact i2⟩

theorem init_inv {buf hdr : List Nat} (hb : buf.length = 2048) : Inv [] (init buf hdr) :=
  ⟨hb, orderly_nil, fun _ => ⟨by simp [init], by simp [init, total], fun h => by simp [init] at h⟩, .nil _⟩

end Fpm.Zmodem
