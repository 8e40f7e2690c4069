import Verif.Zmodem.Props
import Verif.Zmodem.SessionSpec
/-!
# Lemmas about sessions
-/
namespace Fpm.Zmodem
open Fpm.Zmodem.Spec Fpm.Crc

variable {t : Target} {fs : Fs} {beyond : List Nat}

theorem run_add (n m : Nat) (c : Mode × Rz) (s : List Nat) : run t fs beyond (n + m) c s = (run t fs beyond n c s).then (run t fs beyond m) := by
  induction n generalizing c s with
  | zero => rw [Nat.zero_add, run, then_ok]
  | succ n ih =>
    rw [show n + 1 + m = (n + m) + 1 by omega, run, run]
    cases step t fs beyond c s with
    | ok a r => rw [then_ok, then_ok, ih]
    | wait => rfl
    | killed => rfl
    | ub => rfl

/-- With the input `w` the receiver gets from `c` to `c'` and leaves `q`. -/
def Reaches (t : Target) (fs : Fs) (beyond : List Nat) (c : Mode × Rz) (w : List Nat) (c' : Mode × Rz) (q : List Nat) : Prop :=
  ∃ n, ∀ r, run t fs beyond n c (w ++ r) = .ok c' (q ++ r)

theorem Reaches.refl (c : Mode × Rz) (w : List Nat) : Reaches t fs beyond c w c w := ⟨0, fun _ => rfl⟩

theorem Reaches.trans {c c' c'' : Mode × Rz} {w w' q q' : List Nat} (h : Reaches t fs beyond c w c' q) (h' : Reaches t fs beyond c' (q ++ w') c'' q') :
    Reaches t fs beyond c (w ++ w') c'' q' := by
  obtain ⟨n, hn⟩ := h
  obtain ⟨m, hm⟩ := h'
  refine ⟨n + m, fun r => ?_⟩
  rw [run_add, List.append_assoc, hn, then_ok, ← List.append_assoc, hm]

theorem Reaches.step {c c' : Mode × Rz} {w q : List Nat} (h : ∀ r, step t fs beyond c (w ++ r) = .ok c' (q ++ r)) : Reaches t fs beyond c w c' q := by
  refine ⟨1, fun r => ?_⟩
  rw [run, h, then_ok, run]

theorem Quiet.no24 {q : List Nat} (h : Quiet t q) : ∀ b ∈ q, b ≠ 24 := by
  intro b hb
  have := quiet_noise h b hb
  omega

theorem quiet_wire {q : List Nat} (h : Quiet t q) {p w : List Nat} (hw : Wire p w) : Wire p (q ++ w) := by
  obtain ⟨h, -⟩ := h
  generalize hp : ([] : List Nat) = e at h
  induction h with
  | nil => exact hw
  | noise n p' w' hn _ ih => exact .noise n _ _ hn (ih hp)
  | plain => cases hp
  | esc => cases hp
  | rub0 => cases hp
  | rub1 => cases hp

theorem quiet_sub {q : List Nat} (h : Quiet t q) {p cs w : List Nat} {e : Nat} (hs : Sub p e cs w) : Sub p e cs (q ++ w) := by
  obtain ⟨he, w1, w2, h1, h2, rfl⟩ := hs
  exact ⟨he, q ++ w1, w2, quiet_wire h h1, h2, by simp only [List.append_assoc]⟩

theorem quiet_header {q : List Nat} (h : Quiet t q) {in32 : Bool} {five w : List Nat} (hs : Header in32 five w) : Header in32 five (q ++ w) := by
  obtain ⟨junk, w1, hj, rfl, h1⟩ := hs
  exact ⟨q ++ junk, w1, nojunk h.no24 hj, by rw [List.append_assoc], h1⟩

theorem quiet_nil : Quiet t [] := ⟨.nil, by intro b hb; cases hb⟩

/-- What is known about the variables after `pos` bytes: `st` is the status of the file system. -/
structure At (z : Rz) (pos st : Nat) (log : List Op) : Prop where
  len : z.dataBuf.length = 2048
  recv : z.received = pos % 2 ^ 32
  fs : z.fsStatus = st
  log : z.log = log

theorem le4_mod (pos : Nat) : le4 (pos % 2 ^ 32) = le4 pos := by
  simp only [le4, List.cons.injEq, and_true]
  refine ⟨?_, ?_, ?_, ?_⟩ <;> omega

theorem reply_ready {m : List Nat} (md : Mode) (z : Rz) :
    ∃ b, Does ready (.send b) ∧ ∀ s, reply (sendFlagsHdr (0 :: m) 1 (0x02 ||| 0x20) 0 0 0) md z s = .ok (md, { z with log := z.log ++ [.send b] }) s := by
  obtain ⟨w, h1, h2⟩ := C48_flags_partial m 1 (0x02 ||| 0x20) 0 0 0 (by decide) (by decide) (by decide) (by decide) (by decide)
  exact ⟨w ++ [17], ⟨w, h1, rfl⟩, fun s => by rw [h2]; rfl⟩

theorem header5 {in32 : Bool} {five w : List Nat} (h : Header in32 five w) : five.length = 5 := by
  obtain ⟨_, _, _, _, h | ⟨_, h⟩⟩ := h
  · exact h.1
  · exact h.1

/-- A header is received. -/
theorem step_header {in32 : Bool} {ty : Nat} {four w : List Nat} (hw : Header in32 (ty :: four) w) (hc : Clean t w) (z : Rz) :
    ∃ hdr q, hdr.getD 0 0 = ty ∧ Quiet t q ∧ ∀ r, step t fs beyond (.start, z) (w ++ r) = onHeader t fs beyond { z with h := ⟨OK, hdr, in32⟩ } (q ++ r) := by
  obtain ⟨cs, q, -, hq, h⟩ := awaitHeader_ok hw hc z.h
  refine ⟨hdrOf (ty :: four ++ cs), q, rfl, hq, fun r => ?_⟩
  rw [step, h r, then_ok, onResult, if_neg (show ¬ OK = CANCELLED by decide), if_pos rfl]

theorem len_of {f : Act → Op → Prop} {a : List Act} {b : List Op} (h : List.Forall₂ f a b) : a.length = b.length := h.length_eq

open Classical in
/-- A subpacket is received in a data frame. -/
theorem block_at {in32 : Bool} {p cs w : List Nat} {e : Nat} (hs : Sub p e cs w) (hc : Clean t w) (hl : cs.length = checkLen in32) (hp : p.length < 2048)
    {buf : List Nat} (hb : buf.length = 2048) :
    ∃ q buf', Quiet t q ∧ buf'.length = 2048 ∧ buf'.take (p.length + 1) = p ++ [e] ∧ ∀ r, readDataBlock t in32 buf DATA_BUF_LEN (w ++ r) =
      .ok (if Check in32 (p ++ [e]) cs then 512 + e else BAD_CRC, buf', p.length + 1) (q ++ r) := by
  obtain ⟨q, hq, h⟩ := readDataBlock_sub hs hc hl (buf := buf) (max := DATA_BUF_LEN) hp (by rw [hb, DATA_BUF_LEN])
  exact ⟨q, _, hq, by rw [put_len (by simp; omega), hb], put_take _ (by simp), h⟩

/-- A good block is written. -/
theorem write_block {m p : List Nat} {e : Nat} (hfs : Works fs) {z : Rz} {pos : Nat} (hz : z.received = pos % 2 ^ 32)
    (htk : z.dataBuf.take (p.length + 1) = p ++ [e]) (s : List Nat) :
    writeBlock fs (0 :: m) (512 + e) (p.length + 1) z s = afterWrite (0 :: m) (512 + e)
      { z with fsStatus := 0, log := z.log ++ [.write p], received := (pos + p.length) % 2 ^ 32 } s := by
  have h1 : z.dataBuf.take (p.length + 1 - 1) = p := by
    have := congrArg (List.take p.length) htk
    rwa [List.take_take, List.take_left, Nat.min_eq_left (by omega)] at this
  rw [writeBlock, h1]
  simp only
  rw [hfs.2, if_neg (by simp), if_neg (by simp), hz]
  simp only [Nat.add_sub_cancel, Nat.mod_add_mod]

theorem quiet_clean {q w : List Nat} (h : Quiet t q) (hw : Clean t w) : Clean t (q ++ w) := clean_append h.2 hw

theorem data_good {m : List Nat} (hfs : Works fs) {in32 : Bool} {p w : List Nat} {e : Nat} (hg : Good in32 p e w) (hc : Clean t w) {z : Rz} {pos : Nat}
    {log : List Op} (hz : At z pos 0 log) (hi : z.h.in32 = in32) :
    ∃ z' q, Quiet t q ∧ (∀ r, step t fs (0 :: m) (.data, z) (w ++ r) = afterWrite (0 :: m) (512 + e) z' (q ++ r)) ∧
      At z' (pos + p.length) 0 (log ++ [.write p]) ∧ z'.h.in32 = in32 := by
  obtain ⟨hp, cs, hs, hck⟩ := hg
  obtain ⟨q, buf', hq, hb, htk, h⟩ := block_at hs hc (check_len hck).1 hp hz.len
  refine ⟨{ z with dataBuf := buf', fsStatus := 0, log := z.log ++ [.write p], received := (pos + p.length) % 2 ^ 32 }, q, hq, fun r => ?_, ?_⟩
  · have he := fin_ok e hs.1.1 hs.1.2
    rw [step, onData, hi, h r, then_ok]
    simp only
    rw [if_pos hck, if_neg (by simp [hz.fs]), if_neg (by have := hs.1; unfold FrameEnd at this; unfold CANCELLED; omega), if_neg (by simp [he.1]),
      write_block (z := { z with dataBuf := buf' }) hfs hz.recv htk]
  · exact ⟨⟨hb, rfl, rfl, by rw [← hz.log]⟩, hi⟩

theorem reply_pos' {m : List Nat} (ty : Nat) {pos : Nat} (h : ty < 256) (md : Mode) {z : Rz} {log : List Op} {st : Nat} (hz : At z pos st log) :
    ∃ z' b, Does (.say ty (le4 pos)) (.send b) ∧ At z' pos st (log ++ [.send b]) ∧ z'.h = z.h ∧
      ∀ s, reply (sendPosHdr (0 :: m) ty z.received) md z s = .ok (md, z') s := by
  obtain ⟨w, h1, h2⟩ := C48_pos_partial m ty z.received h
  refine ⟨{ z with log := z.log ++ [.send (w ++ [17])] }, w ++ [17], ⟨w, ?_, rfl⟩, ⟨hz.len, hz.recv, hz.fs, by rw [← hz.log]⟩, rfl, fun s => ?_⟩
  · rw [hz.recv, le4_mod] at h1; exact h1
  · rw [h2]; rfl

theorem data_bad {m : List Nat} {in32 : Bool} {w : List Nat} (hg : Bad in32 w) (hc : Clean t w) {z : Rz} {pos : Nat} {log : List Op} (hz : At z pos 0 log)
    (hi : z.h.in32 = in32) : ∃ z' q b, Quiet t q ∧ (∀ r, step t fs (0 :: m) (.data, z) (w ++ r) = .ok (.start, z') (q ++ r)) ∧
      At z' pos 0 (log ++ [.send b]) ∧ Does (.say 9 (le4 pos)) (.send b) := by
  obtain ⟨p, e, cs, hp, hs, hcl, hck⟩ := hg
  obtain ⟨q, buf', hq, hb, htk, h⟩ := block_at hs hc hcl hp hz.len
  obtain ⟨z', b, g1, g2, -, g3⟩ := reply_pos' (m := m) 9 (by decide) .start (z := { z with dataBuf := buf' }) (pos := pos) (st := 0) (log := log)
    ⟨hb, hz.recv, hz.fs, hz.log⟩
  refine ⟨z', q, b, hq, fun r => ?_, g2, g1⟩
  rw [step, onData, hi, h r, then_ok]
  simp only
  rw [if_neg hck, if_neg (by simp [hz.fs]), if_neg (by decide), if_pos (by decide)]
  exact g3 _

/-- The subpackets of a data frame. -/
theorem frame_ok {m : List Nat} (hfs : Works fs) {in32 : Bool} {pos : Nat} {w data : List Nat} {acts : List Act} (hf : Frame in32 pos w data acts) (hc : Clean t w)
    {q0 : List Nat} (hq0 : Quiet t q0) {z : Rz} {log : List Op} (hz : At z pos 0 log) (hi : z.h.in32 = in32) :
    ∃ z' q ops, Quiet t q ∧ Reaches t fs (0 :: m) (.data, z) (q0 ++ w) (.start, z') q ∧ At z' (pos + data.length) 0 (log ++ ops) ∧
      List.Forall₂ Does acts ops := by
  induction hf generalizing q0 z log with
  | endsH pos p w hg =>
    obtain ⟨hp, cs, hs, hck⟩ := hg
    obtain ⟨z', q, hq, h, h2, h3⟩ := data_good (m := m) hfs ⟨hp, cs, quiet_sub hq0 hs, hck⟩ (quiet_clean hq0 hc) hz hi
    refine ⟨z', q, [.write p], hq, .step fun r => ?_, h2, .cons rfl .nil⟩
    rw [h r, afterWrite, if_pos (by decide)]
  | endsK pos p w hg =>
    obtain ⟨hp, cs, hs, hck⟩ := hg
    obtain ⟨z', q, hq, h, h2, h3⟩ := data_good (m := m) hfs ⟨hp, cs, quiet_sub hq0 hs, hck⟩ (quiet_clean hq0 hc) hz hi
    obtain ⟨z2, b, g1, g2, -, g3⟩ := reply_pos' (m := m) 3 (by decide) .start h2
    refine ⟨z2, q, [.write p, .send b], hq, .step fun r => ?_, ?_, .cons rfl (.cons g1 .nil)⟩
    · rw [h r, afterWrite, if_neg (by decide), if_neg (by decide), if_neg (by decide), if_pos (by decide), g3]
    · rwa [List.append_assoc] at g2
  | bad pos w hg =>
    obtain ⟨p, e, cs, hp, hs, hcl, hck⟩ := hg
    obtain ⟨z', q, b, hq, h, h2, h3⟩ := data_bad (fs := fs) (m := m) ⟨p, e, cs, hp, quiet_sub hq0 hs, hcl, hck⟩ (quiet_clean hq0 hc) hz hi
    exact ⟨z', q, _, hq, .step h, h2, .cons h3 .nil⟩
  | moreI pos p w rest data acts hg _ ih =>
    obtain ⟨hp, cs, hs, hck⟩ := hg
    obtain ⟨z', q, hq, h, h2, h3⟩ := data_good (m := m) hfs ⟨hp, cs, quiet_sub hq0 hs, hck⟩ (quiet_clean hq0 hc.left) hz hi
    obtain ⟨z2, q2, ops, k1, k2, k3, k4⟩ := ih hc.right hq h2 h3
    refine ⟨z2, q2, .write p :: ops, k1, ?_, ?_, .cons rfl k4⟩
    · rw [← List.append_assoc]
      refine Reaches.trans (.step fun r => ?_) k2
      rw [h r, afterWrite, if_neg (by decide), if_pos (by decide)]
    · rw [List.length_append, ← Nat.add_assoc]
      rwa [List.append_assoc] at k3
  | moreJ pos p w rest data acts hg _ ih =>
    obtain ⟨hp, cs, hs, hck⟩ := hg
    obtain ⟨z', q, hq, h, h2, h3⟩ := data_good (m := m) hfs ⟨hp, cs, quiet_sub hq0 hs, hck⟩ (quiet_clean hq0 hc.left) hz hi
    obtain ⟨z1, b, g1, g2, g4, g3⟩ := reply_pos' (m := m) 3 (by decide) .data h2
    obtain ⟨z2, q2, ops, k1, k2, k3, k4⟩ := ih hc.right hq g2 (by rw [g4, h3])
    refine ⟨z2, q2, .write p :: .send b :: ops, k1, ?_, ?_, .cons rfl (.cons g1 k4)⟩
    · rw [← List.append_assoc]
      refine Reaches.trans (.step fun r => ?_) k2
      rw [h r, afterWrite, if_neg (by decide), if_neg (by decide), if_pos (by decide), g3]
    · rw [List.length_append, ← Nat.add_assoc]
      simpa using k3

/-- The data frames of a file. -/
theorem frames_ok {m : List Nat} (hfs : Works fs) {pos : Nat} {w data : List Nat} {acts : List Act} (hf : Frames pos w data acts) (hc : Clean t w)
    {q0 : List Nat} (hq0 : Quiet t q0) {z : Rz} {log : List Op} (hz : At z pos 0 log) :
    ∃ z' q ops, Quiet t q ∧ Reaches t fs (0 :: m) (.start, z) (q0 ++ w) (.start, z') q ∧ At z' (pos + data.length) 0 (log ++ ops) ∧
      List.Forall₂ Does acts ops := by
  induction hf generalizing q0 z log with
  | nil pos => exact ⟨z, q0, [], hq0, by rw [List.append_nil]; exact .refl _ _, by rw [List.append_nil]; exact hz, .nil⟩
  | cons in32 pos four hw w rest data data' acts acts' hh hf _ ih =>
    obtain ⟨hdr, q1, h1, h2, h3⟩ := step_header (fs := fs) (beyond := 0 :: m) (quiet_header hq0 hh) (quiet_clean hq0 hc.left.left) z
    obtain ⟨z2, q2, ops2, k1, k2, k3, k4⟩ := frame_ok (m := m) hfs hf hc.left.right h2 (z := { z with h := ⟨OK, hdr, in32⟩ }) (log := log) ⟨hz.len, hz.recv, hz.fs, hz.log⟩ rfl
    obtain ⟨z3, q3, ops3, j1, j2, j3, j4⟩ := ih hc.right k1 k3
    refine ⟨z3, q3, ops2 ++ ops3, j1, ?_, ?_, List.rel_append k4 j4⟩
    · rw [← List.append_assoc, ← List.append_assoc]
      refine Reaches.trans (Reaches.trans (.step fun r => ?_) k2) j2
      rw [h3 r, onHeader]
      simp only
      rw [h1, if_neg (by decide), if_neg (by decide), if_neg (by decide), if_pos rfl]
    · rw [List.length_append, ← Nat.add_assoc, ← List.append_assoc]; exact j3

theorem cString_ok {name : List Nat} (h : ∀ b ∈ name, b ≠ 0) (r : List Nat) : cString (name ++ 0 :: r) = some name := by
  induction name with
  | nil => rfl
  | cons c s ih => rw [List.cons_append, cString, if_neg (h c (by simp)), ih (fun b hb => h b (by simp [hb]))]; rfl

/-- One file. -/
theorem file_ok {m : List Nat} (hfs : Works fs) {pos : Nat} {name w data : List Nat} {acts : List Act} (hf : File pos name w data acts) (hc : Clean t w)
    {q0 : List Nat} (hq0 : Quiet t q0) {z : Rz} {log : List Op} {st : Nat} (hz : At z pos st log) :
    ∃ z' q ops, Quiet t q ∧ Reaches t fs (0 :: m) (.start, z) (q0 ++ w) (.start, z') q ∧ At z' (pos + data.length) 0 (log ++ ops) ∧
      List.Forall₂ Does acts ops := by
  obtain ⟨in32, in32', four, four', info, h1, s, fr, h2, e, a, hn, hh1, hs, hfr, hh2, rfl, rfl⟩ := hf
  obtain ⟨hdr, q1, a1, a2, a3⟩ := step_header (fs := fs) (beyond := 0 :: m) (quiet_header hq0 hh1) (quiet_clean hq0 hc.left.left.left) z
  obtain ⟨hp, cs, hsub, hck⟩ := hs
  obtain ⟨q2, buf', b1, b2, b3, b4⟩ := block_at (in32 := in32) (quiet_sub a2 hsub) (quiet_clean a2 hc.left.left.right) (check_len hck).1 hp hz.len
  have he := fin_ok e hsub.1.1 hsub.1.2
  have hname : cString buf' = some name := by
    have : buf' = name ++ 0 :: (info ++ [e] ++ buf'.drop ((name ++ 0 :: info).length + 1)) := by
      conv => lhs; rw [← List.take_append_drop ((name ++ 0 :: info).length + 1) buf', b3]
      simp
    rw [this]; exact cString_ok hn _
  obtain ⟨z4, b, c1, c2, -, c3⟩ := reply_pos' (m := m) 9 (by decide) .start
    (z := { z with h := ⟨OK, hdr, in32⟩, dataBuf := buf', fsStatus := 0, log := z.log ++ [.open name] }) (pos := pos) (st := 0) (log := log ++ [.open name])
    ⟨b2, hz.recv, rfl, by simp [hz.log]⟩
  have r1 : Reaches t fs (0 :: m) (.start, z) (q0 ++ h1 ++ s) (.start, z4) q2 := by
    refine .step fun r => ?_
    rw [List.append_assoc, a3, onHeader]
    simp only
    rw [a1, if_neg (by decide), if_neg (by decide), if_pos rfl, onFile]
    simp only
    rw [← List.append_assoc, b4 r, then_ok]
    simp only
    rw [if_pos hck, if_neg (by have := hsub.1; unfold FrameEnd at this; unfold CANCELLED; omega), if_neg (by simp [he.1]), openFile]
    simp only
    rw [hname]
    simp only
    rw [hfs.1, if_neg (by simp)]
    exact c3 _
  obtain ⟨z5, q3, ops, d1, d2, d3, d4⟩ := frames_ok (m := m) hfs hfr hc.left.right b1 c2
  obtain ⟨hdr2, q4, f1, f2, f3⟩ := step_header (fs := fs) (beyond := 0 :: m) (quiet_header d1 hh2) (quiet_clean d1 hc.right) z5
  obtain ⟨b', g1, g2⟩ := reply_ready (m := m) .start { z5 with h := ⟨OK, hdr2, in32'⟩ }
  refine ⟨{ z5 with h := ⟨OK, hdr2, in32'⟩, log := z5.log ++ [.send b'] }, q4, [.open name, .send b] ++ ops ++ [.send b'], f2, ?_,
    ⟨d3.len, d3.recv, d3.fs, by simp [d3.log]⟩, ?_⟩
  · rw [← List.append_assoc, ← List.append_assoc, ← List.append_assoc]
    refine Reaches.trans (Reaches.trans r1 d2) (.step fun r => ?_)
    rw [f3 r, onHeader]
    simp only
    rw [f1, if_pos (by decide), g2]
  · have e1 : List.Forall₂ Does ([.opens name, .say 9 (le4 pos)] ++ a) ([.open name, .send b] ++ ops) := .cons rfl (.cons c1 d4)
    have e2 : List.Forall₂ Does [ready] [.send b'] := .cons g1 .nil
    exact List.rel_append e1 e2

/-- Several files; the receiver goes on counting. -/
theorem files_ok {m : List Nat} (hfs : Works fs) {pos : Nat} {w : List Nat} {acts : List Act} (hf : Files id pos w acts) (hc : Clean t w)
    {q0 : List Nat} (hq0 : Quiet t q0) {z : Rz} {log : List Op} {st : Nat} (hz : At z pos st log) :
    ∃ z' q ops pos' st', Quiet t q ∧ Reaches t fs (0 :: m) (.start, z) (q0 ++ w) (.start, z') q ∧ At z' pos' st' (log ++ ops) ∧
      (st' = if acts = [] then st else 0) ∧ List.Forall₂ Does acts ops := by
  induction hf generalizing q0 z log st with
  | nil pos => exact ⟨z, q0, [], pos, st, hq0, by rw [List.append_nil]; exact .refl _ _, by rw [List.append_nil]; exact hz, by simp, .nil⟩
  | cons pos name w rest data acts acts' hf _ ih =>
    obtain ⟨z1, q1, ops1, a1, a2, a3, a4⟩ := file_ok (m := m) hfs hf hc.left hq0 hz
    obtain ⟨z2, q2, ops2, pos', st', b1, b2, b3, b4, b5⟩ := ih hc.right a1 a3
    refine ⟨z2, q2, ops1 ++ ops2, pos', st', b1, ?_, by rwa [List.append_assoc] at b3, ?_, List.rel_append a4 b5⟩
    · rw [← List.append_assoc]; exact a2.trans b2
    · obtain ⟨_, _, _, _, _, _, _, _, _, _, _, _, _, _, _, _, _, h⟩ := hf
      rw [if_neg (by rw [h]; simp), b4]
      split <;> rfl

end Fpm.Zmodem
