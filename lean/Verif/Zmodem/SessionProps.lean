import Verif.Zmodem.RunLemmas
/-!
# C47: received files; C69: names of received files
-/
namespace Fpm.Zmodem
open Fpm.Zmodem.Spec Fpm.Crc

/-- **C47.** Whatever arrives and whatever the file system answers: data are written to an open file
only; a file is closed once, as the last call; every position sent is the number of bytes written so
far; and the data written are, in order, payloads of subpackets with a good check in the input read.
(The memory behind the header buffer begins with a zero byte, see C48.) -/
theorem C47_orderly (t : Target) (fs : Fs) (m buf hdr s r : List Nat) (n : Nat) (md : Mode) (z : Rz) (hs : ∀ b ∈ s, b < 256) (hb : buf.length = 2048)
    (h : run t fs (0 :: m) n (init buf hdr) s = .ok (md, z) r) :
    Orderly z.log ∧ (md ≠ .done → Op.close ∉ z.log) ∧ ∃ u, s = u ++ r ∧ Carries u (written z.log) := by
  obtain ⟨u, h1, h2⟩ := run_inv n (init_inv (hdr := hdr) hb) s hs (md, z) r h
  exact ⟨h2.log, fun hm => (h2.going hm).1, u, h1, h2.carries⟩

/-! ## Conforming sessions -/

theorem run_done (t : Target) (fs : Fs) (beyond : List Nat) (n : Nat) (z : Rz) (s : List Nat) : run t fs beyond n (.done, z) s = .ok (.done, z) s := by
  induction n with
  | zero => rfl
  | succ n ih => rw [run, step, then_ok, ih]

theorem run_unique {t : Target} {fs : Fs} {beyond : List Nat} {n n' : Nat} {c : Mode × Rz} {s r r' : List Nat} {z z' : Rz}
    (h : run t fs beyond n c s = .ok (.done, z) r) (h' : run t fs beyond n' c s = .ok (.done, z') r') : z = z' := by
  have key : ∀ {a b : Nat} {z z' : Rz} {r r' : List Nat}, a ≤ b → run t fs beyond a c s = .ok (.done, z) r → run t fs beyond b c s = .ok (.done, z') r' → z = z' := by
    intro a b z z' r r' hab ha hb
    obtain ⟨k, rfl⟩ := Nat.exists_eq_add_of_le hab
    rw [run_add, ha, then_ok, run_done] at hb
    simp only [Out.ok.injEq, Prod.mk.injEq, true_and] at hb
    exact hb.1
  rcases Nat.le_total n n' with hn | hn
  · exact key hn h h'
  · exact (key hn h' h).symm

/-- **C47, sessions.** What the receiver does in a session with any number of files if positions go on
counting from file to file: besides the acts of the session, it closes one file at the end (if any was
opened). -/
theorem C47_session (t : Target) (fs : Fs) (m w buf hdr : List Nat) (acts : List Act) (hfs : Works fs) (hc : Clean t w) (hw : Session id w acts) (hb : buf.length = 2048) :
    ∃ n z q ops, (∀ r, run t fs (0 :: m) n (init buf hdr) (w ++ r) = .ok (.done, z) (q ++ r)) ∧ (∀ x ∈ q, x = 17 ∨ x = 19) ∧ List.Forall₂ Does acts ops ∧
      ((∃ name, Act.opens name ∈ acts) ∧ z.log = ops ++ [.close] ∨ (∀ name, Act.opens name ∉ acts) ∧ z.log = ops) := by
  obtain ⟨in32, in32', four, four', h1, f, h2, a, hh1, hf, hh2, rfl, rfl⟩ := hw
  have i0 : At (init buf hdr).2 0 4 [] := ⟨hb, rfl, rfl, rfl⟩
  obtain ⟨hdr1, q1, a1, a2, a3⟩ := step_header (fs := fs) (beyond := 0 :: m) hh1 hc.left.left (init buf hdr).2
  obtain ⟨b1, b2, b3⟩ := reply_ready (m := m) .start { (init buf hdr).2 with h := ⟨OK, hdr1, in32⟩ }
  have r1 : Reaches t fs (0 :: m) (init buf hdr) h1 (.start, { (init buf hdr).2 with h := ⟨OK, hdr1, in32⟩, log := [.send b1] }) q1 := by
    refine .step fun r => ?_
    have := a3 r
    rw [show init buf hdr = (.start, (init buf hdr).2) from rfl, this, onHeader]
    simp only
    rw [a1, if_pos (by decide), b3]
    rfl
  obtain ⟨z2, q2, ops, pos', st', c1, c2, c3, c4, c5⟩ := files_ok (m := m) hfs hf hc.left.right a2
    (z := { (init buf hdr).2 with h := ⟨OK, hdr1, in32⟩, log := [.send b1] }) (log := [.send b1]) (st := 4) ⟨hb, rfl, rfl, rfl⟩
  obtain ⟨hdr3, q3, d1, d2, d3⟩ := step_header (fs := fs) (beyond := 0 :: m) (quiet_header c1 hh2) (quiet_clean c1 hc.right) z2
  obtain ⟨w8, g1, g2⟩ := C48_pos_partial m 8 0 (by decide)
  have r3 : Reaches t fs (0 :: m) (.start, z2) (q2 ++ h2) (.done, cleanup { z2 with h := ⟨OK, hdr3, in32'⟩, log := z2.log ++ [.send (w8 ++ [17])] }) q3 := by
    refine .step fun r => ?_
    rw [d3 r, onHeader]
    simp only
    rw [d1, if_neg (by decide), if_pos rfl, g2, reply, then_ok]
  obtain ⟨n, hn⟩ := Reaches.trans (Reaches.trans r1 c2) r3
  refine ⟨n, _, q3, .send b1 :: ops ++ [.send (w8 ++ [17])], hn, quiet_noise d2, ?_, ?_⟩
  · have e1 : List.Forall₂ Does (ready :: a) (.send b1 :: ops) := .cons b2 c5
    have e2 : List.Forall₂ Does [.say 8 (le4 0)] [.send (w8 ++ [17])] := .cons ⟨w8, g1, rfl⟩ .nil
    exact List.rel_append e1 e2
  · have hop : (∃ name, Act.opens name ∈ ready :: a ++ [.say 8 (le4 0)]) ↔ a ≠ [] := by
      constructor
      · rintro ⟨name, hn⟩ rfl
        simp [ready] at hn
      · intro hne
        cases hf with
        | nil => exact absurd rfl hne
        | cons _ name _ _ _ acts acts' hfile _ =>
          obtain ⟨_, _, _, _, _, _, _, _, _, _, _, _, _, _, _, _, _, rfl⟩ := hfile
          exact ⟨name, by simp⟩
    rw [cleanup]
    by_cases ha : a = []
    · rw [if_neg (by show ¬ z2.fsStatus = 0; rw [c3.fs, c4, if_pos ha]; decide)]
      refine .inr ⟨fun name hn => hop.mp ⟨name, hn⟩ ha, ?_⟩
      show z2.log ++ _ = _
      rw [c3.log]; simp
    · rw [if_pos (by show z2.fsStatus = 0; rw [c3.fs, c4, if_neg ha])]
      refine .inl ⟨hop.mpr ha, ?_⟩
      show z2.log ++ _ ++ _ = _
      rw [c3.log]; simp

/-- The data the acts write. -/
def dataOf : List Act → List Nat
  | [] => []
  | .writes d :: a => d ++ dataOf a
  | _ :: a => dataOf a

theorem dataOf_append (a b : List Act) : dataOf (a ++ b) = dataOf a ++ dataOf b := by
  induction a with
  | nil => rfl
  | cons x a ih => cases x <;> simp [dataOf, ih]

theorem frame_data {in32 : Bool} {pos : Nat} {w data : List Nat} {acts : List Act} (h : Frame in32 pos w data acts) : dataOf acts = data := by
  induction h with
  | endsH => simp [dataOf]
  | endsK => simp [dataOf]
  | bad => simp [dataOf]
  | moreI pos p w rest data acts _ _ ih => rw [dataOf, ih]
  | moreJ pos p w rest data acts _ _ ih => simp [dataOf, ih]

theorem frames_data {pos : Nat} {w data : List Nat} {acts : List Act} (h : Frames pos w data acts) : dataOf acts = data := by
  induction h with
  | nil => rfl
  | cons _ _ _ _ _ _ _ _ _ _ _ h _ ih => rw [dataOf_append, frame_data h, ih]

theorem written_does {acts : List Act} {ops : List Op} (h : List.Forall₂ Does acts ops) : (written ops).flatten = dataOf acts := by
  induction h with
  | nil => rfl
  | @cons a b _ _ h1 _ ih =>
    cases a <;> cases b <;> simp [Does] at h1 <;> simp [written, dataOf, ih, h1]

/-- No file is opened and nothing closed in data frames. -/
def Plain (a : Act) : Prop := (∃ ty four, a = .say ty four) ∨ ∃ d, a = .writes d

theorem frame_plain {in32 : Bool} {pos : Nat} {w data : List Nat} {acts : List Act} (h : Frame in32 pos w data acts) : ∀ a ∈ acts, Plain a := by
  induction h with
  | endsH => intro a ha; simp at ha; subst ha; exact .inr ⟨_, rfl⟩
  | endsK => intro a ha; simp at ha; rcases ha with rfl | rfl; exacts [.inr ⟨_, rfl⟩, .inl ⟨_, _, rfl⟩]
  | bad => intro a ha; simp at ha; subst ha; exact .inl ⟨_, _, rfl⟩
  | moreI _ _ _ _ _ _ _ _ ih => intro a ha; simp at ha; rcases ha with rfl | h; exacts [.inr ⟨_, rfl⟩, ih a h]
  | moreJ _ _ _ _ _ _ _ _ ih => intro a ha; simp at ha; rcases ha with rfl | rfl | h; exacts [.inr ⟨_, rfl⟩, .inl ⟨_, _, rfl⟩, ih a h]

theorem frames_plain {pos : Nat} {w data : List Nat} {acts : List Act} (h : Frames pos w data acts) : ∀ a ∈ acts, Plain a := by
  induction h with
  | nil => intro a ha; cases ha
  | cons _ _ _ _ _ _ _ _ _ _ _ h _ ih =>
    intro a ha
    rcases List.mem_append.mp ha with h2 | h2
    · exact frame_plain h a h2
    · exact ih a h2

theorem plain_ops {acts : List Act} {ops : List Op} (h : List.Forall₂ Does acts ops) (hp : ∀ a ∈ acts, Plain a) : ∀ o ∈ ops, (∃ b, o = .send b) ∨ ∃ d, o = .write d := by
  induction h with
  | nil => intro o ho; cases ho
  | @cons a b _ _ h1 _ ih =>
    intro o ho
    rcases List.mem_cons.mp ho with rfl | ho
    · rcases hp a (by simp) with ⟨ty, four, rfl⟩ | ⟨d, rfl⟩
      · cases o <;> simp [Does] at h1
        exact .inl ⟨_, rfl⟩
      · cases o <;> simp [Does] at h1
        exact .inr ⟨_, rfl⟩
    · exact ih (fun a ha => hp a (by simp [ha])) o ho

/-- **C47, one file** (partial: sessions with several files are described by `C47_session`, their
positions and closing are wrong, see `C47_positions_violated` and `C47_closes_violated`).  In a session with one file, where any
subpackets may have arrived damaged and been repeated, the receiver opens the file under its
name, writes exactly its contents, and closes it; the acts (and so all positions reported) are those
of the specification. -/
theorem C47_file_partial (t : Target) (fs : Fs) (m buf hdr name h1 f h2 data four four' : List Nat) (in32 in32' : Bool) (acts : List Act) (hfs : Works fs)
    (hc : Clean t (h1 ++ f ++ h2)) (hh1 : Header in32 (0 :: four) h1) (hf : File 0 name f data acts) (hh2 : Header in32' (8 :: four') h2) (hb : buf.length = 2048) :
    ∃ n z q ops b1 b2 b3, (∀ r, run t fs (0 :: m) n (init buf hdr) (h1 ++ f ++ h2 ++ r) = .ok (.done, z) (q ++ r)) ∧
      z.log = [.send b1, .open name, .send b2] ++ ops ++ [.send b3, .close] ∧ (∀ o ∈ ops, (∃ b, o = .send b) ∨ ∃ d, o = .write d) ∧
      (written ops).flatten = data ∧ List.Forall₂ Does (ready :: acts ++ [.say 8 (le4 0)]) (z.log.dropLast) := by
  have hfiles : Files id 0 f acts := by
    have := Files.cons (next := id) 0 name f [] data acts [] hf (.nil _)
    simpa using this
  obtain ⟨n, z, q, ops, e1, -, e3, e4⟩ := C47_session t fs m (h1 ++ f ++ h2) buf hdr (ready :: acts ++ [.say 8 (le4 0)]) hfs hc
    ⟨in32, in32', four, four', h1, f, h2, acts, hh1, hfiles, hh2, rfl, rfl⟩ hb
  obtain ⟨_, _, _, _, _, _, _, fr, _, _, a, _, _, _, hfr, _, _, rfl⟩ := hf
  replace e4 : z.log = ops ++ [.close] := by
    rcases e4 with ⟨-, h⟩ | ⟨h, -⟩
    · exact h
    · exact absurd (show Act.opens name ∈ _ by simp) (h name)
  have hl : z.log.dropLast = ops := by rw [e4, List.dropLast_concat]
  have e3' := e3
  rw [show ready :: ([.opens name, .say 9 (le4 0)] ++ a ++ [ready]) ++ [.say 8 (le4 0)] = [ready, .opens name, .say 9 (le4 0)] ++ (a ++ [ready, .say 8 (le4 0)]) by simp] at e3
  obtain ⟨o1, o2, rfl, k1, k2⟩ : ∃ o1 o2, ops = o1 ++ o2 ∧ List.Forall₂ Does [ready, .opens name, .say 9 (le4 0)] o1 ∧ List.Forall₂ Does (a ++ [ready, .say 8 (le4 0)]) o2 :=
    ⟨ops.take 3, ops.drop 3, (List.take_append_drop 3 ops).symm, by simpa using List.forall₂_take 3 e3, by simpa using List.forall₂_drop 3 e3⟩
  obtain ⟨o3, o4, rfl, k3, k4⟩ : ∃ o3 o4, o2 = o3 ++ o4 ∧ List.Forall₂ Does a o3 ∧ List.Forall₂ Does [ready, .say 8 (le4 0)] o4 :=
    ⟨o2.take a.length, o2.drop a.length, (List.take_append_drop _ o2).symm, by simpa using List.forall₂_take a.length k2, by simpa using List.forall₂_drop a.length k2⟩
  cases k1 with
  | @cons _ x1 _ _ d1 k1 =>
  cases k1 with
  | @cons _ x2 _ _ d2 k1 =>
  cases k1 with
  | @cons _ x3 _ _ d3 k1 =>
  cases k1
  cases k4 with
  | @cons _ x4 _ _ d4 k4 =>
  cases k4 with
  | @cons _ x5 _ _ d5 k4 =>
  cases k4
  cases x1 <;> simp [Does, ready] at d1
  cases x2 <;> simp [Does] at d2
  cases x3 <;> simp [Does] at d3
  cases x4 <;> simp [Does, ready] at d4
  cases x5 <;> simp [Does] at d5
  subst d2
  refine ⟨n, z, q, o3 ++ [.send _], _, _, _, e1, by rw [e4]; simp; exact ⟨rfl, rfl, rfl, rfl⟩, ?_, ?_, by rw [hl]; exact e3'⟩
  · intro o ho
    rcases List.mem_append.mp ho with h | h
    · exact plain_ops k3 (frames_plain hfr) o h
    · exact .inl ⟨_, by simpa using h⟩
  · rw [written_append, List.flatten_append, written_does k3, frames_data hfr]; simp [written]

/-! ### Concrete sessions -/

/-- One way to send bytes. -/
def toWire : List Nat → List Nat
  | [] => []
  | b :: p => (if b = 17 ∨ b = 19 ∨ b = 24 then [24, b + 64] else [b]) ++ toWire p

theorem toWire_ok {p : List Nat} (h : ∀ b ∈ p, b < 256) : Wire p (toWire p) := by
  induction p with
  | nil => exact .nil
  | cons b p ih =>
    have ih := ih fun x hx => h x (by simp [hx])
    have hb := h b (by simp)
    rw [toWire]
    split
    · exact .esc b p _ (by omega) ih
    · exact .plain b p _ hb (by omega) (by omega) (by omega) ih

theorem good_exists (p : List Nat) (e : Nat) (h : ∀ b ∈ p, b < 256) (hp : p.length < 2048) (he : FrameEnd e) : ∃ w, Good false p e w := by
  have hb : ∀ b ∈ p ++ [e], b < 256 := by
    intro b hb
    rcases List.mem_append.mp hb with h1 | h1
    · exact h b h1
    · unfold FrameEnd at he; simp at h1; omega
  have hck := (check16_iff hb).mpr rfl
  exact ⟨_, hp, _, ⟨he, _, _, toWire_ok h, toWire_ok (check_len hck).2, rfl⟩, hck⟩

theorem hdr_exists (ty : Nat) (h : ty < 256) : ∃ w, Header false [ty, 0, 0, 0, 0] w :=
  ⟨_, [], _, by simp, rfl, .inr ⟨rfl, C44_encode ty 0 0 0 0 h (by decide) (by decide) (by decide) (by decide)⟩⟩

theorem header_bytes {five w : List Nat} (h : HexHdr five w) : Clean pico w := hexHdr_clean rfl h

theorem good_clean {in32 : Bool} {p w : List Nat} {e : Nat} (h : Good in32 p e w) : Clean pico w := by
  obtain ⟨-, cs, hs, -⟩ := h
  exact fun b hb => ⟨sub_bytes hs b hb, (fun h => by simp [pico] at h), (fun h => by simp [pico] at h)⟩

/-- A header in hexadecimal. -/
def hexOf (ty : Nat) : List Nat := [42, 42, 24] ++ toHexHeader (hdrCrc ty 0 0 0 0)

theorem hexOf_ok (ty : Nat) (h : ty < 256) : Header false [ty, 0, 0, 0, 0] (hexOf ty) ∧ Clean pico (hexOf ty) := by
  have := C44_encode ty 0 0 0 0 h (by decide) (by decide) (by decide) (by decide)
  exact ⟨⟨[], _, by simp, rfl, .inr ⟨rfl, this⟩⟩, header_bytes this⟩

/-- The file `a` with the content `x` and the empty file `b`. -/
theorem two_files : ∃ w, Clean pico w ∧ ∀ next : Nat → Nat, next 0 = 0 → Session next w
    ([ready, .opens [97], .say 9 (le4 0), .writes [120], ready, .opens [98], .say 9 (le4 (next 1)), ready, .say 8 (le4 0)]) := by
  obtain ⟨s1, g1⟩ := good_exists [97, 0] 107 (by simp) (by simp) (by unfold FrameEnd; omega)
  obtain ⟨s2, g2⟩ := good_exists [120] 104 (by simp) (by simp) (by unfold FrameEnd; omega)
  obtain ⟨s3, g3⟩ := good_exists [98, 0] 107 (by simp) (by simp) (by unfold FrameEnd; omega)
  have h0 := hexOf_ok 0 (by decide)
  have h4 := hexOf_ok 4 (by decide)
  have h8 := hexOf_ok 8 (by decide)
  have h10 := hexOf_ok 10 (by decide)
  have h11 := hexOf_ok 11 (by decide)
  have f1 : File 0 [97] (hexOf 4 ++ s1 ++ (hexOf 10 ++ s2 ++ []) ++ hexOf 11) [120] ([.opens [97], .say 9 (le4 0)] ++ [.writes [120]] ++ [ready]) :=
    ⟨false, false, [0, 0, 0, 0], [0, 0, 0, 0], [], _, _, _, _, 107, _, by simp, h4.1, g1, .cons false 0 [0, 0, 0, 0] _ _ [] [120] [] _ [] h10.1 (.endsH 0 _ _ g2) (.nil _), h11.1, rfl, rfl⟩
  have f2 : ∀ k, File k [98] (hexOf 4 ++ s3 ++ [] ++ hexOf 11) [] ([.opens [98], .say 9 (le4 k)] ++ [] ++ [ready]) := fun k =>
    ⟨false, false, [0, 0, 0, 0], [0, 0, 0, 0], [], _, _, _, _, 107, _, by simp, h4.1, g3, .nil _, h11.1, rfl, rfl⟩
  refine ⟨hexOf 0 ++ ((hexOf 4 ++ s1 ++ (hexOf 10 ++ s2 ++ []) ++ hexOf 11) ++ ((hexOf 4 ++ s3 ++ [] ++ hexOf 11) ++ [])) ++ hexOf 8, ?_, ?_⟩
  · have c1 := good_clean g1
    have c2 := good_clean g2
    have c3 := good_clean g3
    have n : Clean pico [] := by intro b hb; cases hb
    exact clean_append (clean_append h0.2 (clean_append (clean_append (clean_append (clean_append h4.2 c1) (clean_append (clean_append h10.2 c2) n)) h11.2)
      (clean_append (clean_append (clean_append (clean_append h4.2 c3) n) h11.2) n))) h8.2
  · intro next h
    exact ⟨false, false, [0, 0, 0, 0], [0, 0, 0, 0], _, _, _, _, h0.1, .cons 0 [97] _ _ [120] _ _ (h ▸ f1) (.cons _ [98] _ _ [] _ _ (f2 _) (.nil _)), h8.1, rfl, by
      rw [h]; rfl⟩

/-- A file system that always succeeds. -/
def goodFs : Fs := ⟨fun _ => 0, fun log => (0, match log.getLast? with | some (.write d) => d.length | _ => 0)⟩

theorem goodFs_works : Works goodFs := ⟨fun _ => rfl, fun log d => by simp [goodFs]⟩

/-- **C47, full statement on positions**: in a session with any number of files, each file starts at
position 0. -/
def C47_positions_full : Prop :=
  ∀ (t : Target) (fs : Fs) (m w buf hdr : List Nat) (acts : List Act), Works fs → Clean t w → Session (fun _ => 0) w acts → buf.length = 2048 →
    ∃ n z r ops, run t fs (0 :: m) n (init buf hdr) w = .ok (.done, z) r ∧ List.Forall₂ Does acts ops ∧ ops = z.log.filter (· ≠ .close)

/-- `f_open`. -/
def isOpen : Op → Bool
  | .open _ => true
  | _ => false

/-- `f_close`. -/
def isClose : Op → Bool
  | .close => true
  | _ => false

/-- **C47, full statement on closing**: every file that was opened is closed. -/
def C47_closes_full : Prop :=
  ∀ (t : Target) (fs : Fs) (m w buf hdr : List Nat) (acts : List Act), Works fs → Clean t w → Session id w acts → buf.length = 2048 →
    ∃ n z r, run t fs (0 :: m) n (init buf hdr) w = .ok (.done, z) r ∧ z.log.countP isClose = z.log.countP isOpen

theorem does_noclose {a : List Act} {ops : List Op} (h : List.Forall₂ Does a ops) (ha : Act.closes ∉ a) : ∀ o ∈ ops, o ≠ .close := by
  induction h with
  | nil => simp
  | @cons a b _ _ h1 _ ih =>
    intro o ho
    rcases List.mem_cons.mp ho with rfl | ho
    · rintro rfl
      cases a <;> simp [Does] at h1
      simp at ha
    · exact ih (fun h => ha (by simp [h])) o ho

theorem hexHdr_inj {f f' w : List Nat} (h : HexHdr f w) (h' : HexHdr f' w) : f = f' := by
  obtain ⟨l, hb, cs, hc, rfl⟩ := h
  obtain ⟨l', hb', cs', hc', e⟩ := h'
  rw [List.append_assoc, List.append_assoc] at e
  have e := List.append_cancel_left e
  have := List.append_cancel_right e
  have := hexes_inj (by intro b hx; rcases List.mem_append.mp hx with h | h; exacts [hb b h, (check_len hc).2 b h])
    (by intro b hx; rcases List.mem_append.mp hx with h | h; exacts [hb' b h, (check_len hc').2 b h]) this
  exact (List.append_inj this (by rw [l, l'])).1

theorem does_say {ty ty' : Nat} {f f' : List Nat} {o : Op} (h : Does (.say ty f) o) (h' : Does (.say ty' f') o) : ty = ty' ∧ f = f' := by
  cases o <;> simp [Does] at h h'
  obtain ⟨w, h1, h2⟩ := h
  obtain ⟨w', h1', h2'⟩ := h'
  have : w = w' := by rw [h2] at h2'; exact List.append_cancel_right h2'
  subst this
  have := hexHdr_inj h1 h1'
  simpa using this

/-- The second file is asked for from where the first one ended. -/
theorem C47_positions_violated : ¬ C47_positions_full := by
  intro hf
  obtain ⟨w, hc, hw⟩ := two_files
  have hb : (List.replicate 2048 0 : List Nat).length = 2048 := List.length_replicate
  obtain ⟨n, z, r, ops, h1, h2, h3⟩ := hf pico goodFs [] w _ [] _ goodFs_works hc (hw (fun _ => 0) rfl) hb
  obtain ⟨n', z', q, ops', g1, -, g3, g4⟩ := C47_session pico goodFs [] w _ [] _ goodFs_works hc (hw id rfl) hb
  have g1 := g1 []
  rw [List.append_nil, List.append_nil] at g1
  have hz := run_unique h1 g1
  subst hz
  have hn := does_noclose g3 (by simp [ready])
  have : ops = ops' := by
    rw [h3]
    rcases g4 with ⟨-, g⟩ | ⟨-, g⟩
    · rw [g, List.filter_append, List.filter_eq_self.mpr (fun o ho => by simpa using hn o ho)]; simp
    · rw [g, List.filter_eq_self.mpr (fun o ho => by simpa using hn o ho)]
  subst this
  have a := List.Forall₂.get (i := 6) h2
  have b := List.Forall₂.get (i := 6) g3
  have hl := h2.length_eq
  simp at hl
  have := does_say (a (by simp) (by omega)) (b (by simp) (by omega))
  simp [le4] at this

/-- Two files are opened but only one is closed. -/
theorem C47_closes_violated : ¬ C47_closes_full := by
  intro hf
  obtain ⟨w, hc, hw⟩ := two_files
  have hb : (List.replicate 2048 0 : List Nat).length = 2048 := List.length_replicate
  obtain ⟨n, z, r, h1, h2⟩ := hf pico goodFs [] w _ [] _ goodFs_works hc (hw id rfl) hb
  obtain ⟨n', z', q, ops', g1, -, g3, g4⟩ := C47_session pico goodFs [] w _ [] _ goodFs_works hc (hw id rfl) hb
  have g1 := g1 []
  rw [List.append_nil, List.append_nil] at g1
  have hz := run_unique h1 g1
  subst hz
  have hn := does_noclose g3 (by simp [ready])
  have hop : ∀ (a : List Act) (o : List Op), List.Forall₂ Does a o → a.countP (fun x => match x with | .opens _ => true | _ => false) = o.countP isOpen := by
    intro a o h
    induction h with
    | nil => rfl
    | @cons a b _ _ h1 _ ih =>
      rw [List.countP_cons, List.countP_cons, ih]
      congr 1
      cases a <;> cases b <;> simp [Does] at h1 <;> simp [isOpen]
  have h5 := hop _ _ g3
  have h6 : ops'.countP isClose = 0 := List.countP_eq_zero.mpr fun o ho => by
    have := hn o ho
    cases o <;> simp [isClose] at this ⊢
  rcases g4 with ⟨-, g⟩ | ⟨-, g⟩
  · rw [g, List.countP_append, List.countP_append, h6, ← h5] at h2
    simp [ready, isOpen, isClose] at h2
  · rw [g, h6, ← h5] at h2
    simp [ready, isOpen, isClose] at h2

/-- Not vacuous: a session with two files exists, and one file in it has content. -/
example : ∃ w acts, Clean pico w ∧ Session id w acts ∧ Act.writes [120] ∈ acts :=
  let ⟨w, hc, hw⟩ := two_files
  ⟨w, _, hc, hw id rfl, by simp⟩

/-- A file `a` with the content `x`, whose first transmission arrives damaged. -/
example : ∃ w acts, Clean pico w ∧ File 0 [97] w [120] acts ∧ Act.say 9 (le4 0) ∈ acts := by
  obtain ⟨s1, g1⟩ := good_exists [97, 0] 107 (by simp) (by simp) (by unfold FrameEnd; omega)
  obtain ⟨s2, g2⟩ := good_exists [120] 104 (by simp) (by simp) (by unfold FrameEnd; omega)
  have h4 := hexOf_ok 4 (by decide)
  have h10 := hexOf_ok 10 (by decide)
  have h11 := hexOf_ok 11 (by decide)
  have hbad : Bad false (toWire [121] ++ [24, 104] ++ toWire [0, 0]) := by
    refine ⟨[121], 104, [0, 0], by simp, ⟨by unfold FrameEnd; omega, _, _, toWire_ok (by simp), toWire_ok (by simp), rfl⟩, rfl, fun h => ?_⟩
    have := (check16_iff (by simp)).mp h
    revert this
    decide +kernel
  refine ⟨hexOf 4 ++ s1 ++ (hexOf 10 ++ (toWire [121] ++ [24, 104] ++ toWire [0, 0]) ++ (hexOf 10 ++ s2 ++ [])) ++ hexOf 11, _, ?_,
    ⟨false, false, [0, 0, 0, 0], [0, 0, 0, 0], [], _, _, _, _, 107, _, by simp, h4.1, g1,
      .cons false 0 [0, 0, 0, 0] _ _ _ [] [120] _ _ h10.1 (.bad 0 _ hbad) (.cons false _ [0, 0, 0, 0] _ _ [] [120] [] _ [] h10.1 (.endsH _ _ _ g2) (.nil _)), h11.1, rfl, rfl⟩, by simp⟩
  have n : Clean pico [] := by intro b hb; cases hb
  have hb : Clean pico (toWire [121] ++ [24, 104] ++ toWire [0, 0]) := by
    unfold Clean; decide
  exact clean_append (clean_append (clean_append h4.2 (good_clean g1)) (clean_append (clean_append h10.2 hb) (clean_append (clean_append h10.2 (good_clean g2)) n))) h11.2

/-! ## C69: names -/

/-- **C69, full statement**: when a header ZFILE and a good subpacket arrive, the file that is opened has
the name in the subpacket: its bytes up to the first zero byte, or all of them. -/
def C69_full : Prop :=
  ∀ (t : Target) (fs : Fs) (m four p h1 s r : List Nat) (in32 : Bool) (e : Nat) (z : Rz), Clean t (h1 ++ s) → Header in32 (4 :: four) h1 → Good in32 p e s →
    z.dataBuf.length = 2048 → ∃ md z' r' rest, step t fs (0 :: m) (.start, z) (h1 ++ s ++ r) = .ok (md, z') r' ∧ z'.log = z.log ++ .open (p.takeWhile (· ≠ 0)) :: rest ∧
      ∀ name, Op.open name ∉ rest

theorem cString_take (l : List Nat) (h : 0 ∈ l) (x : List Nat) : cString (l ++ x) = some (l.takeWhile (· ≠ 0)) := by
  induction l with
  | nil => cases h
  | cons c l ih =>
    rw [List.cons_append, cString]
    by_cases hc : c = 0
    · rw [if_pos hc]; simp [hc]
    · rw [if_neg hc, ih (by rcases List.mem_cons.mp h with h | h; exact absurd h.symm hc; exact h), List.takeWhile_cons_of_pos (by simpa using hc)]; rfl

/-- What happens when a name arrives. -/
theorem name_step {t : Target} {fs : Fs} {m four p h1 s : List Nat} {in32 : Bool} {e : Nat} {z : Rz} (hc : Clean t (h1 ++ s)) (hh : Header in32 (4 :: four) h1)
    (hg : Good in32 p e s) (hz : z.dataBuf.length = 2048) :
    ∃ hdr q buf', buf'.length = 2048 ∧ buf' = p ++ [e] ++ z.dataBuf.drop (p.length + 1) ∧
      ∀ r, step t fs (0 :: m) (.start, z) (h1 ++ s ++ r) = openFile fs (0 :: m) { z with h := ⟨OK, hdr, in32⟩, dataBuf := buf' } (q ++ r) := by
  obtain ⟨hdr, q1, a1, a2, a3⟩ := step_header (fs := fs) (beyond := 0 :: m) hh hc.left z
  obtain ⟨hp, cs, hsub, hck⟩ := hg
  obtain ⟨q, buf', -, b2, b3, b5, b4⟩ := C45_block_partial t in32 p cs (q1 ++ s) z.dataBuf e 2048 (quiet_sub a2 hsub) (quiet_clean a2 hc.right) (check_len hck).1 hp (by omega)
  have he := fin_ok e hsub.1.1 hsub.1.2
  refine ⟨hdr, q, buf', by omega, by rw [← b5, ← b3, List.take_append_drop], fun r => ?_⟩
  rw [List.append_assoc, a3, onHeader]
  simp only
  rw [a1, if_neg (by decide), if_neg (by decide), if_pos rfl, onFile]
  simp only
  rw [← List.append_assoc, DATA_BUF_LEN, b4 r, then_ok]
  simp only
  rw [if_pos hck, if_neg (by have := hsub.1; unfold FrameEnd at this; unfold CANCELLED; omega), if_neg (by simp [he.1])]

/-- A name that is not terminated is continued with the frame end and what was in the buffer: from a
buffer full of zero bytes the name `a` becomes `ak`. -/
theorem C69_violated : ¬ C69_full := by
  intro hf
  obtain ⟨s, hg⟩ := good_exists [97] 107 (by simp) (by simp) (by unfold FrameEnd; omega)
  have h4 := hexOf_ok 4 (by decide)
  have hc := clean_append h4.2 (good_clean hg)
  obtain ⟨buf, hbuf⟩ : ∃ buf : List Nat, buf = List.replicate 2048 0 := ⟨_, rfl⟩
  have hl : (init buf []).2.dataBuf.length = 2048 := by rw [hbuf]; exact List.length_replicate
  obtain ⟨md, z', r', rest, h1, h2, -⟩ := hf pico goodFs [] [0, 0, 0, 0] [97] _ s [] false 107 (init buf []).2 hc h4.1 hg hl
  obtain ⟨hdr, q, buf', a1, a2, a3⟩ := name_step (fs := goodFs) (m := []) hc h4.1 hg hl
  rw [a3, openFile] at h1
  simp only at h1
  have : cString buf' = some [97, 107] := by
    rw [a2]
    show cString ([97, 107] ++ buf.drop 2) = _
    rw [hbuf, List.drop_replicate]
    rfl
  rw [this] at h1
  simp only at h1
  rw [if_neg (by simp [goodFs])] at h1
  obtain ⟨b, -, g⟩ := C48_pos_partial [] 9 0 (by decide)
  rw [show (init buf []).2.received = 0 from rfl, g, reply] at h1
  simp only [Out.ok.injEq, Prod.mk.injEq] at h1
  rw [← h1.1.2] at h2
  simp [init] at h2

/-- **C69.** If the subpacket contains a zero byte (as the protocol asks for), the file opened has exactly the name
before it, and it is the only one opened; if not (the part that is missing), the frame end and old contents of
the buffer go into the name, and without a zero byte there the buffer is read past its end. -/
theorem C69_name_partial (t : Target) (fs : Fs) (m four p h1 s r : List Nat) (in32 : Bool) (e : Nat) (z : Rz) (hc : Clean t (h1 ++ s)) (hh : Header in32 (4 :: four) h1)
    (hg : Good in32 p e s) (hz : z.dataBuf.length = 2048) (h0 : 0 ∈ p) :
    ∃ md z' r' rest, step t fs (0 :: m) (.start, z) (h1 ++ s ++ r) = .ok (md, z') r' ∧ z'.log = z.log ++ .open (p.takeWhile (· ≠ 0)) :: rest ∧
      ∀ name, Op.open name ∉ rest := by
  obtain ⟨hdr, q, buf', a1, a2, a3⟩ := name_step (fs := fs) (m := m) hc hh hg hz
  have hn : cString buf' = some (p.takeWhile (· ≠ 0)) := by rw [a2, List.append_assoc]; exact cString_take p h0 _
  rw [a3, openFile]
  simp only
  rw [hn]
  simp only
  split
  · rename_i h
    refine ⟨_, _, _, [], rfl, ?_, by simp⟩
    rw [cleanup, if_neg h]
  · obtain ⟨b, -, g⟩ := C48_pos_partial m 9 z.received (by decide)
    rw [g]
    exact ⟨_, _, _, [.send (b ++ [17])], rfl, by simp, by simp⟩

/-- Without a zero byte in the subpacket or behind it in the buffer, the behaviour is undefined. -/
theorem C69_ub (t : Target) (fs : Fs) (m four p h1 s r : List Nat) (in32 : Bool) (e : Nat) (z : Rz) (hc : Clean t (h1 ++ s)) (hh : Header in32 (4 :: four) h1)
    (hg : Good in32 p e s) (hz : z.dataBuf.length = 2048) (h0 : 0 ∉ p) (h0' : 0 ∉ z.dataBuf.drop (p.length + 1)) :
    step t fs (0 :: m) (.start, z) (h1 ++ s ++ r) = .ub := by
  obtain ⟨hdr, q, buf', a1, a2, a3⟩ := name_step (fs := fs) (m := m) hc hh hg hz
  have hn : ∀ l : List Nat, 0 ∉ l → cString l = none := by
    intro l hl
    induction l with
    | nil => rfl
    | cons c l ih => rw [cString, if_neg (by rintro rfl; simp at hl), ih (by intro h; exact hl (by simp [h]))]; rfl
  have he := hg.2.choose_spec.1.1
  rw [a3, openFile]
  simp only
  rw [hn]
  rw [a2]
  unfold FrameEnd at he
  simp [h0, h0']
  omega

/-- Not vacuous: a name with and one without a zero byte. -/
example : (∃ w, Good false [97, 0, 49] 107 w) ∧ ∃ w, Good false [97] 107 w :=
  ⟨good_exists _ _ (by simp) (by simp) (by unfold FrameEnd; omega), good_exists _ _ (by simp) (by simp) (by unfold FrameEnd; omega)⟩

end Fpm.Zmodem
