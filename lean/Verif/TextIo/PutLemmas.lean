import Verif.TextIo.IoLemmas

/-! # Writing well-formed text through the put buffer -/
namespace Fpm.TextIo
open Fpm.TextIo.Spec

/-- Putting several characters. -/
def runPut : PutBuff → List Nat → Option PutBuff
  | pb, [] => some pb
  | pb, c :: s => (putcBfd pb c).bind (runPut · s)

theorem runPut_append (pb : PutBuff) (a b : List Nat) :
    runPut pb (a ++ b) = (runPut pb a).bind (runPut · b) := by
  induction a generalizing pb with
  | nil => rfl
  | cons c a ih =>
    rw [List.cons_append, runPut, runPut]
    cases putcBfd pb c with
    | none => rfl
    | some q => simp only [Option.bind_some]; exact ih q

theorem putsLoop_run (pb : PutBuff) (s junk : List Nat) (h : 0 ∉ s) :
    putsLoop pb (s ++ 0 :: junk) = runPut pb s := by
  induction s generalizing pb with
  | nil => rfl
  | cons c s ih =>
    have hc : c ≠ 0 := by intro e; simp [e] at h
    have hs : 0 ∉ s := by intro e; simp [e] at h
    rw [List.cons_append, putsLoop, runPut, if_neg hc]
    cases putcBfd pb c with
    | none => rfl
    | some q => simp only [Option.bind_some]; exact ih q hs

theorem runPut_error (pb : PutBuff) (s : List Nat) (h : pb.buf = none) : runPut pb s = some pb := by
  induction s with
  | nil => rfl
  | cons c s ih =>
    rw [runPut]
    unfold putcBfd
    rw [h]
    exact ih

/-- Lead byte step. -/
theorem put_lead (f : WFile) (b : List Nat) (n x0 x1 x2 x3 wi c k : Nat) (h8 : ¬ c < 0x80)
    (hk : (if c &&& 0xF8 = 0xF0 then 3 else if c &&& 0xF0 = 0xE0 then 2
      else if c &&& 0xE0 = 0xC0 then 1 else 0) = k) :
    putcBfd ⟨f, some b, n, [x0, x1, x2, x3], wi, 0⟩ c =
      some ⟨f, some b, n, [c, x1, x2, x3], 0, k⟩ := by
  unfold putcBfd putCollect putFirst
  simp only [if_true, List.set_cons_zero]
  rw [if_neg h8]
  simp only [hk]
  rfl

theorem put_trail (f : WFile) (b : List Nat) (n : Nat) (bs : List Nat) (wi c k : Nat)
    (h : c &&& 0xC0 = 0x80) (hw : wi + 1 < 4) :
    putcBfd ⟨f, some b, n, bs, wi, k + 2⟩ c =
      some ⟨f, some b, n, bs.set (wi + 1) c, wi + 1, k + 1⟩ := by
  unfold putcBfd putCollect
  simp [h, hw]

/-- Last byte of a sequence. -/
theorem put_last (f : WFile) (b : List Nat) (n : Nat) (bs rest : List Nat) (wi c ch : Nat)
    (h : c &&& 0xC0 = 0x80) (hw : wi + 1 < 4) (hs : Scalar ch)
    (hb : bs.set (wi + 1) c = uenc ch ++ rest) (hl : b.length < 60) :
    putcBfd ⟨f, some b, n, bs, wi, 1⟩ c =
      some (putStore ⟨f, some b, n, uenc ch ++ rest, wi + 1, 0⟩ (b ++ uenc ch)
        (uenc ch).length) := by
  have hu := uenc_length ch
  have hlen : b.length + (uenc ch).length ≤ 64 := by omega
  unfold putcBfd putCollect
  simp [h, hw, hb, tchar2uni_enc ch hs rest, putBytes_eq ch hs, hlen]

theorem put_single (f : WFile) (b : List Nat) (n x0 x1 x2 x3 wi c : Nat)
    (h : c < 0x80) (hl : b.length < 60) :
    putcBfd ⟨f, some b, n, [x0, x1, x2, x3], wi, 0⟩ c =
      some (putStore ⟨f, some b, n, [c, x1, x2, x3], 0, 0⟩ (b ++ uenc c) (uenc c).length) := by
  have hs : Scalar c := ⟨by omega, by omega⟩
  have he : uenc c = [c] := by unfold uenc; rw [if_pos h]
  have ht := tchar2uni_enc c hs [x1, x2, x3]
  rw [he] at ht
  simp only [List.cons_append, List.nil_append] at ht
  have hp := putBytes_eq c hs
  unfold putcBfd putCollect putFirst
  simp only [if_true, List.set_cons_zero]
  rw [if_pos h]
  simp [ht, hp, he]
  omega

/-- A whole character. -/
theorem runPut_char (f : WFile) (b : List Nat) (n x0 x1 x2 x3 wi c : Nat) (h : Scalar c)
    (hl : b.length < 60) :
    ∃ y0 y1 y2 y3 wi', runPut ⟨f, some b, n, [x0, x1, x2, x3], wi, 0⟩ (uenc c) =
      some (putStore ⟨f, some b, n, [y0, y1, y2, y3], wi', 0⟩ (b ++ uenc c) (uenc c).length) := by
  have hb := h.1
  by_cases h1 : c < 0x80
  · refine ⟨c, x1, x2, x3, 0, ?_⟩
    rw [← put_single f b n x0 x1 x2 x3 wi c h1 hl]
    have he : uenc c = [c] := by unfold uenc; rw [if_pos h1]
    rw [he, runPut]
    cases putcBfd ⟨f, some b, n, [x0, x1, x2, x3], wi, 0⟩ c <;> rfl
  · by_cases h2 : c < 0x800
    · have he : uenc c = [192 + c / 64, 128 + c % 64] := by
        unfold uenc; rw [if_neg h1, if_pos h2]
      refine ⟨192 + c / 64, 128 + c % 64, x2, x3, 1, ?_⟩
      have hk : (if (192 + c / 64) &&& 0xF8 = 0xF0 then 3 else if (192 + c / 64) &&& 0xF0 = 0xE0 then 2
          else if (192 + c / 64) &&& 0xE0 = 0xC0 then 1 else 0) = 1 := by
        rw [if_neg (by rw [isLead4 _ (by omega)]; omega), if_neg (by rw [isLead3 _ (by omega)]; omega),
          if_pos ((isLead2 _ (by omega)).mpr (by omega))]
      have l := put_last f b n [192 + c / 64, x1, x2, x3] [x2, x3] 0 (128 + c % 64) c
        ((isTrail _ (by omega)).mpr (by omega)) (by decide) h (by rw [he]; rfl) hl
      rw [he] at l
      rw [he, runPut, put_lead f b n x0 x1 x2 x3 wi _ 1 (by omega) hk, Option.bind_some, runPut, l]
      rfl
    · by_cases h3 : c < 0x10000
      · have he : uenc c = [224 + c / 4096, 128 + c / 64 % 64, 128 + c % 64] := by
          unfold uenc; rw [if_neg h1, if_neg h2, if_pos h3]
        refine ⟨224 + c / 4096, 128 + c / 64 % 64, 128 + c % 64, x3, 2, ?_⟩
        have hk : (if (224 + c / 4096) &&& 0xF8 = 0xF0 then 3
            else if (224 + c / 4096) &&& 0xF0 = 0xE0 then 2
            else if (224 + c / 4096) &&& 0xE0 = 0xC0 then 1 else 0) = 2 := by
          rw [if_neg (by rw [isLead4 _ (by omega)]; omega),
            if_pos ((isLead3 _ (by omega)).mpr (by omega))]
        have l := put_last f b n [224 + c / 4096, 128 + c / 64 % 64, x2, x3] [x3] 1 (128 + c % 64) c
          ((isTrail _ (by omega)).mpr (by omega)) (by decide) h (by rw [he]; rfl) hl
        rw [he] at l
        rw [he, runPut, put_lead f b n x0 x1 x2 x3 wi _ 2 (by omega) hk, Option.bind_some, runPut,
          put_trail f b n _ 0 (128 + c / 64 % 64) 0 ((isTrail _ (by omega)).mpr (by omega))
            (by decide), Option.bind_some, runPut]
        simp only [List.set_cons_succ, List.set_cons_zero, Nat.zero_add]
        rw [l]
        rfl
      · have he : uenc c = [240 + c / 262144, 128 + c / 4096 % 64, 128 + c / 64 % 64, 128 + c % 64] := by
          unfold uenc; rw [if_neg h1, if_neg h2, if_neg h3]
        refine ⟨240 + c / 262144, 128 + c / 4096 % 64, 128 + c / 64 % 64, 128 + c % 64, 3, ?_⟩
        have hk : (if (240 + c / 262144) &&& 0xF8 = 0xF0 then 3
            else if (240 + c / 262144) &&& 0xF0 = 0xE0 then 2
            else if (240 + c / 262144) &&& 0xE0 = 0xC0 then 1 else 0) = 3 := by
          rw [if_pos ((isLead4 _ (by omega)).mpr (by omega))]
        have l := put_last f b n [240 + c / 262144, 128 + c / 4096 % 64, 128 + c / 64 % 64, x3] [] 2
          (128 + c % 64) c
          ((isTrail _ (by omega)).mpr (by omega)) (by decide) h (by rw [he]; rfl) hl
        rw [he] at l
        rw [he, runPut, put_lead f b n x0 x1 x2 x3 wi _ 3 (by omega) hk, Option.bind_some, runPut,
          put_trail f b n _ 0 (128 + c / 4096 % 64) 1 ((isTrail _ (by omega)).mpr (by omega))
            (by decide), Option.bind_some, runPut]
        simp only [List.set_cons_succ, List.set_cons_zero, Nat.zero_add]
        rw [put_trail f b n _ 1 (128 + c / 64 % 64) 0 ((isTrail _ (by omega)).mpr (by omega))
            (by decide), Option.bind_some, runPut]
        simp only [List.set_cons_succ, List.set_cons_zero]
        rw [l]
        rfl

/-- State of the put buffer after some text `t` has been put, starting with file `f0`. -/
inductive PutInv (f0 : WFile) (t : List Nat) : PutBuff → Prop
  | ok (f : WFile) (b : List Nat) (x0 x1 x2 x3 wi : Nat) (hl : b.length < 60)
      (hd : f.data ++ b = f0.data ++ t) (hr : f.room + f.data.length = f0.room + f0.data.length) :
      PutInv f0 t ⟨f, some b, t.length, [x0, x1, x2, x3], wi, 0⟩
  | err (pb : PutBuff) (hb : pb.buf = none) (hd : pb.file.data = f0.data ++ t.take f0.room)
      (hr : pb.file.room = 0) (ht : f0.room < t.length) : PutInv f0 t pb

theorem PutInv.step (f0 : WFile) (t : List Nat) (pb : PutBuff) (hi : PutInv f0 t pb) (c : Nat)
    (h : Scalar c) : ∃ q, runPut pb (uenc c) = some q ∧ PutInv f0 (t ++ uenc c) q := by
  cases hi with
  | err _ hb hd hr ht =>
    refine ⟨pb, runPut_error pb _ hb, .err pb hb ?_ hr (by simp; omega)⟩
    rw [hd, List.take_append_of_le_length (by omega)]
  | ok f b x0 x1 x2 x3 wi hl hd hr =>
    obtain ⟨y0, y1, y2, y3, wi', e⟩ := runPut_char f b t.length x0 x1 x2 x3 wi c h hl
    refine ⟨_, e, ?_⟩
    have hlen : f.data.length + b.length = f0.data.length + t.length := by
      rw [← List.length_append, hd, List.length_append]
    have hd' : f.data ++ (b ++ uenc c) = f0.data ++ (t ++ uenc c) := by
      rw [← List.append_assoc, hd, List.append_assoc]
    have hn : t.length + (uenc c).length = (t ++ uenc c).length := by rw [List.length_append]
    unfold putStore
    by_cases h60 : (b ++ uenc c).length ≥ 64 - 4
    · rw [if_pos h60]
      unfold fwrite
      by_cases hroom : (b ++ uenc c).length ≤ f.room
      · have e1 : min (b ++ uenc c).length f.room = (b ++ uenc c).length := by omega
        simp only [e1, if_true, List.take_length, hn]
        refine .ok _ [] _ _ _ _ _ (by simp) (by simpa using hd') ?_
        simp only [List.length_append] at hroom ⊢
        omega
      · have e1 : min (b ++ uenc c).length f.room = f.room := by omega
        simp only [e1]
        rw [if_neg (by omega)]
        refine .err _ rfl ?_ (by simp) ?_
        · show f.data ++ (b ++ uenc c).take f.room = f0.data ++ (t ++ uenc c).take f0.room
          have := congrArg (List.take (f.data.length + f.room)) hd'
          rw [List.take_length_add_append] at this
          rw [this, show f.data.length + f.room = f0.data.length + f0.room by omega,
            List.take_length_add_append]
        · simp only [List.length_append] at hroom ⊢
          omega
    · rw [if_neg h60]
      simp only [hn]
      exact .ok _ _ _ _ _ _ _ (by omega) hd' hr

theorem PutInv.run (f0 : WFile) (s : List Nat) (hs : ∀ c ∈ s, Scalar c) (t : List Nat)
    (pb : PutBuff) (hi : PutInv f0 t pb) :
    ∃ q, runPut pb (text s) = some q ∧ PutInv f0 (t ++ text s) q := by
  induction s generalizing t pb with
  | nil => exact ⟨pb, rfl, by simpa [text] using hi⟩
  | cons c s ih =>
    obtain ⟨q, e, hq⟩ := hi.step f0 t pb c (hs c (List.mem_cons_self ..))
    obtain ⟨r, e', hr⟩ := ih (fun d hd => hs d (List.mem_cons_of_mem _ hd)) _ _ hq
    refine ⟨r, ?_, ?_⟩
    · show runPut pb (uenc c ++ text s) = _
      rw [runPut_append, e]; exact e'
    · have : t ++ text (c :: s) = t ++ uenc c ++ text s := by simp [text]
      rw [this]; exact hr

theorem PutInv.flush (f0 : WFile) (t : List Nat) (pb : PutBuff) (hi : PutInv f0 t pb) :
    putcFlush pb = (if t.length ≤ f0.room then some t.length else none,
      { data := f0.data ++ t.take f0.room, room := f0.room - t.length }) := by
  cases hi with
  | err _ hb hd hr ht =>
    unfold putcFlush
    rw [hb, if_neg (by omega)]
    have : pb.file = ⟨pb.file.data, pb.file.room⟩ := rfl
    simp only []
    rw [this, hd, hr, show f0.room - t.length = 0 by omega]
  | ok f b x0 x1 x2 x3 wi hl hd hr =>
    have hlen : f.data.length + b.length = f0.data.length + t.length := by
      rw [← List.length_append, hd, List.length_append]
    unfold putcFlush fwrite
    simp only []
    by_cases hroom : b.length ≤ f.room
    · have e1 : min b.length f.room = b.length := by omega
      rw [e1, if_pos rfl, if_pos (by omega), List.take_length, hd,
        List.take_of_length_le (show t.length ≤ f0.room by omega)]
      have : f.room - b.length = f0.room - t.length := by omega
      rw [this]
    · have e1 : min b.length f.room = f.room := by omega
      rw [e1, if_neg (by omega), if_neg (by omega)]
      have := congrArg (List.take (f.data.length + f.room)) hd
      rw [List.take_length_add_append] at this
      rw [this, show f.data.length + f.room = f0.data.length + f0.room by omega,
            List.take_length_add_append]
      have : f.room - f.room = f0.room - t.length := by omega
      rw [this]

theorem uenc_no_zero (c : Nat) (h : c ≠ 0) : 0 ∉ uenc c := by
  unfold uenc
  split
  · simp; omega
  · split
    · simp; omega
    · split
      · simp; omega
      · simp; omega

theorem text_no_zero (s : List Nat) (h : ∀ c ∈ s, c ≠ 0) : 0 ∉ text s := by
  unfold text
  intro hm
  obtain ⟨c, hc, h0⟩ := List.mem_flatMap.mp hm
  exact uenc_no_zero c (h c hc) h0

/-- `f_puts` of a text: everything is appended and counted, or the disk is filled and the failure
is reported. -/
theorem fputs_text (s : List Nat) (h : Text s) (junk : List Nat) (f : WFile) :
    fputs (text s ++ 0 :: junk) f = some (
      if (text s).length ≤ f.room then some (text s).length else none,
      { data := f.data ++ (text s).take f.room, room := f.room - (text s).length }) := by
  unfold fputs
  rw [putsLoop_run _ _ _ (text_no_zero s (fun c hc => (h c hc).2))]
  have h0 : PutInv f [] (putcInit f) := .ok f [] 0 0 0 0 0 (by simp) (by simp) rfl
  obtain ⟨q, e, hq⟩ := h0.run f s (fun c hc => (h c hc).1)
  rw [e, Option.map_some, hq.flush]
  rfl

end Fpm.TextIo
