import Verif.TextIo.PutLemmas

/-! # What the decoder accepts, and memory safety for arbitrary bytes -/
namespace Fpm.TextIo
open Fpm.TextIo.Spec

theorem trailBytes_ne_none (nf uc : Nat) (p : List Nat) (h : nf ≤ p.length) :
    trailBytes nf uc p ≠ none := by
  induction nf generalizing uc p with
  | zero => simp [trailBytes]
  | succ n ih =>
    cases p with
    | nil => simp at h
    | cons b p =>
      rw [trailBytes]
      split
      · simp
      · exact ih _ _ (by simpa using h)

/-- A trailing-byte scan stops at a terminator. -/
theorem trailBytes_nul (nf uc : Nat) (p : List Nat) (h : 0 ∈ p) : trailBytes nf uc p ≠ none := by
  induction nf generalizing uc p with
  | zero => simp [trailBytes]
  | succ n ih =>
    cases p with
    | nil => simp at h
    | cons b p =>
      rw [trailBytes]
      split
      · simp
      · rename_i hb
        rcases List.mem_cons.mp h with h0 | h0
        · subst h0; simp at hb
        · exact ih _ _ h0

theorem leadByte_le (uc bits nf : Nat) (h : leadByte uc = some (bits, nf)) : nf ≤ 3 := by
  unfold leadByte at h
  split at h
  · cases h; decide
  · split at h
    · cases h; decide
    · split at h
      · cases h; decide
      · cases h

theorem tchar2uni_ne_none (s : List Nat) (h : 0 ∈ s ∨ 4 ≤ s.length) : tchar2uni s ≠ none := by
  cases s with
  | nil => simp at h
  | cons uc p =>
    rw [tchar2uni]
    split
    · simp
    · rename_i h8
      split
      · simp
      · rename_i bits nf hl
        have hn := leadByte_le _ _ _ hl
        have ht : trailBytes nf bits p ≠ none := by
          rcases h with h | h
          · rcases List.mem_cons.mp h with h0 | h0
            · subst h0; simp at h8
            · exact trailBytes_nul _ _ _ h0
          · exact trailBytes_ne_none _ _ _ (by simp at h; omega)
        cases e : trailBytes nf bits p with
        | none => exact absurd e ht
        | some r =>
          cases r with
          | none => simp
          | some v => obtain ⟨a, b⟩ := v; simp

theorem trailBytes_some (nf uc : Nat) (p : List Nat) (hb : ∀ b ∈ p, b < 256) (v : Nat)
    (r : List Nat) (h : trailBytes nf uc p = some (some (v, r))) :
    (nf = 0 ∧ v = uc ∧ p = r) ∨
    ∃ m a, nf = m + 1 ∧ a < 64 ∧ ∃ q, p = (128 + a) :: q ∧ trailBytes m (uc * 64 + a) q = some (some (v, r)) := by
  cases nf with
  | zero =>
    simp only [trailBytes, Option.some.injEq, Prod.mk.injEq] at h
    exact Or.inl ⟨rfl, h.1.symm, h.2⟩
  | succ m =>
    right
    cases p with
    | nil => simp [trailBytes] at h
    | cons b p =>
      by_cases ht : b &&& 0xC0 = 0x80
      · have hb' := (isTrail b (hb b (List.mem_cons_self ..))).mp ht
        obtain ⟨a, rfl⟩ : ∃ a, b = 128 + a := ⟨b - 128, by omega⟩
        rw [trail_step _ _ _ (by omega)] at h
        exact ⟨m, a, rfl, by omega, p, rfl, h⟩
      · rw [trailBytes, if_pos ht] at h
        cases h

theorem packUni_some (v w : Nat) (h : packUni v = some w) : Scalar v ∧ 0x80 ≤ v ∧ w = utf16 v := by
  have hsc : Scalar v ∧ 0x80 ≤ v := by
    unfold packUni at h
    split at h
    · cases h
    · rename_i hn
      simp [isSurrogate] at hn
      exact ⟨⟨by omega, by omega⟩, by omega⟩
  refine ⟨hsc.1, hsc.2, ?_⟩
  rw [packUni_eq v hsc.1 hsc.2] at h
  cases h; rfl

theorem leadByte_some (b bits nf : Nat) (hb : b < 256) (h : leadByte b = some (bits, nf)) :
    (b = 192 + bits ∧ bits < 32 ∧ nf = 1) ∨ (b = 224 + bits ∧ bits < 16 ∧ nf = 2) ∨
    (b = 240 + bits ∧ bits < 8 ∧ nf = 3) := by
  unfold leadByte at h
  by_cases h2 : b &&& 0xE0 = 0xC0
  · rw [if_pos h2, and_1f] at h
    rw [isLead2 b hb] at h2
    cases h
    left; omega
  · rw [if_neg h2] at h
    by_cases h3 : b &&& 0xF0 = 0xE0
    · rw [if_pos h3, and_0f] at h
      rw [isLead3 b hb] at h3
      cases h
      right; left; omega
    · rw [if_neg h3] at h
      by_cases h4 : b &&& 0xF8 = 0xF0
      · rw [if_pos h4, and_07] at h
        rw [isLead4 b hb] at h4
        cases h
        right; right; omega
      · rw [if_neg h4] at h; cases h

/-- Everything the decoder accepts spells a scalar value, possibly in an overlong form. -/
theorem tchar2uni_sound (s : List Nat) (hb : ∀ b ∈ s, b < 256) (w : Nat) (r : List Nat)
    (h : tchar2uni s = some (some (w, r))) :
    ∃ c, Scalar c ∧ w = utf16 c ∧ ∃ o, s = o ++ r ∧ (o = uenc c ∨ (0x80 ≤ c ∧ Overlong c o)) := by
  cases s with
  | nil => simp [tchar2uni] at h
  | cons b p =>
    have hb0 := hb b (List.mem_cons_self ..)
    have hbp := fun x hx => hb x (List.mem_cons_of_mem _ hx)
    by_cases h8 : b &&& 0x80 = 0
    · rw [tchar2uni, if_pos h8] at h
      rw [is80 b hb0] at h8
      simp only [Option.some.injEq, Prod.mk.injEq] at h
      obtain ⟨e1, e2⟩ := h
      subst w; subst r
      refine ⟨b, ⟨by omega, by omega⟩, ?_, [b], rfl, Or.inl ?_⟩
      · unfold utf16; rw [if_pos (by omega)]
      · unfold uenc; rw [if_pos h8]
    · rw [tchar2uni, if_neg h8] at h
      cases hl : leadByte b with
      | none => rw [hl] at h; cases h
      | some x =>
        obtain ⟨bits, nf⟩ := x
        rw [hl] at h
        simp only [] at h
        cases ht : trailBytes nf bits p with
        | none => rw [ht] at h; cases h
        | some y =>
          cases y with
          | none => rw [ht] at h; cases h
          | some vr =>
            obtain ⟨v, r'⟩ := vr
            rw [ht] at h
            simp only [Option.some.injEq] at h
            cases hp : packUni v with
            | none => rw [hp] at h; cases h
            | some w' =>
              rw [hp] at h
              simp only [Option.map_some, Option.some.injEq, Prod.mk.injEq] at h
              obtain ⟨hs, h80, hw⟩ := packUni_some v w' hp
              obtain ⟨e1, e2⟩ := h
              subst e1 e2
              refine ⟨v, hs, hw, ?_⟩
              have hv := hs.1
              rcases leadByte_some b bits nf hb0 hl with ⟨rfl, hx, rfl⟩ | ⟨rfl, hx, rfl⟩ | ⟨rfl, hx, rfl⟩
              · rcases trailBytes_some _ _ _ hbp _ _ ht with ⟨h0, _⟩ | ⟨m, a, hm, ha, q, rfl, hq⟩
                · cases h0
                · cases hm
                  rcases trailBytes_some _ _ _ (fun x hx => hbp x (List.mem_cons_of_mem _ hx)) _ _ hq
                    with ⟨_, hv', rfl⟩ | ⟨m, a', hm, _⟩
                  · refine ⟨[192 + bits, 128 + a], rfl, Or.inl ?_⟩
                    unfold uenc
                    rw [if_neg (by omega), if_pos (by omega)]
                    have q1 : v / 64 = bits := by omega
                    have q2 : v % 64 = a := by omega
                    rw [q1, q2]
                  · cases hm
              · rcases trailBytes_some _ _ _ hbp _ _ ht with ⟨h0, _⟩ | ⟨m, a, hm, ha, q, rfl, hq⟩
                · cases h0
                · cases hm
                  have hbq := fun x hx => hbp x (List.mem_cons_of_mem _ hx)
                  rcases trailBytes_some _ _ _ hbq _ _ hq
                    with ⟨h0, _⟩ | ⟨m, a', hm, ha', q', rfl, hq'⟩
                  · cases h0
                  · cases hm
                    rcases trailBytes_some _ _ _ (fun x hx => hbq x (List.mem_cons_of_mem _ hx)) _ _ hq'
                      with ⟨_, hv', rfl⟩ | ⟨m, a'', hm, _⟩
                    · refine ⟨[224 + bits, 128 + a, 128 + a'], rfl, ?_⟩
                      have q2 : v % 64 = a' := by omega
                      by_cases hlo : v < 0x800
                      · right
                        refine ⟨h80, Or.inl ⟨hlo, ?_⟩⟩
                        have q0 : bits = 0 := by omega
                        have q1 : v / 64 = a := by omega
                        rw [q0, q1, q2]
                      · left
                        unfold uenc
                        rw [if_neg (by omega), if_neg hlo, if_pos (by omega)]
                        have q0 : v / 4096 = bits := by omega
                        have q1 : v / 64 % 64 = a := by omega
                        rw [q0, q1, q2]
                    · cases hm
              · rcases trailBytes_some _ _ _ hbp _ _ ht with ⟨h0, _⟩ | ⟨m, a, hm, ha, q, rfl, hq⟩
                · cases h0
                · cases hm
                  have hbq := fun x hx => hbp x (List.mem_cons_of_mem _ hx)
                  rcases trailBytes_some _ _ _ hbq _ _ hq
                    with ⟨h0, _⟩ | ⟨m, a', hm, ha', q', rfl, hq'⟩
                  · cases h0
                  · cases hm
                    have hbq' := fun x hx => hbq x (List.mem_cons_of_mem _ hx)
                    rcases trailBytes_some _ _ _ hbq' _ _ hq'
                      with ⟨h0, _⟩ | ⟨m, a'', hm, ha'', q'', rfl, hq''⟩
                    · cases h0
                    · cases hm
                      rcases trailBytes_some _ _ _ (fun x hx => hbq' x (List.mem_cons_of_mem _ hx)) _ _ hq''
                        with ⟨_, hv', rfl⟩ | ⟨m, a3, hm, _⟩
                      · refine ⟨[240 + bits, 128 + a, 128 + a', 128 + a''], rfl, ?_⟩
                        have q3 : v % 64 = a'' := by omega
                        have q2 : v / 64 % 64 = a' := by omega
                        by_cases hlo : v < 0x10000
                        · right
                          refine ⟨h80, Or.inr ⟨hlo, ?_⟩⟩
                          have q0 : bits = 0 := by omega
                          have q1 : v / 4096 = a := by omega
                          rw [q0, q1, q2, q3]
                        · left
                          unfold uenc
                          rw [if_neg (by omega), if_neg (by omega), if_neg hlo]
                          have q0 : v / 262144 = bits := by omega
                          have q1 : v / 4096 % 64 = a := by omega
                          rw [q0, q1, q2, q3]
                      · cases hm

/-! ## Memory safety of `f_puts` -/

/-- Shape of the put buffer that keeps all accesses in range. -/
def PutOk (pb : PutBuff) : Prop :=
  pb.bs.length = 4 ∧ pb.wi + pb.ct ≤ 3 ∧ ∀ b, pb.buf = some b → b.length < 60

theorem putBytes_length (dc : Nat) : (putBytes dc).length ≤ 4 := by
  unfold putBytes
  simp only []
  split; · simp
  split; · simp
  split <;> simp

theorem putFirst_ok (pb : PutBuff) (c : Nat) (h : pb.bs.length = 4) (h0 : pb.ct = 0) :
    (putFirst pb c).2.bs.length = 4 ∧ (putFirst pb c).2.wi + (putFirst pb c).2.ct ≤ 3 ∧
    (putFirst pb c).2.buf = pb.buf := by
  unfold putFirst
  simp only [h0]
  split
  · simp [h]
  · refine ⟨by simp [h], ?_, rfl⟩
    simp only []
    repeat' split
    all_goals simp

theorem putCollect_ok (pb : PutBuff) (c : Nat) (h : pb.bs.length = 4) (hw : pb.wi + pb.ct ≤ 3) :
    (putCollect pb c).2.bs.length = 4 ∧ (putCollect pb c).2.wi + (putCollect pb c).2.ct ≤ 3 ∧
    (putCollect pb c).2.buf = pb.buf := by
  unfold putCollect
  split
  · exact putFirst_ok pb c h (by assumption)
  · split
    · exact putFirst_ok { pb with ct := 0 } c h rfl
    · refine ⟨by simp [h], ?_, rfl⟩
      simp only []
      omega

theorem putStore_ok (pb : PutBuff) (b : List Nat) (n : Nat) (h : pb.bs.length = 4)
    (hw : pb.wi + pb.ct ≤ 3) : PutOk (putStore pb b n) := by
  unfold putStore PutOk
  split
  · unfold fwrite
    refine ⟨h, hw, ?_⟩
    intro x hx
    simp only [] at hx
    split at hx
    · cases hx; decide
    · cases hx
  · refine ⟨h, hw, ?_⟩
    intro x hx
    cases hx
    omega

theorem putcBfd_ok (pb : PutBuff) (h : PutOk pb) (c : Nat) : ∃ q, putcBfd pb c = some q ∧ PutOk q := by
  obtain ⟨hb, hw, hl⟩ := h
  have hc := putCollect_ok pb c hb hw
  unfold putcBfd
  cases e : pb.buf with
  | none => exact ⟨pb, rfl, hb, hw, hl⟩
  | some b =>
    have hlb := hl b e
    cases e2 : putCollect pb c with
    | mk f q =>
      rw [e2] at hc
      obtain ⟨c1, c2, c3⟩ := hc
      simp only [] at c1 c2 c3
      have hwi : q.wi < 4 := by omega
      cases f with
      | false =>
        simp only [hwi, if_true]
        exact ⟨q, rfl, c1, c2, by rw [c3]; exact hl⟩
      | true =>
        simp only [hwi, if_true]
        cases e3 : tchar2uni q.bs with
        | none => exact absurd e3 (tchar2uni_ne_none _ (Or.inr (by omega)))
        | some x =>
          cases x with
          | none => exact ⟨q, rfl, c1, c2, by rw [c3]; exact hl⟩
          | some y =>
            obtain ⟨dc, r⟩ := y
            have hp := putBytes_length dc
            simp only []
            rw [if_pos (by rw [List.length_append]; omega)]
            exact ⟨_, rfl, putStore_ok _ _ _ c1 c2⟩

theorem putsLoop_ok (pb : PutBuff) (h : PutOk pb) (s : List Nat) (h0 : 0 ∈ s) :
    ∃ q, putsLoop pb s = some q ∧ PutOk q := by
  induction s generalizing pb with
  | nil => simp at h0
  | cons c s ih =>
    rw [putsLoop]
    by_cases hc : c = 0
    · rw [if_pos hc]; exact ⟨pb, rfl, h⟩
    · rw [if_neg hc]
      obtain ⟨q, e, hq⟩ := putcBfd_ok pb h c
      rw [e]
      exact ih q hq (by rcases List.mem_cons.mp h0 with h0 | h0; · exact absurd h0.symm hc
                        · exact h0)

end Fpm.TextIo
