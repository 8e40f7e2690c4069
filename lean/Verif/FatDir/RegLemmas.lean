import Verif.FatDir.AllocLemmas
import Verif.FatDir.ReadLemmas
/-!
# Adding and removing objects
-/
namespace Fpm.FatDir
open Fpm.FatDir.Spec Fpm.Lfn Fpm.Lfn.Spec Fpm.Names Fpm.Names.Spec Fpm.TextIo.Spec

/-! ## Numbered names -/

theorem hash_def : ∀ (buf : List Nat) (s : Nat), 0 ∈ buf → ∃ r, hash buf s = some r
  | w :: buf, s, h => by
    rw [hash]
    by_cases h0 : w = 0
    · rw [if_pos h0]; exact ⟨_, rfl⟩
    · rw [if_neg h0]
      exact hash_def buf _ (by rcases List.mem_cons.mp h with h | h; exact absurd h.symm h0; exact h)

theorem holds_zero {buf n : List Nat} (h : Holds buf n) : 0 ∈ buf := h.2.subset (by simp)

theorem hexDigit_form (d : Nat) : FormByte (hexDigit d) := by
  have h : ∀ r < 16, FormByte (if r + 48 > 57 then r + 55 else r + 48) := by decide
  exact h (d % 16) (Nat.mod_lt _ (by decide))

theorem digits_spec : ∀ (i seq : Nat) (acc : List Nat), 0 < i → (∀ c ∈ acc, FormByte c) → (∀ c ∈ digits i seq acc, FormByte c) ∧ (digits i seq acc).length ≤ i + acc.length ∧ digits i seq acc ≠ []
  | 0, _, _, h, _ => by omega
  | i + 1, seq, acc, _, ha => by
    have ha' : ∀ c ∈ hexDigit seq :: acc, FormByte c := fun c hc => by
      rcases List.mem_cons.mp hc with rfl | hc
      · exact hexDigit_form seq
      · exact ha c hc
    rw [digits]
    split
    · rename_i h
      have := digits_spec i (seq / 16) (hexDigit seq :: acc) (by omega) ha'
      refine ⟨this.1, ?_, this.2.2⟩
      have := this.2.1
      simp at this
      omega
    · exact ⟨ha', by simp; omega, by simp⟩

theorem sfxOfs_le : ∀ (fn : List Nat) (i : Nat), sfxOfs fn i ≤ i ∧ sfxOfs fn i ≤ fn.length
  | [], 0 => by simp [sfxOfs]
  | _ :: _, 0 => by simp [sfxOfs]
  | [], _ + 1 => by simp [sfxOfs]
  | c :: cs, i + 1 => by
    rw [sfxOfs]
    split
    · omega
    · have := sfxOfs_le cs i
      simp
      omega

theorem numname_spec {fn buf n : List Nat} (h : Ok83 fn) (hb : Holds buf n) (seq : Nat) : ∃ fn', genNumname fn buf seq = some fn' ∧ Ok83 fn' := by
  have hs : ∃ s, (if seq > 5 then hash buf seq else some seq) = some s := by
    split
    · exact hash_def buf seq (holds_zero hb)
    · exact ⟨_, rfl⟩
  obtain ⟨s, hs⟩ := hs
  unfold genNumname
  rw [hs]
  refine ⟨_, rfl, ?_⟩
  obtain ⟨h1, h2, h3⟩ := digits_spec 7 s [] (by omega) (by simp)
  have ho := sfxOfs_le fn (8 - (126 :: digits 7 s []).length)
  simp only [List.length_nil, Nat.add_zero] at h2
  unfold withSuffix
  generalize sfxOfs fn (8 - (126 :: digits 7 s []).length) = o at ho ⊢
  have hlen := h.1
  simp only [List.length_cons] at ho ⊢
  refine ⟨by simp; omega, fun c hc => ?_⟩
  simp only [List.mem_append, List.mem_cons, List.mem_replicate] at hc
  rcases hc with ((hc | hc | hc) | hc) | hc
  · exact h.2 c (List.mem_of_mem_take hc)
  · subst hc; decide
  · exact h1 c hc
  · rw [hc.2]; decide
  · exact h.2 c (List.mem_of_mem_drop hc)

/-! ## Searching for names in use -/

theorem first_hit (P : Obj → Prop) : ∀ os : List Obj, (∀ o ∈ os, ¬ P o) ∨ ∃ a o b, os = a ++ o :: b ∧ (∀ o' ∈ a, ¬ P o') ∧ P o
  | [] => .inl (by simp)
  | o :: os => by
    by_cases h : P o
    · exact .inr ⟨[], o, os, rfl, by simp, h⟩
    · rcases first_hit P os with h1 | ⟨a, o', b, rfl, h1, h2⟩
      · exact .inl (by simpa using ⟨h, h1⟩)
      · exact .inr ⟨o :: a, o', b, rfl, by simpa using ⟨h, h1⟩, h2⟩

theorem find_all {n fn buf : List Nat} {fl : Nat} (hn : Name n) (hb : Holds buf n) {c : Bool} {t : List (List Nat)} {os : List Obj} (h : Rep c 0 t os) (ht : Table t) :
    (dirFind t fn fl buf = .noFile ∧ ∀ o ∈ os, ¬ Hit n fn fl o) ∨
    ∃ a o b blk, os = a ++ o :: b ∧ (∀ o' ∈ a, ¬ Hit n fn fl o') ∧ Hit n fn fl o ∧ dirFind t fn fl buf = .found o.pos blk buf ∧ (fl &&& 0x40 = 0 → Zip c 0 t a o b blk) := by
  rcases first_hit (Hit n fn fl) os with h1 | ⟨a, o, b, he, h1, h2⟩
  · exact .inl ⟨find_none hn hb h _ ht rfl rfl h1, h1⟩
  · obtain ⟨blk, e1, h3⟩ := find_some hn hb h ⟨0xFF, 0xFF, none⟩ a b o ht rfl rfl he h1 h2
    exact .inr ⟨a, o, b, blk, he, h1, h2, e1, h3⟩

theorem hit_nolfn (n fn : List Nat) (o : Obj) : Hit n fn 0x40 o ↔ o.fn = fn := by
  constructor
  · rintro (h | h)
    · exact absurd h.1 (by decide)
    · exact h.2
  · exact fun h => .inr ⟨by decide, h⟩

theorem num_spec {n fn buf : List Nat} (hn : Name n) (hb : Holds buf n) (hfn : Ok83 fn) {c : Bool} {t : List (List Nat)} {os : List Obj} (h : Rep c 0 t os) (ht : Table t) : ∀ k s : Nat,
    (numLoop t fn buf k s = some none ∧ ∀ z, s ≤ z → z < s + k → ∃ o ∈ os, genNumname fn buf z = some o.fn) ∨
    ∃ fn', numLoop t fn buf k s = some (some fn') ∧ Ok83 fn' ∧ (∀ o ∈ os, o.fn ≠ fn')
  | 0, s => .inl ⟨rfl, fun z _ _ => by omega⟩
  | k + 1, s => by
    obtain ⟨fn', e1, h1⟩ := numname_spec hfn hb s
    rw [numLoop, e1]
    simp only
    rcases find_all (fn := fn') (fl := 0x40) hn hb h ht with ⟨e2, h2⟩ | ⟨a, o, b, blk, he, -, h2, e2, -⟩
    · rw [e2]
      exact .inr ⟨fn', rfl, h1, fun o ho hf => h2 o ho ((hit_nolfn n fn' o).mpr hf)⟩
    · rw [e2]
      simp only
      rcases num_spec hn hb hfn h ht k (s + 1) with ⟨e3, h3⟩ | h3
      · refine .inl ⟨e3, fun z hz1 hz2 => ?_⟩
        by_cases hz : z = s
        · refine ⟨o, by rw [he]; simp, ?_⟩
          rw [hz, e1, (hit_nolfn n fn' o).mp h2]
        · exact h3 z (by omega) (by omega)
      · exact .inr h3

/-! ## Bytes of stored entries -/

def Bytes (e : List Nat) : Prop := ∀ b ∈ e, b < 256

theorem bytes_set {e : List Nat} (h : Bytes e) {o v : Nat} (hv : v < 256) : Bytes (e.set o v) := fun b hb => by
  rcases List.mem_or_eq_of_mem_set hb with h' | rfl
  · exact h b h'
  · exact hv

theorem bytes_setWord {e : List Nat} (h : Bytes e) (o v : Nat) : Bytes (setWord e o v) := bytes_set (bytes_set h (Nat.mod_lt _ (by decide))) (Nat.mod_lt _ (by decide))

theorem bytes_putLoop (lfn : List Nat) : ∀ (os e : List Nat) (i wc : Nat) (r : List Nat × Nat × Nat), Bytes e → putLoop lfn os e i wc = some r → Bytes r.1
  | [], e, i, wc, r, h, he => by cases he; exact h
  | o :: os, e, i, wc, r, h, he => by
    rw [putLoop] at he
    split at he
    · split at he
      · cases he
      · exact bytes_putLoop lfn os _ _ _ r (bytes_setWord h _ _) he
    · exact bytes_putLoop lfn os _ _ _ r (bytes_setWord h _ _) he

theorem or_lt : ∀ o < 256, o ||| 0x40 < 256 := by decide +kernel

theorem bytes_putLfn {lfn e : List Nat} {ord sum : Nat} {e' : List Nat} (h : Bytes e) (hs : sum < 256) (ho : ord < 256) (he : putLfn lfn e ord sum = some e') : Bytes e' := by
  have h1 := or_lt ord ho
  unfold putLfn at he
  split at he
  · cases he
  · rename_i e1 i wc hp
    have hb := bytes_putLoop lfn _ _ _ _ _ (bytes_setWord (bytes_set (bytes_set (bytes_set h hs) (by decide)) (by decide)) 26 0) hp
    simp only at hb
    unfold putOrd at he
    split at he
    · cases he; exact bytes_set hb h1
    · split at he
      · cases he
      · cases he
        refine bytes_set hb ?_
        split
        · exact h1
        · exact ho

theorem sum_lt (e : List Nat) : sumSfn e < 256 := by
  have key : ∀ (l : List Nat) (s : Nat), s < 256 → sumLoop l s < 256 := by
    intro l
    induction l with
    | nil => exact fun s h => h
    | cons b l ih => exact fun s _ => ih _ (rot_lt s b)
  exact key _ _ (by decide)

/-- Writes of the long name. -/
theorem lfn_writes {buf n : List Nat} (hn : Name n) (hb : Holds buf n) (hff : 0xFFFF ∉ n) {sum : Nat} (hs : sum < 256) : ∀ (k : Nat) (f x y : List (List Nat)), k ≤ parts n → f.length = k → Table f →
    ∃ es, lfnWrites (x ++ (f ++ y)) buf sum k x.length = some (wr x.length es) ∧ Stored n sum k es ∧ Table es
  | 0, f, x, y, _, _, _ => ⟨[], rfl, .nil, fun e he => by cases he⟩
  | k + 1, [], x, y, _, h, _ => by simp at h
  | k + 1, f0 :: f, x, y, hk, hf, ht => by
    obtain ⟨ht0, ht⟩ := table_cons.mp ht
    rw [lfnWrites]
    have hg : (x ++ (f0 :: f ++ y))[x.length]? = some f0 := by
      rw [List.getElem?_append_right (Nat.le_refl _), Nat.sub_self]
      rfl
    rw [hg]
    simp only
    obtain ⟨e', h1, h2⟩ := putLfn_spec hn hb hff ht0.1 (j := k) (by omega) sum
    obtain ⟨es, h3, h4, h5⟩ := lfn_writes hn hb hff hs k f (x ++ [f0]) y (by omega) (by simpa using hf) ht
    rw [show x ++ [f0] ++ (f ++ y) = x ++ (f0 :: f ++ y) by simp, show (x ++ [f0]).length = x.length + 1 by simp] at h3
    rw [h1, h3]
    have h20 := parts_le hn
    exact ⟨e' :: es, rfl, .cons h2 h4, table_cons.mpr ⟨⟨h2.len, bytes_putLfn ht0.2 hs (by omega) h1⟩, h5⟩⟩

theorem stored_length {n : List Nat} {sum k : Nat} {es : List (List Nat)} (h : Stored n sum k es) : es.length = k := by
  induction h with
  | nil => rfl
  | cons _ _ ih => rw [List.length_cons, ih]

theorem lfnLen_spec : ∀ (n buf : List Nat) (k : Nat), n ++ [0] <+: buf → 0 ∉ n → lfnLen buf k = some (k + n.length)
  | [], buf, k, h, _ => by
    obtain ⟨r, rfl⟩ := h
    rw [List.nil_append, List.singleton_append, lfnLen, if_pos rfl]
    rfl
  | w :: n, buf, k, h, h0 => by
    obtain ⟨r, rfl⟩ := h
    have : w ≠ 0 := fun h => h0 (by simp [h])
    rw [List.cons_append, List.cons_append, lfnLen, if_neg this, lfnLen_spec n _ (k + 1) ⟨r, rfl⟩ (fun h => h0 (by simp [h]))]
    simp
    omega

/-! ## dir_register -/

theorem sfn_ok {fn : List Nat} (h : Ok83 fn) (fl : Nat) : Sfn (sfnEntry fn fl) ∧ (sfnEntry fn fl).take 11 = fn ∧ sumSfn (sfnEntry fn fl) = sumSfn fn ∧ byte (sfnEntry fn fl) 12 = fl &&& 0x18 ∧
    (sfnEntry fn fl).length = 32 ∧ Bytes (sfnEntry fn fl) ∧ byte (sfnEntry fn fl) 0 ≠ 46 := by
  have hl := h.1
  have hbyte : byte (sfnEntry fn fl) 0 ∈ fn := by
    cases fn with
    | nil => cases hl
    | cons c fn => simp [sfnEntry, byte]
  have ht : (sfnEntry fn fl).take 11 = fn := by
    unfold sfnEntry
    rw [List.append_assoc, List.take_append_of_le_length (by omega), List.take_of_length_le (by omega)]
  have h0 : FormByte (byte (sfnEntry fn fl) 0) := h.2 _ hbyte
  have hr : 0 < byte (sfnEntry fn fl) 0 ∧ byte (sfnEntry fn fl) 0 < 127 ∧ byte (sfnEntry fn fl) 0 ≠ 46 := by
    rcases h0 with h0 | h0
    · omega
    · have := h0.1
      unfold Char83 at this
      simp only [List.mem_cons, List.not_mem_nil, or_false, not_or] at this
      omega
  have h11 : byte (sfnEntry fn fl) 11 = 0 ∧ byte (sfnEntry fn fl) 12 = fl &&& 0x18 := by
    match fn, hl with
    | [a0, a1, a2, a3, a4, a5, a6, a7, a8, a9, a10], _ => exact ⟨rfl, rfl⟩
  refine ⟨⟨by omega, by rw [h11.1]; rfl⟩, ht, by unfold sumSfn; rw [ht, List.take_of_length_le (by omega)], h11.2, by simp [sfnEntry, hl], fun b hb => ?_, hr.2.2⟩
  unfold sfnEntry at hb
  simp only [List.mem_append, List.mem_cons, List.not_mem_nil, or_false, List.mem_replicate] at hb
  have h18 : fl &&& 0x18 < 256 := Nat.lt_of_le_of_lt Nat.and_le_right (by decide)
  rcases hb with (hb | hb | hb) | hb
  · rcases h.2 b hb with h' | h'
    · omega
    · have := h'.1.2.1; omega
  · omega
  · omega
  · omega

theorem long_nil (s : List Nat) : Long [] [] s none := by
  refine ⟨rfl, ?_⟩
  rintro ⟨a, b, h, hb⟩
  have : b = [] := (List.append_eq_nil_iff.mp h.symm).2
  exact hb.1 this

theorem rep_mono {c c' : Bool} (hc : c = true ∨ c' = false) {i : Nat} {t : List (List Nat)} {os : List Obj} (h : Rep c i t os) : Rep c' i t os := by
  induction h with
  | nil hj => exact .nil (junk_mono hc hj)
  | fin hj h0 => exact .fin (junk_mono hc hj) h0
  | skip hj he _ ih => exact .skip (junk_mono hc hj) he ih
  | obj hj hl hs _ ih => exact .obj (junk_mono hc hj) hl hs ih

/-- Parts of a long name before free entries are leftovers. -/
theorem leftovers {c : Bool} {i : Nat} {j : List (List Nat)} (hj : ∀ e ∈ j, LfnEntry e) {e : List Nat} {t : List (List Nat)} {os : List Obj} (hf : isFree e = true) (h : Rep c (i + j.length) (e :: t) os) :
    Rep false i (j ++ e :: t) os := by
  have hj' : Junk false j := ⟨hj, fun h => by cases h⟩
  rcases free_cases h hf with ⟨h0, rfl⟩ | ⟨h0, hr⟩
  · exact .fin hj' h0
  · exact .skip hj' (.inl h0) (rep_mono (.inr rfl) hr)

theorem table_blank {t : List (List Nat)} (h : Table t) (m : Nat) : Table (t ++ List.replicate m blank) :=
  table_append.mpr ⟨h, fun e he => by rw [(List.mem_replicate.mp he).2]; exact ⟨rfl, fun b hb => by rw [(List.mem_replicate.mp hb).2]; decide⟩⟩

/-- Leftovers with the checksum directly before free entries are what `Orphan` says. -/
theorem orphan_of {t u j f y : List (List Nat)} {m : Nat} {s : List Nat} (h : t ++ List.replicate m blank = (u ++ j) ++ (f ++ y)) (hj : ∀ e ∈ j, LfnEntry e) (hf : f ≠ []) (hff : ∀ e ∈ f, isFree e = true)
    (hb : ¬ Broken j s) : Orphan t (sumSfn s) := by
  obtain ⟨a, b, rfl, hc⟩ := Classical.not_not.mp hb
  have hbz : ∀ e ∈ b, byte e 0 ≠ 0 := fun e he => (hj e (by simp [he])).used.1
  have h' : t ++ List.replicate m blank = (u ++ a ++ b) ++ (f ++ y) := by rw [h]; simp
  rcases List.append_eq_append_iff.mp h' with ⟨z, h1, h2⟩ | ⟨z, h1, h2⟩
  · -- the table ends within the leftovers, which is only possible at their end
    cases z with
    | nil =>
      refine ⟨u ++ a, b, [], ?_, hc, .inl rfl⟩
      rw [List.append_nil] at h1 ⊢
      exact h1.symm
    | cons z0 z =>
      exfalso
      have hl := congrArg List.getLast? h1
      rw [List.getLast?_append (l := u ++ a), List.getLast?_append (l := t), List.getLast?_eq_some_getLast (by exact hc.1), List.getLast?_eq_some_getLast (l := z0 :: z) (by simp)] at hl
      simp only [Option.some_or, Option.some.injEq] at hl
      have hz : (z0 :: z).getLast (by simp) ∈ List.replicate m blank := by
        rw [h2]
        exact List.mem_append_left _ (List.getLast_mem _)
      have hbm := hbz _ (List.getLast_mem hc.1)
      rw [hl, (List.mem_replicate.mp hz).2] at hbm
      exact hbm rfl
  · refine ⟨u ++ a, b, z, by rw [h1]; simp, hc, ?_⟩
    cases z with
    | nil => exact .inl rfl
    | cons z0 z =>
      right
      cases f with
      | nil => exact absurd rfl hf
      | cons f0 f =>
        rw [List.cons_append, List.cons_append] at h2
        obtain ⟨rfl, -⟩ := List.cons.inj h2
        exact ⟨f0, z, rfl, (free_iff f0).mp (hff f0 (by simp))⟩

theorem not_free_zero {e : List Nat} (h : isFree e = false) : byte e 0 ≠ 0 := fun h0 => by
  rw [(free_iff e).mpr (.inr h0)] at h
  cases h

/-- What is before free entries, with none before them, is in use or deleted. -/
theorem before_free {x f y : List (List Nat)} (h : Ended (x ++ (f ++ y))) (hx : ∀ e, x.getLast? = some e → isFree e = false) : ∀ e ∈ x, byte e 0 ≠ 0 := by
  intro e he h0
  obtain ⟨a, b, rfl⟩ := List.append_of_mem he
  have hz := h a e (b ++ (f ++ y)) (by simp) h0
  have hl := List.getLast?_eq_some_getLast (l := a ++ e :: b) (by simp)
  have hlast := hx _ hl
  refine not_free_zero hlast ?_
  have hm : (a ++ e :: b).getLast (by simp) = (e :: b).getLast (by simp) := by simp
  rw [hm]
  rcases List.mem_cons.mp (List.getLast_mem (l := e :: b) (by simp)) with h | h
  · rw [h]; exact h0
  · exact hz _ (List.mem_append_left _ h)

theorem store_spec {grow : Nat → Nat} {n fn buf : List Nat} {fl : Nat} (hn : Name n) (hb : Holds buf n) (hff : 0xFFFF ∉ n) (hfn : Ok83 fn) {c : Bool} {t : List (List Nat)} {os : List Obj} (h : Rep c 0 t os) (ht : Table t) (hd : Ended t)
    (horph : fl &&& 2 ≠ 0 ∨ c = true ∨ ¬ Orphan t (sumSfn fn)) :
    (∃ t', store grow t fn fl buf n.length = .denied t' ∧ Rep c 0 t' os ∧ Table t' ∧ Ended t' ∧ t <+: t' ∧ grow t'.length = 0 ∧ ∀ u f y, t' = u ++ (f ++ y) → f.length = numEntries fl n.length → ∃ e ∈ f, isFree e = false) ∨
    ∃ t' ws a b o, store grow t fn fl buf n.length = .done t' ws o.pos ∧ os = a ++ b ∧ o.long = (if fl &&& 2 ≠ 0 then some n else none) ∧ o.entry = sfnEntry fn fl ∧ t <+: t' ∧ (t' = t ∨ ∀ u f y, t = u ++ (f ++ y) → f.length = numEntries fl n.length → ∃ e ∈ f, isFree e = false) ∧ 
      Rep c 0 (writeAll t' ws) (a ++ o :: b) ∧ Table (writeAll t' ws) ∧ Ended (writeAll t' ws) ∧
      ∀ k < ws.length, Rep false 0 (writeAll t' (ws.take k)) os ∧ Table (writeAll t' (ws.take k)) ∧ Ended (writeAll t' (ws.take k)) := by
  have hpos : 0 < numEntries fl n.length := by unfold numEntries; split <;> omega
  obtain ⟨m, x, e1, h1, h0, h2⟩ := alloc_spec grow hpos t
  have hr := append_blank h m
  have htb := table_blank ht m
  have hdb := ended_blank hd m
  unfold store
  rw [e1]
  cases x with
  | none => exact .inl ⟨_, rfl, hr, htb, hdb, List.prefix_append _ _, by rw [List.length_append, List.length_replicate]; exact h1 rfl⟩
  | some p =>
    obtain ⟨u, f, y, hsplit, hfl, hp, hfree, hlast⟩ := h2 p rfl
    have hfne : f ≠ [] := fun h => by rw [h] at hfl; simp at hfl; omega
    obtain ⟨u1, j, a, b, hu, hab, hpre, hj, hrest⟩ := split_free hr u f y hsplit hdb hfne hfree hlast
    simp only
    have hsplit' := hsplit
    rw [hu] at hsplit'
    rw [hsplit]
    rw [hsplit] at htb hdb
    obtain ⟨htu, htfy⟩ := table_append.mp htb
    obtain ⟨htf, hty⟩ := table_append.mp htfy
    obtain ⟨hs1, hs2, hs3, hs4, hs5, hs6, hs7⟩ := sfn_ok hfn fl
    have hbef := before_free hdb hlast
    have hdfy := ended_append hdb
    -- entries of the long name
    have hlfn : ∃ es, lfnWrites (u ++ (f ++ y)) buf (sumSfn fn) (numEntries fl n.length - 1) u.length = some (wr u.length es) ∧ es.length + 1 = f.length ∧ Table es ∧ (∀ e ∈ es, LfnEntry e) ∧
        Long j es (sfnEntry fn fl) (if fl &&& 2 ≠ 0 then some n else none) := by
      by_cases h2' : fl &&& 2 ≠ 0
      · have hne : numEntries fl n.length = parts n + 1 := by unfold numEntries parts; rw [if_pos h2']
        rw [hne, Nat.add_sub_cancel, if_pos h2']
        rw [hne] at hfl
        have hf' : f.dropLast ++ [f.getLast hfne] = f := List.dropLast_concat_getLast hfne
        obtain ⟨es, e2, h3, h4⟩ := lfn_writes (y := f.getLast hfne :: y) (x := u) (f := f.dropLast) hn hb hff (sum_lt fn) (parts n) (Nat.le_refl _)
          (by simp; omega) (fun e he => htf e (List.dropLast_subset _ he))
        have : f.dropLast ++ f.getLast hfne :: y = f ++ y := by
          conv => rhs; rw [← hf']
          simp
        rw [this] at e2
        refine ⟨es, e2, by have := stored_length h3; omega, h4, stored_lfn hn h3 (Nat.le_refl _), hn, ?_⟩
        rw [hs3]
        exact h3
      · have hne : numEntries fl n.length = 1 := by unfold numEntries; rw [if_neg h2']
        rw [hne, if_neg h2']
        refine ⟨[], rfl, by rw [hfl, hne]; rfl, (fun e he => by cases he), (fun e he => by cases he), rfl, ?_⟩
        rcases horph with h | h | h
        · exact absurd h h2'
        · rw [hj.2 h]; exact (long_nil _).2
        · refine Classical.byContradiction fun hbr => h ?_
          have := orphan_of hsplit' hj.1 hfne hfree hbr
          rwa [hs3] at this
    obtain ⟨es, e2, hel, hte, hle, hlong⟩ := hlfn
    have hpe : p = u.length + es.length := by omega
    have hlen : u.length = u1.length + j.length := by rw [hu]; simp
    rw [show p - (numEntries fl n.length - 1) = u.length by omega, e2]
    simp only
    have hws : wr u.length es ++ [(p, sfnEntry fn fl)] = wr u.length (es ++ [sfnEntry fn fl]) := by
      rw [wr_append, hpe]
      rfl
    rw [hws]
    have hall : writeAll (u ++ (f ++ y)) (wr u.length (es ++ [sfnEntry fn fl])) = u ++ (es ++ sfnEntry fn fl :: y) := by
      rw [wr_write _ _ _ _ (by simp; omega)]
      have hd : f.drop (es ++ [sfnEntry fn fl]).length = [] := List.drop_of_length_le (by simp; omega)
      rw [hd, List.nil_append, List.append_assoc, List.singleton_append]
    refine .inr ⟨_, _, a, b, ⟨p, if fl &&& 2 ≠ 0 then some n else none, sfnEntry fn fl⟩, rfl, hab, rfl, rfl, ?_, ?_, ?_, ?_, ?_, fun k hk => ?_⟩
    · rw [← hsplit]; exact List.prefix_append _ _
    · rw [← hsplit]
      by_cases hm : m = 0
      · left
        rw [hm, List.replicate_zero, List.append_nil]
      · exact .inr (h0 hm)
    · rw [hall, hu, List.append_assoc]
      refine hpre c _ _ (by cases c <;> simp) ?_
      have ho : (⟨p, if fl &&& 2 ≠ 0 then some n else none, sfnEntry fn fl⟩ : Obj) = ⟨0 + u1.length + j.length + es.length, if fl &&& 2 ≠ 0 then some n else none, sfnEntry fn fl⟩ := by
        simp [hpe, hlen]
      rw [ho]
      refine Rep.obj hj hlong hs1 ?_
      have := drop_free f hfree hdfy hrest
      rw [show 0 + u1.length + j.length + es.length + 1 = 0 + u.length + f.length by omega]
      exact this
    · rw [hall]
      exact table_append.mpr ⟨htu, table_append.mpr ⟨hte, table_cons.mpr ⟨⟨hs5, hs6⟩, hty⟩⟩⟩
    · rw [hall]
      have := ended_used (x := u ++ (es ++ [sfnEntry fn fl])) (y := y) (fun e he => ?_) (ended_append hdfy)
      · simpa using this
      · simp only [List.mem_append, List.mem_singleton] at he
        rcases he with he | he | he
        · exact hbef e he
        · exact (hle e he).used.1
        · rw [he]; exact hs1.used.1
    · rw [wr_length, List.length_append, List.length_singleton] at hk
      have htk : (es ++ [sfnEntry fn fl]).take k = es.take k := by rw [List.take_append_of_le_length (by omega)]
      have hlk : (es.take k).length = k := by simp; omega
      rw [wr_take, htk, wr_write _ _ _ _ (by omega), hlk]
      have hkf : k < f.length := by omega
      refine ⟨?_, table_append.mpr ⟨htu, table_append.mpr ⟨fun e he => hte e (List.mem_of_mem_take he), table_append.mpr ⟨fun e he => htf e (List.mem_of_mem_drop he), hty⟩⟩⟩, ?_⟩
      · rw [hab, hu, List.append_assoc, ← List.append_assoc j]
        refine hpre false _ _ (.inr rfl) ?_
        have hd := drop_free (f.take k) (y := f.drop k ++ y) (fun e he => hfree e (List.mem_of_mem_take he)) (by rw [← List.append_assoc, List.take_append_drop]; exact hdfy)
          (by rw [← List.append_assoc, List.take_append_drop]; exact hrest)
        rw [List.drop_eq_getElem_cons hkf, List.cons_append] at hd ⊢
        refine leftovers (c := c) (fun e he => ?_) (hfree _ (List.getElem_mem hkf)) ?_
        · rcases List.mem_append.mp he with he | he
          · exact hj.1 e he
          · exact hle e (List.mem_of_mem_take he)
        · rw [show (f.take k).length = k by simp; omega] at hd
          rw [List.length_append, hlk, show 0 + u1.length + (j.length + k) = 0 + u.length + k by omega]
          exact hd
      · have := ended_used (x := u ++ es.take k) (y := f.drop k ++ y) (fun e he => ?_) (ended_append (x := f.take k) (by rw [← List.append_assoc, List.take_append_drop]; exact hdfy))
        · simpa using this
        · rcases List.mem_append.mp he with he | he
          · exact hbef e he
          · exact (hle e (List.mem_of_mem_take he)).used.1

end Fpm.FatDir
