import Verif.Tree.StepLemmas
import Verif.Lfn.Props
import Verif.TextIo.IoLemmas
/-!
# A volume has one tree, as far as paths lead
-/
namespace Fpm.Tree
open Fpm.Fat Fpm.Fat.Spec Fpm.FatFile Fpm.FatFile.Spec Fpm.FatBytes Fpm.FatBytes.Spec Fpm.Lfn Fpm.Lfn.Spec Fpm.Names Fpm.Names.Spec Fpm.TextIo.Spec Fpm.FatDir Fpm.FatDir.Spec Fpm.Mount Fpm.Mount.Spec Fpm.DirDev Fpm.DirDev.Spec Fpm.Tree.Spec Fpm.FatSync

theorem holds_inj {b : List Nat} : ∀ {n m : List Nat}, (∀ u ∈ n, 0 < u) → (∀ u ∈ m, 0 < u) → n ++ [0] <+: b → m ++ [0] <+: b → n = m := by
  intro n
  induction n generalizing b with
  | nil =>
    intro m _ hm h1 h2
    cases m with
    | nil => rfl
    | cons a m =>
      obtain ⟨x, rfl⟩ := h1
      obtain ⟨y, e⟩ := h2
      have := hm a List.mem_cons_self
      simp at e
      omega
  | cons c n ih =>
    intro m hn hm h1 h2
    cases m with
    | nil =>
      obtain ⟨x, rfl⟩ := h2
      obtain ⟨y, e⟩ := h1
      have := hn c List.mem_cons_self
      simp at e
      omega
    | cons a m =>
      obtain ⟨x, rfl⟩ := h1
      obtain ⟨y, e⟩ := h2
      have e : a :: (m ++ [0] ++ y) = c :: (n ++ [0] ++ x) := e
      injection e with e1 e2
      rw [e1, ih (b := n ++ [0] ++ x) (fun u hu => hn u (List.mem_cons_of_mem _ hu)) (fun u hu => hm u (List.mem_cons_of_mem _ hu)) ⟨x, rfl⟩ ⟨y, e2⟩]

theorem stored_inj {n m : List Nat} {s : Nat} {es : List (List Nat)} (hn : Name n) (hm : Name m) (h1 : Stored n s (parts n) es) (h2 : Stored m s (parts m) es) : n = m := by
  obtain ⟨b1, e1, -, q1⟩ := C56_read n (List.replicate 256 0) s es hn h1 List.length_replicate
  obtain ⟨b2, e2, -, q2⟩ := C56_read m (List.replicate 256 0) s es hm h2 List.length_replicate
  rw [e1] at e2
  cases e2
  exact holds_inj (fun u hu => (hn.units u hu).1) (fun u hu => (hm.units u hu).1) q1 q2

/-- An entry with a part of a long name is no other. -/
theorem lfn_not {e : List Nat} (h : LfnEntry e) : ¬ Sfn e ∧ ¬ Skip e ∧ byte e 0 ≠ 0 := by
  have key : ∀ x, x &&& 0x3F = 0x0F → x &&& 8 = 8 ∧ x &&& 0x1F = 15 := by
    intro x hx
    have e1 : x &&& 8 = (x &&& 0x3F) &&& 8 := by rw [Nat.and_assoc]; rfl
    have e2 : x &&& 0x1F = (x &&& 0x3F) &&& 0x1F := by rw [Nat.and_assoc]; rfl
    rw [e1, e2, hx]
    decide
  obtain ⟨k1, k2⟩ := key _ h.attr
  refine ⟨fun hx => ?_, fun hx => ?_, h.used.1⟩
  · have := hx.attr
    omega
  · rcases hx with hx | hx
    · exact h.used.2.1 hx
    · have := hx.2
      omega

theorem sfn_not {e : List Nat} (h : Sfn e) : ¬ Skip e ∧ byte e 0 ≠ 0 := by
  refine ⟨fun hx => ?_, h.used.1⟩
  rcases hx with hx | ⟨-, hx⟩
  · exact h.used.2 hx
  · have e1 : byte e 11 &&& 8 = (byte e 11 &&& 0x1F) &&& 8 := by rw [Nat.and_assoc]; rfl
    rw [hx, h.attr] at e1
    cases e1

/-- Long names end at the first short entry. -/
theorem lfn_split {s s' : List Nat} {t t' : List (List Nat)} (hs : Sfn s) (hs' : Sfn s') : ∀ {es es' : List (List Nat)}, (∀ e ∈ es, LfnEntry e) → (∀ e ∈ es', LfnEntry e) → es ++ s :: t = es' ++ s' :: t' → es = es' ∧ s = s' ∧ t = t'
  | [], [], _, _, h => by
    injection h with h1 h2
    exact ⟨rfl, h1, h2⟩
  | [], b :: bs, _, h2, h => by
    injection h with h3 h4
    exact absurd (h3 ▸ hs) (lfn_not (h2 b List.mem_cons_self)).1
  | a :: as, [], h1, _, h => by
    injection h with h3 h4
    exact absurd (h3 ▸ hs') (lfn_not (h1 a List.mem_cons_self)).1
  | a :: as, b :: bs, h1, h2, h => by
    injection h with h3 h4
    obtain ⟨e1, e2, e3⟩ := lfn_split hs hs' (fun e he => h1 e (List.mem_cons_of_mem _ he)) (fun e he => h2 e (List.mem_cons_of_mem _ he)) h4
    exact ⟨by rw [h3, e1], e2, e3⟩

theorem long_lfn {es : List (List Nat)} {s : List Nat} {long : Option (List Nat)} (h : Long [] es s long) : (∀ e ∈ es, LfnEntry e) ∧ (long = none ↔ es = []) := by
  cases long with
  | none =>
    obtain ⟨rfl, -⟩ := h
    exact ⟨(fun e he => by cases he), (by simp)⟩
  | some n =>
    refine ⟨stored_lfn h.1 h.2 (Nat.le_refl _), (by simp), fun hx => ?_⟩
    have h1 := stored_size h.2
    have h2 := List.length_pos_iff.mpr h.1.ne
    rw [hx] at h1
    have h1 : 0 = parts n := h1
    unfold parts at h1
    omega

/-- A clean table has one list of objects. -/
theorem rep_unique {i : Nat} {t : List (List Nat)} {os : List Obj} (h : Rep true i t os) : ∀ {os' : List Obj}, Rep true i t os' → os = os' := by
  induction h with
  | @nil i j hj =>
    intro os' h'
    cases hj.2 rfl
    generalize hu : ([] : List (List Nat)) = u at h'
    cases h' with
    | nil => rfl
    | fin => rfl
    | skip => simp at hu
    | obj => simp at hu
  | @fin i j e t hj he =>
    intro os' h'
    cases hj.2 rfl
    generalize hu : ([] : List (List Nat)) ++ e :: t = u at h'
    cases h' with
    | nil => rfl
    | fin => rfl
    | @skip _ j' e' t' _ hj' hsk =>
      cases hj'.2 rfl
      injection hu with e1 _
      subst e1
      rcases hsk with hx | hx
      · rw [he] at hx; cases hx
      · exact absurd he hx.1
    | @obj _ j' es s long t' _ hj' hl hs =>
      cases hj'.2 rfl
      cases es with
      | nil =>
        injection hu with e1 _
        exact absurd (e1 ▸ he) hs.used.1
      | cons a es =>
        injection hu with e1 _
        exact absurd (e1 ▸ he) (lfn_not ((long_lfn hl).1 a List.mem_cons_self)).2.2
  | @skip i j e t os hj hsk h ih =>
    intro os' h'
    cases hj.2 rfl
    generalize hu : ([] : List (List Nat)) ++ e :: t = u at h'
    cases h' with
    | nil hj' =>
      cases hj'.2 rfl
      cases hu
    | @fin _ j' e' t' hj' he =>
      cases hj'.2 rfl
      injection hu with e1 _
      subst e1
      rcases hsk with hx | hx
      · rw [he] at hx; cases hx
      · exact absurd he hx.1
    | @skip _ j' e' t' _ hj' hsk' h' =>
      cases hj'.2 rfl
      injection hu with e1 e2
      subst e2
      exact ih h'
    | @obj _ j' es s long t' _ hj' hl hs =>
      cases hj'.2 rfl
      cases es with
      | nil =>
        injection hu with e1 _
        exact absurd (e1 ▸ hsk) (sfn_not hs).1
      | cons a es =>
        injection hu with e1 _
        exact absurd (e1 ▸ hsk) (lfn_not ((long_lfn hl).1 a List.mem_cons_self)).2.1
  | @obj i j es s long t os hj hl hs h ih =>
    intro os' h'
    cases hj.2 rfl
    obtain ⟨l1, l2⟩ := long_lfn hl
    generalize hu : ([] : List (List Nat)) ++ (es ++ s :: t) = u at h'
    have first : ∀ e u', es ++ s :: t = e :: u' → ¬ Skip e ∧ byte e 0 ≠ 0 := by
      intro e u' hx
      cases es with
      | nil =>
        injection hx with e1 _
        rw [← e1]
        exact sfn_not hs
      | cons a es =>
        injection hx with e1 _
        rw [← e1]
        exact (lfn_not (l1 a List.mem_cons_self)).2
    cases h' with
    | nil hj' =>
      cases hj'.2 rfl
      simp at hu
    | @fin _ j' e' t' hj' he =>
      cases hj'.2 rfl
      exact absurd he (first _ _ hu).2
    | @skip _ j' e' t' _ hj' hsk' h' =>
      cases hj'.2 rfl
      exact absurd hsk' (first _ _ hu).1
    | @obj _ j' es' s' long' t' os' hj' hl' hs' h' =>
      cases hj'.2 rfl
      obtain ⟨l3, l4⟩ := long_lfn hl'
      obtain ⟨rfl, rfl, rfl⟩ := lfn_split hs hs' l1 l3 hu
      have hlong : long = long' := by
        cases long with
        | none => exact (l4.mpr (l2.mp rfl)).symm
        | some n =>
          cases long' with
          | none => exact absurd (l2.mpr (l4.mp rfl)) (by simp)
          | some m => rw [stored_inj hl.1 hl'.1 hl.2 hl'.2]
      rw [hlong, ih h']

/-- A directory on the device is known by its first cluster. -/
theorem dir_same {v : Vol} {i : Info} {T T1 : List Dir} {F F1 : List (List Nat)} {s : St} (h : Tree v i T F s) (h1 : Tree v i T1 F1 s) {d d1 : Dir} (hd : d ∈ T) (hd1 : d1 ∈ T1) (he : d.sclust = d1.sclust) : d = d1 := by
  obtain ⟨c, loc, os⟩ := d
  obtain ⟨c1, loc1, os1⟩ := d1
  have he : c = c1 := he
  subst he
  have a := (h.dirs _ hd).starts
  have a1 := (h1.dirs _ hd1).starts
  have b := tree_linked h hd
  have b1 := tree_linked h1 hd1
  have hloc : loc = loc1 := by
    cases loc with
    | root =>
      cases loc1 with
      | root => rfl
      | chain l1 => exact absurd (a1.2 a.1) a.2
    | chain l =>
      cases loc1 with
      | root => exact absurd (a.2 a1.1) a1.2
      | chain l1 =>
        refine congrArg _ (links_unique (show Links _ _ l from b) (show Links _ _ l1 from b1) ?_)
        have e : l.headD 0 = l1.headD 0 := a.1.trans a1.1.symm
        have n1 := links_ne (show Links _ _ l from b)
        have n2 := links_ne (show Links _ _ l1 from b1)
        cases l with
        | nil => exact absurd rfl n1
        | cons x l =>
          cases l1 with
          | nil => exact absurd rfl n2
          | cons y l1 =>
            have e : x = y := e
            rw [e]
            rfl
  subst hloc
  have := rep_unique (h.dirs _ hd).dir.rep (h1.dirs _ hd1).dir.rep
  have : os = os1 := this
  rw [this]

theorem leads_same {v : Vol} {i : Info} {T T1 : List Dir} {F F1 : List (List Nat)} {s : St} (h : Tree v i T F s) (h1 : Tree v i T1 F1 s) {d : Dir} {l : List (List Nat)} {G : Goal} (hl : Leads v T d l G) : d ∈ T → d ∈ T1 → Leads v T1 d l G := by
  induction hl with
  | bad h => exact fun _ _ => .bad h
  | stay h1 h2 _ ih => exact fun a b => .stay h1 h2 (ih a b)
  | self h1 h2 => exact fun _ _ => .self h1 h2
  | free h1 h2 h3 => exact fun _ _ => .free h1 h2 h3
  | missing h1 h2 h3 h4 => exact fun _ _ => .missing h1 h2 h3 h4
  | object h1 h2 h3 => exact fun _ _ => .object h1 h2 h3
  | noDir h1 h2 h3 h4 h5 => exact fun _ _ => .noDir h1 h2 h3 h4 h5
  | @enter d d' cs l o g a1 a2 a3 a4 a5 a6 _ ih =>
    intro hd hd1
    have : ∃ q ∈ T1, q.sclust = first v o := by
      by_cases hdo : Dotted o
      · obtain ⟨-, -, ⟨-, e⟩ | ⟨-, q, hq, e, -⟩⟩ := h1.dots d hd1 o a2 hdo
        · exact ⟨d, hd1, e.symm⟩
        · exact ⟨q, hq, e⟩
      · exact (h1.subs d hd1 o a2 hdo a4).2
    obtain ⟨q, hq, e⟩ := this
    have e1 := dir_same h h1 a5 hq (by rw [a6, e])
    subst e1
    exact .enter a1 a2 a3 a4 hq a6 (ih a5 hq)

theorem resolves_same {v : Vol} {i : Info} {T T1 : List Dir} {F F1 : List (List Nat)} {s : St} (h : Tree v i T F s) (h1 : Tree v i T1 F1 s) {cdir : Nat} (hc : ∃ d ∈ T1, d.sclust = cdir) {abs : Bool} {l : List (List Nat)} {G : Goal}
    (hG : Resolves v T cdir abs l G) : Resolves v T1 cdir abs l G := by
  obtain ⟨d, hd, e, hl⟩ := hG
  have : ∃ q ∈ T1, q.sclust = (if abs then 0 else cdir) := by
    split
    · exact h1.root
    · exact hc
  obtain ⟨q, hq, e1⟩ := this
  have e2 := dir_same h h1 hd hq (by rw [e, e1])
  subst e2
  exact ⟨d, hq, e, hl.imp id fun hl => leads_same h h1 hl hd hq⟩

theorem chain_one {v : Vol} {i : Info} {T T1 : List Dir} {F F1 : List (List Nat)} {s : St} (h : Tree v i T F s) (h1 : Tree v i T1 F1 s) {m m' : List Nat} (a3 : m = [] ∨ m ∈ F) (b3 : m' = [] ∨ m' ∈ F1) (e : m.headD 0 = m'.headD 0) : m = m' := by
  have k1 : m ≠ [] → Links v.nFatent (tab v s) m := fun hx => h.chains.chain m (by simp [a3.resolve_left hx])
  have k2 : m' ≠ [] → Links v.nFatent (tab v s) m' := fun hx => h1.chains.chain m' (by simp [b3.resolve_left hx])
  cases m with
  | nil =>
    cases m' with
    | nil => rfl
    | cons y m' =>
      have e : 0 = y := e
      have := (links_mem (k2 (by simp)) y List.mem_cons_self).1
      omega
  | cons x m =>
    cases m' with
    | nil =>
      have e : x = 0 := e
      have := (links_mem (k1 (by simp)) x List.mem_cons_self).1
      omega
    | cons y m' =>
      have e : x = y := e
      exact links_unique (k1 (by simp)) (k2 (by simp)) (by rw [e]; rfl)

theorem file_one {v : Vol} {i : Info} {T T1 : List Dir} {F F1 : List (List Nat)} {s : St} (h : Tree v i T F s) (h1 : Tree v i T1 F1 s) {l : List (List Nat)} {data data' : List Nat} (a : FileAt v T F s l data) (b : FileAt v T1 F1 s l data') : data = data' := by
  obtain ⟨d, cs, o, m, a1, a2, a3, a4, a5⟩ := a
  obtain ⟨d', cs', o', m', b1, b2, b3, b4, b5⟩ := b
  obtain ⟨G, -, hun⟩ := C81_place v i T F s h 0 h.root true l
  cases (hun _ a1).trans (hun _ (resolves_same h1 h h.root b1)).symm
  rw [← a5, ← b5, chain_one h h1 a3 b3 (a4.symm.trans b4)]

theorem file_same {v : Vol} {i : Info} {T T1 : List Dir} {F F1 : List (List Nat)} {s : St} (h : Tree v i T F s) (h1 : Tree v i T1 F1 s) {l : List (List Nat)} {data : List Nat} (a : FileAt v T F s l data) : FileAt v T1 F1 s l data := by
  obtain ⟨d, cs, o, m, a1, a2, a3, a4, a5⟩ := a
  have b1 := resolves_same h h1 h1.root a1
  obtain ⟨c1, c2, c3⟩ := resolves_object b1
  by_cases hd : Dotted o
  · exact absurd (h1.dots d c1 o c2 hd).1 a2
  · obtain ⟨m', b3, b4, -⟩ := h1.files d c1 o c2 hd a2
    refine ⟨d, cs, o, m', b1, a2, b3, b4, ?_⟩
    rw [← chain_one h h1 a3 b3 (a4.symm.trans b4)]
    exact a5

/-- What ends a segment of a path. -/
def Stop (t : List Nat) : Prop := ∃ b z, t = b :: z ∧ (b < 32 ∨ b = 47 ∨ b = 92)

theorem name_head {c : Nat} (h : NameChar c) : ∃ b z, uenc c = b :: z ∧ ¬ (b < 32 ∨ b = 47 ∨ b = 92) := by
  obtain ⟨-, h1, h2⟩ := h
  simp only [List.mem_cons, List.not_mem_nil, or_false, not_or] at h2
  unfold uenc
  split
  · exact ⟨c, [], rfl, by omega⟩
  · split
    · exact ⟨_, _, rfl, by omega⟩
    · split
      · exact ⟨_, _, rfl, by omega⟩
      · exact ⟨_, _, rfl, by omega⟩

theorem text_stop {c : Nat} {cs t t' : List Nat} (h : NameChar c) (ht : Stop t') (e : text (c :: cs) ++ t = t') : False := by
  obtain ⟨b, z, h1, h2⟩ := name_head h
  obtain ⟨b', z', rfl, h3⟩ := ht
  rw [text_cons, h1] at e
  obtain ⟨rfl, -⟩ := List.cons.inj e
  exact h2 h3

theorem text_split : ∀ {cs cs' t t' : List Nat}, (∀ c ∈ cs, NameChar c) → (∀ c ∈ cs', NameChar c) → Stop t → Stop t' → text cs ++ t = text cs' ++ t' → cs = cs' ∧ t = t'
  | [], [], _, _, _, _, _, _, e => ⟨rfl, e⟩
  | [], c' :: cs', _, _, _, h2, h3, _, e => (text_stop (h2 c' (by simp)) h3 e.symm).elim
  | c :: cs, [], _, _, h1, _, _, h4, e => (text_stop (h1 c (by simp)) h4 e).elim
  | c :: cs, c' :: cs', t, t', h1, h2, h3, h4, e => by
    rw [text_cons, text_cons, List.append_assoc, List.append_assoc] at e
    obtain ⟨b, p, e1, e2⟩ := TextIo.getChar_enc c (h1 c (by simp)).1 (text cs ++ t)
    obtain ⟨b', p', e3, e4⟩ := TextIo.getChar_enc c' (h2 c' (by simp)).1 (text cs' ++ t')
    obtain ⟨rfl, rfl⟩ := List.cons.inj (e1.symm.trans (e.trans e3))
    have : c' = c ∧ text cs' ++ t' = text cs ++ t := by
      have := e4.symm.trans e2
      injection this with k1 k2
      exact ⟨k1, k2⟩
    obtain ⟨rfl, e5⟩ := this
    obtain ⟨rfl, rfl⟩ := text_split (cs := cs) (cs' := cs') (fun x hx => h1 x (by simp [hx])) (fun x hx => h2 x (by simp [hx])) h3 h4 e5.symm
    exact ⟨rfl, rfl⟩

theorem seps_split {b b' : Nat} {z z' : List Nat} (hb : ¬ (b = 47 ∨ b = 92)) (hb' : ¬ (b' = 47 ∨ b' = 92)) : ∀ {s s' : List Nat}, (∀ c ∈ s, c = 47 ∨ c = 92) → (∀ c ∈ s', c = 47 ∨ c = 92) → s ++ b :: z = s' ++ b' :: z' → s = s' ∧ b :: z = b' :: z'
  | [], [], _, _, e => ⟨rfl, e⟩
  | [], c :: s', _, h2, e => by
    obtain ⟨rfl, -⟩ := List.cons.inj e
    exact absurd (h2 b (by simp)) hb
  | c :: s, [], h1, _, e => by
    obtain ⟨rfl, -⟩ := List.cons.inj e
    exact absurd (h1 c (by simp)) hb'
  | c :: s, c' :: s', h1, h2, e => by
    obtain ⟨rfl, e1⟩ := List.cons.inj e
    obtain ⟨rfl, e2⟩ := seps_split (s := s) (s' := s') hb hb' (fun x hx => h1 x (by simp [hx])) (fun x hx => h2 x (by simp [hx])) e1
    exact ⟨rfl, e2⟩

theorem tail_stop {t rest : List Nat} {b : Bool} (h : Tail t b rest) : Stop t := by
  cases h with
  | @fin b _ h => exact ⟨b, _, rfl, .inl h⟩
  | @sep s b z h1 h2 h3 h4 =>
    cases s with
    | nil => exact absurd rfl h1
    | cons c s => exact ⟨c, _, rfl, .inr (h2 c (by simp))⟩

theorem tail_one {t rest rest' : List Nat} {b b' : Bool} (h : Tail t b rest) (h' : Tail t b' rest') : b = b' ∧ rest = rest' := by
  generalize ht : t = t' at h'
  cases h with
  | @fin b z h1 =>
    cases h' with
    | @fin b2 z2 h2 =>
      obtain ⟨rfl, rfl⟩ := List.cons.inj ht
      exact ⟨rfl, rfl⟩
    | @sep s b2 z2 k1 k2 k3 k4 =>
      cases s with
      | nil => exact absurd rfl k1
      | cons c s =>
        obtain ⟨rfl, -⟩ := List.cons.inj ht
        rcases k2 b (by simp) with e | e <;> omega
  | @sep s b z k1 k2 k3 k4 =>
    cases h' with
    | @fin b2 z2 h2 =>
      cases s with
      | nil => exact absurd rfl k1
      | cons c s =>
        obtain ⟨rfl, -⟩ := List.cons.inj ht
        rcases k2 c (by simp) with e | e <;> omega
    | @sep s2 b2 z2 q1 q2 q3 q4 =>
      obtain ⟨-, e⟩ := seps_split (fun hx => hx.elim k3 k4) (fun hx => hx.elim q3 q4) k2 q2 ht
      obtain ⟨rfl, rfl⟩ := List.cons.inj e
      exact ⟨rfl, rfl⟩

theorem pathText_one {p : List Nat} {l : List (List Nat)} (h : PathText p l) : ∀ {l'}, PathText p l' → l = l' := by
  induction h with
  | @last cs t rest h1 h2 h3 =>
    intro l' h'
    generalize hp : text cs ++ t = p at h'
    cases h' with
    | @last cs' t' rest' k1 k2 k3 =>
      rw [(text_split h1 k1 (tail_stop h3) (tail_stop k3) hp).1]
    | @cons cs' t' rest' l k1 k2 k3 k4 =>
      obtain ⟨-, rfl⟩ := text_split h1 k1 (tail_stop h3) (tail_stop k3) hp
      cases (tail_one h3 k3).1
  | @cons cs t rest l h1 h2 h3 h4 ih =>
    intro l' h'
    generalize hp : text cs ++ t = p at h'
    cases h' with
    | @last cs' t' rest' k1 k2 k3 =>
      obtain ⟨-, rfl⟩ := text_split h1 k1 (tail_stop h3) (tail_stop k3) hp
      cases (tail_one h3 k3).1
    | @cons cs' t' rest' l k1 k2 k3 k4 =>
      obtain ⟨rfl, rfl⟩ := text_split h1 k1 (tail_stop h3) (tail_stop k3) hp
      obtain ⟨-, rfl⟩ := tail_one h3 k3
      rw [ih k4]

theorem pathText_head {p : List Nat} {l : List (List Nat)} (h : PathText p l) : ∃ b z, p = b :: z ∧ ¬ (b < 32 ∨ b = 47 ∨ b = 92) := by
  have key : ∀ cs t : List Nat, (∀ c ∈ cs, NameChar c) → cs ≠ [] → ∃ b z, text cs ++ t = b :: z ∧ ¬ (b < 32 ∨ b = 47 ∨ b = 92) := by
    intro cs t h1 h2
    cases cs with
    | nil => exact absurd rfl h2
    | cons c cs =>
      obtain ⟨b, z, e, h3⟩ := name_head (h1 c (by simp))
      exact ⟨b, z ++ text cs ++ t, by rw [text_cons, e]; simp, h3⟩
  cases h with
  | last h1 h2 h3 => exact key _ _ h1 h2
  | cons h1 h2 h3 h4 => exact key _ _ h1 h2

theorem path_one {p : List Nat} {abs abs' : Bool} {l l' : List (List Nat)} (h : PathOf p abs l) (h' : PathOf p abs' l') : abs = abs' ∧ l = l' := by
  generalize hp : p = p' at h'
  cases h with
  | @empty z rest b h1 h2 =>
    cases h' with
    | @empty z' rest' b' k1 k2 =>
      obtain ⟨rfl, -⟩ := seps_split (by omega) (by omega) h1 k1 hp
      exact ⟨rfl, rfl⟩
    | @segs z' p l k1 k2 =>
      obtain ⟨b', y, rfl, h3⟩ := pathText_head k2
      obtain ⟨-, e⟩ := seps_split (by omega) (by omega) h1 k1 hp
      obtain ⟨rfl, -⟩ := List.cons.inj e
      exact absurd (.inl h2) h3
  | @segs z p l h1 h2 =>
    cases h' with
    | @empty z' rest' b' k1 k2 =>
      obtain ⟨b, y, rfl, h3⟩ := pathText_head h2
      obtain ⟨-, e⟩ := seps_split (by omega) (by omega) h1 k1 hp
      obtain ⟨rfl, -⟩ := List.cons.inj e
      exact absurd (.inl k2) h3
    | @segs z' p' l' k1 k2 =>
      obtain ⟨b, y, rfl, h3⟩ := pathText_head h2
      obtain ⟨b', y', rfl, h4⟩ := pathText_head k2
      obtain ⟨rfl, e⟩ := seps_split (by omega) (by omega) h1 k1 hp
      rw [e] at h2
      exact ⟨rfl, pathText_one h2 k2⟩

end Fpm.Tree
