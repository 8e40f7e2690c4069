import Verif.Tree.RmLemmas
/-!
# Lemmas about rm: trees and paths
-/
namespace Fpm.Tree
open Fpm.Fat Fpm.Fat.Spec Fpm.FatFile.Spec Fpm.Lfn Fpm.Names Fpm.Names.Spec Fpm.TextIo.Spec Fpm.FatDir Fpm.FatDir.Spec Fpm.Mount Fpm.Mount.Spec Fpm.DirDev Fpm.DirDev.Spec Fpm.Tree.Spec Fpm.FatSync

/-! ## Several objects have gone -/

theorem pruned_refl (v : Vol) (S : Nat → Prop) (T : List Dir) (F : List (List Nat)) {s s' : St} (h : ∀ m ∈ F, ∀ n ∈ secs v m, view s' n = view s n) : Pruned v S T F s T F s' :=
  ⟨fun e he => ⟨e, he, rfl, rfl, .refl _, fun _ ho _ => ho⟩, fun _ he _ => he, fun _ _ _ hx => hx, fun _ hm => hm, fun _ hm => .inl hm, fun e he _ ho _ _ _ => ⟨e, he, rfl, ho⟩, h⟩

theorem pruned_trans {v : Vol} {S : Nat → Prop} {T T1 T2 : List Dir} {F F1 F2 : List (List Nat)} {s s1 s2 : St} (h1 : Pruned v S T F s T1 F1 s1) (h2 : Pruned v S T1 F1 s1 T2 F2 s2) : Pruned v S T F s T2 F2 s2 := by
  refine ⟨fun e he => ?_, fun e he hn => h2.same e (h1.same e he hn) hn, fun e he x hx => ?_, fun m hm => h1.chains m (h2.chains m hm), fun m hm => ?_, fun e he o ho m hm hown => ?_, fun m hm n hn => ?_⟩
  · obtain ⟨e1, he1, a1, a2, a3, a4⟩ := h2.dirs e he
    obtain ⟨e0, he0, b1, b2, b3, b4⟩ := h1.dirs e1 he1
    exact ⟨e0, he0, a1.trans b1, a2.trans b2, a3.trans b3, fun o ho hd => a4 o (b4 o ho hd) hd⟩
  · obtain ⟨e1, he1, a1, -⟩ := h2.dirs e he
    have := h1.reach e1 he1 x (by rw [← a1]; exact hx)
    exact h2.reach e he x (by rw [a1]; exact this)
  · rcases h1.kept m hm with hm1 | hm1
    · refine (h2.kept m hm1).imp id fun ⟨e1, he1, hS, o, ho, hown⟩ => ?_
      obtain ⟨e0, he0, b1, b2, b3, b4⟩ := h1.dirs e1 he1
      exact ⟨e0, he0, by rw [← b1]; exact hS, o, b3.subset ho, hown⟩
    · exact .inr hm1
  · obtain ⟨e1, he1, a1, a2⟩ := h1.freed e he o ho m (h2.chains m hm) hown
    obtain ⟨e2, he2, b1, b2⟩ := h2.freed e1 he1 o a2 m hm hown
    exact ⟨e2, he2, b1.trans a1, b2⟩
  · exact (h2.data m hm n hn).trans (h1.data m (h2.chains m hm) n hn)

theorem pruned_mono {v : Vol} {S S' : Nat → Prop} (hS : ∀ c, S c → S' c) {T T1 : List Dir} {F F1 : List (List Nat)} {s s1 : St} (h : Pruned v S T F s T1 F1 s1) : Pruned v S' T F s T1 F1 s1 :=
  ⟨h.dirs, fun e he hn => h.same e he fun hx => hn (hS _ hx), h.reach, h.chains, fun m hm => (h.kept m hm).imp id fun ⟨e, he, hx, hy⟩ => ⟨e, he, hS _ hx, hy⟩, h.freed, h.data⟩

/-- What can be reached afterwards could be reached before. -/
theorem pruned_within {v : Vol} {S : Nat → Prop} {T T1 : List Dir} {F F1 : List (List Nat)} {s s1 : St} (h : Pruned v S T F s T1 F1 s1) {x c : Nat} (hw : Within v T1 x c) : Within v T x c := by
  induction hw with
  | self => exact .self
  | @sub d o _ hd ho hdo hdir ih =>
    obtain ⟨e, he, a1, -, a3, -⟩ := h.dirs d hd
    exact .sub (d := e) (by rw [← a1]; exact ih) he (a3.subset ho) hdo hdir

theorem within_trans {v : Vol} {T : List Dir} {a b c : Nat} (h1 : Within v T a b) (h2 : Within v T b c) : Within v T a c := by
  induction h2 with
  | self => exact h1
  | sub _ hd ho hdo hdir ih => exact .sub ih hd ho hdo hdir

theorem gone_pruned {v : Vol} {i : Info} {d : Dir} {o : Obj} {T T' : List Dir} {F F' : List (List Nat)} {s s' : St} (honce : (T.map Dir.sclust).Nodup) (h : Gone v i d o T F s T' F' s') :
    Pruned v (fun c => IsDir o ∧ c = first v o ∨ c = d.sclust) T F s T' F' s' := by
  obtain ⟨x, y, hos, hleft⟩ := h.left
  have hd' : ∀ e ∈ T, e.sclust = d.sclust → e = d := fun e he hx => dir_unique honce he h.mem hx
  have hnd : IsDir o → first v o ≠ d.sclust := fun hd hx => h.nodot (h.vacant hd d h.mem hx.symm o (by rw [hos]; simp))
  refine ⟨fun e he => ?_, fun e he hn => h.same e he (fun hx => hn (.inr hx)) (fun hx => hn (.inl hx)), ?_, h.chains, fun m hm => ?_, fun e he o' ho' m hm hown => ?_, h.data⟩
  · by_cases hx : e.sclust = d.sclust
    · by_cases hy : e = { d with os := x ++ y }
      · subst hy
        refine ⟨d, h.mem, rfl, rfl, by rw [hos]; simp, fun o' ho' hdo' => ?_⟩
        rw [hos] at ho'
        simp only [List.mem_append, List.mem_cons] at ho' ⊢
        rcases ho' with ho' | rfl | ho'
        · exact .inl ho'
        · exact absurd hdo' h.nodot
        · exact .inr ho'
      · exact absurd (dir_unique h.uniq he hleft hx) hy
    · have := h.dirs e he hx
      exact ⟨e, this.1, rfl, rfl, .refl _, fun _ ho _ => ho⟩
  · intro e he x0 hw
    generalize hc : e.sclust = c at hw
    induction hw generalizing e with
    | self => exact .self
    | @sub dd o2 _ hdd ho2 hdo2 hdir2 ih =>
      by_cases hx : dd.sclust = d.sclust
      · have := hd' dd hdd hx
        subst this
        refine .sub (d := { dd with os := x ++ y }) (ih _ hleft rfl) hleft ?_ hdo2 hdir2
        rw [hos] at ho2
        simp only [List.mem_append, List.mem_cons] at ho2 ⊢
        rcases ho2 with ho2 | rfl | ho2
        · exact .inl ho2
        · exfalso
          exact (h.dirs e he (by rw [hc]; exact hnd hdir2)).2 ⟨hdir2, hc⟩
        · exact .inr ho2
      · have hm : dd ∈ T' := h.same dd hdd hx fun hy => hdo2 (h.vacant hy.1 dd hdd hy.2 o2 ho2)
        exact .sub (ih dd hm rfl) hm ho2 hdo2 hdir2
  · exact (h.kept m hm).imp id fun hx => ⟨d, h.mem, .inr rfl, o, by rw [hos]; simp, hx⟩
  · by_cases hx : e.sclust = d.sclust
    · have := hd' e he hx
      subst this
      refine ⟨_, hleft, rfl, ?_⟩
      rw [hos] at ho'
      simp only [List.mem_append, List.mem_cons] at ho' ⊢
      rcases ho' with ho' | rfl | ho'
      · exact .inl ho'
      · exact absurd hown (h.freed m hm)
      · exact .inr ho'
    · exact ⟨e, h.same e he hx fun hy => hown.1 (h.vacant hy.1 e he hy.2 o' ho'), rfl, ho'⟩

/-! ## Paths afterwards -/

/-- What a path leads to afterwards that led to a directory or an object: the same, or nothing. -/
inductive Still (T' : List Dir) : Goal → Goal → Prop where
  | noPath {G : Goal} : Still T' G .noPath
  | free {G : Goal} {d : Dir} {cs : List Nat} : Still T' G (.free d cs)
  | self {d d' : Dir} : d' ∈ T' → d'.sclust = d.sclust → Still T' (.self d) (.self d')
  | object {d d' : Dir} {cs : List Nat} {o : Obj} : d' ∈ T' → d'.sclust = d.sclust → o ∈ d'.os → Still T' (.object d cs o) (.object d' cs o)

/-- Is it a directory or an object? -/
def Lands : Goal → Prop
  | .self _ => True
  | .object _ _ _ => True
  | _ => False

theorem still_leads {v : Vol} {i : Info} {S : Nat → Prop} {T T' : List Dir} {F F' : List (List Nat)} {s s' : St} (h : Tree v i T F s) (h' : Tree v i T' F' s') (hp : Pruned v S T F s T' F' s') {d : Dir} {l : List (List Nat)} {G : Goal}
    (hl : Leads v T d l G) : d ∈ T → Lands G → ∀ d' ∈ T', d'.sclust = d.sclust → ∃ G', Leads v T' d' l G' ∧ Still T' G G' := by
  have key : ∀ {d d' : Dir}, d ∈ T → d' ∈ T' → d'.sclust = d.sclust → (∀ o ∈ d'.os, o ∈ d.os) ∧ ∀ o ∈ d.os, Dotted o → o ∈ d'.os := by
    intro d d' hd hd' he
    obtain ⟨e, hem, a1, -, a3, a4⟩ := hp.dirs d' hd'
    cases dir_unique h.once hem hd (a1.symm.trans he)
    exact ⟨fun o ho => a3.subset ho, a4⟩
  have dot : ∀ {cs : List Nat} {o : Obj}, DotName cs → Calls cs o → Dotted o := by
    intro cs o hn hc
    unfold Calls at hc
    rw [if_pos hn] at hc
    rcases hn with rfl | rfl
    · exact fn_dot hc
    · exact fn_dot hc
  induction hl with
  | bad _ => exact fun _ hx => hx.elim
  | missing _ _ _ _ => exact fun _ hx => hx.elim
  | noDir _ _ _ _ _ => exact fun _ hx => hx.elim
  | free _ _ _ => exact fun _ hx => hx.elim
  | stay hn hno _ ih =>
    intro hd hG d' hd' he
    obtain ⟨G', h1, h2⟩ := ih hd hG d' hd' he
    exact ⟨G', .stay hn (fun o ho => hno o ((key hd hd' he).1 o ho)) h1, h2⟩
  | self hn hno =>
    intro hd _ d' hd' he
    exact ⟨_, .self hn (fun o ho => hno o ((key hd hd' he).1 o ho)), .self hd' he⟩
  | @object d cs o hg ho hc =>
    intro hd _ d' hd' he
    by_cases hm : o ∈ d'.os
    · exact ⟨_, .object hg hm hc, .object hd' he hm⟩
    · have hn : ¬ DotName cs := fun hn => hm ((key hd hd' he).2 o ho (dot hn hc))
      refine ⟨_, .free hg hn (fun o' ho' hc' => hm ?_), .free⟩
      rw [calls_unique (h.dirs d hd).names ho ((key hd hd' he).1 o' ho') hc hc']
      exact ho'
  | @enter d d2 cs l o G hg ho hc hdir hd2 he2 hl ih =>
    intro hd hG d' hd' he
    by_cases hm : o ∈ d'.os
    · obtain ⟨d3, hd3, he3⟩ := sub_dir h' hd' hm hdir
      obtain ⟨G', h1, h2⟩ := ih hd2 hG d3 hd3 (he3.trans he2.symm)
      exact ⟨G', .enter hg hm hc hdir hd3 he3 h1, h2⟩
    · have hn : ¬ DotName cs := fun hn => hm ((key hd hd' he).2 o ho (dot hn hc))
      refine ⟨_, .missing hg hn (fun o' ho' hc' => hm ?_) (by rintro rfl; cases hl), .noPath⟩
      rw [calls_unique (h.dirs d hd).names ho ((key hd hd' he).1 o' ho') hc hc']
      exact ho'

theorem still_resolves {v : Vol} {i : Info} {S : Nat → Prop} {T T' : List Dir} {F F' : List (List Nat)} {s s' : St} (h : Tree v i T F s) (h' : Tree v i T' F' s') (hp : Pruned v S T F s T' F' s') {cdir : Nat} (hc : ∃ d ∈ T', d.sclust = cdir)
    {abs : Bool} {l : List (List Nat)} {G : Goal} (hG : Resolves v T cdir abs l G) (hL : Lands G) : ∃ G', Resolves v T' cdir abs l G' ∧ Still T' G G' := by
  obtain ⟨d, hd, he, hG⟩ := hG
  obtain ⟨d', hd', he'⟩ : ∃ d' ∈ T', d'.sclust = d.sclust := by
    rw [he]
    cases abs with
    | true => exact h'.root
    | false => exact hc
  rcases hG with ⟨rfl, rfl⟩ | hG
  · exact ⟨_, ⟨d', hd', he'.trans he, .inl ⟨rfl, rfl⟩⟩, .self hd' he'⟩
  · obtain ⟨G', h1, h2⟩ := still_leads h h' hp hG hd hL d' hd' he'
    exact ⟨G', ⟨d', hd', he'.trans he, .inr h1⟩, h2⟩

/-! ## Paths of objects in a directory -/

theorem leads_child {v : Vol} {T : List Dir} {d n : Dir} {l : List (List Nat)} {G : Goal} (hl : Leads v T d l G) (hi : Into v T G (.inl n)) {cs : List Nat} {o : Obj} (hg : Good cs) (ho : o ∈ n.os) (hc : Calls cs o) :
    Leads v T d (l ++ [cs]) (.object n cs o) := by
  induction hl with
  | bad _ => cases hi
  | missing _ _ _ _ => cases hi
  | noDir _ _ _ _ _ => cases hi
  | free _ _ _ => cases hi
  | stay hn hno _ ih => exact .stay hn hno (ih hi)
  | self hn hno =>
    cases hi
    exact .stay hn hno (.object hg ho hc)
  | object hg1 ho1 hc1 =>
    cases hi with
    | dir hd hm he => exact .enter hg1 ho1 hc1 hd hm he (.object hg ho hc)
  | enter hg1 ho1 hc1 hd hm he _ ih => exact .enter hg1 ho1 hc1 hd hm he (ih hi)

theorem leads_lost {v : Vol} {T : List Dir} {d : Dir} {l : List (List Nat)} {G : Goal} (hl : Leads v T d l G) (hi : G = .noPath ∨ ∃ d cs, G = .free d cs) (cs : List Nat) : Leads v T d (l ++ [cs]) .noPath := by
  induction hl with
  | bad _ => rcases hi with hi | ⟨_, _, hi⟩ <;> cases hi
  | missing hg hn hno hne => exact .missing hg hn hno (by simp)
  | noDir hg ho hc hd hne => exact .noDir hg ho hc hd (by simp)
  | free hg hn hno => exact .missing hg hn hno (by simp)
  | stay hn hno _ ih => exact .stay hn hno (ih hi)
  | self hn hno => rcases hi with hi | ⟨_, _, hi⟩ <;> cases hi
  | object hg1 ho1 hc1 => rcases hi with hi | ⟨_, _, hi⟩ <;> cases hi
  | enter hg1 ho1 hc1 hd hm he _ ih => exact .enter hg1 ho1 hc1 hd hm he (ih hi)

theorem resolves_child {v : Vol} {T : List Dir} {cdir : Nat} {abs : Bool} {n : Dir} {l : List (List Nat)} {G : Goal} (hl : Resolves v T cdir abs l G) (hi : Into v T G (.inl n)) {cs : List Nat} {o : Obj} (hg : Good cs) (ho : o ∈ n.os) (hc : Calls cs o) :
    Resolves v T cdir abs (l ++ [cs]) (.object n cs o) := by
  obtain ⟨d, hd, he, hG⟩ := hl
  refine ⟨d, hd, he, .inr ?_⟩
  rcases hG with ⟨rfl, rfl⟩ | hG
  · cases hi
    exact .object hg ho hc
  · exact leads_child hG hi hg ho hc

theorem resolves_lost {v : Vol} {T : List Dir} {cdir : Nat} {abs : Bool} {l : List (List Nat)} {G : Goal} (hl : Resolves v T cdir abs l G) (hi : G = .noPath ∨ ∃ d cs, G = .free d cs) (cs : List Nat) : Resolves v T cdir abs (l ++ [cs]) .noPath := by
  obtain ⟨d, hd, he, hG⟩ := hl
  refine ⟨d, hd, he, .inr ?_⟩
  rcases hG with ⟨rfl, rfl⟩ | hG
  · rcases hi with hi | ⟨_, _, hi⟩ <;> cases hi
  · exact leads_lost hG hi cs

/-! ## The text of such a path -/

theorem text_ge {cs : List Nat} (h : ∀ c ∈ cs, NameChar c) : ∀ b ∈ text cs, 32 ≤ b := by
  induction cs with
  | nil => intro b hb; cases hb
  | cons c cs ih =>
    intro b hb
    rw [text_cons] at hb
    rcases List.mem_append.mp hb with hb | hb
    · have := (h c (by simp)).2.1
      unfold uenc at hb
      split at hb
      · simp at hb; omega
      split at hb
      · simp at hb; omega
      split at hb
      · simp at hb; omega
      · simp at hb; omega
    · exact ih (fun c hc => h c (by simp [hc])) b hb

theorem sep_text (s : List Nat) (hs : ∀ c ∈ s, c = 47 ∨ c = 92) {cs : List Nat} (hc : ∀ c ∈ cs, NameChar c) (hne : cs ≠ []) (z : List Nat) : Tail (s ++ 47 :: (text cs ++ z)) false (text cs ++ z) := by
  cases cs with
  | nil => exact absurd rfl hne
  | cons c cs =>
    obtain ⟨b, r, e, hb, hb1, hb2⟩ := text_first (hc c (by simp)) cs z
    rw [e]
    have := Tail.sep (s := s ++ [47]) (b := b) (z := r) (by simp) (fun x hx => by rcases List.mem_append.mp hx with hx | hx; exact hs x hx; exact .inl (List.mem_singleton.mp hx)) hb1 hb2
    rw [show decide (b < 32) = false from decide_eq_false (by omega)] at this
    simpa using this

/-- In a text without control characters, the first one is the zero at its end. -/
theorem ctl_last : ∀ {a p z : List Nat} {b : Nat}, (∀ c ∈ p, 32 ≤ c) → b < 32 → p ++ [0] = a ++ b :: z → (∀ c ∈ a, 32 ≤ c) → a = p
  | [], [], _, _, _, _, _, _ => rfl
  | [], c :: p, z, b, h, hb, e, _ => by
    have := h c (by simp)
    simp at e
    omega
  | c :: a, [], z, b, _, hb, e, h => by
    have := h c (by simp)
    simp at e
  | c :: a, d :: p, z, b, h, hb, e, h' => by
    simp only [List.cons_append, List.cons.injEq] at e
    rw [ctl_last (fun c hc => h c (by simp [hc])) hb e.2 fun c hc => h' c (by simp [hc]), e.1]

theorem sep_ge {s : List Nat} (hs : ∀ c ∈ s, c = 47 ∨ c = 92) : ∀ c ∈ s, 32 ≤ c := fun c hc => by rcases hs c hc with rfl | rfl <;> decide

theorem child_text {q : List Nat} {l : List (List Nat)} (h : PathText q l) : ∀ {p : List Nat}, q = p ++ [0] → (∀ c ∈ p, 32 ≤ c) → ∀ {cs : List Nat}, (∀ c ∈ cs, NameChar c) → cs ≠ [] → PathText (p ++ 47 :: (text cs ++ [0])) (l ++ [cs]) := by
  induction h with
  | @last c1 t rest hc1 hn1 ht =>
    intro p hq hp cs hc hne
    have hlast : PathText (text cs ++ [0]) [cs] := .last hc hne (.fin (z := []) (by decide))
    generalize hb : true = bb at ht
    cases ht with
    | @fin b z hb' =>
      have := ctl_last hp hb' hq.symm (text_ge hc1)
      rw [← this]
      exact .cons hc1 hn1 (sep_text [] (by simp) hc hne _) hlast
    | @sep s b z hs1 hs2 hb1 hb2 =>
      have hb : b < 32 := of_decide_eq_true hb.symm
      have := ctl_last (a := text c1 ++ s) (z := z) hp hb (by rw [← hq, List.append_assoc]) (fun c hx => by rcases List.mem_append.mp hx with hx | hx; exact text_ge hc1 c hx; exact sep_ge hs2 c hx)
      rw [← this, List.append_assoc]
      exact .cons hc1 hn1 (sep_text s hs2 hc hne _) hlast
  | @cons c1 t rest l hc1 hn1 ht hr ih =>
    intro p hq hp cs hc hne
    generalize hb : false = bb at ht
    cases ht with
    | fin => cases hb
    | @sep s b z hs1 hs2 hb1 hb2 =>
      have hb : ¬ b < 32 := of_decide_eq_false hb.symm
      have hz : ∃ p', b :: z = p' ++ [0] := by
        have h1 : (text c1 ++ (s ++ b :: z)).getLast? = some 0 := by rw [hq]; simp
        rw [← List.append_assoc, List.getLast?_append] at h1
        rcases List.eq_nil_or_concat (b :: z) with h2 | ⟨p', x, h2⟩
        · cases h2
        · rw [h2] at h1
          simp at h1
          exact ⟨p', by rw [h2, h1]; simp⟩
      obtain ⟨p', hz⟩ := hz
      rw [hz, ← List.append_assoc, ← List.append_assoc] at hq
      have hpp := List.append_cancel_right hq
      subst hpp
      have hih := ih hz (fun c hx => hp c (by simp [hx])) hc hne
      cases p' with
      | nil =>
        simp at hz
        omega
      | cons b' p' =>
        simp only [List.cons_append, List.cons.injEq] at hz
        have ht := Tail.sep (s := s) (b := b) (z := p' ++ 47 :: (text cs ++ [0])) hs1 hs2 hb1 hb2
        rw [decide_eq_false hb] at ht
        have := PathText.cons hc1 hn1 ht (by rw [hz.1]; exact hih)
        rw [hz.1] at this
        simpa using this

theorem child_path {p : List Nat} {abs : Bool} {l : List (List Nat)} (h : PathOf (p ++ [0]) abs l) (hne : p ≠ []) (hp : ∀ c ∈ p, 32 ≤ c) {cs : List Nat} (hc : ∀ c ∈ cs, NameChar c) (hcs : cs ≠ []) :
    PathOf ((p ++ 47 :: text cs) ++ [0]) abs (l ++ [cs]) := by
  generalize hq : p ++ [0] = q at h
  rw [List.append_assoc, List.cons_append]
  cases h with
  | @empty z rest b hz hb =>
    have := ctl_last hp hb hq (sep_ge hz)
    subst this
    have := PathOf.segs (z := z ++ [47]) (fun c hx => by rcases List.mem_append.mp hx with hx | hx; exact hz c hx; exact .inl (List.mem_singleton.mp hx)) (PathText.last (t := [0]) hc hcs (.fin (z := []) (by decide)))
    cases z with
    | nil => exact absurd rfl hne
    | cons a z => simpa using this
  | @segs z p1 l hz hp1 =>
    obtain ⟨b, r, e, hb1, hb2⟩ := path_head hp1
    have : ∃ p', p1 = p' ++ [0] := by
      have h1 : (z ++ p1).getLast? = some 0 := by rw [← hq]; simp
      rcases List.eq_nil_or_concat p1 with h2 | ⟨p', x, h2⟩
      · rw [h2] at e; cases e
      · rw [h2] at h1
        simp at h1
        exact ⟨p', by rw [h2, h1]; simp⟩
    obtain ⟨p', rfl⟩ := this
    rw [← List.append_assoc] at hq
    have hpp := List.append_cancel_right hq
    subst hpp
    have := PathOf.segs hz (child_text hp1 rfl (fun c hx => hp c (by simp [hx])) hc hcs)
    simpa using this

end Fpm.Tree
