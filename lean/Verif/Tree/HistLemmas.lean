import Verif.Tree.HistSpec
import Verif.Tree.RenameProps
/-!
# Paths before and after a call
-/
namespace Fpm.Tree
open Fpm.Fat Fpm.Fat.Spec Fpm.FatFile Fpm.FatFile.Spec Fpm.FatBytes Fpm.FatBytes.Spec Fpm.Lfn Fpm.Names Fpm.Names.Spec Fpm.TextIo.Spec Fpm.FatDir Fpm.FatDir.Spec Fpm.Mount Fpm.Mount.Spec Fpm.DirDev Fpm.DirDev.Spec Fpm.Tree.Spec Fpm.FatSync

/-- All directories are still there, with their objects; `bad` are exceptions, by cluster of the directory.  Empty directories may be missing. -/
def Keeps (T T' : List Dir) (bad : Nat → Obj → Prop) : Prop := ∀ d ∈ T, (∀ o ∈ d.os, Dotted o) ∨ ∃ d' ∈ T', d'.sclust = d.sclust ∧ ∀ o ∈ d.os, ¬ Dotted o → o ∈ d'.os ∨ bad d.sclust o

/-- A path that meets no exceptions. -/
inductive Clear (v : Vol) (T : List Dir) (bad : Nat → Obj → Prop) : Dir → List (List Nat) → Goal → Prop where
  | object {d : Dir} {cs : List Nat} {o : Obj} : Good cs → o ∈ d.os → Calls cs o → ¬ Dotted o → ¬ bad d.sclust o → Clear v T bad d [cs] (.object d cs o)
  | enter {d d' : Dir} {cs : List Nat} {l : List (List Nat)} {o : Obj} {g : Goal} : Good cs → o ∈ d.os → Calls cs o → ¬ Dotted o → ¬ bad d.sclust o → IsDir o → d' ∈ T → d'.sclust = first v o → Clear v T bad d' l g →
      Clear v T bad d (cs :: l) g

theorem calls_nodot {v : Vol} {i : Info} {T : List Dir} {F : List (List Nat)} {s : St} (h : Tree v i T F s) {d : Dir} (hd : d ∈ T) {o : Obj} (ho : o ∈ d.os) {cs : List Nat} (hc : Calls cs o) (hn : ¬ DotName cs) : ¬ Dotted o :=
  fun hx => means_dotted (calls_means hc hn) (h.dots d hd o ho hx)

theorem clear_leads {v : Vol} {T : List Dir} {bad : Nat → Obj → Prop} {d : Dir} {l : List (List Nat)} {G : Goal} (h : Clear v T bad d l G) : Leads v T d l G := by
  induction h with
  | object h1 h2 h3 => exact .object h1 h2 h3
  | enter h1 h2 h3 _ _ h4 h5 h6 _ ih => exact .enter h1 h2 h3 h4 h5 h6 ih

/-- A path none of whose parts leads to an exception. -/
theorem clear_prefix {v : Vol} {i : Info} {T : List Dir} {F : List (List Nat)} {s : St} (h : Tree v i T F s) {bad : Nat → Obj → Prop} {d0 : Dir} {l : List (List Nat)} {G : Goal} (hl : Leads v T d0 l G) : d0 ∈ T → Plain l → (∃ d cs o, G = .object d cs o) →
    (∀ l1 d cs o, l1 <+: l → Leads v T d0 l1 (.object d cs o) → ¬ bad d.sclust o) → Clear v T bad d0 l G := by
  induction hl with
  | stay h1 => exact fun _ hp => absurd h1 (hp _ List.mem_cons_self)
  | @object d cs o h1 h2 h3 => exact fun hd hp _ hb => .object h1 h2 h3 (calls_nodot h hd h2 h3 (hp _ List.mem_cons_self)) (hb [cs] d cs o (List.prefix_refl _) (.object h1 h2 h3))
  | @enter d d' cs l o g h1 h2 h3 h4 h5 h6 _ ih =>
    intro hd hp hg hb
    refine .enter h1 h2 h3 (calls_nodot h hd h2 h3 (hp _ List.mem_cons_self)) (hb [cs] d cs o (by simp) (.object h1 h2 h3)) h4 h5 h6 (ih h5 (fun c hc => hp c (List.mem_cons_of_mem _ hc)) hg fun l1 e c a hl1 ha => ?_)
    exact hb (cs :: l1) e c a (by obtain ⟨t, rfl⟩ := hl1; exact ⟨t, rfl⟩) (.enter h1 h2 h3 h4 h5 h6 ha)
  | _ =>
    rintro - - ⟨_, _, _, hg⟩
    cases hg

/-- A path that does not end at an exception; there is nothing in exceptions that are directories. -/
theorem clear_end {v : Vol} {i : Info} {T : List Dir} {F : List (List Nat)} {s : St} (h : Tree v i T F s) {bad : Nat → Obj → Prop} (hv : ∀ d ∈ T, ∀ o ∈ d.os, IsDir o → bad d.sclust o → Vacant v T o) {d0 : Dir} {l : List (List Nat)} {G : Goal}
    (hl : Leads v T d0 l G) : d0 ∈ T → Plain l → (∃ d cs o, G = .object d cs o ∧ ¬ bad d.sclust o) → Clear v T bad d0 l G := by
  induction hl with
  | stay h1 => exact fun _ hp => absurd h1 (hp _ List.mem_cons_self)
  | @object d cs o h1 h2 h3 =>
    rintro hd hp ⟨_, _, _, hg, hb⟩
    cases hg
    exact .object h1 h2 h3 (calls_nodot h hd h2 h3 (hp _ List.mem_cons_self)) hb
  | @enter d d' cs l o g h1 h2 h3 h4 h5 h6 _ ih =>
    intro hd hp hg
    have key := ih h5 (fun c hc => hp c (List.mem_cons_of_mem _ hc)) hg
    refine .enter h1 h2 h3 (calls_nodot h hd h2 h3 (hp _ List.mem_cons_self)) (fun hb => ?_) h4 h5 h6 key
    have := hv d hd o h2 h4 hb d' h5 h6
    cases key with
    | object _ h7 _ h8 => exact h8 (this _ h7)
    | enter _ h7 _ h8 => exact h8 (this _ h7)
  | _ =>
    rintro - - ⟨_, _, _, hg, -⟩
    cases hg

theorem clear_some {v : Vol} {T : List Dir} {bad : Nat → Obj → Prop} {d : Dir} {l : List (List Nat)} {G : Goal} (h : Clear v T bad d l G) : ¬ ∀ o ∈ d.os, Dotted o := by
  intro hx
  cases h with
  | object _ h2 _ h4 => exact h4 (hx _ h2)
  | enter _ h2 _ h4 => exact h4 (hx _ h2)

/-- The path leads to the same object afterwards. -/
theorem clear_keeps {v : Vol} {T T' : List Dir} (ho : (T'.map Dir.sclust).Nodup) {bad : Nat → Obj → Prop} (hk : Keeps T T' bad) {d0 : Dir} {l : List (List Nat)} {G : Goal} (hl : Clear v T bad d0 l G) : d0 ∈ T → ∀ d0' ∈ T', d0'.sclust = d0.sclust →
    ∀ d cs o, G = .object d cs o → d ∈ T ∧ o ∈ d.os ∧ ¬ Dotted o ∧ ¬ bad d.sclust o ∧ ∃ d' ∈ T', d'.sclust = d.sclust ∧ o ∈ d'.os ∧ Leads v T' d0' l (.object d' cs o) := by
  induction hl with
  | @object d cs o h1 h2 h3 h4 h5 =>
    rintro hd d0' hd' e _ _ _ ⟨⟩
    obtain ⟨d', a1, a2, a3⟩ := (hk d hd).resolve_left fun hx => h4 (hx o h2)
    cases dir_unique ho hd' a1 (by rw [e, a2])
    have := (a3 o h2 h4).resolve_right h5
    exact ⟨hd, h2, h4, h5, d0', hd', e, this, .object h1 this h3⟩
  | @enter d d' cs l o g h1 h2 h3 h4 h5 h6 h7 h8 h9 ih =>
    intro hd d0' hd' e D C O hG
    obtain ⟨p, a1, a2, a3⟩ := (hk d hd).resolve_left fun hx => h4 (hx o h2)
    cases dir_unique ho hd' a1 (by rw [e, a2])
    have := (a3 o h2 h4).resolve_right h5
    obtain ⟨p, b1, b2, -⟩ := (hk d' h7).resolve_left (clear_some h9)
    obtain ⟨k1, k2, k3, k4, q, k5, k6, k7, k8⟩ := ih h7 p b1 b2 D C O hG
    exact ⟨k1, k2, k3, k4, q, k5, k6, k7, .enter h1 this h3 h6 b1 (b2.trans h8) k8⟩

theorem flat_same {f g : Nat → List Nat} : ∀ {l : List Nat}, (∀ n ∈ l, f n = g n) → l.flatMap f = l.flatMap g
  | [], _ => rfl
  | a :: l, h => by rw [List.flatMap_cons, List.flatMap_cons, h a List.mem_cons_self, flat_same fun n hn => h n (List.mem_cons_of_mem _ hn)]

/-- The contents of files are still there. -/
def Carries (v : Vol) (T : List Dir) (F : List (List Nat)) (s : St) (F' : List (List Nat)) (s' : St) (bad : Nat → Obj → Prop) : Prop :=
  ∀ d ∈ T, ∀ o ∈ d.os, ¬ Dotted o → ¬ IsDir o → ¬ bad d.sclust o → ∀ m, m ≠ [] → m ∈ F → first v o = m.headD 0 → m ∈ F' ∧ ∀ n ∈ secs v m, view s' n = view s n

theorem file_keeps {v : Vol} {T T' : List Dir} {F F' : List (List Nat)} {s s' : St} (ho : (T'.map Dir.sclust).Nodup) (hroot : ∃ d ∈ T', d.sclust = 0) {bad : Nat → Obj → Prop} (hk : Keeps T T' bad) (hc : Carries v T F s F' s' bad) {l : List (List Nat)}
    {data : List Nat} (hf : FileAt v T F s l data) (hcl : ∀ d0 ∈ T, ∀ d cs o, ¬ IsDir o → d0.sclust = 0 → Leads v T d0 l (.object d cs o) → Clear v T bad d0 l (.object d cs o)) : FileAt v T' F' s' l data := by
  obtain ⟨d, cs, o, m, ⟨d0, h0, hz, hl⟩, hd, hm, hfst, hb⟩ := hf
  have hl : Leads v T d0 l (.object d cs o) := by
    rcases hl with ⟨-, hl⟩ | hl
    · cases hl
    · exact hl
  obtain ⟨r, hr, hr0⟩ := hroot
  obtain ⟨k1, k2, k3, k4, d', -, -, -, k5⟩ := clear_keeps ho hk (hcl d0 h0 d cs o hd hz hl) h0 r hr (by rw [hr0]; exact hz.symm) d cs o rfl
  by_cases hm0 : m = []
  · subst hm0
    exact ⟨d', cs, o, [], ⟨r, hr, hr0, .inr k5⟩, hd, .inl rfl, hfst, hb⟩
  · obtain ⟨c1, c2⟩ := hc d k1 o k2 k3 hd k4 m hm0 (hm.resolve_left hm0) hfst
    refine ⟨d', cs, o, m, ⟨r, hr, hr0, .inr k5⟩, hd, .inr c1, hfst, ?_⟩
    rw [← hb]
    unfold bytesOf
    rw [show (secs v m).flatMap (view s') = (secs v m).flatMap (view s) from flat_same c2]

/-- One object only refers to a cluster. -/
theorem refs_inj {v : Vol} {T : List Dir} (ho : (T.map Dir.sclust).Nodup) (h : (T.flatMap fun d => claims v d.os).Nodup) {d1 d2 : Dir} (h1 : d1 ∈ T) (h2 : d2 ∈ T) {a b : Obj} (ha : a ∈ d1.os) (hb : b ∈ d2.os) (hda : ¬ Dotted a) (hdb : ¬ Dotted b)
    (h0 : first v a ≠ 0) (he : first v b = first v a) : d1 = d2 ∧ a = b := by
  have e := dir_unique ho h1 h2 (refs_same h h1 h2 ha hb hda hdb h0 he)
  subst e
  refine ⟨rfl, ?_⟩
  obtain ⟨A, B, hAB⟩ := List.append_of_mem h1
  have hp : T.Perm (d1 :: (A ++ B)) := by rw [hAB]; exact List.perm_middle
  obtain ⟨x, y, hxy⟩ := List.append_of_mem ha
  have key := (refs_only ((hp.flatMap_right _).nodup_iff.mp h) hxy hda h0).1
  rw [hxy] at hb
  rcases mem_new.mp hb with hb | hb
  · exact hb.symm
  · exact absurd he (key b hb hdb)

/-- The second entry stays. -/
theorem second_keep {q q' : Dir} (h : ∀ b ∈ q.os, Dotted b → b ∈ q'.os) (hd : DotsSecond q) : DotsSecond q' := by
  obtain ⟨b, h1, h2, h3⟩ := hd
  exact ⟨b, h b h1 (dotted_fn h3), h2, h3⟩

/-- Same directories, as far as entries `..` are concerned. -/
def DotsKeep (T T' : List Dir) : Prop := ∀ p ∈ T, ∃ p' ∈ T', p'.sclust = p.sclust ∧ (DotsSecond p → DotsSecond p')

theorem dotskeep_trans {T T' T'' : List Dir} (h1 : DotsKeep T T') (h2 : DotsKeep T' T'') : DotsKeep T T'' := by
  intro p hp
  obtain ⟨p1, a1, a2, a3⟩ := h1 p hp
  obtain ⟨p2, b1, b2, b3⟩ := h2 p1 a1
  exact ⟨p2, b1, b2.trans a2, fun h => b3 (a3 h)⟩

theorem dots_added {d : Dir} {o : Obj} {T T' : List Dir} (h : Added d o T T') : DotsKeep T T' := by
  intro p hp
  obtain ⟨p', a1, a2, -, a3⟩ := added_keep h p hp
  exact ⟨p', a1, a2, second_keep fun b hb _ => a3 b hb⟩

theorem dots_dropped {k : Nat} {o : Obj} {T T' : List Dir} (hd : ¬ Dotted o) (h : Dropped k o T T') : DotsKeep T T' := by
  intro p hp
  obtain ⟨p', a1, a2, a3⟩ := dropped_keep h p hp
  exact ⟨p', a1, a2, second_keep fun b hb hx => (a3 b hb).resolve_right fun he => hd (he.1 ▸ hx)⟩

theorem dots_turned {v : Vol} {k n : Nat} {T T' : List Dir} (h : Turned v k n T T') : DotsKeep T T' := by
  obtain ⟨d, x, y, b, e, R, hk, hos, hb, he, hn, h1, h2⟩ := h
  intro p hp
  rcases List.mem_cons.mp (h1.mem_iff.mp hp) with rfl | hp
  · refine ⟨_, h2.mem_iff.mpr List.mem_cons_self, rfl, fun ⟨c, c1, c2, c3⟩ => ?_⟩
    rw [hos] at c1
    rcases mem_new.mp c1 with rfl | c1
    · exact ⟨_, mem_new.mpr (.inl rfl), c2, (entry_fn he).trans c3⟩
    · exact ⟨c, mem_new.mpr (.inr c1), c2, c3⟩
  · exact ⟨p, h2.mem_iff.mpr (by simp [hp]), rfl, id⟩

theorem dots_renamed {v : Vol} {d n : Dir} {cs : List Nat} {o : Obj} {T T' : List Dir} (hd : ¬ Dotted o) (h : Renamed v d n cs o T T') : DotsKeep T T' ∧ (T'.map Dir.sclust).Perm (T.map Dir.sclust) := by
  obtain ⟨o', T1, T2, h1, -, -, -, -, -, h4, h5⟩ := h
  by_cases hx : IsDir o ∧ d.sclust ≠ n.sclust
  · rw [if_pos hx] at h4
    exact ⟨dotskeep_trans (dots_added h1) (dotskeep_trans (dots_turned h4) (dots_dropped hd h5)), (dropped_sclust h5).trans ((turned_sclust h4).trans (added_sclust h1))⟩
  · rw [if_neg hx] at h4
    subst h4
    exact ⟨dotskeep_trans (dots_added h1) (dots_dropped hd h5), (dropped_sclust h5).trans (added_sclust h1)⟩

theorem second_next {T T' : List Dir} (ho : (T'.map Dir.sclust).Nodup) (hk : DotsKeep T T') (hp : (T'.map Dir.sclust).Perm (T.map Dir.sclust)) (h : ∀ q ∈ T, q.sclust ≠ 0 → DotsSecond q) : ∀ q ∈ T', q.sclust ≠ 0 → DotsSecond q := by
  intro q' hq' h0
  obtain ⟨q, h1, h2⟩ := List.mem_map.mp (hp.mem_iff.mp (List.mem_map_of_mem hq'))
  obtain ⟨p, a1, a2, a3⟩ := hk q h1
  cases dir_unique ho hq' a1 (by rw [a2, h2])
  exact a3 (h q h1 (by rw [h2]; exact h0))

theorem here_perm {T T' : List Dir} (hp : (T'.map Dir.sclust).Perm (T.map Dir.sclust)) {c : Nat} (h : ∃ d ∈ T, d.sclust = c) : ∃ d ∈ T', d.sclust = c := by
  obtain ⟨d, h1, h2⟩ := h
  obtain ⟨d', a1, a2⟩ := List.mem_map.mp (hp.mem_iff.mpr (List.mem_map_of_mem h1))
  exact ⟨d', a1, a2.trans h2⟩

end Fpm.Tree
