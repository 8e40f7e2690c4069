import Verif.Tree.FollowLemmas
/-!
# Paths: lemmas
-/
namespace Fpm.Tree
open Fpm.Fat Fpm.Fat.Spec Fpm.FatFile.Spec Fpm.Lfn Fpm.Names Fpm.Names.Spec Fpm.TextIo.Spec Fpm.FatDir Fpm.FatDir.Spec Fpm.Mount Fpm.Mount.Spec Fpm.DirDev Fpm.DirDev.Spec Fpm.Tree.Spec Fpm.FatSync

/-- A segment means one object at most. -/
theorem calls_unique {os : List Obj} (hn : Names os) {cs : List Nat} {o o' : Obj} (ho : o ∈ os) (ho' : o' ∈ os) (h : Calls cs o) (h' : Calls cs o') : o = o' := by
  have key : ∀ x y : Obj, Distinct x y → Calls cs x → Calls cs y → False := by
    intro x y hd hx hy
    unfold Calls at hx hy
    split at hx
    · next hdot =>
      rw [if_pos hdot] at hy
      exact hd.short (hx.trans hy.symm)
    · next hdot =>
      rw [if_neg hdot] at hy
      exact distinct_means hd hx hy
  obtain ⟨a, b, rfl⟩ := List.append_of_mem ho
  have hp := List.pairwise_append.mp hn.distinct
  have hc := List.pairwise_cons.mp hp.2.1
  rcases List.mem_append.mp ho' with h1 | h1
  · exact (key o' o (hp.2.2 o' h1 o (by simp)) h' h).elim
  · rcases List.mem_cons.mp h1 with h1 | h1
    · exact h1.symm
    · exact (key o o' (hc.1 o' h1) h h').elim

theorem dir_unique {T : List Dir} (h : (T.map Dir.sclust).Nodup) {d d' : Dir} (hd : d ∈ T) (hd' : d' ∈ T) (e : d.sclust = d'.sclust) : d = d' := by
  obtain ⟨a, b, rfl⟩ := List.append_of_mem hd
  rw [List.map_append, List.map_cons] at h
  obtain ⟨h1, h2, h3⟩ := List.nodup_append.mp h
  rcases List.mem_append.mp hd' with hx | hx
  · exact (h3 _ (List.mem_map_of_mem hx) _ (by simp) e.symm).elim
  · rcases List.mem_cons.mp hx with hx | hx
    · exact hx.symm
    · have := (List.nodup_cons.mp h2).1
      rw [e] at this
      exact (this (List.mem_map_of_mem hx)).elim

/-- A path leads to one place at most. -/
theorem leads_unique {v : Vol} {i : Info} {T : List Dir} {F : List (List Nat)} {s : St} (h : Tree v i T F s) {l : List (List Nat)} : ∀ {d : Dir} {G G' : Goal}, d ∈ T → Leads v T d l G → Leads v T d l G' → G = G' := by
  induction l with
  | nil => intro d G G' _ h1; cases h1
  | cons cs l ih =>
    intro d G G' hd h1 h2
    have un : ∀ {o o' : Obj}, o ∈ d.os → o' ∈ d.os → Calls cs o → Calls cs o' → o = o' := fun a b c e => calls_unique (h.dirs d hd).names a b c e
    have ne : ∀ {G : Goal} {d : Dir}, ¬ Leads v T d [] G := fun hx => by cases hx
    cases h1 with
    | bad hb =>
      cases h2 with
      | bad => rfl
      | stay hx => exact absurd (good_dot hx) hb
      | self hx => exact absurd (good_dot hx) hb
      | free hx => exact absurd hx hb
      | missing hx => exact absurd hx hb
      | object hx => exact absurd hx hb
      | noDir hx => exact absurd hx hb
      | enter hx => exact absurd hx hb
    | stay a1 a2 a3 =>
      cases h2 with
      | bad hb => exact absurd (good_dot a1) hb
      | stay _ _ b3 => exact ih hd a3 b3
      | self => exact (ne a3).elim
      | free _ hx => exact absurd a1 hx
      | missing _ hx => exact absurd a1 hx
      | object _ hx hy => exact absurd hy (a2 _ hx)
      | noDir _ hx hy => exact absurd hy (a2 _ hx)
      | enter _ hx hy => exact absurd hy (a2 _ hx)
    | self a1 a2 =>
      cases h2 with
      | bad hb => exact absurd (good_dot a1) hb
      | stay _ _ b3 => exact (ne b3).elim
      | self => rfl
      | free _ hx => exact absurd a1 hx
      | missing _ hx => exact absurd a1 hx
      | object _ hx hy => exact absurd hy (a2 _ hx)
      | noDir _ hx hy => exact absurd hy (a2 _ hx)
      | enter _ hx hy => exact absurd hy (a2 _ hx)
    | free a1 a2 a3 =>
      cases h2 with
      | bad hb => exact absurd a1 hb
      | stay b1 => exact absurd b1 a2
      | self b1 => exact absurd b1 a2
      | free => rfl
      | missing _ _ _ hx => exact absurd rfl hx
      | object _ hx hy => exact absurd hy (a3 _ hx)
      | noDir _ hx hy => exact absurd hy (a3 _ hx)
      | enter _ hx hy => exact absurd hy (a3 _ hx)
    | missing a1 a2 a3 a4 =>
      cases h2 with
      | bad hb => exact absurd a1 hb
      | stay b1 => exact absurd b1 a2
      | self b1 => exact absurd b1 a2
      | free => exact absurd rfl a4
      | missing => rfl
      | object _ hx hy => exact absurd hy (a3 _ hx)
      | noDir => rfl
      | enter _ hx hy => exact absurd hy (a3 _ hx)
    | object a1 a2 a3 =>
      cases h2 with
      | bad hb => exact absurd a1 hb
      | stay _ hx => exact absurd a3 (hx _ a2)
      | self _ hx => exact absurd a3 (hx _ a2)
      | free _ _ hx => exact absurd a3 (hx _ a2)
      | missing _ _ hx => exact absurd a3 (hx _ a2)
      | object _ b2 b3 => rw [un a2 b2 a3 b3]
      | noDir _ _ _ _ hx => exact absurd rfl hx
      | enter _ _ _ _ _ _ hx => exact (ne hx).elim
    | noDir a1 a2 a3 a4 a5 =>
      cases h2 with
      | bad hb => exact absurd a1 hb
      | stay _ hx => exact absurd a3 (hx _ a2)
      | self _ hx => exact absurd a3 (hx _ a2)
      | free _ _ hx => exact absurd a3 (hx _ a2)
      | missing _ _ hx => exact absurd a3 (hx _ a2)
      | object => exact absurd rfl a5
      | noDir => rfl
      | enter _ b2 b3 b4 =>
        rw [un a2 b2 a3 b3] at a4
        exact absurd b4 a4
    | enter a1 a2 a3 a4 a5 a6 a7 =>
      cases h2 with
      | bad hb => exact absurd a1 hb
      | stay _ hx => exact absurd a3 (hx _ a2)
      | self _ hx => exact absurd a3 (hx _ a2)
      | free _ _ hx => exact absurd a3 (hx _ a2)
      | missing _ _ hx => exact absurd a3 (hx _ a2)
      | object => exact (ne a7).elim
      | noDir _ b2 b3 b4 =>
        rw [un a2 b2 a3 b3] at a4
        exact absurd a4 b4
      | enter _ b2 b3 b4 b5 b6 b7 =>
        cases un a2 b2 a3 b3
        cases dir_unique h.once a5 b5 (a6.trans b6.symm)
        exact ih a5 a7 b7

/-- The first byte of a segment. -/
theorem text_head {cs : List Nat} (h : ∀ c ∈ cs, NameChar c) (hne : cs ≠ []) : ∃ b r, text cs = b :: r ∧ 32 ≤ b ∧ isSep b = false := by
  cases cs with
  | nil => exact absurd rfl hne
  | cons c cs =>
    obtain ⟨-, h2, h3⟩ := h c (by simp)
    rw [text_cons]
    simp only [List.mem_cons, List.not_mem_nil, or_false, not_or] at h3
    unfold uenc isSep
    split
    · exact ⟨c, _, rfl, h2, by simp; omega⟩
    · split
      · exact ⟨_, _, rfl, by omega, by simp; omega⟩
      · split
        · exact ⟨_, _, rfl, by omega, by simp; omega⟩
        · exact ⟨_, _, rfl, by omega, by simp; omega⟩

theorem path_head {p : List Nat} {l : List (List Nat)} (h : PathText p l) : ∃ b r, p = b :: r ∧ 32 ≤ b ∧ isSep b = false := by
  cases h with
  | @last cs t rest h1 h2 h3 =>
    obtain ⟨b, r, e, h⟩ := text_head h1 h2
    exact ⟨b, r ++ t, by rw [e]; rfl, h⟩
  | @cons cs t rest l h1 h2 h3 =>
    obtain ⟨b, r, e, h⟩ := text_head h1 h2
    exact ⟨b, r ++ t, by rw [e]; rfl, h⟩

theorem drop_seps {z : List Nat} (h : ∀ c ∈ z, c = 47 ∨ c = 92) {b : Nat} (hb : isSep b = false) (r : List Nat) : (z ++ b :: r).dropWhile isSep = b :: r := by
  induction z with
  | nil => rw [List.nil_append, List.dropWhile_cons, if_neg (by rw [hb]; decide)]
  | cons c z ih =>
    rw [List.cons_append, List.dropWhile_cons, if_pos]
    · exact ih fun c hc => h c (List.mem_cons_of_mem _ hc)
    · unfold isSep
      simp only [Bool.or_eq_true, decide_eq_true_eq]
      exact h c (by simp)

theorem origin_seps {z : List Nat} (h : ∀ c ∈ z, c = 47 ∨ c = 92) {b : Nat} (hb : isSep b = false) (r : List Nat) (cdir : Nat) : origin cdir (z ++ b :: r) = if (!z.isEmpty) then 0 else cdir := by
  unfold origin
  cases z with
  | nil => simp only [List.nil_append, List.headD_cons, hb, List.isEmpty_nil, Bool.not_true, if_neg (show ¬ (false = true) by decide)]
  | cons c z =>
    have : isSep c = true := by
      unfold isSep
      simp only [Bool.or_eq_true, decide_eq_true_eq]
      exact h c (by simp)
    simp only [List.cons_append, List.headD_cons, this, List.isEmpty_cons, Bool.not_false, if_pos]

theorem ctl_sep {b : Nat} (h : b < 32) : isSep b = false := by
  unfold isSep
  simp
  omega

/-- Outcomes of `follow_path`. -/
theorem follow_spec {v : Vol} {i : Info} (hr : Ready v i) {T : List Dir} {F : List (List Nat)} {s : St} (h : Tree v i T F s) {cdir : Nat} (hc : ∃ d ∈ T, d.sclust = cdir) {path : List Nat} {abs : Bool} {l : List (List Nat)}
    (hp : PathOf path abs l) (dp : Dp) {buf : List Nat} (hb : buf.length = 256) :
    Quiet v s (followPath v i cdir path s dp buf).st ∧ ((followPath v i cdir path s dp buf).res = FR_DISK_ERR ∧ ¬ Sound v ∨
      ∃ G, Resolves v T cdir abs l G ∧ Arrives v i T s (followPath v i cdir path s dp buf) G) := by
  have hdir : ∀ z : List Nat, ∃ d ∈ T, d.sclust = (if (!z.isEmpty) then 0 else cdir) := by
    intro z
    split
    · exact h.root
    · exact hc
  cases hp with
  | @empty z rest b hz hbl =>
    obtain ⟨d, hd, hdz⟩ := hdir z
    unfold followPath
    rw [drop_seps hz (ctl_sep hbl), origin_seps hz (ctl_sep hbl), ← hdz]
    simp only
    rw [if_pos hbl]
    have hs := sdi_spec hr h.inv (tree_linked h hd) (dp := { dp with sclust := d.sclust }) (h.dirs d hd).starts (j := 0) (total_pos hr (tree_linked h hd))
    rw [Nat.mul_zero] at hs
    generalize dirSdi v i s { dp with sclust := d.sclust } 0 = r at hs
    refine ⟨hs.quiet, ?_⟩
    rcases hs.cases with ⟨c1, c2⟩ | c
    · exact .inr ⟨.self d, ⟨d, hd, hdz, .inl ⟨rfl, rfl⟩⟩, c1, hd, hs.sclust, rfl⟩
    · exact .inl c
  | @segs z p l hz hp =>
    obtain ⟨d, hd, hdz⟩ := hdir z
    obtain ⟨b, r, rfl, hb1, hb2⟩ := path_head hp
    unfold followPath
    rw [drop_seps hz hb2, origin_seps hz hb2, ← hdz]
    simp only
    rw [if_neg (by omega)]
    obtain ⟨q, h1⟩ := follow_loop hr hp (k := (b :: r).length + 1) (dp := { dp with sclust := d.sclust }) h hd rfl hb (by omega)
    refine ⟨q, ?_⟩
    rcases h1 with h1 | ⟨G, h1, h2⟩
    · exact .inl h1
    · exact .inr ⟨G, ⟨d, hd, hdz, .inr h1⟩, h2⟩

theorem spells_zero {s cs : List Nat} (hs : Spells s cs) : (∀ c ∈ cs, NameChar c) → 0 ∉ s := by
  induction hs with
  | nil => intro _ h; cases h
  | @cons o s c cs ho _ ih =>
    intro hc hm
    rcases List.mem_append.mp hm with hm | hm
    · have hcc := (hc c (by simp)).2.1
      rcases ho with rfl | ⟨_, ho⟩
      · unfold uenc at hm
        split at hm
        · simp at hm; omega
        · split at hm
          · simp at hm; omega
          · split at hm <;> simp at hm <;> omega
      · rcases ho with ⟨_, rfl⟩ | ⟨_, rfl⟩ <;> simp at hm <;> omega
    · exact ih (fun x hx => hc x (by simp [hx])) hm

/-- Any bytes: each round ends somewhere. -/
theorem follow_any {v : Vol} {i : Info} (hr : Ready v i) {T : List Dir} {F : List (List Nat)} : ∀ {k : Nat} {p : List Nat} {s : St} {dp : Dp} {buf : List Nat} {d : Dir},
    0 ∈ p → (∀ b ∈ p, b < 256) → Tree v i T F s → d ∈ T → dp.sclust = d.sclust → buf.length = 256 → p.length < k →
    Quiet v s (followLoop v i k p s dp buf).st ∧ ((followLoop v i k p s dp buf).res = FR_DISK_ERR ∧ ¬ Sound v ∨ ∃ G, Arrives v i T s (followLoop v i k p s dp buf) G)
  | 0, p, s, dp, buf, d, _, _, _, _, _, _, hk => by omega
  | k + 1, p, s, dp, buf, d, h0, hb, h, hd, hdp, hl, hk => by
    unfold followLoop
    rcases C74_path p buf h0 hb hl with e | ⟨seg, cs, t, last, rest, buf', fn, fl, e1, hsp, hc, hgood, ht, e, hn⟩
    · rw [e]
      exact ⟨.refl h.inv, .inr ⟨.badName, rfl⟩⟩
    · rw [e]
      simp only
      obtain ⟨q, h1, h2, h3⟩ := seek_dir hr h.inv (tree_linked h hd) (h.dirs d hd) hdp hc hn
      generalize DirDev.dirFind v i s dp fn fl buf' = g at q h1 h2 h3
      rcases step_spec h hd hc hgood hn (h1.trans hdp) h2 h3 with ⟨-, f, e3, e2, h4⟩ | ⟨hlast, ⟨f, e3, e2, h4⟩ | ⟨dp', d', e2, h4, h5, h6⟩⟩
      · rw [e3]
        simp only
        rw [e2]
        exact ⟨q, h4.elim .inl fun ⟨G, _, h⟩ => .inr ⟨G, h⟩⟩
      · rw [e3]
        simp only
        rw [e2]
        exact ⟨q, h4.elim .inl fun h => .inr ⟨.noPath, h.1⟩⟩
      · rw [e2]
        simp only
        have hlen := tail_shorter ht
        have hrest : 0 ∈ rest ∧ ∀ b ∈ rest, b < 256 := by
          subst hlast
          generalize hfalse : false = last at ht
          cases ht with
          | fin h => cases hfalse
          | @sep sp b z hs1 hs2 hb1 hb2 =>
            refine ⟨?_, fun x hx => hb x ?_⟩
            · have hz : 0 ∈ seg ++ (sp ++ b :: z) := by rw [← e1]; exact h0
              simp only [List.mem_append] at hz
              rcases hz with hz | hz | hz
              · exact absurd hz (spells_zero hsp hc)
              · exact absurd (hs2 0 hz) (by decide)
              · exact hz
            · rw [e1]; simp at hx ⊢; exact .inr (.inr hx)
        obtain ⟨q2, h7⟩ := follow_any hr (k := k) hrest.1 hrest.2 (tree_quiet hr q h) h4 h5 (named_buf hn) (by rw [e1] at hk; simp at hk; omega)
        refine ⟨q.trans q2, ?_⟩
        rcases h7 with h7 | ⟨G, h7⟩
        · exact .inl h7
        · exact .inr ⟨G, arrives_quiet hr h q h7⟩

/-- Any bytes. -/
theorem follow_bytes {v : Vol} {i : Info} (hr : Ready v i) {T : List Dir} {F : List (List Nat)} {s : St} (h : Tree v i T F s) {cdir : Nat} (hc : ∃ d ∈ T, d.sclust = cdir) {path : List Nat} (h0 : 0 ∈ path)
    (hp : ∀ b ∈ path, b < 256) (dp : Dp) {buf : List Nat} (hb : buf.length = 256) :
    Quiet v s (followPath v i cdir path s dp buf).st ∧ ((followPath v i cdir path s dp buf).res = FR_DISK_ERR ∧ ¬ Sound v ∨ ∃ G, Arrives v i T s (followPath v i cdir path s dp buf) G) := by
  obtain ⟨d, hd, hdz⟩ : ∃ d ∈ T, d.sclust = origin cdir path := by
    unfold origin
    split
    · exact h.root
    · exact hc
  have h0' : 0 ∈ path.dropWhile isSep := by
    rw [← List.takeWhile_append_dropWhile (p := isSep) (l := path)] at h0
    rcases List.mem_append.mp h0 with h1 | h1
    · have key : ∀ l : List Nat, 0 ∉ l.takeWhile isSep := by
        intro l
        induction l with
        | nil => simp
        | cons a l ih =>
          rw [List.takeWhile_cons]
          split
          · next ha =>
            intro hm
            rcases List.mem_cons.mp hm with hm | hm
            · rw [← hm] at ha; cases ha
            · exact ih hm
          · simp
      exact absurd h1 (key _)
    · exact h1
  have hp' : ∀ b ∈ path.dropWhile isSep, b < 256 := fun b hb => hp b ((List.dropWhile_sublist _).subset hb)
  unfold followPath
  rw [← hdz]
  generalize path.dropWhile isSep = q at h0' hp'
  cases q with
  | nil => cases h0'
  | cons b q =>
    simp only
    split
    · have hs := sdi_spec hr h.inv (tree_linked h hd) (dp := { dp with sclust := d.sclust }) (h.dirs d hd).starts (j := 0) (total_pos hr (tree_linked h hd))
      rw [Nat.mul_zero] at hs
      generalize dirSdi v i s { dp with sclust := d.sclust } 0 = r at hs
      refine ⟨hs.quiet, ?_⟩
      rcases hs.cases with ⟨c1, c2⟩ | c
      · exact .inr ⟨.self d, c1, hd, hs.sclust, rfl⟩
      · exact .inl c
    · exact follow_any hr (k := (b :: q).length + 1) (dp := { dp with sclust := d.sclust }) h0' hp' h hd rfl hb (by omega)

/-- Each path leads somewhere. -/
theorem leads_exists {v : Vol} {i : Info} {T : List Dir} {F : List (List Nat)} {s : St} (h : Tree v i T F s) {l : List (List Nat)} : ∀ {d : Dir}, d ∈ T → l ≠ [] → ∃ G, Leads v T d l G := by
  induction l with
  | nil => exact fun _ h => absurd rfl h
  | cons cs l ih =>
    intro d hd _
    by_cases hg : Good cs
    · by_cases hex : ∃ o ∈ d.os, Calls cs o
      · obtain ⟨o, ho, hcall⟩ := hex
        by_cases hl : l = []
        · subst hl
          exact ⟨_, .object hg ho hcall⟩
        · by_cases hs : IsDir o
          · obtain ⟨d', hd', e⟩ := sub_dir h hd ho hs
            obtain ⟨G, hG⟩ := ih hd' hl
            exact ⟨G, .enter hg ho hcall hs hd' e hG⟩
          · exact ⟨_, .noDir hg ho hcall hs hl⟩
      · have hno : ∀ o ∈ d.os, ¬ Calls cs o := fun o ho hc => hex ⟨o, ho, hc⟩
        by_cases hdot : DotName cs
        · by_cases hl : l = []
          · subst hl
            exact ⟨_, .self hdot hno⟩
          · obtain ⟨G, hG⟩ := ih hd hl
            exact ⟨G, .stay hdot hno hG⟩
        · by_cases hl : l = []
          · subst hl
            exact ⟨_, .free hg hdot hno⟩
          · exact ⟨_, .missing hg hdot hno hl⟩
    · exact ⟨_, .bad hg⟩

end Fpm.Tree
