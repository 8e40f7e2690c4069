import Verif.Tree.PathLemmas
/-!
# Objects and directories: lemmas without the device
-/
namespace Fpm.Tree
open Fpm.Fat Fpm.Fat.Spec Fpm.FatFile.Spec Fpm.Lfn Fpm.Names Fpm.Names.Spec Fpm.TextIo.Spec Fpm.FatDir Fpm.FatDir.Spec Fpm.Mount Fpm.Mount.Spec Fpm.DirDev Fpm.DirDev.Spec Fpm.Tree.Spec Fpm.FatSync

/-- The part of `Tree` that is about objects and directories only. -/
structure Shape (v : Vol) (T : List Dir) (F : List (List Nat)) : Prop where
  root : ∃ d ∈ T, d.sclust = 0
  once : (T.map Dir.sclust).Nodup
  refs : (T.flatMap fun d => claims v d.os).Nodup
  files : ∀ d ∈ T, ∀ o ∈ d.os, ¬ Dotted o → ¬ IsDir o → FileOk v F o
  subs : ∀ d ∈ T, ∀ o ∈ d.os, ¬ Dotted o → IsDir o → SubOk v T o
  dots : ∀ d ∈ T, ∀ o ∈ d.os, Dotted o → DotOk v T d o

theorem tree_shape {v : Vol} {i : Info} {T : List Dir} {F : List (List Nat)} {s : St} (h : Tree v i T F s) : Shape v T F := ⟨h.root, h.once, h.refs, h.files, h.subs, h.dots⟩

theorem tree_of {v : Vol} {i : Info} {T : List Dir} {F : List (List Nat)} {s : St} (h1 : Inv v s) (h2 : CountOk v s) (h3 : Chains v.nFatent (tab v s) (dirChains T ++ F)) (h4 : ∀ d ∈ T, DirOk v i s d) (h : Shape v T F) :
    Tree v i T F s := ⟨h1, h2, h3, h.root, h.once, h4, h.refs, h.files, h.subs, h.dots⟩

theorem fileok_sub {v : Vol} {F F' : List (List Nat)} {o : Obj} (h : ∀ l ∈ F, l ∈ F') (hf : FileOk v F o) : FileOk v F' o := by
  obtain ⟨m, h1, h2⟩ := hf
  exact ⟨m, h1.imp id (h m), h2⟩

theorem shape_perm {v : Vol} {T T' : List Dir} {F F' : List (List Nat)} (ht : T.Perm T') (hf : F.Perm F') (h : Shape v T F) : Shape v T' F' := by
  have hm : ∀ d, d ∈ T' ↔ d ∈ T := fun d => ht.mem_iff.symm
  refine ⟨?_, (ht.map _).nodup_iff.mp h.once, (ht.flatMap_right _).nodup_iff.mp h.refs, fun d hd o ho h1 h2 => ?_, fun d hd o ho h1 h2 => ?_, fun d hd o ho h1 => ?_⟩
  · obtain ⟨d, hd, e⟩ := h.root
    exact ⟨d, (hm d).mpr hd, e⟩
  · exact fileok_sub (fun l hl => hf.mem_iff.mp hl) (h.files d ((hm d).mp hd) o ho h1 h2)
  · obtain ⟨e, d', hd', e'⟩ := h.subs d ((hm d).mp hd) o ho h1 h2
    exact ⟨e, d', (hm d').mpr hd', e'⟩
  · obtain ⟨e1, e2, e3⟩ := h.dots d ((hm d).mp hd) o ho h1
    refine ⟨e1, e2, e3.imp id ?_⟩
    rintro ⟨e4, p, hp, e5⟩
    exact ⟨e4, p, (hm p).mpr hp, e5⟩

theorem chains_perm {n : Nat} {f : Nat → Nat} {a b : List (List Nat)} (h : a.Perm b) (hc : Chains n f a) : Chains n f b :=
  ⟨fun l hl => hc.chain l (h.mem_iff.mpr hl), h.flatten.nodup_iff.mp hc.nodup, fun c h2 hn h0 => h.flatten.mem_iff.mp (hc.used c h2 hn h0)⟩

theorem tree_perm {v : Vol} {i : Info} {T T' : List Dir} {F F' : List (List Nat)} {s : St} (ht : T.Perm T') (hf : F.Perm F') (h : Tree v i T F s) : Tree v i T' F' s :=
  tree_of h.inv h.count (chains_perm ((ht.flatMap_right _).append hf) h.chains) (fun d hd => h.dirs d (ht.mem_iff.mpr hd)) (shape_perm ht hf (tree_shape h))

theorem claims_append (v : Vol) (x y : List Obj) : claims v (x ++ y) = claims v x ++ claims v y := by
  unfold claims
  rw [List.filter_append, List.map_append, List.filter_append]

theorem claims_cons {v : Vol} {o : Obj} (hd : ¬ Dotted o) (h0 : first v o ≠ 0) (y : List Obj) : claims v (o :: y) = first v o :: claims v y := by
  unfold claims
  rw [List.filter_cons, if_pos (by simpa using hd), List.map_cons, List.filter_cons, if_pos (by simpa using h0)]

theorem claims_mem {v : Vol} {o : Obj} {os : List Obj} (ho : o ∈ os) (hd : ¬ Dotted o) (h0 : first v o ≠ 0) : first v o ∈ claims v os := by
  obtain ⟨x, y, rfl⟩ := List.append_of_mem ho
  rw [claims_append, claims_cons hd h0]
  simp

theorem claims_sub {v : Vol} {a b : List Obj} (h : List.Sublist a b) : List.Sublist (claims v a) (claims v b) := ((h.filter _).map _).filter _

/-- No other object refers to the chain of one object. -/
theorem refs_only {v : Vol} {d : Dir} {R : List Dir} (h : ((d :: R).flatMap fun d => claims v d.os).Nodup) {x y : List Obj} {o : Obj} (hos : d.os = x ++ o :: y) (hd : ¬ Dotted o) (h0 : first v o ≠ 0) :
    (∀ o' ∈ x ++ y, ¬ Dotted o' → first v o' ≠ first v o) ∧ ∀ d' ∈ R, ∀ o' ∈ d'.os, ¬ Dotted o' → first v o' ≠ first v o := by
  rw [List.flatMap_cons, hos, claims_append, claims_cons hd h0] at h
  obtain ⟨h1, -, h3⟩ := List.nodup_append.mp h
  obtain ⟨-, h4, h5⟩ := List.nodup_append.mp h1
  obtain ⟨h6, -⟩ := List.nodup_cons.mp h4
  refine ⟨fun o' ho' hd' e => ?_, fun d' hd' o' ho' hdo e => ?_⟩
  · have hm := claims_mem ho' hd' (by rw [e]; exact h0)
    rw [claims_append, e] at hm
    rcases List.mem_append.mp hm with hm | hm
    · exact h5 _ hm _ (by simp) rfl
    · exact h6 hm
  · have hm := claims_mem ho' hdo (by rw [e]; exact h0)
    rw [e] at hm
    exact h3 (first v o) (by simp) _ (List.mem_flatMap.mpr ⟨d', hd', hm⟩) rfl

/-- Removing a file object. -/
theorem shape_file {v : Vol} {d : Dir} {R : List Dir} {F : List (List Nat)} (h : Shape v (d :: R) F) {x y : List Obj} {o : Obj} (hos : d.os = x ++ o :: y) (hs : ¬ IsDir o) :
    Shape v ({ d with os := x ++ y } :: R) F := by
  have hsub : List.Sublist (x ++ y) d.os := by rw [hos]; exact List.Sublist.append_left (List.sublist_cons_self _ _) _
  have hmem : ∀ p ∈ d :: R, ∃ p' ∈ { d with os := x ++ y } :: R, p'.sclust = p.sclust ∧ ∀ o' ∈ p.os, IsDir o' → o' ∈ p'.os := by
    intro p hp
    rcases List.mem_cons.mp hp with rfl | hp
    · refine ⟨_, List.mem_cons_self, rfl, fun o' ho' hd' => ?_⟩
      rw [hos] at ho'
      rcases List.mem_append.mp ho' with ho' | ho'
      · simp [ho']
      · rcases List.mem_cons.mp ho' with rfl | ho'
        · exact absurd hd' hs
        · simp [ho']
    · exact ⟨p, by simp [hp], rfl, fun _ h _ => h⟩
  have hback : ∀ p' ∈ { d with os := x ++ y } :: R, ∃ p ∈ d :: R, p.sclust = p'.sclust ∧ ∀ o' ∈ p'.os, o' ∈ p.os := by
    intro p hp
    rcases List.mem_cons.mp hp with rfl | hp
    · exact ⟨d, by simp, rfl, fun o' ho' => hsub.subset ho'⟩
    · exact ⟨p, by simp [hp], rfl, fun _ h => h⟩
  refine ⟨?_, h.once, ?_, fun p hp o' ho' h1 h2 => ?_, fun p hp o' ho' h1 h2 => ?_, fun p hp o' ho' h1 => ?_⟩
  · obtain ⟨p, hp, e⟩ := h.root
    obtain ⟨p', hp', e', -⟩ := hmem p hp
    exact ⟨p', hp', e'.trans e⟩
  · refine List.Sublist.nodup ?_ h.refs
    rw [List.flatMap_cons, List.flatMap_cons]
    exact (claims_sub hsub).append_right _
  · obtain ⟨q, hq, -, hqo⟩ := hback p hp
    exact h.files q hq o' (hqo o' ho') h1 h2
  · obtain ⟨q, hq, -, hqo⟩ := hback p hp
    obtain ⟨e, d', hd', e'⟩ := h.subs q hq o' (hqo o' ho') h1 h2
    obtain ⟨d'', hd'', e'', -⟩ := hmem d' hd'
    exact ⟨e, d'', hd'', e''.trans e'⟩
  · obtain ⟨q, hq, hqs, hqo⟩ := hback p hp
    obtain ⟨e1, e2, e3⟩ := h.dots q hq o' (hqo o' ho') h1
    rw [hqs] at e3
    refine ⟨e1, e2, e3.imp id ?_⟩
    rintro ⟨e4, r, hr, e5, o2, ho2, e6, e7, e8⟩
    obtain ⟨r', hr', er, hro⟩ := hmem r hr
    exact ⟨e4, r', hr', er.trans e5, o2, hro o2 ho2 e7, e6, e7, e8⟩

/-- Forgetting a chain that no file has. -/
theorem shape_drop {v : Vol} {T : List Dir} {F : List (List Nat)} {m : List Nat} (h : Shape v T (m :: F)) (hm : m ≠ []) (hno : ∀ d ∈ T, ∀ o ∈ d.os, ¬ Dotted o → first v o ≠ m.headD 0) : Shape v T F := by
  refine ⟨h.root, h.once, h.refs, fun d hd o ho h1 h2 => ?_, h.subs, h.dots⟩
  obtain ⟨m', h3, h4, h5⟩ := h.files d hd o ho h1 h2
  refine ⟨m', h3.imp id fun hx => ?_, h4, h5⟩
  rcases List.mem_cons.mp hx with rfl | hx
  · exact absurd h4 (hno d hd o ho h1)
  · exact hx

/-- Removing a directory object with its directory, in which there is nothing. -/
theorem shape_dir {v : Vol} {d d' : Dir} {R : List Dir} {F : List (List Nat)} (h : Shape v (d :: d' :: R) F) {x y : List Obj} {o : Obj} (hos : d.os = x ++ o :: y) (hdo : ¬ Dotted o) (h0 : first v o ≠ 0)
    (hd' : d'.sclust = first v o) (hemp : ∀ o ∈ d'.os, Dotted o) (F' : List (List Nat)) (hF : ∀ l ∈ F, l ∈ F') : Shape v ({ d with os := x ++ y } :: R) F' := by
  have hsub : List.Sublist (x ++ y) d.os := by rw [hos]; exact List.Sublist.append_left (List.sublist_cons_self _ _) _
  have honce := h.once
  simp only [List.map_cons, List.nodup_cons, List.mem_cons, not_or] at honce
  have hother : ∀ p ∈ { d with os := x ++ y } :: R, p.sclust ≠ first v o := by
    intro p hp e
    rw [← hd'] at e
    rcases List.mem_cons.mp hp with rfl | hp
    · exact honce.1.1 e
    · exact honce.2.1 (by rw [← e]; exact List.mem_map_of_mem hp)
  have honly := refs_only h.refs hos hdo h0
  have hmem : ∀ p ∈ d :: d' :: R, p.sclust ≠ first v o → ∃ p' ∈ { d with os := x ++ y } :: R, p'.sclust = p.sclust ∧ ∀ o' ∈ p.os, o' ≠ o → o' ∈ p'.os := by
    intro p hp hne
    rcases List.mem_cons.mp hp with rfl | hp
    · refine ⟨_, List.mem_cons_self, rfl, fun o' ho' hne' => ?_⟩
      rw [hos] at ho'
      rcases List.mem_append.mp ho' with ho' | ho'
      · simp [ho']
      · rcases List.mem_cons.mp ho' with rfl | ho'
        · exact absurd rfl hne'
        · simp [ho']
    · rcases List.mem_cons.mp hp with rfl | hp
      · exact absurd hd' hne
      · exact ⟨p, by simp [hp], rfl, fun _ h _ => h⟩
  have hback : ∀ p' ∈ { d with os := x ++ y } :: R, ∃ p ∈ d :: d' :: R, p.sclust = p'.sclust ∧ (∀ o' ∈ p'.os, o' ∈ p.os) ∧ ∀ o' ∈ p'.os, ¬ Dotted o' → first v o' ≠ first v o := by
    intro p hp
    rcases List.mem_cons.mp hp with rfl | hp
    · exact ⟨d, by simp, rfl, fun o' ho' => hsub.subset ho', fun o' ho' hd => honly.1 o' ho' hd⟩
    · exact ⟨p, by simp [hp], rfl, fun _ h => h, fun o' ho' hd => honly.2 p (by simp [hp]) o' ho' hd⟩
  refine ⟨?_, ?_, ?_, fun p hp o' ho' h1 h2 => ?_, fun p hp o' ho' h1 h2 => ?_, fun p hp o' ho' h1 => ?_⟩
  · obtain ⟨p, hp, e⟩ := h.root
    obtain ⟨p', hp', e', -⟩ := hmem p hp (by rw [e]; exact fun hx => h0 hx.symm)
    exact ⟨p', hp', e'.trans e⟩
  · simp only [List.map_cons, List.nodup_cons]
    exact ⟨honce.1.2, honce.2.2⟩
  · refine List.Sublist.nodup ?_ h.refs
    rw [List.flatMap_cons, List.flatMap_cons, List.flatMap_cons]
    exact (claims_sub hsub).append (List.sublist_append_right _ _)
  · obtain ⟨q, hq, -, hqo, -⟩ := hback p hp
    exact fileok_sub hF (h.files q hq o' (hqo o' ho') h1 h2)
  · obtain ⟨q, hq, -, hqo, hqf⟩ := hback p hp
    obtain ⟨e, r, hr, e'⟩ := h.subs q hq o' (hqo o' ho') h1 h2
    obtain ⟨r', hr', e'', -⟩ := hmem r hr (by rw [e']; exact hqf o' ho' h1)
    exact ⟨e, r', hr', e''.trans e'⟩
  · obtain ⟨q, hq, hqs, hqo, -⟩ := hback p hp
    obtain ⟨e1, e2, e3⟩ := h.dots q hq o' (hqo o' ho') h1
    rw [hqs] at e3
    refine ⟨e1, e2, e3.imp id ?_⟩
    rintro ⟨e4, r, hr, e5, o2, ho2, e6, e7, e8⟩
    have hr' : r.sclust ≠ first v o := by
      intro e
      rcases List.mem_cons.mp hr with rfl | hr
      · exact hother { r with os := x ++ y } (by simp) e
      · rcases List.mem_cons.mp hr with rfl | hr
        · exact e6 (hemp o2 ho2)
        · exact hother r (by simp [hr]) e
    obtain ⟨r', hr', er, hro⟩ := hmem r hr hr'
    refine ⟨e4, r', hr', er.trans e5, o2, hro o2 ho2 ?_, e6, e7, e8⟩
    rintro rfl
    exact hother p hp e8.symm

/-- Names of objects that are left. -/
theorem names_left {x y : List Obj} {o : Obj} (h : Names (x ++ o :: y)) : Names (x ++ y) := by
  have hsub : List.Sublist (x ++ y) (x ++ o :: y) := List.Sublist.append_left (List.sublist_cons_self _ _) _
  exact ⟨fun o ho => h.consistent o (hsub.subset ho), h.distinct.sublist hsub⟩

/-- A name does not mean `.` or `..`. -/
theorem means_dotted {v : Vol} {T : List Dir} {d : Dir} {n : List Nat} {o : Obj} (h : Means n o) (hd : DotOk v T d o) : False := by
  obtain ⟨-, h1, h2⟩ := hd
  rcases h with ⟨m, h3, -⟩ | ⟨body, ext, h8, e⟩
  · rw [h1] at h3; cases h3
  · have h46 : (form body ext).headD 0 = 46 := by
      rw [← e]
      rcases h2 with ⟨h2, -⟩ | ⟨h2, -⟩ <;> rw [h2] <;> rfl
    have hb : body ≠ [] := h8.ne
    cases body with
    | nil => exact absurd rfl hb
    | cons b body =>
      have hb := h8.body_chars b (by simp)
      have h46 : up b = 46 := h46
      unfold up at h46
      unfold Char83 at hb
      split at h46
      · omega
      · subst h46
        simp at hb

end Fpm.Tree
