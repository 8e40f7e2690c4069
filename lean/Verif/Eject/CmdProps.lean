import Verif.Eject.CmdSpec
import Verif.Eject.Props
import Verif.Drive.Props
/-!
# C134: the commands eject and mount
-/
namespace Fpm.Eject
open Fpm.Eject.Spec
open Fpm.Drive (getLdnumber)

theorem low_same (a b : Nat) (h : 97 ≤ a ∧ a ≤ 122) : Drive.Spec.Same a b ↔ low b = a := by
  unfold Drive.Spec.Same low
  split <;> omega

theorem low_equal : ∀ (n w : List Nat), (∀ c ∈ n, 97 ≤ c ∧ c ≤ 122) → (Drive.Spec.Equal n w ↔ w.map low = n)
  | [], [], _ => by simp [Drive.Spec.Equal]
  | [], _ :: _, _ => by simp [Drive.Spec.Equal]
  | _ :: _, [], _ => by simp [Drive.Spec.Equal]
  | a :: n, b :: w, h => by
    have h1 := low_same a b (h a (by simp))
    have h2 := low_equal n w (fun c hc => h c (by simp [hc]))
    simp only [Drive.Spec.Equal, List.map_cons, List.cons.injEq, h1, h2]

theorem means_names (w : List Nat) (v : Nat) : Drive.Spec.Names [FLASH, SD] w v ↔ Means w v := by
  have hf := low_equal FLASH w (by decide)
  have hs := low_equal SD w (by decide)
  have hd : ∀ n : List Nat, n.length ≠ 1 → w.map low = n → ¬ Drive.Spec.Digit w := by
    rintro n hn h ⟨d, -, rfl⟩
    apply hn
    rw [← h]
    rfl
  have hfs : w.map low = SD → ¬ Drive.Spec.Equal FLASH w := by
    rw [hf]
    intro h1 h2
    rw [h1] at h2
    exact absurd h2 (by decide)
  unfold Drive.Spec.Names Means
  constructor
  · rintro (⟨h1, -, h3⟩ | ⟨-, n, h1, h2, -⟩)
    · have h3 : v < 2 := h3
      rcases (by omega : v = 0 ∨ v = 1) with rfl | rfl
      · exact .inl ⟨rfl, .inr h1⟩
      · exact .inr ⟨rfl, .inr h1⟩
    · match v, h1 with
      | 0, h1 =>
        cases h1
        exact .inl ⟨rfl, .inl (hf.1 h2)⟩
      | 1, h1 =>
        cases h1
        exact .inr ⟨rfl, .inl (hs.1 h2)⟩
      | v + 2, h1 => simp at h1
  · rintro (⟨rfl, h | h⟩ | ⟨rfl, h | h⟩)
    · exact .inr ⟨hd _ (by decide) h, FLASH, rfl, hf.2 h, fun j hj => absurd hj (Nat.not_lt_zero j)⟩
    · exact .inl ⟨h, by decide, by decide⟩
    · refine .inr ⟨hd _ (by decide) h, SD, rfl, hs.2 h, fun j hj m hm => ?_⟩
      obtain rfl : j = 0 := by omega
      cases hm
      exact hfs h
    · exact .inl ⟨h, by decide, by decide⟩

theorem means_unique {w : List Nat} {u v : Nat} (h : Means w u) (h' : Means w v) : u = v := by
  rcases h with ⟨rfl, h⟩ | ⟨rfl, h⟩ <;> rcases h' with ⟨rfl, h'⟩ | ⟨rfl, h'⟩ <;> first | rfl | skip
  all_goals
    exfalso
    rcases h with h | rfl <;> rcases h' with h' | h'
    all_goals first | (rw [h] at h'; exact absurd h' (by decide)) | (subst h'; exact absurd h (by decide)) | exact absurd h' (by decide)

theorem names_zeroed : diskName = Drive.zeroed [FLASH, SD] := rfl

theorem colon (curr : Nat) (w rest : List Nat) (hw : Word w) : (∃ v, Means w v ∧ getLdnumber diskName curr (w ++ 58 :: rest ++ [0]) = some (some v, rest ++ [0])) ∨
    (∀ v, ¬ Means w v) ∧ getLdnumber diskName curr (w ++ 58 :: rest ++ [0]) = some (none, w ++ 58 :: rest ++ [0]) := by
  have h := Drive.C99_prefix [FLASH, SD] (by decide) curr w hw (rest ++ [0])
  rw [names_zeroed]
  have e : w ++ 58 :: rest ++ [0] = w ++ 58 :: (rest ++ [0]) := by simp
  rw [e]
  rcases h with ⟨k, -, h1, h2⟩ | ⟨h1, h2⟩
  · exact .inl ⟨k, (means_names w k).1 h1, h2⟩
  · exact .inr ⟨fun v hv => h1 v ((means_names w v).2 hv), h2⟩

/-- A volume is ejected just if the argument begins with a name or number of its drive and a colon; then this volume is ejected and nothing else happens.  Any other argument is refused. -/
def C134_full : Prop := ∀ (curr : Nat) (p : List Nat) (s : Sys), curr < 2 → (∀ c ∈ p, 32 ≤ c) →
  (∀ w rest v, p = w ++ 58 :: rest → Word w → Means w v → ejectCmd curr 2 [.path p] s = some (fUnmount v s, .silent)) ∧
  ((∀ w rest v, p = w ++ 58 :: rest → Word w → ¬ Means w v) → ejectCmd curr 2 [.path p] s = some (s, .badDrive))

/-- Without a colon the current drive is ejected, whatever the argument is: `eject x` ejects flash. -/
theorem C134_violated : ¬ C134_full := by
  intro h
  have h1 := (h 0 [120] ⟨fun _ => ⟨3, 1⟩, 1, [], fun _ => false⟩ (by decide) (by decide)).2 (by
    intro w rest v he _ _
    have hm : 58 ∈ [120] := by
      rw [he]
      simp
    exact absurd hm (by decide))
  have h2 : ejectCmd 0 2 [.path [120]] ⟨fun _ => ⟨3, 1⟩, 1, [], fun _ => false⟩ = some (fUnmount 0 ⟨fun _ => ⟨3, 1⟩, 1, [], fun _ => false⟩, .silent) := rfl
  rw [h2] at h1
  exact absurd (congrArg Prod.snd (Option.some.inj h1)) (by decide)

/-- It is so for arguments with a colon; the rest behind it does not matter. -/
theorem C134_eject_partial (curr : Nat) (w rest : List Nat) (s : Sys) (hw : Word w) :
    (∀ v, Means w v → ejectCmd curr 2 [.path (w ++ 58 :: rest)] s = some (fUnmount v s, .silent)) ∧
    ((∀ v, ¬ Means w v) → ejectCmd curr 2 [.path (w ++ 58 :: rest)] s = some (s, .badDrive)) := by
  simp only [ejectCmd, ejectPath, if_neg (show ¬ 2 > 2 by decide)]
  rcases colon curr w rest hw with ⟨k, h1, h2⟩ | ⟨h1, h2⟩
  · rw [h2]
    refine ⟨fun v hv => ?_, fun h => absurd h1 (h k)⟩
    rw [means_unique hv h1]
  · rw [h2]
    exact ⟨fun v hv => absurd hv (h1 v), fun _ => rfl⟩

/-- Without an argument the card is ejected, whatever the current drive is; flash stays as it was, and its files stay usable. -/
theorem C134_default (curr : Nat) (s : Sys) : ejectCmd curr 1 [] s = some (fUnmount 1 s, .silent) ∧ ∀ o, o.vol = 0 → validate o (fUnmount 1 s) = validate o s := by
  have h := (C134_eject_partial curr SD [] s (by unfold Word; decide)).1 1 (.inr ⟨rfl, .inl (by decide)⟩)
  refine ⟨?_, fun o ho => ?_⟩
  · simp only [ejectCmd, if_neg (show ¬ 2 > 2 by decide)] at h
    simp only [ejectCmd, if_neg (show ¬ 1 > 2 by decide)]
    exact h
  · have e := (C133_eject 1 s).2.2.1 0 (by decide)
    unfold validate
    rw [ho, e.1, e.2]

/-- An argument without a colon: the current drive is ejected, or mounted, whatever the argument is. -/
theorem C134_nocolon (curr : Nat) (r : Nat → Found) (p : List Nat) (s : Sys) (hp : Word p) :
    ejectCmd curr 2 [.path p] s = some (fUnmount curr s, .silent) ∧ (mountCmd curr 2 r [.path p] s).map (·.1) = some (fMount curr (r curr) s).1 := by
  have h := Drive.C99_current diskName curr p hp 0 (by decide) []
  simp only [ejectCmd, ejectPath, mountCmd, mountPath, if_neg (show ¬ 2 > 2 by decide), h, Option.map_some, and_self]

example : Word SD := by unfold Word; decide

/-- No access is outside of strings.  With an unknown option, a question for help, or more than one argument no volume changes. -/
theorem C134_safe (curr argc : Nat) (as : List Arg) (r : Nat → Found) (s : Sys) (hc : curr < 2) :
    (∃ q, ejectCmd curr argc as s = some q) ∧ (∃ q, mountCmd curr argc r as s = some q) ∧
    (argc > 2 ∨ as.head? = some .unknown ∨ as.head? = some .help → (ejectCmd curr argc as s).map (·.1) = some s ∧ (mountCmd curr argc r as s).map (·.1) = some s) := by
  have key : ∀ p : List Nat, ∃ q, getLdnumber diskName curr (p ++ [0]) = some q := fun p => by
    obtain ⟨a, b, h, -⟩ := Drive.C99_safe [FLASH, SD] (by decide) curr hc (p ++ [0]) ⟨0, by simp, by decide⟩
    exact ⟨_, h⟩
  have he : ∀ p, ∃ q, ejectPath curr p s = some q := fun p => by
    obtain ⟨⟨v, q⟩, h⟩ := key p
    unfold ejectPath
    rw [h]
    cases v <;> exact ⟨_, rfl⟩
  have hm : ∀ p, ∃ q, mountPath curr r p s = some q := fun p => by
    obtain ⟨⟨v, q⟩, h⟩ := key p
    unfold mountPath
    rw [h]
    cases v <;> exact ⟨_, rfl⟩
  refine ⟨?_, ?_, ?_⟩
  · unfold ejectCmd
    split
    · exact ⟨_, rfl⟩
    · split
      · exact he _
      · exact ⟨_, rfl⟩
      · exact ⟨_, rfl⟩
      · exact he _
  · unfold mountCmd
    split
    · exact ⟨_, rfl⟩
    · split
      · exact hm _
      · exact ⟨_, rfl⟩
      · exact ⟨_, rfl⟩
      · exact ⟨_, rfl⟩
  · intro h
    unfold ejectCmd mountCmd
    by_cases hg : argc > 2
    · rw [if_pos hg, if_pos hg]
      exact ⟨rfl, rfl⟩
    · rw [if_neg hg, if_neg hg]
      match as, h with
      | .unknown :: _, _ => exact ⟨rfl, rfl⟩
      | .help :: _, _ => exact ⟨rfl, rfl⟩
      | .path p :: _, h => rcases h with h | h | h <;> first | exact absurd h hg | simp at h
      | [], h => rcases h with h | h | h <;> first | exact absurd h hg | simp at h

/-- `mount` with the name of a drive and a colon: if something is told about the medium, this volume can be used, unless it was mounted before and its medium has been taken out since; a volume that could be used stays as it was.
Other volumes stay.  With another name nothing happens. -/
theorem C134_mount_partial (curr : Nat) (r : Nat → Found) (w rest : List Nat) (s : Sys) (hw : Word w) :
    (∀ v, Means w v → ∃ s' o, mountCmd curr 2 r [.path (w ++ 58 :: rest)] s = some (s', o) ∧ (o = .media ∨ o = .notMounted) ∧ (o = .media → s.noinit v = false ∨ (s.vols v).ty = 0 → Usable s' v) ∧ (o = .notMounted → ¬ Usable s' v) ∧
      (Usable s v → s' = s ∧ o = .media) ∧ ∀ u, u ≠ v → s'.vols u = s.vols u ∧ s'.noinit u = s.noinit u) ∧
    ((∀ v, ¬ Means w v) → mountCmd curr 2 r [.path (w ++ 58 :: rest)] s = some (s, .badDrive)) := by
  simp only [mountCmd, mountPath, if_neg (show ¬ 2 > 2 by decide)]
  rcases colon curr w rest hw with ⟨k, h1, h2⟩ | ⟨h1, h2⟩
  · rw [h2]
    refine ⟨fun v hv => ?_, fun h => absurd h1 (h k)⟩
    obtain rfl := means_unique hv h1
    refine ⟨_, _, rfl, ?_, fun h => ?_, fun h => ?_, fun hu => ?_, (C133_others v false (r v) s _ (.inr rfl)).1⟩
    · split
      · exact .inl rfl
      · exact .inr rfl
    · split at h
      · rename_i hs
        exact (C133_mount v (r v) s).1 hs
      · cases h
    · split at h
      · cases h
      · rename_i hs
        revert hs
        unfold fMount
        split
        · intro hs
          exact absurd rfl hs
        · rename_i ht
          have ht : (s.vols v).ty = 0 := Decidable.byContradiction ht
          unfold mountVolume
          rw [if_neg (fun h => h.1 ht)]
          unfold mountNew
          split
          · exact fun _ h => h.1 (by simp [put])
          · split
            · exact fun _ h => h.1 (by simp [put])
            · split
              · exact fun _ h => h.1 (by simp [put])
              · exact fun hs => absurd rfl hs
    · unfold fMount
      rw [if_pos hu.1]
      exact ⟨rfl, rfl⟩
  · rw [h2]
    exact ⟨fun v hv => absurd hv (h1 v), fun _ => rfl⟩

/-- `eject Sd:` while flash is the current drive. -/
example : Means [83, 100] 1 ∧ Word [83, 100] ∧ ¬ (∃ v, Means [115] v) := by
  refine ⟨.inr ⟨rfl, .inl (by decide)⟩, by unfold Word; decide, ?_⟩
  rintro ⟨v, ⟨-, h | h⟩ | ⟨-, h | h⟩⟩ <;> exact absurd h (by decide)

end Fpm.Eject
