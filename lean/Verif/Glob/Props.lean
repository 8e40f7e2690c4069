import Verif.Glob.MatchLemmas
import Verif.Glob.BoundLemmas
/-!
# C58: wildcard matching
-/
namespace Fpm.Glob
open Fpm.Glob.Spec Fpm.TextIo Fpm.TextIo.Spec Fpm.Upcase

/-- C58 as wished: patterns of up to four groups of wildcards match exactly the names they describe. -/
def C58_full : Prop :=
  ∀ (p n zp zn : List Nat), Text p → Text n → groups p ≤ 4 → ∃ b, findMatch (text p ++ 0 :: zp) (text n ++ 0 :: zn) = some b ∧ (b = true ↔ Matches p n)

/-- 256 question marks. -/
def manyOne : List Nat := List.replicate 256 63

/-- 256 question marks match the name `A`: the counter of question marks runs into the bit that stands for an asterisk. -/
theorem C58_violated : ¬ C58_full := by
  intro h
  have ht : Text manyOne := by decide +kernel
  obtain ⟨b, e, hb⟩ := h manyOne [65] [] [] ht (by decide) (by decide +kernel)
  have e' : findMatch (text manyOne ++ 0 :: []) (text [65] ++ 0 :: []) = some true := by decide +kernel
  rw [e'] at e
  cases e
  have hm := hb.mp rfl
  unfold manyOne at hm
  rw [List.replicate_succ] at hm
  obtain ⟨x, m, e, hm⟩ := matches_one.mp hm
  cases e
  rw [List.replicate_succ] at hm
  obtain ⟨x, m, e, hm⟩ := matches_one.mp hm
  cases e

/-- With at most 255 question marks, a name that matches is one the pattern describes, and up to four groups of wildcards the converse holds too.
(Missing: patterns with more question marks, where it is wrong; in a volume such patterns describe no file, as names have at most 255 characters, so
only patterns of at least 256 question marks are concerned.) -/
theorem C58_match_partial (p n zp zn : List Nat) (hp : Text p) (hn : Text n) (hq : p.count 63 < 256) :
    ∃ b, findMatch (text p ++ 0 :: zp) (text n ++ 0 :: zn) = some b ∧ (b = true → Matches p n) ∧ (Matches p n → groups p ≤ 4 → b = true) := by
  obtain ⟨b, e, h1, h2⟩ := match_spec 4 p n zp zn 0 false hp hn hq (by omega)
  exact ⟨b, e, fun h => term_zero.mp (h1 h), fun h => h2 (term_zero.mpr h)⟩

/-- `r?p*.t*` and `Report.txt`. -/
example : Text [114, 63, 112, 42, 46, 116, 42] ∧ groups [114, 63, 112, 42, 46, 116, 42] = 3 ∧ ([114, 63, 112, 42, 46, 116, 42] : List Nat).count 63 < 256 ∧
    findMatch (text [114, 63, 112, 42, 46, 116, 42] ++ [0]) (text [82, 101, 112, 111, 114, 116, 46, 116, 120, 116] ++ [0]) = some true ∧
    findMatch (text [114, 63, 112, 42, 46, 116, 42] ++ [0]) (text [82, 112, 111, 114, 116, 46, 116, 120, 116] ++ [0]) = some false := by
  decide +kernel

/-- Whatever bytes the strings hold, the matching ends and stays within them. -/
theorem C58_defined (p n zp zn : List Nat) : findMatch (p ++ 0 :: zp) (n ++ 0 :: zn) ≠ none :=
  match_def 4 _ _ 0 (by simp) (by simp) (fun _ => by omega)

/-- Truncated sequence in the name behind an asterisk. -/
example : findMatch [42, 65, 63, 66, 0] [67, 65, 0xE2, 0x82, 0] = some false := by decide +kernel

end Fpm.Glob
