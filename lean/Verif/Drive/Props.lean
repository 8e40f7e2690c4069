import Verif.Drive.Model
import Verif.Drive.Spec
import Verif.Tree.CwdSpec
/-!
# C99: names of drives
-/
namespace Fpm.Drive
open Fpm.Drive.Spec

/-- The names as they are in memory. -/
def zeroed (names : List (List Nat)) : List (List Nat) := names.map (· ++ [0])

theorem big_same {a b : Nat} : big a = big b ↔ Same a b := by
  unfold big Same
  split <;> split <;> omega

theorem big_zero {c : Nat} (h : c ≠ 0) : big c ≠ 0 := by
  unfold big
  split <;> omega

theorem find_colon : ∀ {w : List Nat}, Plain w → ∀ {b : Nat}, (b < 32 ∨ b = 58) → ∀ rest, findColon (w ++ b :: rest) = some (b, rest)
  | [], _, b, hb, rest => by
    rw [List.nil_append, findColon, if_neg]
    unfold isTerm
    simp
    omega
  | c :: w, h, b, hb, rest => by
    have h1 := h c (by simp)
    rw [List.cons_append, findColon, if_pos]
    · exact find_colon (fun x hx => h x (by simp [hx])) hb rest
    · unfold isTerm
      simp
      omega

/-- Comparing a name with the text in front of the colon. -/
theorem compare_spec : ∀ {n w : List Nat}, (∀ c ∈ n, c ≠ 0 ∧ c ≠ 58) → Plain w → ∀ rest, ∃ c tp, compare (n ++ [0]) (w ++ 58 :: rest) = some (c, tp) ∧ ((c ≠ 0 ∨ tp.length ≠ rest.length) ↔ ¬ Equal n w)
  | [], [], _, _, rest => ⟨0, rest, by simp [compare, big], by simp [Equal]⟩
  | [], a :: w, _, hw, rest => by
    refine ⟨0, w ++ 58 :: rest, ?_, ?_⟩
    · rw [List.nil_append, List.cons_append, compare, if_neg (fun h => h.1 rfl)]
      rfl
    · simp [Equal]
      omega
  | c :: n, [], hn, _, rest => by
    have h1 := hn c (by simp)
    refine ⟨big c, rest, ?_, ?_⟩
    · rw [List.cons_append, List.nil_append, compare, if_neg]
      rintro ⟨-, h⟩
      rw [big_same] at h
      unfold Same at h
      omega
    · have := big_zero h1.1
      simp [Equal, this]
  | c :: n, a :: w, hn, hw, rest => by
    have h1 := hn c (by simp)
    rw [List.cons_append, List.cons_append, compare]
    by_cases h : big c = big a
    · rw [if_pos ⟨big_zero h1.1, h⟩]
      obtain ⟨c', tp, h2, h3⟩ := compare_spec (n := n) (w := w) (fun x hx => hn x (by simp [hx])) (fun x hx => hw x (by simp [hx])) rest
      refine ⟨c', tp, h2, h3.trans ?_⟩
      rw [Equal]
      have := big_same.mp h
      simp [this]
    · rw [if_neg (fun hx => h hx.2)]
      refine ⟨_, _, rfl, ⟨fun _ hx => h (big_same.mpr hx.1), fun _ => .inl (big_zero h1.1)⟩⟩

theorem try_spec {w : List Nat} (hw : Plain w) (rest : List Nat) : ∀ (names : List (List Nat)), (∀ n ∈ names, ∀ c ∈ n, c ≠ 0 ∧ c ≠ 58) → ∀ i, ∃ k, tryNames (w ++ 58 :: rest) rest (zeroed names) i = some (i + k) ∧
    (∀ j < k, ∀ m, names[j]? = some m → ¬ Equal m w) ∧ (k = names.length ∨ ∃ n, names[k]? = some n ∧ Equal n w)
  | [], _, i => ⟨0, rfl, by simp, .inl rfl⟩
  | n :: names, hn, i => by
    obtain ⟨c, tp, h1, h2⟩ := compare_spec (hn n (by simp)) hw rest
    rw [show zeroed (n :: names) = (n ++ [0]) :: zeroed names from rfl, tryNames, h1]
    dsimp only
    by_cases h : Equal n w
    · rw [if_neg (fun hx => h2.mp hx h)]
      exact ⟨0, rfl, by simp, .inr ⟨n, rfl, h⟩⟩
    · rw [if_pos (h2.mpr h)]
      obtain ⟨k, h3, h4, h5⟩ := try_spec hw rest names (fun m hm => hn m (by simp [hm])) (i + 1)
      refine ⟨k + 1, by rw [h3]; congr 1; omega, fun j hj m hm => ?_, ?_⟩
      · cases j with
        | zero =>
          rw [List.getElem?_cons_zero] at hm
          cases hm
          exact h
        | succ j => exact h4 j (by omega) m (by simpa using hm)
      · rcases h5 with h5 | ⟨m, h5, h6⟩
        · exact .inl (by simp [h5])
        · exact .inr ⟨m, by simpa using h5, h6⟩

/-- A path with a colon: its beginning names a drive, and the path goes on behind the colon; or it names none, and is refused. -/
theorem C99_prefix (names : List (List Nat)) (hn : ∀ n ∈ names, ∀ c ∈ n, c ≠ 0 ∧ c ≠ 58) (curr : Nat) (w : List Nat) (hw : Plain w) (rest : List Nat) :
    (∃ k < names.length, Names names w k ∧ getLdnumber (zeroed names) curr (w ++ 58 :: rest) = some (some k, rest)) ∨
    (∀ k, ¬ Names names w k) ∧ getLdnumber (zeroed names) curr (w ++ 58 :: rest) = some (none, w ++ 58 :: rest) := by
  have hz : (zeroed names).length = names.length := by simp [zeroed]
  unfold getLdnumber
  rw [find_colon hw (.inr rfl) rest, Option.bind_some]
  unfold take
  rw [if_pos rfl, hz]
  dsimp only
  by_cases hd : Digit w
  · obtain ⟨d, hd, rfl⟩ := hd
    have hdr : driveOf (zeroed names) ([48 + d] ++ 58 :: rest) rest = some d := by
      rw [List.singleton_append, driveOf, if_pos]
      · congr 1
        omega
      · unfold isDigit
        simp
        omega
    rw [hdr, Option.map_some]
    by_cases hl : d < names.length
    · rw [if_pos hl]
      exact .inl ⟨d, hl, .inl ⟨rfl, hd, hl⟩, rfl⟩
    · rw [if_neg hl]
      refine .inr ⟨fun k hk => ?_, rfl⟩
      rcases hk with ⟨h1, -, h3⟩ | ⟨h1, -⟩
      · have : 48 + d = 48 + k := (List.cons.inj h1).1
        omega
      · exact h1 ⟨d, hd, rfl⟩
  · have hdr : driveOf (zeroed names) (w ++ 58 :: rest) rest = tryNames (w ++ 58 :: rest) rest (zeroed names) 0 := by
      cases w with
      | nil =>
        rw [List.nil_append, driveOf, if_neg]
        exact fun h => by simp [isDigit] at h
      | cons a w =>
        rw [List.cons_append, driveOf, if_neg]
        rintro ⟨h1, h2⟩
        unfold isDigit at h1
        have h1 : 48 ≤ a ∧ a ≤ 57 := by simpa using h1
        have : w.length = 0 := by rw [List.length_cons, List.length_append, List.length_cons] at h2; omega
        exact hd ⟨a - 48, by omega, by rw [List.eq_nil_of_length_eq_zero this]; congr 1; omega⟩
    obtain ⟨k, h1, h2, h3⟩ := try_spec hw rest names hn 0
    rw [hdr, h1, Option.map_some, Nat.zero_add]
    rcases h3 with h3 | ⟨n, h3, h4⟩
    · rw [if_neg (by omega)]
      refine .inr ⟨fun j hj => ?_, rfl⟩
      rcases hj with ⟨h4, h5, -⟩ | ⟨-, m, h4, h5, -⟩
      · exact hd ⟨j, h5, h4⟩
      · have := (List.getElem?_eq_some_iff.mp h4).1
        exact h2 j (by omega) m h4 h5
    · have hk := (List.getElem?_eq_some_iff.mp h3).1
      rw [if_pos hk]
      exact .inl ⟨k, hk, .inr ⟨hd, n, h3, h4, h2⟩, rfl⟩

/-- A path without a colon is on the current drive. -/
theorem C99_current (names : List (List Nat)) (curr : Nat) (w : List Nat) (hw : Plain w) (b : Nat) (hb : b < 32) (rest : List Nat) :
    getLdnumber names curr (w ++ b :: rest) = some (some curr, w ++ b :: rest) := by
  unfold getLdnumber
  rw [find_colon hw (.inl hb) rest, Option.bind_some]
  unfold take
  rw [if_neg]
  show ¬ b = 58
  omega

theorem split_path : ∀ {path : List Nat}, (∃ b ∈ path, b < 32) → ∃ w b rest, path = w ++ b :: rest ∧ Plain w ∧ (b < 32 ∨ b = 58)
  | [], h => by simp at h
  | c :: path, h => by
    by_cases hc : c < 32 ∨ c = 58
    · exact ⟨[], c, path, rfl, (fun x hx => by cases hx), hc⟩
    · obtain ⟨w, b, rest, h1, h2, h3⟩ := split_path (path := path) (by
        obtain ⟨b, hb, hl⟩ := h
        rcases List.mem_cons.mp hb with rfl | hb
        · exact absurd (.inl hl) hc
        · exact ⟨b, hb, hl⟩)
      refine ⟨c :: w, b, rest, by rw [h1]; rfl, fun x hx => ?_, h3⟩
      rcases List.mem_cons.mp hx with rfl | hx
      · omega
      · exact h2 x hx

/-- No path makes the functions read behind its end, and the number is that of a drive; what is left is an end of the path. -/
theorem C99_safe (names : List (List Nat)) (hn : ∀ n ∈ names, ∀ c ∈ n, c ≠ 0 ∧ c ≠ 58) (curr : Nat) (hc : curr < names.length) (path : List Nat) (hp : ∃ b ∈ path, b < 32) :
    ∃ vol rest, getLdnumber (zeroed names) curr path = some (vol, rest) ∧ (∀ k, vol = some k → k < names.length) ∧ (∃ w, path = w ++ rest) ∧ ∃ b ∈ rest, b < 32 := by
  obtain ⟨w, b, rest, rfl, h2, h3⟩ := split_path hp
  rcases h3 with h3 | rfl
  · exact ⟨_, _, C99_current _ curr w h2 b h3 rest, (fun k hk => by cases hk; exact hc), ⟨[], rfl⟩, hp⟩
  · rcases C99_prefix names hn curr w h2 rest with ⟨k, h4, -, h5⟩ | ⟨-, h5⟩
    · refine ⟨_, _, h5, (fun j hj => by cases hj; exact h4), ⟨w ++ [58], by simp⟩, ?_⟩
      obtain ⟨b, hb, hl⟩ := hp
      rcases List.mem_append.mp hb with hb | hb
      · have := (h2 b hb).1
        omega
      · rcases List.mem_cons.mp hb with rfl | hb
        · omega
        · exact ⟨b, hb, hl⟩
    · exact ⟨_, _, h5, (fun j hj => by cases hj), ⟨[], rfl⟩, hp⟩

theorem equal_refl : ∀ n : List Nat, Equal n n
  | [] => trivial
  | _ :: n => ⟨.inl rfl, equal_refl n⟩

theorem equal_len : ∀ {m n : List Nat}, Equal m n → m.length = n.length
  | [], [], _ => rfl
  | _ :: m, _ :: n, h => by rw [List.length_cons, List.length_cons, equal_len h.2]
  | [], _ :: _, h => h.elim
  | _ :: _, [], h => h.elim

theorem same_trans {a b c : Nat} (h : Same a b) (h' : Same c b) : Same a c := by
  unfold Same at *
  omega

theorem equal_trans : ∀ {m n w : List Nat}, Equal m w → Equal n w → Equal m n
  | [], [], [], _, _ => trivial
  | _ :: m, _ :: n, _ :: w, h, h' => ⟨same_trans h.1 h'.1, equal_trans h.2 h'.2⟩
  | [], _ :: _, [], _, h => h.elim
  | [], _, _ :: _, h, _ => h.elim
  | _ :: _, _, [], h, _ => h.elim
  | _ :: _, [], _ :: _, _, h => h.elim

theorem plain_equal : ∀ {n w : List Nat}, Equal n w → Plain n → Plain w
  | [], [], _, _ => by simp [Plain]
  | a :: n, b :: w, h, hp => by
    intro c hc
    rcases List.mem_cons.mp hc with rfl | hc
    · have h1 := h.1
      have := hp a (by simp)
      unfold Same at h1
      omega
    · exact plain_equal h.2 (fun x hx => hp x (by simp [hx])) c hc
  | [], _ :: _, h, _ => h.elim
  | _ :: _, [], h, _ => h.elim

theorem digit_equal {n w : List Nat} (h : Equal n w) (hd : Digit w) : Digit n := by
  obtain ⟨d, h1, rfl⟩ := hd
  cases n with
  | nil => exact h.elim
  | cons a n =>
    cases n with
    | nil =>
      have h2 := h.1
      unfold Same at h2
      exact ⟨d, h1, by congr 1; omega⟩
    | cons b n => exact h.2.elim

/-- Each drive is reached by its name in any case, and by its number if that is a digit. -/
theorem C99_reached (names : List (List Nat)) (hn : Usable names) (k : Nat) (n : List Nat) (hk : names[k]? = some n) (curr : Nat) (w : List Nat) (hw : Equal n w ∨ k < 10 ∧ w = [48 + k]) (rest : List Nat) :
    getLdnumber (zeroed names) curr (w ++ 58 :: rest) = some (some k, rest) := by
  have hmem : n ∈ names := List.mem_of_getElem? hk
  have hz : ∀ n ∈ names, ∀ c ∈ n, c ≠ 0 ∧ c ≠ 58 := fun n hn' c hc => by have := (hn.1 n hn').1 c hc; omega
  have hp : Plain w := by
    rcases hw with hw | ⟨h1, rfl⟩
    · exact plain_equal hw (hn.1 n hmem).1
    · intro c hc
      rw [List.mem_singleton.mp hc]
      omega
  have hname : Names names w k := by
    rcases hw with hw | ⟨h1, rfl⟩
    · refine .inr ⟨fun hd => (hn.1 n hmem).2 (digit_equal hw hd), n, hk, hw, fun j hj m hm he => ?_⟩
      have := hn.2 j k m n hm hk (equal_trans he hw)
      omega
    · exact .inl ⟨rfl, h1, (List.getElem?_eq_some_iff.mp hk).1⟩
  rcases C99_prefix names hz curr w hp rest with ⟨j, h1, h2, h3⟩ | ⟨h1, -⟩
  · have : j = k := by
      rcases hname with ⟨a1, a2, -⟩ | ⟨a1, m, a2, a3, a4⟩
      · rcases h2 with ⟨b1, -⟩ | ⟨b1, -⟩
        · rw [a1] at b1
          have := (List.cons.inj b1).1
          omega
        · exact absurd ⟨k, a2, a1⟩ b1
      · rcases h2 with ⟨b1, b2, -⟩ | ⟨-, m', b2, b3, b4⟩
        · exact absurd ⟨j, b2, b1⟩ a1
        · rcases Nat.lt_trichotomy j k with hl | hl | hl
          · exact absurd b3 (a4 j hl m' b2)
          · exact hl
          · exact absurd a3 (b4 k hl m a2)
    rw [← this]
    exact h3
  · exact absurd hname (h1 k)

/-- The current directory as `f_getcwd` tells it leads back to its drive, whichever one is the current one, and then to the directory. -/
theorem C99_cwd (names : List (List Nat)) (hn : Usable names) (k : Nat) (n : List Nat) (hk : names[k]? = some n) (len : Nat) (dirs : List (List Nat)) (out : List Nat) (ho : Tree.Spec.Tells n len dirs out) (curr : Nat) :
    ∃ z, getLdnumber (zeroed names) curr out = some (some k, Tree.Spec.slashed dirs ++ 0 :: z) := by
  obtain ⟨-, z, rfl⟩ := ho
  exact ⟨z, C99_reached names hn k n hk curr n (.inl (equal_refl n)) _⟩

/-- The current drive after a series of calls. -/
def chdrives (names : List (List Nat)) : Nat → List (List Nat) → Option Nat
  | c, [] => some c
  | c, p :: ps => (fChdrive names c p).bind fun r => chdrives names r.1 ps

/-- After any series of calls of `f_chdrive` the current drive is one of the drives, namely that of the last path that names one. -/
theorem C99_series (names : List (List Nat)) (hn : ∀ n ∈ names, ∀ c ∈ n, c ≠ 0 ∧ c ≠ 58) (hl : names.length ≤ 256) : ∀ (ps : List (List Nat)), (∀ p ∈ ps, ∃ b ∈ p, b < 32) → ∀ c < names.length,
    ∃ d < names.length, chdrives (zeroed names) c ps = some d ∧ Named names c ps d ∧ fGetdrive (zeroed names) d none = some (some d)
  | [], _, c, hc => ⟨c, hc, rfl, .nil c, rfl⟩
  | p :: ps, hp, c, hc => by
    have ih := fun c' (h : c' < names.length) => C99_series names hn hl ps (fun q hq => hp q (by simp [hq])) c' h
    obtain ⟨w, b, rest, rfl, h2, h3⟩ := split_path (hp p (by simp))
    rcases h3 with h3 | rfl
    · obtain ⟨d, i1, i2, i3, i4⟩ := ih c hc
      refine ⟨d, i1, ?_, .stay h2 h3 i3, i4⟩
      rw [chdrives, fChdrive, C99_current _ c w h2 b h3 rest]
      simpa [Nat.mod_eq_of_lt (by omega : c < 256)] using i2
    · rcases C99_prefix names hn c w h2 rest with ⟨k, h4, h5, h6⟩ | ⟨h5, h6⟩
      · obtain ⟨d, i1, i2, i3, i4⟩ := ih k h4
        refine ⟨d, i1, ?_, .go h2 h5 h4 i3, i4⟩
        rw [chdrives, fChdrive, h6]
        simpa [Nat.mod_eq_of_lt (by omega : k < 256)] using i2
      · obtain ⟨d, i1, i2, i3, i4⟩ := ih c hc
        refine ⟨d, i1, ?_, .miss h2 h5 i3, i4⟩
        rw [chdrives, fChdrive, h6]
        simpa using i2

/-! The names on the Pico. -/

def picoPlain : List (List Nat) := [[102, 108, 97, 115, 104], [115, 100]]

theorem pico_usable : Usable picoPlain := by
  refine ⟨fun n hn => ?_, fun j k m n hm hk he => ?_⟩
  · have : n = [102, 108, 97, 115, 104] ∨ n = [115, 100] := by simpa [picoPlain] using hn
    rcases this with rfl | rfl
    · exact ⟨by decide, fun ⟨d, _, h⟩ => by simp at h⟩
    · exact ⟨by decide, fun ⟨d, _, h⟩ => by simp at h⟩
  · have key : ∀ j < 2, ∀ k < 2, Equal (picoPlain.getD j []) (picoPlain.getD k []) → j = k := by decide
    have hj := (List.getElem?_eq_some_iff.mp hm).1
    have hl := (List.getElem?_eq_some_iff.mp hk).1
    refine key j hj k hl ?_
    rw [List.getD_eq_getElem?_getD, List.getD_eq_getElem?_getD, hm, hk]
    exact he

example : zeroed picoPlain = picoNames ∧ (∀ n ∈ picoPlain, ∀ c ∈ n, c ≠ 0 ∧ c ≠ 58) ∧ picoPlain.length ≤ 256 ∧ picoPlain[1]? = some [115, 100] ∧ Equal [115, 100] [83, 100] ∧ Plain [83, 100] := by decide

/-- `Sd:/a`, `1:x`, `sdx:`, `2:`, `:x`, `a/b`, `a b:c` -/
example : getLdnumber picoNames 0 [83, 100, 58, 47, 97, 0] = some (some 1, [47, 97, 0]) ∧ getLdnumber picoNames 0 [49, 58, 120, 0] = some (some 1, [120, 0]) ∧ getLdnumber picoNames 0 [115, 100, 120, 58, 0] = some (none, [115, 100, 120, 58, 0]) ∧
    getLdnumber picoNames 0 [50, 58, 0] = some (none, [50, 58, 0]) ∧ getLdnumber picoNames 0 [58, 120, 0] = some (none, [58, 120, 0]) ∧ getLdnumber picoNames 1 [97, 47, 98, 0] = some (some 1, [97, 47, 98, 0]) ∧
    getLdnumber picoNames 1 [97, 32, 98, 58, 99, 0] = some (none, [97, 32, 98, 58, 99, 0]) := by decide

example : Tree.Spec.Tells [115, 100] 10 [[65]] [115, 100, 58, 47, 65, 0, 7, 7, 7, 7] := ⟨rfl, [7, 7, 7, 7], rfl⟩

example : chdrives picoNames 0 [[83, 68, 58, 0], [120, 58, 0], [120, 0]] = some 1 := by decide

end Fpm.Drive
