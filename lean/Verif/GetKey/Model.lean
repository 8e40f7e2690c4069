/-!
# Key decoding, kernel/fpm_getkey.c

Input: the list of 16-bit characters that successive calls of `fpm_getwch` will return.  `none`:
the input is used up, the function waits for more.
-/
namespace Fpm.GetKey

/-- A decimal digit, kernel/fpm_getkey.c:43-44 and 50. -/
def isDigit (c : Nat) : Bool := 48 ≤ c && c ≤ 57

/-- The loop reading the number, kernel/fpm_getkey.c:46-50: `key` is the current digit, `num` the
value so far, computed in `unsigned` (32 bits).  Returns the number, the character after it, and
the rest. -/
def readNum (num key : Nat) : List Nat → Option (Nat × Nat × List Nat)
  | [] => none
  | c :: r =>
    let num := (num * 10 + (key - 48)) % 2 ^ 32
    if isDigit c then readNum num c r else some (num, c, r)

theorem readNum_length {num key : Nat} {s : List Nat} {x : Nat × Nat × List Nat} (h : readNum num key s = some x) :
    x.2.2.length < s.length := by
  induction s generalizing num key with
  | nil => cases h
  | cons c r ih =>
    rw [readNum] at h
    split at h
    · have := ih h; simp; omega
    · cases h; simp

/-- After the number: kernel/fpm_getkey.c:51-60.  `(none, rest)`: `continue`, `goto again`. -/
def afterNum (x : Nat × Nat × List Nat) : Option Nat × List Nat :=
  if x.2.1 ≠ 126 then (none, x.2.2)
  else if x.1 = 3 then (some 0x2421, x.2.2)
  else (none, x.2.2)

/-- The character after ESC [ or ESC O, kernel/fpm_getkey.c:24-64 (key codes: include/fpm/api.h). -/
def third (k : Nat) (r : List Nat) : Option (Option Nat × List Nat) :=
  if k = 65 then some (some 0x2191, r)
  else if k = 66 then some (some 0x2193, r)
  else if k = 68 then some (some 0x2190, r)
  else if k = 67 then some (some 0x2192, r)
  else if k = 72 then some (some 0x21e4, r)
  else if k = 70 then some (some 0x21e5, r)
  else if isDigit k then (readNum 0 k r).map afterNum
  else some (none, r)

/-- One pass through the function body, kernel/fpm_getkey.c:7-67: `none` - the input is used up;
`some (none, rest)` - an unknown sequence was dropped, back to the start; `some (some k, rest)` - key
`k`. -/
def pass : List Nat → Option (Option Nat × List Nat)
  | [] => none
  | k :: r =>
    if k ≠ 27 then some (some k, r)
    else match r with
      | [] => none
      | p :: r =>
        if p ≠ 91 ∧ p ≠ 79 then some (none, r)
        else match r with
          | [] => none
          | k :: r => third k r

theorem third_length {k : Nat} {r : List Nat} {x : Option Nat × List Nat} (h : third k r = some x) :
    x.2.length ≤ r.length := by
  unfold third at h
  iterate 6 (split at h; · cases h; simp)
  split at h
  · cases hn : readNum 0 k r with
    | none => rw [hn] at h; cases h
    | some y =>
      rw [hn] at h
      cases h
      have := readNum_length hn
      unfold afterNum
      repeat' split
      all_goals simp; omega
  · cases h; simp

theorem pass_length {s : List Nat} {x : Option Nat × List Nat} (h : pass s = some x) : x.2.length < s.length := by
  match s with
  | [] => cases h
  | k :: [] =>
    simp only [pass] at h
    split at h
    · cases h; simp
    · cases h
  | k :: p :: [] =>
    simp only [pass] at h
    split at h
    · cases h; simp
    · split at h
      · cases h; simp
      · cases h
  | k :: p :: k' :: r =>
    simp only [pass] at h
    split at h
    · cases h; simp
    · split at h
      · cases h; simp
      · have := third_length h; simp; omega

/-- `fpm_getkey`, kernel/fpm_getkey.c:7-67: passes until a key is found.  Returns the key and the
rest of the input. -/
def getkey (s : List Nat) : Option (Nat × List Nat) :=
  match _h : pass s with
  | none => none
  | some (some k, r) => some (k, r)
  | some (none, r) => getkey r
termination_by s.length
decreasing_by exact pass_length _h

end Fpm.GetKey
