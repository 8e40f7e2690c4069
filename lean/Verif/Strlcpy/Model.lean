import Verif.Utf8.Model
/-!
# Bounded string copies, kernel/fpm_strlcpy.c

The destination is the list of items of the destination object; a store outside it is
undefined behaviour (`none`).  The source is the list of items from the source pointer to
the end of its object; a read beyond it is undefined behaviour (`none`).
All functions return the destination object after the call and the returned `size_t`.
-/
namespace Fpm

/-- A store `dst[i] = v`; `none` when outside the object. -/
def store (dst : List Nat) (i v : Nat) : Option (List Nat) :=
  if i < dst.length then some (dst.set i v) else none

/-- Successive stores `*d++ = v` for each of `vs`, starting at index `i`. -/
def stores (dst : List Nat) (i : Nat) : List Nat → Option (List Nat)
  | [] => some dst
  | v :: vs => do stores (← store dst i v) (i + 1) vs

/-- `while (*s++) ;`: number of items consumed, terminator included. -/
def skipStr : List Nat → Option Nat
  | [] => none
  | c :: r => if c = 0 then some 1 else (skipStr r).map (· + 1)

/-- State of a copy loop at its exit: destination object, index `d`, rest of the source,
number of source items consumed, and the final value of `n`. -/
structure CopyExit where
  dst : List Nat
  d : Nat
  src : List Nat
  used : Nat
  n : Nat
deriving Repr, DecidableEq

/-- The code after the copy loop, common to all four functions
(kernel/fpm_strlcpy.c:54-63, 106-115, 138-147, 170-179). -/
def copyFinish (nitems : Nat) (e : CopyExit) : Option (List Nat × Nat) :=
  if e.n = 0 then do
    let dst ← if nitems ≠ 0 then store e.dst e.d 0 else some e.dst
    let k ← skipStr e.src
    return (dst, e.used + k - 1)
  else some (e.dst, e.used - 1)

/-- The loop `while (--n != 0)` of `fpm_strlcpy` and `fpm_strlcpy_unicode`
(kernel/fpm_strlcpy.c:130-136 and 162-168; the two differ only in the item type). -/
def strlcpyLoop (dst : List Nat) (d : Nat) (src : List Nat) (used : Nat) : Nat → Option CopyExit
  | 0 => some ⟨dst, d, src, used, 0⟩          -- not entered: guarded by `n != 0`
  | n + 1 =>
    if n = 0 then some ⟨dst, d, src, used, 0⟩
    else match src with
      | [] => none
      | c :: r => do
        let dst ← store dst d c
        if c = 0 then return ⟨dst, d + 1, r, used + 1, n⟩
        else strlcpyLoop dst (d + 1) r (used + 1) n

/-- `fpm_strlcpy`, kernel/fpm_strlcpy.c:155-180, and `fpm_strlcpy_unicode`, 123-148. -/
def strlcpy (dst src : List Nat) (nitems : Nat) : Option (List Nat × Nat) := do
  let e ← strlcpyLoop dst 0 src 0 nitems
  copyFinish nitems e

/-- The loop of `fpm_strlcpy_from_utf8`, kernel/fpm_strlcpy.c:29-52. -/
def fromUtf8Loop (dst : List Nat) (d : Nat) (src : List Nat) (used : Nat) : Nat → Option CopyExit
  | 0 => some ⟨dst, d, src, used, 0⟩
  | n + 1 =>
    if n = 0 then some ⟨dst, d, src, used, 0⟩
    else match src with
      | [] => none
      | c1 :: r =>
        if c1 = 0 then do
          let dst ← store dst d 0
          return ⟨dst, d + 1, r, used + 1, n⟩
        else if c1 &&& 0x80 = 0 then do
          let dst ← store dst d c1
          fromUtf8Loop dst (d + 1) r (used + 1) n
        else match r with
          | [] => none
          | c2 :: r =>
            if c1 &&& 0x20 = 0 then do
              let dst ← store dst d (u16 ((c1 &&& 0x1f) <<< 6 ||| (c2 &&& 0x3f)))
              fromUtf8Loop dst (d + 1) r (used + 2) n
            else match r with
              | [] => none
              | c3 :: r => do
                let dst ← store dst d
                  (u16 ((c1 &&& 0x0f) <<< 12 ||| (c2 &&& 0x3f) <<< 6 ||| (c3 &&& 0x3f)))
                fromUtf8Loop dst (d + 1) r (used + 3) n

/-- `fpm_strlcpy_from_utf8`, kernel/fpm_strlcpy.c:22-64. -/
def strlcpyFromUtf8 (dst src : List Nat) (nitems : Nat) : Option (List Nat × Nat) := do
  let e ← fromUtf8Loop dst 0 src 0 nitems
  copyFinish nitems e

/-- The loop of `fpm_strlcpy_to_utf8`, kernel/fpm_strlcpy.c:76-104. -/
def toUtf8Loop (dst : List Nat) (d : Nat) (src : List Nat) (used : Nat) : Nat → Option CopyExit
  | 0 => some ⟨dst, d, src, used, 0⟩
  | n + 1 =>
    if n = 0 then some ⟨dst, d, src, used, 0⟩
    else match src with
      | [] => none
      | ch :: r =>
        if ch = 0 then do
          let dst ← store dst d 0
          return ⟨dst, d + 1, r, used + 1, n⟩
        else if ch < 0x80 then do
          let dst ← store dst d (u8 ch)
          toUtf8Loop dst (d + 1) r (used + 1) n
        else if ch < 0x800 then
          if n < 2 then do
            let dst ← store dst d 0
            return ⟨dst, d + 1, r, used + 1, n⟩
          else do
            let dst ← stores dst d [u8 (ch >>> 6 ||| 0xc0), u8 ((ch &&& 0x3f) ||| 0x80)]
            toUtf8Loop dst (d + 2) r (used + 1) n
        else
          if n < 3 then do
            let dst ← store dst d 0
            return ⟨dst, d + 1, r, used + 1, n⟩
          else do
            let dst ← stores dst d
              [u8 (ch >>> 12 ||| 0xe0), u8 (((ch >>> 6) &&& 0x3f) ||| 0x80), u8 ((ch &&& 0x3f) ||| 0x80)]
            toUtf8Loop dst (d + 3) r (used + 1) n

/-- `fpm_strlcpy_to_utf8`, kernel/fpm_strlcpy.c:69-116. -/
def strlcpyToUtf8 (dst src : List Nat) (nitems : Nat) : Option (List Nat × Nat) := do
  let e ← toUtf8Loop dst 0 src 0 nitems
  copyFinish nitems e

end Fpm
