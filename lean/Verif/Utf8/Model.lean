/-!
# Console text: UTF-8 output, input and string length

Model of `kernel/fpm_putwch.c`, `fpm_getwch.c`, `fpm_puts.c`, `fpm_wputs.c`,
`fpm_strwlen.c`.  A byte is a natural number below 256, a console character
(`uint16_t`) one below 65536.  The console is a list of bytes.

A C string is the list of the items from the pointer to the end of the object it
points into.  Reading an item beyond that list is undefined behaviour, modelled
by the outcome `none`.
-/
namespace Fpm

/-- Conversion of an integer argument to `char` / `uint8_t`. -/
def u8 (x : Nat) : Nat := x % 256

/-- Conversion of an integer to `uint16_t`. -/
def u16 (x : Nat) : Nat := x % 65536

/-- `fpm_putwch`, kernel/fpm_putwch.c:11-23: bytes passed to `fpm_putchar(char)`. -/
def putwch (ch : Nat) : List Nat :=
  if ch < 0x80 then [u8 ch]
  else if ch < 0x800 then [u8 (ch >>> 6 ||| 0xc0), u8 ((ch &&& 0x3f) ||| 0x80)]
  else [u8 (ch >>> 12 ||| 0xe0), u8 (((ch >>> 6) &&& 0x3f) ||| 0x80), u8 ((ch &&& 0x3f) ||| 0x80)]

/-- `fpm_getwch`, kernel/fpm_getwch.c:11-32, on the pending input bytes.
`none`: the call blocks because input has ended (fpm_getchar never returns). -/
def getwch : List Nat → Option (Nat × List Nat)
  | [] => none
  | c1 :: r =>
    if c1 &&& 0x80 = 0 then some (c1, r)
    else match r with
      | [] => none
      | c2 :: r =>
        if c1 &&& 0x20 = 0 then some (u16 ((c1 &&& 0x1f) <<< 6 ||| (c2 &&& 0x3f)), r)
        else match r with
          | [] => none
          | c3 :: r =>
            some (u16 ((c1 &&& 0x0f) <<< 12 ||| (c2 &&& 0x3f) <<< 6 ||| (c3 &&& 0x3f)), r)

/-- `fpm_wputs`, kernel/fpm_wputs.c:6-11.  `none`: no terminator in the object. -/
def wputs : List Nat → Option (List Nat)
  | [] => none
  | c :: r => if c = 0 then some [] else (wputs r).map (putwch c ++ ·)

/-- `fpm_puts`, kernel/fpm_puts.c:6-26.  `none`: read beyond the end of the object. -/
def puts : List Nat → Option (List Nat)
  | [] => none
  | c1 :: r =>
    if c1 = 0 then some []
    else if c1 &&& 0x80 = 0 then (puts r).map (putwch c1 ++ ·)
    else match r with
      | [] => none
      | c2 :: r =>
        if c1 &&& 0x20 = 0 then
          (puts r).map (putwch (u16 ((c1 &&& 0x1f) <<< 6 ||| (c2 &&& 0x3f))) ++ ·)
        else match r with
          | [] => none
          | c3 :: r =>
            (puts r).map
              (putwch (u16 ((c1 &&& 0x0f) <<< 12 ||| (c2 &&& 0x3f) <<< 6 ||| (c3 &&& 0x3f))) ++ ·)

/-- `fpm_strwlen`, kernel/fpm_strwlen.c:7-15.  `none`: no terminator in the object. -/
def strwlen : List Nat → Option Nat
  | [] => none
  | c :: r => if c = 0 then some 0 else (strwlen r).map (· + 1)

/-- `fpm_utf8len`, kernel/fpm_strwlen.c:17-25.  `none`: no terminator in the object. -/
def utf8len : List Nat → Option Nat
  | [] => none
  | c :: r =>
    if c = 0 then some 0
    else (utf8len r).map (· + if c &&& 0xc0 ≠ 0x80 then 1 else 0)

end Fpm
