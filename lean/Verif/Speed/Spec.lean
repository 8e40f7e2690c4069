import Verif.Speed.Model
/-!
# What vol should show, and what its test should leave
-/
namespace Fpm.Speed.Spec

/-- `a.d` megabytes is the size, rounded down to tenths. -/
def Tenths (bytes a d : Nat) : Prop := d < 10 ∧ (10 * a + d) * 1048576 ≤ 10 * bytes ∧ 10 * bytes < (10 * a + d + 1) * 1048576

/-- `s.ms` seconds is the time, rounded down to thousandths. -/
def Millis (usec s ms : Nat) : Prop := ms < 1000 ∧ (1000 * s + ms) * 1000 ≤ usec ∧ usec < (1000 * s + ms + 1) * 1000

/-- So many kilobytes per second, rounded down, are so many megabytes in this time. -/
def Rate (mbytes usec kb : Nat) : Prop := kb * usec ≤ mbytes * 1024 * 1000000 ∧ mbytes * 1024 * 1000000 < (kb + 1) * usec

/-- The test has come to its end. -/
def Completed (e : End) : Prop := e = .done ∨ e = .removeError

end Fpm.Speed.Spec
