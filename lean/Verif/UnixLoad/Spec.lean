import Verif.UnixLoad.Model
/-!
# What the operating system replies, and what running a program should leave
-/
namespace Fpm.UnixLoad.Spec

/-- What `open` and `mmap` return is new; descriptor 0 is the console, which is open. -/
def Fresh (r : Replies) (o : Os) : Prop := 0 ∈ o.fds ∧ (∀ fd, r.opened = some fd → fd ∉ o.fds) ∧ ∀ a, r.mapped = some a → a ∉ o.maps

/-- The system lets the file be opened and mapped, or does not let it be opened. -/
def Willing (r : Replies) : Prop := r.opened = none ∨ r.fstat = true ∧ r.mapped ≠ none

end Fpm.UnixLoad.Spec
