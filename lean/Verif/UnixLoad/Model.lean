/-!
# Loading and unloading programs on Unix

Model of `unix/loader_unix.c`, and of the order of calls in `fpm_load` (kernel/fpm_loader.c) and `fpm_execv` (kernel/fpm_exec.c).  Of the operating system there are the descriptors that are open, the mappings, by their addresses, and a list of
calls with invalid arguments.  What is in the file, and what the program does, are parameters.
-/
namespace Fpm.UnixLoad

/-- A call with an invalid argument: `close` of a descriptor that is not open, `munmap` of what is not mapped. -/
inductive Bad where
  | close (fd : Nat)
  | unmap
deriving DecidableEq

/-- The operating system, as the process sees it. -/
structure Os where
  fds : List Nat
  maps : List Nat
  bad : List Bad
deriving DecidableEq

/-- A pointer: NULL, MAP_FAILED, or an address. -/
inductive Ptr where
  | null
  | failed
  | at (a : Nat)
deriving DecidableEq

/-- Members of `fpm_context_t` that are used, include/fpm/context.h; `fd` is `none` for -1. -/
structure Ctx where
  fd : Option Nat
  base : Ptr
deriving DecidableEq

/-- After `memset`, kernel/fpm_exec.c:138-139. -/
def Ctx.zero : Ctx := ⟨some 0, .null⟩

/-- Replies of the operating system to `open`, `fstat` and `mmap`. -/
structure Replies where
  opened : Option Nat
  fstat : Bool
  mapped : Option Nat

/-- `close`, the result of which is not looked at, unix/loader_unix.c:27, 55. -/
def osClose (fd : Nat) (o : Os) : Os := if fd ∈ o.fds then { o with fds := o.fds.erase fd } else { o with bad := o.bad ++ [.close fd] }

/-- `munmap`, unix/loader_unix.c:48. -/
def osUnmap (p : Ptr) (o : Os) : Os :=
  match p with
  | .at a => if a ∈ o.maps then { o with maps := o.maps.erase a } else { o with bad := o.bad ++ [.unmap] }
  | _ => { o with bad := o.bad ++ [.unmap] }

/-- `fpm_load_arch`, unix/loader_unix.c:14-39: success, context, system. -/
def loadArch (r : Replies) (c : Ctx) (o : Os) : Bool × Ctx × Os :=
  match r.opened with
  | none => (false, { c with fd := none }, o)
  | some fd =>
    if r.fstat = false then (false, { c with fd := some fd }, osClose fd { o with fds := fd :: o.fds })
    else
      match r.mapped with
      | none => (false, ⟨some fd, .failed⟩, osClose fd { o with fds := fd :: o.fds })
      | some a => (true, ⟨some fd, .at a⟩, { o with fds := fd :: o.fds, maps := a :: o.maps })

/-- First half of `fpm_unload_arch`, unix/loader_unix.c:47-50. -/
def unmapBase (c : Ctx) (o : Os) : Ctx × Os := if c.base ≠ .null then ({ c with base := .null }, osUnmap c.base o) else (c, o)

/-- Second half, unix/loader_unix.c:52-57. -/
def closeFd (c : Ctx) (o : Os) : Ctx × Os :=
  match c.fd with
  | none => (c, o)
  | some fd => if fd > 0 then ({ c with fd := some 0 }, osClose fd o) else (c, o)

/-- `fpm_unload_arch`, unix/loader_unix.c:44-58. -/
def unloadArch (c : Ctx) (o : Os) : Ctx × Os := closeFd (unmapBase c o).1 (unmapBase c o).2

/-- `fpm_load`, kernel/fpm_loader.c:65-149; `fits`: the checks of the file find nothing wrong. -/
def load (r : Replies) (fits : Bool) (c : Ctx) (o : Os) : Bool × Ctx × Os :=
  match loadArch r c o with
  | (false, c, o) => (false, unloadArch c o)
  | (true, c, o) => if fits then (true, c, o) else (false, unloadArch c o)

/-- `fpm_execv` from where a file has been found, kernel/fpm_exec.c:137-159; `stack` and `heap`: there is enough.  The program itself leaves descriptors and mappings as they are. -/
def exec (r : Replies) (fits stack heap : Bool) (o : Os) : Os :=
  match load r fits .zero o with
  | (false, _, o) => o
  | (true, c, o) => if stack = false then o else if heap = false then o else (unloadArch c o).2

end Fpm.UnixLoad
