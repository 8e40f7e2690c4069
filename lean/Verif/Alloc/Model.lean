/-!
# Memory allocator and context stack, kernel/fpm_alloc.c

Memory is a total map from addresses to bytes; `size_t` and pointers are words of `w` bytes
(`w = 4` on the Pico, `w = 8` on 64-bit hosts), little-endian, and `size_t` arithmetic is modulo
`256 ^ w`.  `sizeof(heap_header_t) = sizeof(void *) = w` (MEM_DEBUG off, kernel/fpm_alloc.c:22-24).
The context structures (include/fpm/context.h:14-33) are kept outside this memory, as records
with the fields the allocator uses; the `parent` link is the list structure of `World`.

Loops take a step bound.  The bound used by the API functions is the number of addresses, and
running out of it (`none`) stands for a walk that never ends.
-/
namespace Fpm.Alloc

/-- Byte-addressed memory. -/
abbrev Mem := Nat → UInt8

/-- Number of values of `size_t`. -/
def wrap (w : Nat) : Nat := 256 ^ w

/-- Read `k` bytes, least significant first. -/
def loadN : Nat → Mem → Nat → Nat
  | 0, _, _ => 0
  | k + 1, m, a => (m a).toNat + 256 * loadN k m (a + 1)

/-- Read a `size_t` or pointer. -/
def load (w : Nat) (m : Mem) (a : Nat) : Nat := loadN w m a

/-- Write a `size_t` or pointer. -/
def store (w : Nat) (m : Mem) (a v : Nat) : Mem := fun x =>
  if a ≤ x ∧ x < a + w then UInt8.ofNat (v / 256 ^ (x - a)) else m x

/-- Heap fields of `fpm_context_t`, include/fpm/context.h:19-22. -/
structure Ctx where
  heapStart : Nat
  heapSize : Nat
  freeSize : Nat
  freeList : Nat
deriving Repr, DecidableEq

/-- `size_align`, kernel/fpm_alloc.c:66-69.  `SIZEOF_POINTER` is a 32-bit `unsigned`
(line 54), so `-SIZEOF_POINTER` is `2 ^ 32 - w` also where `size_t` has 64 bits. -/
def sizeAlign (w n : Nat) : Nat := ((n + w - 1) % wrap w) &&& (2 ^ 32 - w)

/-- Block size for a request, kernel/fpm_alloc.c:97-100 and 270-273. -/
def reqSize (w n : Nat) : Nat := sizeAlign w (((if n < w then w else n) + w) % wrap w)

/-- A `heap_header_t **`: `none` is `&fpm_context->free_list`, `some a` is the address `a`. -/
abbrev Slot := Option Nat

/-- `*hprev = v`. -/
def setSlot (w : Nat) (m : Mem) (c : Ctx) (hprev : Slot) (v : Nat) : Mem × Ctx :=
  match hprev with
  | none => (m, { c with freeList := v })
  | some a => (store w m a v, c)

/-- The scan of kernel/fpm_alloc.c:104-119: first block of at least `n` bytes, or 0. -/
def findFit (w : Nat) (m : Mem) (n : Nat) : Nat → Slot → Nat → Option (Slot × Nat)
  | 0, _, _ => none
  | k + 1, hprev, h =>
    if h = 0 then some (hprev, 0)
    else if load w m h ≥ n then some (hprev, h)
    else findFit w m n k (some (h + w)) (load w m (h + w))

/-- `fpm_alloc_dirty`, kernel/fpm_alloc.c:88-149.  The result is the new memory and context and
the returned pointer (0 for NULL). -/
def allocDirty (w : Nat) (m : Mem) (c : Ctx) (nbytes : Nat) : Option (Mem × Ctx × Nat) :=
  let n := reqSize w nbytes
  match findFit w m n (wrap w) none c.freeList with
  | none => none
  | some (hprev, h) =>
    if h = 0 then some (m, c, 0)
    else
      let (m, c) :=
        if load w m h ≥ (n + w + 2 * w) % wrap w then
          let newh := (h + n) % wrap w
          let m := store w m newh ((load w m h + wrap w - n) % wrap w)
          let m := store w m h n
          let m := store w m (newh + w) (load w m (h + w))
          setSlot w m c hprev newh
        else setSlot w m c hprev (load w m (h + w))
      some (m, { c with freeSize := (c.freeSize + wrap w - load w m h) % wrap w }, h + w)

/-- `memset(p, 0, n)`. -/
def zeroFill (m : Mem) (p n : Nat) : Mem := fun x => if p ≤ x ∧ x < p + n then 0 else m x

/-- `memcpy(d, s, n)`. -/
def copyMem (m : Mem) (d s n : Nat) : Mem := fun x => if d ≤ x ∧ x < d + n then m (s + (x - d)) else m x

/-- `fpm_alloc`, kernel/fpm_alloc.c:75-82. -/
def alloc (w : Nat) (m : Mem) (c : Ctx) (nbytes : Nat) : Option (Mem × Ctx × Nat) :=
  match allocDirty w m c nbytes with
  | none => none
  | some (m, c, p) =>
    if p ≠ 0 ∧ nbytes > 0 then some (zeroFill m p nbytes, c, p) else some (m, c, p)

/-- The loop of `make_free_block`, kernel/fpm_alloc.c:167-201. -/
def mergeLoop (w : Nat) (newh : Nat) : Nat → Mem → Ctx → Slot → Nat → Option (Mem × Ctx)
  | 0, _, _, _, _ => none
  | k + 1, m, c, hprev, h =>
    if h = 0 then
      let (m, c) := setSlot w m c hprev newh
      some (store w m (newh + w) 0, c)
    else if h > newh then
      let (m, c) := setSlot w m c hprev newh
      if (newh + load w m newh) % wrap w = h then
        let m := store w m newh ((load w m newh + load w m h) % wrap w)
        some (store w m (newh + w) (load w m (h + w)), c)
      else some (store w m (newh + w) h, c)
    else if (h + load w m h) % wrap w = newh then
      let m := store w m h ((load w m h + load w m newh) % wrap w)
      let next := load w m (h + w)
      if (h + load w m h) % wrap w = next then
        let m := store w m h ((load w m h + load w m next) % wrap w)
        some (store w m (h + w) (load w m (load w m (h + w) + w)), c)
      else some (m, c)
    else mergeLoop w newh k m c (some (h + w)) (load w m (h + w))

/-- `make_free_block`, kernel/fpm_alloc.c:154-202. -/
def makeFreeBlock (w : Nat) (m : Mem) (c : Ctx) (newh : Nat) : Option (Mem × Ctx) :=
  let c := { c with freeSize := (c.freeSize + load w m newh) % wrap w }
  mergeLoop w newh (wrap w) m c none c.freeList

/-- `fpm_free`, kernel/fpm_alloc.c:207-224. -/
def free (w : Nat) (m : Mem) (c : Ctx) (block : Nat) : Option (Mem × Ctx) :=
  if block = 0 then some (m, c) else makeFreeBlock w m c (block - w)

/-- `fpm_realloc`, kernel/fpm_alloc.c:230-257. -/
def realloc (w : Nat) (m : Mem) (c : Ctx) (old bytes : Nat) : Option (Mem × Ctx × Nat) :=
  if old = 0 then some (m, c, 0)
  else
    let h := old - w
    let oldSize := (load w m h + wrap w - w) % wrap w
    if oldSize ≥ bytes then some (m, c, old)
    else
      match alloc w m c bytes with
      | none => none
      | some (m, c, block) =>
        if block = 0 then
          match makeFreeBlock w m c h with
          | none => none
          | some (m, c) => some (m, c, 0)
        else
          match makeFreeBlock w (copyMem m block old oldSize) c h with
          | none => none
          | some (m, c) => some (m, c, block)

/-- `fpm_truncate`, kernel/fpm_alloc.c:263-292. -/
def truncate (w : Nat) (m : Mem) (c : Ctx) (block nbytes : Nat) : Option (Mem × Ctx) :=
  if block = 0 then some (m, c)
  else
    let n := reqSize w nbytes
    let h := block - w
    if load w m h ≥ (n + w + 2 * w) % wrap w then
      let newh := (h + n) % wrap w
      let m := store w m newh ((load w m h + wrap w - n) % wrap w)
      let m := store w m h n
      makeFreeBlock w m c newh
    else some (m, c)

/-- `fpm_heap_available`, kernel/fpm_alloc.c:297-300. -/
def heapAvailable (c : Ctx) : Nat := c.freeSize

/-- `fpm_sizeof`, kernel/fpm_alloc.c:305-320. -/
def sizeOf (w : Nat) (m : Mem) (block : Nat) : Nat :=
  if block = 0 then 0 else (load w m (block - w) + wrap w - w) % wrap w

/-- `fpm_heap_setup`, kernel/fpm_alloc.c:336-349; `freeList` is the value of the field before the
call. -/
def heapSetup (w : Nat) (m : Mem) (start nbytes freeList : Nat) : Mem × Ctx :=
  let m := store w m start nbytes
  let m := store w m (start + w) freeList
  (m, { heapStart := start, heapSize := nbytes, freeList := start, freeSize := load w m start })

/-- `fpm_heap_init`, kernel/fpm_alloc.c:354-364 (the context has been cleared by line 359). -/
def heapInit (w : Nat) (m : Mem) (start nbytes : Nat) : Mem × Ctx := heapSetup w m start nbytes 0

/-- The scan of `fpm_context_push`, kernel/fpm_alloc.c:374-388; `best` is `max_block`. -/
def findMax (w : Nat) (m : Mem) : Nat → Nat → Nat → Option Nat
  | 0, _, _ => none
  | k + 1, best, h =>
    if h = 0 then some best
    else findMax w m k (if best = 0 ∨ load w m h > load w m best then h else best) (load w m (h + w))

/-- `fpm_context_push`, kernel/fpm_alloc.c:370-403, for a context structure that has been
cleared, as the caller does (kernel/fpm_exec.c:137-138).  `some none` is the result `false`;
otherwise the new memory and the heap fields of the new context. -/
def contextPush (w : Nat) (m : Mem) (c : Ctx) : Option (Option (Mem × Ctx)) :=
  match findMax w m (wrap w) 0 c.freeList with
  | none => none
  | some best =>
    if best = 0 ∨ load w m best < 1024 then some none
    else
      let skip := w + w
      some (some (heapSetup w m ((best + skip) % wrap w) ((load w m best + wrap w - skip) % wrap w) 0))

/-! ## Clients -/

/-- One entry of the context chain, with the ghost list of the blocks its program holds: pointer
and number of bytes the program may rely on. -/
structure Level where
  ctx : Ctx
  live : List (Nat × Nat)

/-- Memory and the chain of contexts, innermost (`fpm_context`) first. -/
structure World where
  mem : Mem
  top : Level
  below : List Level

/-- What programs do: heap calls, stores into memory, starting and ending a nested program. -/
inductive Op where
  | alloc (n : Nat)
  | allocDirty (n : Nat)
  | free (p : Nat)
  | realloc (p n : Nat)
  | truncate (p n : Nat)
  | store (a : Nat) (b : UInt8)
  | push
  | pop

/-- Forget a block. -/
def drop (p : Nat) (l : List (Nat × Nat)) : List (Nat × Nat) := l.filter (·.1 ≠ p)

/-- Add a block if the call did not return NULL. -/
def add (p n : Nat) (l : List (Nat × Nat)) : List (Nat × Nat) := if p = 0 then l else (p, n) :: l

/-- Effect of an operation and its result (the returned pointer; 0 or 1 for `push`).  The ghost
list follows the API contract: a successful allocation adds the block with the requested size,
`free` removes it, `realloc` replaces it by a block of the new size, `truncate` lowers the
guaranteed size. -/
def exec (w : Nat) (s : World) : Op → Option (World × Nat)
  | .alloc n => match alloc w s.mem s.top.ctx n with
    | none => none
    | some (m, c, p) => some ({ s with mem := m, top := ⟨c, add p n s.top.live⟩ }, p)
  | .allocDirty n => match allocDirty w s.mem s.top.ctx n with
    | none => none
    | some (m, c, p) => some ({ s with mem := m, top := ⟨c, add p n s.top.live⟩ }, p)
  | .free p => match free w s.mem s.top.ctx p with
    | none => none
    | some (m, c) => some ({ s with mem := m, top := ⟨c, drop p s.top.live⟩ }, 0)
  | .realloc p n => match realloc w s.mem s.top.ctx p n with
    | none => none
    | some (m, c, q) => some ({ s with mem := m, top := ⟨c, add q n (drop p s.top.live)⟩ }, q)
  | .truncate p n => match truncate w s.mem s.top.ctx p n with
    | none => none
    | some (m, c) => some ({ s with mem := m, top := ⟨c, s.top.live.map fun b => if b.1 = p then (p, min b.2 n) else b⟩ }, 0)
  | .store a b => some ({ s with mem := fun x => if x = a then b else s.mem x }, 0)
  | .push => match contextPush w s.mem s.top.ctx with
    | none => none
    | some none => some (s, 0)
    | some (some (m, c)) => some (⟨m, ⟨c, []⟩, s.top :: s.below⟩, 1)
  | .pop => match s.below with
    | [] => none
    | l :: ls => some (⟨s.mem, l, ls⟩, 0)          -- kernel/fpm_alloc.c:408-411

end Fpm.Alloc
