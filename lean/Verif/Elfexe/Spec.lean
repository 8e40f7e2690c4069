/-!
# What linkage stubs do
-/
namespace Fpm.Elfexe.Spec

/-- The bytes `l` are at offset `o`. -/
def At (c : List Nat) (o : Nat) (l : List Nat) : Prop := l <+: c.drop o

/-- Number in little-endian order. -/
def val : List Nat → Nat
  | [] => 0
  | b :: l => b + 256 * val l

/-- Word at an offset: it is there, and its bits under the mask have the value. -/
def WordAt (c : List Nat) (o mask v : Nat) : Prop := o + 4 ≤ c.length ∧ val ((c.drop o).take 4) &&& mask = v

/-! ## x86-64 -/

/-- Stub `endbr64; jmp *NUM(%rip); nopw`. -/
def Amd64Tracked (c : List Nat) : Prop := At c 0 [0xf3, 0x0f, 0x1e, 0xfa] ∧ At c 4 [0xff, 0x25] ∧ At c 10 [0x66, 0x0f, 0x1f, 0x44] ∧ 16 ≤ c.length

/-- Stub `jmp *NUM(%rip); push; jmp`. -/
def Amd64Simple (c : List Nat) : Prop := At c 0 [0xff, 0x25] ∧ 16 ≤ c.length

/-- Preamble `push NUM(%rip); jmp *NUM(%rip); nopl`. -/
def Amd64Preamble (c : List Nat) : Prop := At c 0 [0xff, 0x35] ∧ At c 6 [0xff, 0x25] ∧ At c 12 [0x0f, 0x1f, 0x40, 0x00]

/-- The code jumps to the address stored at this offset from `%gs`: `jmp *%gs:disp32`, perhaps after `endbr64`. -/
inductive JumpAmd64 : List Nat → Nat → Prop where
  | jmp {d c : List Nat} : d.length = 4 → (∀ b ∈ d, b < 256) → val d < 2 ^ 31 → JumpAmd64 ([0x65, 0xff, 0x24, 0x25] ++ d ++ c) (val d)
  | endbr {c : List Nat} {x : Nat} : JumpAmd64 c x → JumpAmd64 ([0xf3, 0x0f, 0x1e, 0xfa] ++ c) x

/-! ## ARM -/

/-- Value of a register: an offset from the thread pointer, the contents of memory there, or something else. -/
inductive Val where
  | tls (o : Nat)
  | mem (o : Nat)
  | other
deriving DecidableEq

/-- `add` to an address. -/
def Val.plus (n : Nat) : Val → Val
  | .tls o => .tls (o + n)
  | _ => .other

/-- Load from an address. -/
def Val.load : Val → Val
  | .tls o => .mem o
  | _ => .other

/-- Change a register. -/
def put (r : Nat → Val) (k : Nat) (v : Val) : Nat → Val := fun i => if i = k then v else r i

/-- A few arm64 instructions - `mrs Xt, tpidr_el0`, `add Xd, Xn, #imm`, `ldr Xt, [Xn, #imm]`, `br Xn` - executed; the offset of the slot whose contents are jumped to. -/
def runArm64 : List Nat → (Nat → Val) → Option Nat
  | [], _ => none
  | w :: ws, r =>
    if w / 32 = 0xd53bd040 / 32 then runArm64 ws (put r (w % 32) (.tls 0))
    else if w / 2 ^ 23 = 0x122 then runArm64 ws (put r (w % 32) ((r (w / 32 % 32)).plus (w / 2 ^ 10 % 2 ^ 12 * (if w / 2 ^ 22 % 2 = 1 then 4096 else 1))))
    else if w / 2 ^ 22 = 0x3e5 then runArm64 ws (put r (w % 32) ((r (w / 32 % 32)).plus (w / 2 ^ 10 % 2 ^ 12 * 8)).load)
    else if w / 2 ^ 10 = 0xd61f0000 / 2 ^ 10 ∧ w % 32 = 0 then
      match r (w / 32 % 32) with
      | .mem o => some o
      | _ => none
    else none

/-- The same for arm32: `mrc p15, 0, Rt, c13, c0, 2` and `ldr Rt, [Rn, #imm]`, where a load of register 15 is the jump. -/
def runArm32 : List Nat → (Nat → Val) → Option Nat
  | [], _ => none
  | w :: ws, r =>
    if w / 2 ^ 16 = 0xee1d ∧ w % 2 ^ 12 = 0xf50 then runArm32 ws (put r (w / 2 ^ 12 % 16) (.tls 0))
    else if w / 2 ^ 20 = 0xe59 then
      if w / 2 ^ 12 % 16 = 15 then
        match ((r (w / 2 ^ 16 % 16)).plus (w % 2 ^ 12)).load with
        | .mem o => some o
        | _ => none
      else runArm32 ws (put r (w / 2 ^ 12 % 16) ((r (w / 2 ^ 16 % 16)).plus (w % 2 ^ 12)).load)
    else none

/-- Words of a code. -/
def words : List Nat → List Nat
  | b0 :: b1 :: b2 :: b3 :: c => val [b0, b1, b2, b3] :: words c
  | _ => []

/-- The code jumps through the slot at this offset from the thread pointer. -/
def JumpArm64 (c : List Nat) (o : Nat) : Prop := runArm64 (words c) (fun _ => .other) = some o
@[inherit_doc JumpArm64] def JumpArm32 (c : List Nat) (o : Nat) : Prop := runArm32 (words c) (fun _ => .other) = some o

/-- Stub `adrp; ldr x17, [x16, #NUM]; add; br x17`. -/
def Arm64Entry (c : List Nat) : Prop :=
  WordAt c 0 0x9f000000 0x90000000 ∧ WordAt c 4 0xffc003ff 0xf9400211 ∧ WordAt c 8 0xff800000 0x91000000 ∧ WordAt c 12 0xffffffff 0xd61f0220

/-- Stub `add ip, pc, #NUM; add ip, ip, #NUM; ldr pc, [ip, #NUM]!`. -/
def Arm32Entry (c : List Nat) : Prop :=
  WordAt c 0 0xfffff000 0xe28fc000 ∧ WordAt c 4 0xfffff000 0xe28cc000 ∧ WordAt c 8 0xffff0000 0xe5bc0000

/-! ## Tables -/

/-- A table of `n` entries of the size, each an import or something left alone, has been rewritten: the imports, in order, have numbers from `first` on, each jumps through
its slot, and all other bytes are unchanged.  `links` is the next number. -/
def Rewritten (size n first : Nat) (imp other : List Nat → Prop) (jump : List Nat → Nat → Prop) (c c' : List Nat) (links : Nat) : Prop :=
  c'.length = c.length ∧ ∃ ps : List Nat, ps.length + first = links ∧ ps.Pairwise (· < ·) ∧ (∀ m ∈ ps, m < n) ∧
    (∀ m < n, if m ∈ ps then imp (c.drop (m * size)) else other (c.drop (m * size))) ∧
    (∀ j m, ps[j]? = some m → jump ((c'.drop (m * size)).take size) (first + j)) ∧
    ∀ x, (∀ m ∈ ps, ¬ (m * size ≤ x ∧ x < m * size + size)) → c'[x]? = c[x]?

end Fpm.Elfexe.Spec
