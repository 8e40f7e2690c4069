import Verif.Sd.DriveModel
import Verif.Sd.Spec
/-!
# What drive 1 is
-/
namespace Fpm.Sd.Spec

/-- No card: whatever is at the wires, it never sends the byte 1 (idle state).  In particular wires that are high or low
all the time. -/
def Vacant {σ : Type} (L : Line σ) : Prop := ∀ b x, (L.low b x).2 ≠ 1

/-- The slot is empty. -/
def Empty (s : Slot) : Prop := s.switch = some false ∨ Vacant s.line

/-- Arguments as the file system gives them. -/
def Fine : Call → Prop
  | .read _ count => 1 ≤ count
  | .write _ count data => 1 ≤ count ∧ count < 2 ^ 32 ∧ data.length = 512 * count ∧ Fpm.Crc.Spec.Bytes data
  | _ => True

/-- Bytes of the register CID: manufacturer, application (2), name (5), revision, serial number (4), and more. -/
def title (cid : List Nat) : List Nat := (cid.drop 1).take 2 ++ 32 :: (cid.drop 3).take 5 ++ [0]

/-- The answers of a drive with a card. -/
def answer (blocks : Nat) (cid : List Nat) (mem : Nat → List Nat) : Call → (Nat → List Nat) × Ret
  | .status => (mem, .media 0)
  | .initialize => (mem, .media 0)
  | .read sector count => (mem, if sector + count ≤ blocks then .ok (listed mem sector count) else .err 4)
  | .write sector count data =>
    if sector + count ≤ blocks then (fun n => if sector ≤ n ∧ n < sector + count then (data.drop (512 * (n - sector))).take 512 else mem n, .ok [])
    else (mem, .err 4)
  | .sectors => (mem, .ok [blocks])
  | .size => (mem, .ok [512])
  | .erase => (mem, .ok [1])
  | .sync => (mem, .ok [])
  | .other => (mem, .err 4)
  | .identify => (mem, .info (blocks * 512) (number ((cid.drop 9).take 4)) (title cid))

def answers (blocks : Nat) (cid : List Nat) : (Nat → List Nat) → List Call → (Nat → List Nat) × List Ret
  | mem, [] => (mem, [])
  | mem, c :: cs => ((answers blocks cid (answer blocks cid mem c).1 cs).1, (answer blocks cid mem c).2 :: (answers blocks cid (answer blocks cid mem c).1 cs).2)

/-- The answers of a drive without a card: not ready. -/
def nothing : Call → Ret
  | .status => .media 1
  | .initialize => .media 1
  | .size => .ok [512]
  | .erase => .ok [1]
  | .sync => .ok []
  | .other => .err 4
  | _ => .err 3

end Fpm.Sd.Spec
