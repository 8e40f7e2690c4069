import Verif.Zmodem.Spec
/-!
# A receiver's part in a ZMODEM session
-/
namespace Fpm.Zmodem.Spec

/-- What a receiver does: send a header with type and four bytes, open, write and close a file. -/
inductive Act where
  | say (ty : Nat) (four : List Nat)
  | opens (name : List Nat)
  | writes (data : List Nat)
  | closes

/-- A call is an act; a header is sent in hexadecimal, with XON after it. -/
def Does : Act → Op → Prop
  | .say ty four, .send b => ∃ w, HexHdr (ty :: four) w ∧ b = w ++ [17]
  | .opens name, .open name' => name = name'
  | .writes d, .write d' => d = d'
  | .closes, .close => True
  | _, _ => False

/-- A subpacket with a good check and at most 2047 bytes. -/
def Good (in32 : Bool) (p : List Nat) (e : Nat) (w : List Nat) : Prop :=
  p.length < 2048 ∧ ∃ cs, Sub p e cs w ∧ Check in32 (p ++ [e]) cs

/-- A subpacket that arrives with a wrong check. -/
def Bad (in32 : Bool) (w : List Nat) : Prop :=
  ∃ p e cs, p.length < 2048 ∧ Sub p e cs w ∧ cs.length = checkLen in32 ∧ ¬ Check in32 (p ++ [e]) cs

/-- `Frame in32 pos w data acts`: when `pos` bytes have been received, the subpackets `w` of a data frame
carry `data` and make the receiver do `acts`: write each payload, acknowledge where this is asked for
with the number of bytes received, and ask for a repetition from there after an error. -/
inductive Frame (in32 : Bool) : Nat → List Nat → List Nat → List Act → Prop
  | endsH (pos : Nat) (p w : List Nat) : Good in32 p 104 w → Frame in32 pos w p [.writes p]
  | endsK (pos : Nat) (p w : List Nat) : Good in32 p 107 w → Frame in32 pos w p [.writes p, .say 3 (le4 (pos + p.length))]
  | bad (pos : Nat) (w : List Nat) : Bad in32 w → Frame in32 pos w [] [.say 9 (le4 pos)]
  | moreI (pos : Nat) (p w rest data : List Nat) (acts : List Act) : Good in32 p 105 w → Frame in32 (pos + p.length) rest data acts →
      Frame in32 pos (w ++ rest) (p ++ data) (.writes p :: acts)
  | moreJ (pos : Nat) (p w rest data : List Nat) (acts : List Act) : Good in32 p 106 w → Frame in32 (pos + p.length) rest data acts →
      Frame in32 pos (w ++ rest) (p ++ data) (.writes p :: .say 3 (le4 (pos + p.length)) :: acts)

/-- The data frames of a file, each with a header of type ZDATA. -/
inductive Frames : Nat → List Nat → List Nat → List Act → Prop
  | nil (pos : Nat) : Frames pos [] [] []
  | cons (in32 : Bool) (pos : Nat) (four hw w rest data data' : List Nat) (acts acts' : List Act) : Header in32 (10 :: four) hw → Frame in32 pos w data acts →
      Frames (pos + data.length) rest data' acts' → Frames pos (hw ++ w ++ rest) (data ++ data') (acts ++ acts')

/-- The header that tells what a receiver can do: ZRINIT with CANOVIO and CANFC32. -/
def ready : Act := .say 1 [0, 0, 0, 34]

/-- A file: header ZFILE, subpacket with the name and other information, answered with the position to
start at, data frames, header ZEOF. -/
def File (pos : Nat) (name w data : List Nat) (acts : List Act) : Prop :=
  ∃ (in32 in32' : Bool) (four four' info h1 s fr h2 : List Nat) (e : Nat) (a : List Act), (∀ b ∈ name, b ≠ 0) ∧ Header in32 (4 :: four) h1 ∧ Good in32 (name ++ 0 :: info) e s ∧
    Frames pos fr data a ∧ Header in32' (11 :: four') h2 ∧ w = h1 ++ s ++ fr ++ h2 ∧ acts = [.opens name, .say 9 (le4 pos)] ++ a ++ [ready]

/-- Several files; `next` gives the position a file starts at from the number of bytes received
before. -/
inductive Files (next : Nat → Nat) : Nat → List Nat → List Act → Prop
  | nil (pos : Nat) : Files next pos [] []
  | cons (pos : Nat) (name w rest data : List Nat) (acts acts' : List Act) : File (next pos) name w data acts → Files next (next pos + data.length) rest acts' →
      Files next pos (w ++ rest) (acts ++ acts')

/-- A session: ZRQINIT, files, ZFIN; what the receiver does, apart from closing files. -/
def Session (next : Nat → Nat) (w : List Nat) (acts : List Act) : Prop :=
  ∃ (in32 in32' : Bool) (four four' h1 fs h2 : List Nat) (a : List Act), Header in32 (0 :: four) h1 ∧ Files next 0 fs a ∧ Header in32' (8 :: four') h2 ∧
    w = h1 ++ fs ++ h2 ∧ acts = ready :: a ++ [.say 8 (le4 0)]

/-- A file system on which everything succeeds. -/
def Works (fs : Fs) : Prop := (∀ log, fs.openRes log = 0) ∧ ∀ log d, fs.writeRes (log ++ [.write d]) = (0, d.length)

/-- Number of bytes written. -/
def total : List Op → Nat
  | [] => 0
  | .write d :: log => d.length + total log
  | _ :: log => total log

/-- The data written. -/
def written : List Op → List (List Nat)
  | [] => []
  | .write d :: log => d :: written log
  | _ :: log => written log

/-- `ps` are payloads of good subpackets found one after the other in the input. -/
inductive Carries : List Nat → List (List Nat) → Prop
  | nil (w : List Nat) : Carries w []
  | sub (in32 : Bool) (pre p w rest : List Nat) (e : Nat) (ps : List (List Nat)) : GoodSub in32 p e w → Carries rest ps → Carries (pre ++ w ++ rest) (p :: ps)

/-- The answers a receiver may give after the calls `log`: ZRINIT, the final ZFIN, or ZACK, ZNAK or ZRPOS with
the number of bytes written so far. -/
def Answer (log : List Op) (b : List Nat) : Prop :=
  ∃ a, Does a (.send b) ∧ (a = ready ∨ a = .say 8 (le4 0) ∨ ∃ ty, (ty = 3 ∨ ty = 6 ∨ ty = 9) ∧ a = .say ty (le4 (total log)))

/-- Order of calls: a file is open when data are written; closing comes last and once; answers report
the number of bytes written. -/
structure Orderly (log : List Op) : Prop where
  write : ∀ pre d post, log = pre ++ .write d :: post → (∃ name, Op.open name ∈ pre) ∧ Op.close ∉ pre
  close : ∀ pre post, log = pre ++ .close :: post → (∃ name, Op.open name ∈ pre) ∧ post = [] ∧ Op.close ∉ pre
  send : ∀ pre b post, log = pre ++ .send b :: post → Answer pre b

end Fpm.Zmodem.Spec
