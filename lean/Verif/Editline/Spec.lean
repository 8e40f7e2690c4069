import Verif.Strlcpy.Spec
/-!
# Specification of the line editor: an abstract editor and an ideal terminal
-/
namespace Fpm.Editline.Spec

/-- Keys and what they do. -/
inductive Action where
  | newline | backspace | delete | left | right | home | «end» | erase | refresh | older | newer
deriving Repr, DecidableEq

/-- The key bindings of the user's manual: control keys, arrows. -/
def bindings : List (Nat × Action) :=
  [(13, .newline), (8, .backspace), (127, .backspace), (4, .delete), (0x2421, .delete),
   (2, .left), (0x2190, .left), (6, .right), (0x2192, .right), (1, .home), (0x21e4, .home),
   (5, .end), (0x21e5, .end), (21, .erase), (12, .refresh), (16, .older), (0x2191, .older), (14, .newer), (0x2193, .newer)]

/-- Binding of a key. -/
def binding (key : Nat) : Option Action := (bindings.find? (·.1 = key)).map (·.2)

/-- Abstract editor: text left and right of the cursor, the line of the history (if there is one),
the line kept aside, and whether the line of the history is being edited. -/
structure Abs where
  left : List Nat
  right : List Nat
  hist : Option (List Nat)
  kept : List Nat
  recalled : Bool

/-- The whole line. -/
def Abs.text (a : Abs) : List Nat := a.left ++ a.right

/-- Characters that fit a command line of `FPM_CMDLINE_SIZE` = 128 items. -/
def clip (s : List Nat) : List Nat := s.take 127

/-- One key of the abstract editor; a line of `cap` characters is full. -/
def Abs.step (cap key : Nat) (a : Abs) : Abs :=
  match binding key with
  | none => if key ≥ 32 ∧ a.text.length < cap then { a with left := a.left ++ [key] } else a
  | some .newline => { a with left := a.text, right := [] }
  | some .backspace => { a with left := a.left.dropLast }
  | some .delete => { a with right := a.right.drop 1 }
  | some .left => if a.left = [] then a else { a with left := a.left.dropLast, right := a.left.getLastD 0 :: a.right }
  | some .right => { a with left := a.left ++ a.right.take 1, right := a.right.drop 1 }
  | some .home => { a with left := [], right := a.text }
  | some .end => { a with left := a.text, right := [] }
  | some .erase => { a with left := [], right := [] }
  | some .refresh => a
  | some .older =>
    if a.recalled then a
    else match a.hist with
      | none => a
      | some h => { a with kept := clip a.text, left := clip h, right := [], recalled := true }
  | some .newer =>
    if a.recalled then { a with hist := a.hist.map fun _ => clip a.text, left := clip a.kept, right := [], recalled := false } else a

/-- Keys up to the first Return. -/
def Abs.run (cap : Nat) : List Nat → Abs → Abs × Bool
  | [], a => (a, false)
  | k :: ks, a => if k = 13 then (a.step cap k, true) else Abs.run cap ks (a.step cap k)

/-- The object `mem` holds the string `s` (followed by NUL and anything). -/
def Holds (mem s : List Nat) : Prop := ∃ junk, mem = s ++ 0 :: junk

/-! ## The ideal terminal

One line of unlimited width; every character from 32 on takes one cell. -/

/-- State of the escape sequence decoder. -/
inductive Parse where
  | ground | esc | csi
deriving Repr, DecidableEq

/-- Terminal: the cells of the current line, the cursor column. -/
structure Term where
  line : Nat → Nat
  col : Nat
  st : Parse

/-- Receive a character: BS, CR, LF (a new blank line), printing characters, and the sequences
`ESC [ @` (insert a blank), `ESC [ P` (delete a cell), `ESC [ K` (erase to the end); other `ESC [`
sequences, such as colours, do not change the text. -/
def Term.feed (t : Term) (c : Nat) : Term :=
  match t.st with
  | .ground =>
    if c = 27 then { t with st := .esc }
    else if c = 8 then { t with col := t.col - 1 }
    else if c = 13 then { t with col := 0 }
    else if c = 10 then { t with line := fun _ => 32 }
    else if c ≥ 32 then { t with line := fun i => if i = t.col then c else t.line i, col := t.col + 1 }
    else t
  | .esc => { t with st := if c = 91 then .csi else .ground }
  | .csi =>
    if c = 64 then { t with st := .ground, line := fun i => if i < t.col then t.line i else if i = t.col then 32 else t.line (i - 1) }
    else if c = 80 then { t with st := .ground, line := fun i => if i < t.col then t.line i else t.line (i + 1) }
    else if c = 75 then { t with st := .ground, line := fun i => if i < t.col then t.line i else 32 }
    else if c ≥ 64 then { t with st := .ground }
    else t

/-- Receive many characters. -/
def Term.feeds (t : Term) (cs : List Nat) : Term := cs.foldl Term.feed t

/-- Blank line, cursor at the left. -/
def Term.fresh : Term := ⟨fun _ => 32, 0, .ground⟩

/-- The line shows `s` and blanks, the cursor is in column `col`. -/
def Term.Shows (t : Term) (s : List Nat) (col : Nat) : Prop :=
  (∀ i, t.line i = s[i]?.getD 32) ∧ t.col = col ∧ t.st = .ground

/-- Printable text. -/
def Printable (s : List Nat) : Prop := ∀ c ∈ s, 32 ≤ c

/-- Prompts: text and colour sequences (`inl`: a character, `inr`: parameters of `ESC [ … m`). -/
def promptChars (p : List (Nat ⊕ List Nat)) : List Nat :=
  p.flatMap fun x => match x with | .inl c => [c] | .inr ps => 27 :: 91 :: (ps ++ [109])

/-- What is seen of a prompt. -/
def promptText (p : List (Nat ⊕ List Nat)) : List Nat :=
  p.flatMap fun x => match x with | .inl c => [c] | .inr _ => []

/-- Prompts made of printable characters and parameters (digits and semicolons). -/
def PromptOk (p : List (Nat ⊕ List Nat)) : Prop :=
  ∀ x ∈ p, match x with | .inl c => 32 ≤ c | .inr ps => ∀ q ∈ ps, q < 64

end Fpm.Editline.Spec
