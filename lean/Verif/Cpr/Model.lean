import Verif.Copy.Model

/-!
# `cp -r`: copying directories (kernel/cmd/cmd_copy.c)

The file system is taken as a tree of files and directories, as properties C80 - C94 show that the
functions of fatfs/fatfs.c keep it on the device.  Simplifications: paths begin at the root
directory of one drive, without `.`, `..`, `\` and names of drives; names that differ only in upper
and lower case are taken as equal beforehand; closing files succeeds (C61, C77 say what is lost
otherwise); times and attributes are left out; no other files are open.
-/

namespace Fpm.Cpr

/-- A name in a directory, `fname` of `file_info_t`, include/fpm/fs.h:101. -/
abbrev Name := List Nat

/-- A place in the tree: names from the object up to the root directory. -/
abbrev Path := List Name

/-- What is at a place: a file with its bytes, or a directory.  The entries of a directory have
positions, some of them free (fatfs/fatfs.c, `dir_alloc`, `dir_read`). -/
inductive Obj where
  | file (data : List Nat)
  | dir (slots : List (Option Name))
  deriving DecidableEq, Repr

/-- The tree: what is at a place. -/
abbrev FS := Path → Option Obj

/-- Names of a path string: they are separated by slashes, additional slashes do not count
(fatfs/fatfs.c, `follow_path`, `create_name`).  `acc` is the name collected so far. -/
def split (acc : Name) : List Nat → List Name
  | [] => if acc = [] then [] else [acc]
  | c :: s =>
    if c = 47 then (if acc = [] then split [] s else acc :: split [] s)
    else split (acc ++ [c]) s

/-- Where a path string leads. -/
def place (s : List Nat) : Path := (split [] s).reverse

/-- What the device, the user and the options decide: option `-f`; the answer to the question
whether to overwrite; whether an object can be made or opened for writing; the position of the entry
of a new object (if it is free); whether an object can be opened for reading; how many bytes can be
copied into a file (`none`: all); whether `f_readdir` fails at a position. -/
structure Env where
  force : Bool
  ans : Path → Bool
  makes : Path → Bool
  pos : Path → Nat
  opens : Path → Bool
  room : Path → Option Nat
  bad : Path → Nat → Bool

/-- Messages that a path could not be copied (the string is the path printed).  The lines of option
`-v` are left out. -/
inductive Msg where
  | error (path : List Nat)
  | kept
  | notDir (path : List Nat)
  | noRecursion (path : List Nat)
  | notDirectory (path : List Nat)
  deriving DecidableEq, Repr

/-- `FF_FS_LOCK`, fatfs/ffconf.h:159: number of files and directories that can be open at once. -/
def maxOpen : Nat := 16

/-- The entry of a new object goes to a free position, or behind the last one (fatfs/fatfs.c,
`dir_alloc`, `dir_register`). -/
def enter (l : List (Option Name)) (k : Nat) (n : Name) : List (Option Name) :=
  if l[k]? = some none then l.set k (some n) else l ++ [some n]

/-- A new object `o` with name `n` in directory `p`; `none` if there is no such directory. -/
def make (fs : FS) (k : Nat) (n : Name) (p : Path) (o : Obj) : Option FS :=
  match fs p with
  | some (.dir l) => some fun q =>
      if q = n :: p then some o else if q = p then some (.dir (enter l k n)) else fs q
  | _ => none

/-- `f_mkdir` as far as used here, fatfs/fatfs.c: there must be no such object, and a directory for
it. -/
def mkdir (e : Env) (fs : FS) : Path → Option FS
  | [] => none
  | n :: p =>
    if (fs (n :: p)).isSome then none
    else if e.makes (n :: p) = false then none
    else make fs (e.pos (n :: p)) n p (.dir [])

/-- `f_open` for writing with `FA_CREATE_ALWAYS`, fatfs/fatfs.c: a directory is refused, a file that
is open (`src`, open for reading) as well; `free` is the number of objects that can still be opened.
Result: the tree with the empty file. -/
def create (e : Env) (free : Nat) (src : Path) (fs : FS) : Path → Option FS
  | [] => none
  | n :: p =>
    if free = 0 ∨ e.makes (n :: p) = false then none
    else
      match fs (n :: p) with
      | some (.dir _) => none
      | some (.file _) =>
        if n :: p = src then none
        else some fun q => if q = n :: p then some (.file []) else fs q
      | none => make fs (e.pos (n :: p)) n p (.file [])

/-- `copy_file`, kernel/cmd/cmd_copy.c:22-93; the loop over blocks of 4096 bytes is that of C61,
here it copies all bytes or, with a message, some of the first.  Result: tree and messages. -/
def copyFile (e : Env) (free : Nat) (src dst : List Nat) (fs : FS) : FS × List Msg :=
  if e.force = false ∧ place dst ≠ [] ∧ (fs (place dst)).isSome ∧ e.ans (place dst) = false then
    (fs, [.kept])
  else
    match fs (place src) with
    | some (.file data) =>
      if free = 0 ∨ e.opens (place src) = false then (fs, [.error src])
      else
        match create e (free - 1) (place src) fs (place dst) with
        | none => (fs, [.error dst])
        | some fs1 =>
          match e.room (place dst) with
          | none => (fun q => if q = place dst then some (.file data) else fs1 q, [])
          | some k =>
            (fun q => if q = place dst then some (.file (data.take k)) else fs1 q, [.error dst])
    | _ => (fs, [.error src])

/-- Path of an entry: `from`, `to` of kernel/cmd/cmd_copy.c:98-110, 143-144.  (An empty path, for
which `from_last[-1]` lies before the array, does not get here: `f_stat` refuses it in `copy_object`;
`dest_len` is not 0 either, see there.) -/
def join (s : List Nat) (n : Name) : List Nat :=
  (if s.getLast? = some 47 then s else s ++ [47]) ++ n

/-- `f_readdir` at position `i` of the entries: the next name and the position behind it. -/
def next : List (Option Name) → Nat → Option (Name × Nat)
  | [], _ => none
  | none :: l, i => next l (i + 1)
  | some n :: l, i => some (n, i + 1)

/-- Loop over the entries of directory `src`, kernel/cmd/cmd_copy.c:135-152, from position `i`.  The
directory is read while files are made.  `rec` stands for the recursive call, `free` for the number
of objects that can still be opened.  `none`: more than `w` rounds. -/
def scan (e : Env) (rec : List Nat → List Nat → FS → Option (FS × List Msg)) (free : Nat)
    (src dst : List Nat) : Nat → Nat → FS → Option (FS × List Msg)
  | 0, _, _ => none
  | w + 1, i, fs =>
    match fs (place src) with
    | some (.dir l) =>
      if e.bad (place src) i then some (fs, [])
      else
        match next (l.drop i) i with
        | none => some (fs, [])
        | some (n, j) =>
          let r := match fs (n :: place src) with
            | some (.dir _) => rec (join src n) (join dst n) fs
            | _ => some (copyFile e free (join src n) (join dst n) fs)
          match r with
          | none => none
          | some (fs1, m1) =>
            match scan e rec free src dst w j fs1 with
            | none => none
            | some (fs2, m2) => some (fs2, m1 ++ m2)
    | _ => some (fs, [])

/-- First part of `copy_recursive`, kernel/cmd/cmd_copy.c:112-131: the destination must be a
directory, or is made.  Result: the tree, or the message. -/
def target (e : Env) (dst : List Nat) (fs : FS) : FS ⊕ Msg :=
  if place dst ≠ [] ∧ (fs (place dst)).isSome then
    match fs (place dst) with
    | some (.dir _) => .inl fs
    | _ => .inr (.notDir dst)
  else
    match mkdir e fs (place dst) with
    | none => .inr (.error dst)
    | some fs1 => .inl fs1

/-- `copy_recursive`, kernel/cmd/cmd_copy.c:98-153.  The first argument is the number of objects that
can still be opened: every level keeps its directory open (`f_opendir`, fatfs/fatfs.c). -/
def copyRec (e : Env) (w : Nat) : Nat → List Nat → List Nat → FS → Option (FS × List Msg)
  | 0, src, dst, fs =>
    match target e dst fs with
    | .inr m => some (fs, [m])
    | .inl fs1 => some (fs1, [.error src])
  | free + 1, src, dst, fs =>
    match target e dst fs with
    | .inr m => some (fs, [m])
    | .inl fs1 =>
      if e.opens (place src) = false then some (fs1, [.error src])
      else scan e (copyRec e w free) free src dst w 0 fs1

/-- `copy_object`, kernel/cmd/cmd_copy.c:158-179. -/
def copyObject (e : Env) (w : Nat) (recursive : Bool) (src dst : List Nat) (fs : FS) :
    Option (FS × List Msg) :=
  if place src = [] then some (fs, [.error src])
  else
    match fs (place src) with
    | none => some (fs, [.error src])
    | some (.dir _) =>
      if recursive then copyRec e w maxOpen src dst fs else some (fs, [.noRecursion src])
    | some (.file _) => some (copyFile e maxOpen src dst fs)

/-- One after another, loop of `copy_to_directory`, kernel/cmd/cmd_copy.c:221-237. -/
def copyAll (e : Env) (w : Nat) (recursive : Bool) :
    List (List Nat × List Nat) → FS → Option (FS × List Msg)
  | [], fs => some (fs, [])
  | (s, d) :: r, fs =>
    match copyObject e w recursive s d fs with
    | none => none
    | some (fs1, m1) =>
      match copyAll e w recursive r fs1 with
      | none => none
      | some (fs2, m2) => some (fs2, m1 ++ m2)

/-- There is a directory at this place (`AM_DIR` of `f_stat`). -/
def isDir (fs : FS) (p : Path) : Bool :=
  match fs p with
  | some (.dir _) => true
  | _ => false

/-- `fpm_cmd_copy` behind the options, kernel/cmd/cmd_copy.c:299-322.  `none`: undefined behaviour
(in `copy_to_directory`, C62) or more than `w` rounds of a loop. -/
def cp (e : Env) (w : Nat) (recursive : Bool) (sources : List (List Nat)) (dst : List Nat)
    (fs : FS) : Option (FS × List Msg) :=
  if place dst = [] ∨ isDir fs (place dst) then
    match Fpm.Copy.copyToDirectory dst sources with
    | none => none
    | some l => copyAll e w recursive l fs
  else
    match sources with
    | [s] => copyObject e w recursive s dst fs
    | _ => some (fs, [.notDirectory dst])

end Fpm.Cpr
