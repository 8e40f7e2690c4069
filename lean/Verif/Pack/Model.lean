import Verif.Cpr.Model

/-!
# Filling the file system of an image (tools/uf2fat/format.cpp)

The file system is the tree of Cpr/Model.lean.  A walk of `fts_read` is a list of nodes: the library
is not modelled.
-/

namespace Fpm.Pack
open Fpm.Cpr

/-- Kind of a node, `fts_info`: `FTS_D`, `FTS_F` with the bytes of the file, or any other
(`FTS_DP`, symbolic links, devices, errors), tools/uf2fat/format.cpp:114-132. -/
inductive Kind where
  | dir
  | file (data : List Nat)
  | other
  deriving DecidableEq, Repr

/-- A node of the walk: `path` is `fts_path` behind the name of the directory, as list of names from
the object up. -/
structure Node where
  path : Path
  kind : Kind
  deriving DecidableEq, Repr

/-- Path in the file system: names that differ only in upper and lower case are the same there
(`fold`, fatfs/fatfs.c 1633 `cmp_lfn`). -/
def target (fold : Name → Name) (p : Path) : Path := p.map fold

/-- `add_directory`, tools/uf2fat/format.cpp:16-23; `none`: the program ends with an error. -/
def addDirectory (e : Env) (fs : FS) (p : Path) : Option FS := mkdir e fs p

/-- `add_file`, tools/uf2fat/format.cpp:28-72 (reading the file on the host succeeds). -/
def addFile (e : Env) (fs : FS) (p : Path) (data : List Nat) : Option FS :=
  match create e maxOpen [] fs p with
  | none => none
  | some fs1 =>
    match e.room p with
    | none => some fun q => if q = p then some (.file data) else fs1 q
    | some _ => none

/-- Loop of `add_contents`, tools/uf2fat/format.cpp:93-136 (the counts and what is printed are left out). -/
def addContents (e : Env) (fold : Name → Name) : List Node → FS → Option FS
  | [], fs => some fs
  | n :: l, fs =>
    if n.path = [] then addContents e fold l fs
    else
      match n.kind with
      | .other => addContents e fold l fs
      | .dir =>
        match addDirectory e fs (target fold n.path) with
        | none => none
        | some fs1 => addContents e fold l fs1
      | .file data =>
        match addFile e fs (target fold n.path) data with
        | none => none
        | some fs1 => addContents e fold l fs1

/-- The file system as `f_mkfs` leaves it (C79), tools/uf2fat/format.cpp:212-227: no objects. -/
def empty : FS := fun q => if q = [] then some (.dir []) else none

end Fpm.Pack
