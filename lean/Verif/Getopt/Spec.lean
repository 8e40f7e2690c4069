import Verif.Getopt.Model
/-!
# Specification of option parsing

An independent grammar of command lines: a command line is written as a list of items (plain
argument, cluster of short options, long option), each item has a spelling (`render`) and a
meaning (`events`).
-/
namespace Fpm.Getopt.Spec

/-- Does an option take an argument? -/
inductive Kind where
  | no | required | optional
deriving Repr, DecidableEq

/-- Declared short options: optional ordering character, optional colon, then the options. -/
structure ShortTable where
  order : Option Nat
  colon : Bool
  decls : List (Nat × Kind)

/-- Colons after an option character. -/
def Kind.colons : Kind → Str
  | .no => []
  | .required => [58]
  | .optional => [58, 58]

/-- Text of the declarations. -/
def declText : List (Nat × Kind) → Str
  | [] => []
  | (c, k) :: ds => c :: (k.colons ++ declText ds)

/-- The string passed as `shortopts`. -/
def ShortTable.text (t : ShortTable) : Str :=
  t.order.toList ++ (if t.colon then [58] else []) ++ declText t.decls

/-- Well-formed table: option characters are not NUL or `:`, and the first one is not taken for an
ordering character. -/
def ShortTable.Ok (t : ShortTable) : Prop :=
  (∀ d ∈ t.decls, d.1 ≠ 0 ∧ d.1 ≠ 58) ∧ (∀ o, t.order = some o → o = 45 ∨ o = 43) ∧
  (t.order = none → t.colon = false → ∀ d ds, t.decls = d :: ds → d.1 ≠ 45 ∧ d.1 ≠ 43)

/-- Declared kind of a short option (the first declaration counts). -/
def ShortTable.kind (t : ShortTable) (c : Nat) : Option Kind := (t.decls.find? (·.1 = c)).map (·.2)

/-- Kind of a long option. -/
def longKind (o : LongOpt) : Kind := if o.hasArg = 1 then .required else if o.hasArg = 2 then .optional else .no

/-- `t` denotes entry `i`: the first entry of exactly that name, or the only entry that has `t` as
a prefix. -/
def Denotes (table : List LongOpt) (t : Str) (i : Nat) : Prop :=
  ∃ o, table[i]? = some o ∧
    ((o.name = t ∧ ∀ j < i, ∀ o', table[j]? = some o' → o'.name ≠ t) ∨
     ((∀ o' ∈ table, o'.name ≠ t) ∧ t <+: o.name ∧ ∀ (j : Nat) o', table[j]? = some o' → t <+: o'.name → j = i))

/-- The end of a cluster of short options. -/
inductive Tail where
  | none
  | attached (c : Nat) (eq : Bool) (v : Str)   -- `-cVALUE` or `-c=VALUE`
  | next (c : Nat) (eq : Bool) (v : Str)       -- `-c VALUE` or `-c= VALUE`

/-- Value of a long option. -/
inductive LongVal where
  | bare                                       -- `--name`
  | eq (v : Str)                               -- `--name=VALUE`
  | next (eq : Bool) (v : Str)                 -- `--name VALUE` or `--name= VALUE`

/-- Items of a command line. -/
inductive Item where
  | plain (s : Str)
  | shorts (flags : List Nat) (tail : Tail)
  | long (i : Nat) (text : Str) (val : LongVal)

/-- An equals sign, or not. -/
def eqs (b : Bool) : Str := if b then [61] else []

/-- Spelling of the tail: rest of the argument, following arguments. -/
def Tail.spell : Tail → Str × List Str
  | .none => ([], [])
  | .attached c e v => (c :: (eqs e ++ v), [])
  | .next c e v => (c :: eqs e, [v])

/-- Spelling of an item. -/
def Item.render : Item → List Str
  | .plain s => [s]
  | .shorts fs t => (45 :: (fs ++ t.spell.1)) :: t.spell.2
  | .long _ t .bare => [45 :: 45 :: t]
  | .long _ t (.eq v) => [45 :: 45 :: (t ++ 61 :: v)]
  | .long _ t (.next e v) => [45 :: 45 :: (t ++ eqs e), v]

/-- What a call reports: returned value, argument, variable set. -/
structure Event where
  ret : Int
  arg : Option Str
  write : Option (Nat × Int)
deriving Repr, DecidableEq

/-- Nonempty text or nothing. -/
def nonEmpty (v : Str) : Option Str := if v = [] then none else some v

/-- Report for a long option. -/
def longEvent (o : LongOpt) (arg : Option Str) : Event :=
  match o.flag with
  | none => ⟨o.val, arg, none⟩
  | some v => ⟨0, arg, some (v, o.val)⟩

/-- Meaning of an item. -/
def Item.events (table : List LongOpt) : Item → List Event
  | .plain s => [⟨1, some s, none⟩]
  | .shorts fs t => fs.map (fun c => ⟨c, none, none⟩) ++
      (match t with
       | .none => []
       | .attached c _ v => [⟨c, nonEmpty v, none⟩]
       | .next c _ v => [⟨c, some v, none⟩])
  | .long i _ v =>
    match table[i]? with
    | none => []
    | some o => [longEvent o (match v with
      | .bare => none
      | .eq v => if longKind o = .no then none else nonEmpty v
      | .next _ v => some v)]

/-- Items made of declared options. `res t i` says that the text `t` of a long option denotes
entry `i`. -/
def Item.Ok (res : Str → Nat → Prop) (st : ShortTable) (table : List LongOpt) : Item → Prop
  | .plain s => s = [45] ∨ s.head? ≠ some 45
  | .shorts fs t =>
    (∀ c ∈ fs, st.kind c = some .no) ∧ (∀ c, (fs ++ t.spell.1).head? = some c → c ≠ 45) ∧ fs ++ t.spell.1 ≠ [] ∧
    (match t with
     | .none => True
     | .attached c e v => ((st.kind c = some .required ∧ v ≠ []) ∨ st.kind c = some .optional) ∧
         (e = false → v.head? ≠ some 61)
     | .next c _ _ => st.kind c = some .required)
  | .long i t v =>
    res t i ∧ 61 ∉ t ∧ ∃ o, table[i]? = some o ∧
    (match v with
     | .bare => t ≠ [] ∧ longKind o ≠ .required
     | .eq v => longKind o = .required → v ≠ []
     | .next e _ => (e = false → t ≠ []) ∧ longKind o = .required)

/-- End of the options: end of the command line, or `--` and anything. -/
def ending : Option (List Str) → List Str
  | none => []
  | some rest => [45, 45] :: rest

/-- `k` successive calls and what they report. -/
def calls (argv : List Str) (so : Option Str) (lo : Option (List LongOpt)) : Nat → St → Option (List Event × St)
  | 0, s => some ([], s)
  | k + 1, s =>
    match getopt argv so lo { s with writes := [] } with
    | none => none
    | some s' =>
      match calls argv so lo k s' with
      | none => none
      | some (es, s'') => some (⟨s'.ret, s'.arg, s'.writes.head?⟩ :: es, s'')

/-- The text denotes the entry and no two earlier entries share it as a prefix. -/
def DenotesClear (table : List LongOpt) (t : Str) (i : Nat) : Prop :=
  Denotes table t i ∧ ∀ j k o o', j < i → k < i → table[j]? = some o → table[k]? = some o' →
    t <+: o.name → t <+: o'.name → j = k

/-- The part of a long option before the equals sign. -/
def beforeEq (r : Str) : Str := r.takeWhile (· ≠ 61)

/-- Long options that the table knows. -/
def Known (lo : Option (List LongOpt)) (cur : Str) : Prop :=
  ∀ table r, lo = some table → cur = 45 :: 45 :: r → ∃ o ∈ table, beforeEq r <+: o.name

/-- Call until the end is reported, at most `k` times: `none` if a call reads outside its strings,
`some none` if `k` calls were not enough. -/
def loop (argv : List Str) (so : Option Str) (lo : Option (List LongOpt)) : Nat → St → Option (Option St)
  | 0, _ => some none
  | k + 1, s =>
    match getopt argv so lo s with
    | none => none
    | some s' => if s'.ret = -1 then some (some s') else loop argv so lo k s'

end Fpm.Getopt.Spec
