import Verif.Ls.Lemmas
import Verif.Tree.StatProps
/-!
# Properties C118, C119: what `ls` and `dir` list
-/
namespace Fpm.Ls
open Fpm.Dir Fpm.Dir.Spec Fpm.Ls.Spec

/-! ## C118: arguments -/

theorem names_spec {e : Env} : ∀ {args : List (List Nat)} {s s' : St} {l : List Item}, appendNames e args s = .ok (l, s') → l = args.filterMap (asked e) ∧ s' = { s with out := s.out ++ complaints e args }
  | [], s, s', l, h => by
    cases h
    exact ⟨rfl, by simp [complaints]⟩
  | a :: args, s, s', l, h => by
    unfold appendNames at h
    split at h
    · cases h
    rename_i x s1 h1
    split at h
    · cases h
    rename_i y s2 h2
    cases h
    obtain ⟨rfl, rfl⟩ := names_spec h2
    unfold appendName FR_INVALID_NAME FR_OK at h1
    by_cases c6 : (e.stat a).1 = 6
    · rw [if_pos c6] at h1
      split at h1
      · cases h1
      · cases h1
        have ha : asked e a = some ⟨a, 0, 0, 16, false⟩ := by unfold asked; rw [if_neg (by omega), if_pos c6]
        refine ⟨?_, ?_⟩
        · rw [List.filterMap_cons_some ha]; rfl
        · simp [complaints, c6]
    · rw [if_neg c6] at h1
      by_cases c0 : (e.stat a).1 = 0
      · rw [if_neg (by simp [c0])] at h1
        cases h1
        have ha : asked e a = some (e.stat a).2 := by unfold asked; rw [if_pos c0]
        refine ⟨?_, ?_⟩
        · rw [List.filterMap_cons_some ha]; rfl
        · simp [complaints, c0]
      · rw [if_pos (by simp [c0])] at h1
        cases h1
        have ha : asked e a = none := by unfold asked; rw [if_neg c0, if_neg c6]
        refine ⟨?_, ?_⟩
        · rw [List.filterMap_cons_none ha]; rfl
        · simp [complaints, c0, c6, message, crlf]

/-- Nothing is printed first for a single directory. -/
theorem files_dir {o : Opts} {x : Item} (h : IsDir x) : showFiles { o with toplevel := true } [x] = some [] := by
  have hx : Dir.hidden { o with toplevel := true } x = true := by
    unfold Dir.hidden
    rw [(isDir_iff x).mpr h]
    simp
  unfold showFiles
  rw [show sort { o with toplevel := true } [x] = some [x] from by unfold sort; simp]
  simp [tally, hx]

/-- The arguments: those given, or the current directory. -/
def given (args : List (List Nat)) : List (List Nat) := if args = [] then [[46]] else args

/-- **C118**: what is scanned and printed, for any file system.  First the messages about arguments that do not exist, then the files (C33 - C36), then the directories with their paths, and with option `-R` the directories below them; a single
directory has no line with its path.  `C118_full` is violated as the names of the directories are those that `f_stat` tells, not those given. -/
theorem C118_ls_partial (e : Env) (o : Opts) (rec : Bool) (depth : Nat) (args : List (List Nat)) (s' : St) (h : cmdDir e o rec depth args = .ok s') :
    let items := (given args).filterMap (asked e)
    ∃ t, showFiles { o with toplevel := true } items = some t ∧ (∀ q r, (q, r) ∈ s'.log ↔ (∃ x ∈ items, IsDir x ∧ Listed e rec x.name q) ∧ r = e.scan q) ∧
      ((∃ x below, items = [x] ∧ IsDir x ∧ s'.log = (x.name, e.scan x.name) :: below ∧
          s'.out = complaints e (given args) ++ content e o (x.name, e.scan x.name) ++ render e o (Visible o (e.scan x.name)) below ++ (if Visible o (e.scan x.name) || !below.isEmpty then [13, 10] else [])) ∨
       (∀ x, items = [x] → ¬ IsDir x) ∧
          s'.out = complaints e (given args) ++ t ++ render e o (items.any (shown { o with toplevel := true })) s'.log ++ (if items.any (shown { o with toplevel := true }) || !s'.log.isEmpty then [13, 10] else [])) := by
  intro items
  unfold cmdDir at h
  split at h
  · cases h
  rename_i l s h1
  obtain ⟨hl, rfl⟩ := names_spec h1
  clear h1
  change l = items at hl
  have hg : (if args = [] then [[46]] else args) = given args := rfl
  simp only [hg] at h
  split at h
  · rename_i h0
    cases h
    rw [← hl, h0.2]
    exact ⟨[], files_nil _, by simp, .inr ⟨fun x hx => (by cases hx), by simp [render]⟩⟩
  split at h
  · cases h
  rename_i l1 s1 h1
  obtain ⟨hp, hso, t, ht, rfl⟩ := showList_spec h1
  clear h1
  simp only [hl] at ht hp h hso
  simp only [hidden_eq, Bool.not_not, Bool.false_or, List.nil_append] at h
  split at h
  · cases h
  rename_i s2 h2
  have hmem : ∀ {q}, (∃ x ∈ l1, IsDir x ∧ Listed e rec (child [] x.name) q) ↔ ∃ x ∈ items, IsDir x ∧ Listed e rec x.name q := by
    intro q
    constructor
    · rintro ⟨x, hx, h1⟩; exact ⟨x, hp.mem_iff.mp hx, h1⟩
    · rintro ⟨x, hx, h1⟩; exact ⟨x, hp.mem_iff.mpr hx, h1⟩
  refine ⟨t, ht, ?_⟩
  by_cases hone : ∃ x, items = [x] ∧ IsDir x
  · obtain ⟨x, hx, hd⟩ := hone
    rw [hx] at hp ht h2 ⊢
    have h1 : l1 = [x] := List.perm_singleton.mp hp
    subst h1
    rw [files_dir hd] at ht
    cases ht
    have hsh : ([x].any fun y => shown { o with toplevel := true } y) = false := by
      simp [shown, show x.attrib / 16 % 2 = 1 from hd]
    unfold showDirs at h2
    rw [if_pos ((isDir_iff x).mpr hd), join_eq] at h2
    split at h2
    · cases h2
    rename_i s3 h3
    cases h2
    have hhead : ∀ s : St, s.any = false → s.top = true → header false (child [] x.name) s = s := fun s a b => by
      unfold header
      rw [if_neg (by simp [a]), if_neg (by simp [b])]
    rw [show decide (1 < [x].length) = false from rfl, hhead _ (by exact hsh) rfl] at h3
    obtain ⟨seen, a, -⟩ := dir_spec _ _ _ _ h3
    have hlog := a.log
    have hany := a.any
    have hout := a.out
    simp only [hsh, Bool.false_or, List.append_nil, List.nil_append] at hlog hany hout
    have hc : child [] x.name = x.name := rfl
    rw [hc] at hlog hany hout
    refine ⟨fun q r => ?_, .inl ⟨x, seen, rfl, hd, ?_, ?_⟩⟩
    · have hs : s'.log = s2.log := by cases h; split <;> rfl
      rw [hs, hlog]
      have := a.mem q r
      rw [hc] at this
      rw [this]
      simp [hd]
    · cases h
      split <;> exact hlog
    · cases h
      rw [← hany]
      split
      · rename_i hx; simp only; rw [hout]; rfl
      · rename_i hx; rw [hout]; simp [hx]
  · have hno : ∀ x, items = [x] → ¬ IsDir x := fun x hx hd => hone ⟨x, hx, hd⟩
    have key : ∃ seen, Shown e o (fun q => ∃ x ∈ l1, IsDir x ∧ Listed e rec (child [] x.name) q) ⟨true, items.any (shown { o with toplevel := true }), complaints e (given args) ++ t, []⟩ s2 seen := by
      by_cases hlen : 1 < l1.length
      · rw [show decide (1 < l1.length) = true from by simp [hlen]] at h2
        obtain ⟨seen, a, -⟩ := dirs_spec (fun p s s' => dir_spec depth p s s') true [] h2 (.inr (.inr rfl))
        exact ⟨seen, a⟩
      · match l1, hlen, hp, h2 with
        | [], _, _, h2 =>
          cases h2
          exact ⟨[], by simp, .inr ⟨rfl, rfl⟩, by simp, by simp [render], by simp⟩
        | [x], _, hp, h2 =>
          have hd := hno x (List.singleton_perm.mp hp).symm
          unfold showDirs at h2
          rw [if_neg (fun hx => hd ((isDir_iff x).mp hx))] at h2
          cases h2
          exact ⟨[], by simp, .inr ⟨rfl, rfl⟩, by simp, by simp [render], by simp [hd]⟩
        | _ :: _ :: _, h, _, _ => exact absurd (by simp) h
    obtain ⟨seen, a⟩ := key
    have hlog := a.log
    have hany := a.any
    have hout := a.out
    simp only [List.nil_append] at hlog hany hout
    have hs : s'.log = seen := by rw [← hlog]; cases h; split <;> rfl
    rw [hs]
    refine ⟨fun q r => ?_, .inr ⟨hno, ?_⟩⟩
    · rw [a.mem, hmem]
    · cases h
      rw [← hany]
      split
      · rename_i hx; simp only; rw [hout]; rfl
      · rename_i hx; rw [hout]; simp

/-- **C118**: a directory that is given is listed, if the name its entry has leads there. -/
theorem C118_shown_partial (e : Env) (o : Opts) (rec : Bool) (depth : Nat) (args : List (List Nat)) (s' : St) (h : cmdDir e o rec depth args = .ok s') (a : List Nat) (ha : a ∈ given args) (x : Item) (hx : asked e a = some x) (hd : IsDir x)
    (hsame : e.scan x.name = e.scan a) : (x.name, e.scan a) ∈ s'.log := by
  obtain ⟨t, -, hm, -⟩ := C118_ls_partial e o rec depth args s' h
  refine (hm _ _).mpr ⟨⟨x, List.mem_filterMap.mpr ⟨a, ha, hx⟩, hd, ?_⟩, hsame.symm⟩
  unfold Listed
  split
  · exact .self
  · rfl

/-- Full statement: for every tree of files, every directory that is given is listed. -/
def C118_full : Prop := ∀ fs : Files, Consistent fs → ∀ (o : Opts) (rec : Bool) (depth : Nat) (args : List (List Nat)) (s' : St), cmdDir (answers fs) o rec depth args = .ok s' → ∀ a ∈ args, ∀ l, fs (names [] a) = some l → ∃ q, (q, .ok l) ∈ s'.log

/-- A directory `A` with a directory `B`, which has a file `x`. -/
def lsFiles : Files := fun d =>
  if d = [] then some [⟨[65], 0, 0, 16, false⟩] else if d = [[65]] then some [⟨[66], 0, 0, 16, false⟩] else if d = [[65], [66]] then some [⟨[120], 5, 0, 32, false⟩] else none

theorem ls_consistent : Consistent lsFiles := by
  intro d n l h
  unfold lsFiles at h
  rw [if_neg (by simp)] at h
  split at h
  · rename_i hx
    obtain ⟨rfl, hx⟩ := List.append_inj' (show d ++ [n] = [] ++ [[65]] from hx) rfl
    cases hx
    exact ⟨_, rfl, _, List.mem_singleton.mpr rfl, rfl, rfl⟩
  · split at h
    · rename_i hx
      obtain ⟨rfl, hx⟩ := List.append_inj' (show d ++ [n] = [[65]] ++ [[66]] from hx) rfl
      cases hx
      exact ⟨_, rfl, _, List.mem_singleton.mpr rfl, rfl, rfl⟩
    · cases h

/-- `ls A/B` tries to list `B` of the current directory. -/
theorem C118_violated : ¬ C118_full := by
  intro hx
  have hrun : ((cmdDir (answers lsFiles) {} false 1 [[65, 47, 66]]).toOption.map fun s => (s.out, s.log.map (·.1), s.log.all fun p => match p.2 with | .ok _ => false | .error _ => true)) = some ([66, 58, 32, 63, 13, 10], [[66]], true) := by decide +kernel
  cases hc : cmdDir (answers lsFiles) {} false 1 [[65, 47, 66]] with
  | error x => rw [hc] at hrun; cases hrun
  | ok s =>
    rw [hc] at hrun
    simp only [Except.toOption, Option.map_some, Option.some.injEq, Prod.mk.injEq] at hrun
    obtain ⟨q, hq⟩ := hx lsFiles ls_consistent {} false 1 [[65, 47, 66]] s hc [65, 47, 66] (by simp) [⟨[120], 5, 0, 32, false⟩] (by decide)
    have := List.all_eq_true.mp hrun.2.2 _ hq
    cases this

/-- So it is on the device of the example in Verif/Tree/Example.lean: `f_stat` says for `A/b` that its name is `B`, and in the root directory there is no `B`. -/
example : (Tree.trStat [65, 47, 98, 0] Tree.trS).1 = 0 ∧ ((Tree.trStat [65, 47, 98, 0] Tree.trS).2.map (·.name)) = some [66] ∧ (Tree.trList [65, 47, 98, 0] Tree.trS).1 = 0 ∧ (Tree.trList [66, 0] Tree.trS).1 = 5 := by decide +kernel

/-! ### Undefined behaviour -/

theorem dirs_ok {sh : List Nat → St → Except Err St} (multi : Bool) (parent : List Nat) : ∀ {l : List Item} (s : St), (∀ x ∈ l, IsDir x → ∀ s, ∃ s', sh (child parent x.name) s = .ok s') → ∃ s', showDirs sh multi parent l s = .ok s'
  | [], s, _ => ⟨s, rfl⟩
  | x :: l, s, h => by
    unfold showDirs
    by_cases hd : x.has AM_DIR = true
    · rw [if_pos hd, join_eq]
      obtain ⟨s1, h1⟩ := h x (by simp) ((isDir_iff x).mp hd) (header multi (child parent x.name) s)
      rw [h1]
      exact dirs_ok multi parent s1 fun y hy => h y (by simp [hy])
    · rw [if_neg hd]
      exact dirs_ok multi parent s fun y hy => h y (by simp [hy])

theorem dir_ok {e : Env} {o : Opts} {rec : Bool} : ∀ {n : Nat} {p : List Nat}, Shallow e n p → Printable e o p → ∀ s, ∃ s', showDir e o rec n p s = .ok s'
  | 0, _, h, _, _ => h.elim
  | n + 1, p, h, hp, s => by
    have ht : ∃ t, showFiles { o with toplevel := false } (scanDir e p s).1 = some t := by
      unfold scanDir
      cases hc : e.scan p with
      | error r => exact ⟨[], files_nil _⟩
      | ok l => exact hp p l .self hc
    have hin : ∀ x ∈ (scanDir e p s).1, ∃ l, e.scan p = .ok l ∧ x ∈ l := by
      unfold scanDir
      cases hc : e.scan p with
      | error r => exact fun x hx => by cases hx
      | ok l => exact fun x hx => ⟨l, rfl, hx⟩
    obtain ⟨t, ht⟩ := ht
    obtain ⟨l, s1, h1⟩ := showList_ok (s := { (scanDir e p s).2 with top := false }) ht
    unfold showDir
    rw [h1]
    simp only
    split
    · refine dirs_ok _ p s1 fun x hx hd => ?_
      obtain ⟨l', e1, e2⟩ := hin x ((showList_spec h1).1.mem_iff.mp hx)
      exact dir_ok (h l' e1 x e2 hd) fun q l h1 h2 => hp q l (below_trans (.sub .self e1 e2 hd) h1) h2
    · exact ⟨s1, rfl⟩

theorem name_ok {e : Env} (a : List Nat) (s : St) : if (e.stat a).1 = 6 ∧ 256 ≤ a.length then appendName e a s = .error .ub else ∃ r, appendName e a s = .ok r := by
  unfold appendName FR_INVALID_NAME FR_OK
  by_cases h6 : (e.stat a).1 = 6
  · rw [if_pos h6]
    by_cases hl : a.length + 1 > 256
    · rw [if_pos ⟨h6, by omega⟩, if_pos hl]
    · rw [if_neg (fun h => hl (by omega)), if_neg hl]
      exact ⟨_, rfl⟩
  · rw [if_neg h6, if_neg (fun h => h6 h.1)]
    split <;> exact ⟨_, rfl⟩

theorem names_ok {e : Env} : ∀ (args : List (List Nat)) (s : St), (if ∃ a ∈ args, (e.stat a).1 = 6 ∧ 256 ≤ a.length then appendNames e args s = .error .ub else ∃ r, appendNames e args s = .ok r)
  | [], s => by simp [appendNames]
  | a :: args, s => by
    have h1 := name_ok (e := e) a s
    unfold appendNames
    split at h1
    · rename_i hx
      rw [if_pos ⟨a, by simp, hx⟩, h1]
    · rename_i hx
      obtain ⟨⟨x, s1⟩, h1⟩ := h1
      have ih := names_ok (e := e) args s1
      rw [h1]
      simp only
      split at ih
      · rename_i hy
        obtain ⟨b, hb, hy⟩ := hy
        rw [if_pos ⟨b, by simp [hb], hy⟩, ih]
      · rename_i hy
        obtain ⟨⟨y, s2⟩, ih⟩ := ih
        rw [if_neg, ih]
        · exact ⟨_, rfl⟩
        · rintro ⟨b, hb, h3⟩
          rcases List.mem_cons.mp hb with rfl | hb
          · exact hx h3
          · exact hy ⟨b, hb, h3⟩

/-- **C118**: the command ends, if directories are not nested too deep and listings are defined (C33 - C36); its behaviour is undefined exactly if an argument of more than 255 bytes is no valid name. -/
theorem C118_defined_partial (e : Env) (o : Opts) (rec : Bool) (depth : Nat) (args : List (List Nat)) (ht : ∃ t, showFiles { o with toplevel := true } ((given args).filterMap (asked e)) = some t)
    (hd : ∀ x ∈ (given args).filterMap (asked e), IsDir x → Shallow e depth x.name ∧ Printable e o x.name) :
    if ∃ a ∈ given args, (e.stat a).1 = 6 ∧ 256 ≤ a.length then cmdDir e o rec depth args = .error .ub else ∃ s, cmdDir e o rec depth args = .ok s := by
  have hn := names_ok (e := e) (given args) ⟨false, false, [], []⟩
  unfold cmdDir
  rw [show (if args = [] then [[46]] else args) = given args from rfl]
  split at hn
  · rename_i hx
    rw [if_pos hx, hn]
  · rename_i hx
    rw [if_neg hx]
    obtain ⟨⟨l, s⟩, hr⟩ := hn
    obtain ⟨rfl, rfl⟩ := names_spec hr
    rw [hr]
    simp only
    split
    · exact ⟨_, rfl⟩
    obtain ⟨t, ht⟩ := ht
    obtain ⟨l, s1, h1⟩ := showList_ok (s := ⟨true, false, [] ++ complaints e (given args), []⟩) ht
    rw [h1]
    simp only
    obtain ⟨s2, h2⟩ := dirs_ok (sh := showDir e o rec depth) (decide (1 < l.length)) [] (l := l) s1 fun x hx hdx => by
      obtain ⟨a, b⟩ := hd x ((showList_spec h1).1.mem_iff.mp hx) hdx
      exact dir_ok a b
    rw [h2]
    exact ⟨_, rfl⟩

/-- Full statement: no arguments lead to undefined behaviour. -/
def C118_safe_full : Prop := ∀ (e : Env) (o : Opts) (rec : Bool) (depth : Nat) (args : List (List Nat)), o.timesort = false → cmdDir e o rec depth args ≠ .error .ub

/-- 85 characters of 3 bytes each, and an asterisk. -/
def lsLong : List Nat := (List.replicate 85 [0xE4, 0xB8, 0x80]).flatten ++ [42]

/-- The file system of the example in Verif/Tree/Example.lean says that this is no valid name. -/
def lsEnv : Env where
  stat p := ((Tree.trStat (p ++ [0]) Tree.trS).1, ⟨[], 0, 0, 0, false⟩)
  scan _ := .error 6
  strerror _ := []

theorem overflow {e : Env} {o : Opts} {rec : Bool} {depth : Nat} {a : List Nat} (h1 : (e.stat a).1 = 6) (h2 : 256 ≤ a.length) : cmdDir e o rec depth [a] = .error .ub := by
  have hn := names_ok (e := e) [a] ⟨false, false, [], []⟩
  rw [if_pos ⟨a, by simp, h1, h2⟩] at hn
  unfold cmdDir
  rw [if_neg (by simp), hn]

/-- `list_append_name` copies the argument to a buffer that is too small. -/
theorem C118_safe_violated : ¬ C118_safe_full := fun h => h lsEnv {} false 1 [lsLong] rfl (overflow (by decide +kernel) (by decide +kernel))

/-! ## C119: directories below -/

/-- **C119**: `ls -R` scans exactly the directories below, each once, each with the path that leads there; a directory comes before those in it, and entries of a directory come in the order of their names.  It prints them with their paths.
`C119_full` is violated as hidden directories are among them. -/
theorem C119_walk_partial (e : Env) (o : Opts) (n : Nat) (p : List Nat) (s s' : St) (h : showDir e o true n p s = .ok s') :
    ∃ below, s'.log = s.log ++ (p, e.scan p) :: below ∧ (∀ q r, (q, r) ∈ (p, e.scan p) :: below ↔ Below e p q ∧ r = e.scan q) ∧ s'.out = s.out ++ content e o (p, e.scan p) ++ render e o (s.any || Visible o (e.scan p)) below ∧
      (p ≠ [] → Proper e p → (p :: below.map (·.1)).Pairwise (Before o)) := by
  obtain ⟨seen, a, b⟩ := dir_spec n p s s' h
  exact ⟨seen, a.log, fun q r => by rw [a.mem]; simp [Listed], a.out, b⟩

/-- Full statement: only directories that are not hidden, or all with option `-a`. -/
def C119_full : Prop := ∀ (e : Env) (o : Opts) (n : Nat) (p : List Nat) (s s' : St), s.log = [] → showDir e o true n p s = .ok s' → ∀ q, (∃ r, (q, r) ∈ s'.log) ↔ Open e o p q

/-- It holds with option `-a`, and if no directory is hidden. -/
theorem C119_open_partial (e : Env) (o : Opts) (n : Nat) (p : List Nat) (s s' : St) (h0 : s.log = []) (h : showDir e o true n p s = .ok s') (ha : o.showhidden = true ∨ ∀ q l x, Below e p q → e.scan q = .ok l → x ∈ l → IsDir x → x.attrib / 2 % 2 = 0) (q : List Nat) :
    (∃ r, (q, r) ∈ s'.log) ↔ Open e o p q := by
  obtain ⟨below, h1, h2, -⟩ := C119_walk_partial e o n p s s' h
  rw [h1, h0, List.nil_append]
  constructor
  · rintro ⟨r, hr⟩
    have hb := ((h2 q r).mp hr).1
    clear hr
    induction hb with
    | self => exact .self
    | @sub q l x hb h3 h4 h5 ih => exact .sub ih h3 h4 h5 (ha.imp id fun h => h q l x hb h3 h4 h5)
  · intro ho
    refine ⟨e.scan q, (h2 q _).mpr ⟨?_, rfl⟩⟩
    induction ho with
    | self => exact .self
    | sub _ h3 h4 h5 _ ih => exact .sub ih h3 h4 h5

/-- A directory `A` with a hidden directory `B`, which has a file `x`. -/
def lsHidden : Files := fun d =>
  if d = [] then some [⟨[65], 0, 0, 16, false⟩] else if d = [[65]] then some [⟨[66], 0, 0, 18, false⟩] else if d = [[65], [66]] then some [⟨[120], 5, 0, 32, false⟩] else none

theorem open_first {e : Env} {o : Opts} {p q : List Nat} (h : Open e o p q) : q = p ∨ ∃ l x, e.scan p = .ok l ∧ x ∈ l ∧ (o.showhidden = true ∨ x.attrib / 2 % 2 = 0) := by
  induction h with
  | self => exact .inl rfl
  | @sub q l x _ h3 h4 h5 h6 ih =>
    right
    rcases ih with rfl | ih
    · exact ⟨l, x, h3, h4, h6⟩
    · exact ih

theorem C119_violated : ¬ C119_full := by
  intro hx
  have hrun : ((showDir (answers lsHidden) {} true 9 [65] ⟨false, false, [], []⟩).toOption.map fun s => s.log.map (·.1)) = some [[65], [65, 47, 66]] := by decide +kernel
  cases hc : showDir (answers lsHidden) {} true 9 [65] ⟨false, false, [], []⟩ with
  | error x => rw [hc] at hrun; cases hrun
  | ok s =>
    rw [hc] at hrun
    simp only [Except.toOption, Option.map_some, Option.some.injEq] at hrun
    have hin : [65, 47, 66] ∈ s.log.map (·.1) := by rw [hrun]; decide
    obtain ⟨⟨q, r⟩, hq, e⟩ := List.mem_map.mp hin
    cases e
    have ho := (hx (answers lsHidden) {} 9 [65] _ s rfl hc _).mp ⟨r, hq⟩
    rcases open_first ho with h | ⟨l, x, h1, h2, h3⟩
    · cases h
    · have hl : (answers lsHidden).scan [65] = .ok [⟨[66], 0, 0, 18, false⟩] := rfl
      cases hl.symm.trans h1
      cases List.mem_singleton.mp h2
      revert h3
      decide

/-! ## The hypotheses hold -/

theorem ls_below {q : List Nat} (h : Below (answers lsFiles) [65] q) : q = [65] ∨ q = [65, 47, 66] := by
  induction h with
  | self => exact .inl rfl
  | @sub q l x _ h3 h4 h5 ih =>
    rcases ih with rfl | rfl
    · have hl : (answers lsFiles).scan [65] = .ok [⟨[66], 0, 0, 16, false⟩] := rfl
      cases hl.symm.trans h3
      cases List.mem_singleton.mp h4
      exact .inr rfl
    · have hl : (answers lsFiles).scan [65, 47, 66] = .ok [⟨[120], 5, 0, 32, false⟩] := rfl
      cases hl.symm.trans h3
      cases List.mem_singleton.mp h4
      exact absurd h5 (by decide)

/-- `ls A`: the run ends, `A` is a directory with the name given, and lists of entries are proper. -/
example : (∃ s, cmdDir (answers lsFiles) {} true 3 [[65]] = .ok s) ∧ asked (answers lsFiles) [65] = some ⟨[65], 0, 0, 16, false⟩ ∧ IsDir ⟨[65], 0, 0, 16, false⟩ ∧ Shallow (answers lsFiles) 3 [65] ∧ Printable (answers lsFiles) {} [65] ∧
    Proper (answers lsFiles) [65] ∧ (∃ s, showDir (answers lsFiles) {} true 3 [65] ⟨true, false, [], []⟩ = .ok s) := by
  have h1 : (answers lsFiles).scan [65] = .ok [⟨[66], 0, 0, 16, false⟩] := rfl
  have h2 : (answers lsFiles).scan [65, 47, 66] = .ok [⟨[120], 5, 0, 32, false⟩] := rfl
  have hs : Shallow (answers lsFiles) 3 [65] := by
    intro l hl x hx _
    cases h1.symm.trans hl
    cases List.mem_singleton.mp hx
    intro l hl x hx hd
    cases h2.symm.trans hl
    cases List.mem_singleton.mp hx
    exact absurd hd (by decide)
  have hp : Printable (answers lsFiles) {} [65] := by
    intro q l hb hl
    rcases ls_below hb with rfl | rfl
    · cases h1.symm.trans hl
      exact ⟨[66, 47, 13, 10], by decide +kernel⟩
    · cases h2.symm.trans hl
      exact ⟨[120, 13, 10], by decide +kernel⟩
  have hq : Proper (answers lsFiles) [65] := by
    intro q l hb hl
    rcases ls_below hb with rfl | rfl
    · cases h1.symm.trans hl
      decide
    · cases h2.symm.trans hl
      decide
  have ha : (given [[65]]).filterMap (asked (answers lsFiles)) = [⟨[65], 0, 0, 16, false⟩] := by decide +kernel
  have hr := C118_defined_partial (answers lsFiles) {} true 3 [[65]] (by rw [ha]; exact ⟨[], by decide +kernel⟩) (by
    rw [ha]
    intro x hx _
    cases List.mem_singleton.mp hx
    exact ⟨hs, hp⟩)
  rw [if_neg (by decide +kernel)] at hr
  exact ⟨hr, by decide +kernel, by decide, hs, hp, hq, dir_ok hs hp _⟩

/-- `ls -R A`: the listing of `A`, an empty line, the path `A/B`, its listing, an empty line. -/
example : (cmdDir (answers lsFiles) {} true 3 [[65]]).toOption.map (·.out) = some ([66, 47, 13, 10] ++ [13, 10] ++ [65, 47, 66, 58, 13, 10] ++ [120, 13, 10] ++ [13, 10]) := by decide +kernel

end Fpm.Ls
