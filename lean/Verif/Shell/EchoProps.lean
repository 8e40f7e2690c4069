import Verif.Shell.Props
/-! # C123: `echo` prints its arguments -/
namespace Fpm.Shell
open Fpm.Spec (enc encs Chars)
open Fpm.Shell.Spec
open Fpm.Getopt (getopt parseArg chr strchr same)

/-- The state is about to look at argument `k`: also the initial state for the first one. -/
def At (k : Nat) (s : Getopt.St) : Prop := (s.ind = k ∧ s.whr = 1 ∧ 0 < k) ∨ (s.ind = 0 ∧ k = 1)

theorem getopt_at (argv : List (List Nat)) (name : List Nat) (k : Nat) (s : Getopt.St) (h : At k s)
    (h0 : argv[0]? = some name) (hn : name ≠ [45, 45]) (hk : argv[k]? ≠ some [45, 45]) (hl : k ≤ argv.length) :
    getopt argv (some (txt "hn")) (some echoLong) s =
      parseArg argv (some (txt "hn")) (some echoLong) false { s with ind := k, whr := 1 } := by
  have hlen : argv.length ≠ 0 := by
    intro h; rw [List.length_eq_zero_iff.mp h] at h0; simp at h0
  have e1 : ((some (txt "hn")).map Getopt.skipOrder).map Getopt.skipColon = some (txt "hn") := by decide
  have e2 : Getopt.hasColon ((some (txt "hn")).map Getopt.skipOrder) = false := by decide
  unfold getopt
  rw [e1, e2]
  rcases h with ⟨h1, h2, h3⟩ | ⟨h1, h2⟩
  · rw [if_neg (by simp [hlen]; omega), if_neg (by rw [h1]; exact hk), if_neg (by omega)]
    congr 1
    cases s; simp_all
  · rw [if_neg (by simp [hlen]; omega), if_neg (by rw [h1, h0]; simpa using hn), if_pos h1, h2]

theorem getopt_plain (argv : List (List Nat)) (name w : List Nat) (k : Nat) (s : Getopt.St) (h : At k s)
    (h0 : argv[0]? = some name) (hn : name ≠ [45, 45]) (hw : argv[k]? = some w) (hp : Plain w) :
    ∃ s', getopt argv (some (txt "hn")) (some echoLong) s = some s' ∧ s'.ret = 1 ∧ s'.arg = some w ∧ At (k + 1) s' := by
  have hne : w ≠ [45, 45] := by
    rintro rfl
    rcases hp with h | h <;> simp at h
  have hk : k < argv.length := (List.getElem?_eq_some_iff.mp hw).1
  rw [getopt_at argv name k s h h0 hn (by rw [hw]; simpa using hne) (by omega)]
  unfold parseArg
  simp only [hw]
  have hcond : w.head? ≠ some 45 ∨ w.tail = [] := by
    rcases hp with h | h
    · right; rw [h]; rfl
    · left; exact h
  rw [if_pos ⟨trivial, hcond⟩]
  exact ⟨_, rfl, rfl, rfl, Or.inl ⟨rfl, rfl, by omega⟩⟩

theorem getopt_n (argv : List (List Nat)) (name : List Nat) (k : Nat) (s : Getopt.St) (h : At k s)
    (h0 : argv[0]? = some name) (hn : name ≠ [45, 45]) (hw : argv[k]? = some dashN) :
    ∃ s', getopt argv (some (txt "hn")) (some echoLong) s = some s' ∧ s'.ret = 110 ∧ At (k + 1) s' := by
  have hk : k < argv.length := (List.getElem?_eq_some_iff.mp hw).1
  rw [getopt_at argv name k s h h0 hn (by rw [hw]; decide) (by omega)]
  unfold parseArg
  simp only [hw]
  refine ⟨{ s with ind := k + 1, whr := 1, opt := 110, arg := none, ret := 110 }, ?_, rfl, Or.inl ⟨rfl, rfl, by omega⟩⟩
  rw [if_neg (by simp [dashN])]
  have e : txt "hn" = [104, 110] := by decide
  simp [dashN, same, Getopt.shortOpt, chr, strchr, e, Getopt.getArg, Getopt.finish]

theorem getopt_end (argv : List (List Nat)) (name : List Nat) (s : Getopt.St) (h : At argv.length s)
    (h0 : argv[0]? = some name) (hn : name ≠ [45, 45]) :
    ∃ s', getopt argv (some (txt "hn")) (some echoLong) s = some s' ∧ s'.ret = -1 := by
  have e : argv[argv.length]? = none := by simp
  rw [getopt_at argv name _ s h h0 hn (by rw [e]; simp) (Nat.le_refl _)]
  unfold parseArg
  simp only [e]
  exact ⟨_, rfl, rfl⟩

/-- What is printed for the words from some argument on, when `count` words have been printed. -/
def outFrom : Nat → List (List Nat) → List Nat
  | _, [] => []
  | count, w :: ws =>
    if w = dashN then outFrom count ws else (if count > 0 then [32] else []) ++ encs w ++ outFrom (count + 1) ws

theorem echoLoop_eq (name : List Nat) (hn : name ≠ [45, 45]) (ws : List (List Nat)) : ∀ (pre : List (List Nat)) (k : Nat)
    (s : Getopt.St) (nn : Bool) (count : Nat), At (pre.length + 1) s → ws.length < k →
    (∀ w ∈ ws, Chars w ∧ (Plain w ∨ w = dashN)) →
    echoLoop (name :: (pre ++ ws.map encs)) k s nn count =
      some (outFrom count ws ++ if nn = true ∨ dashN ∈ ws then [] else crlf) := by
  induction ws with
  | nil =>
    intro pre k s nn count hat hk _
    obtain ⟨k, rfl⟩ : ∃ j, k = j + 1 := ⟨k - 1, by simp at hk; omega⟩
    obtain ⟨s', h1, h2⟩ := getopt_end (name :: (pre ++ ([] : List (List Nat)).map encs)) name s (by simpa using hat) rfl hn
    simp only [echoLoop, h1, h2]
    cases nn <;> simp [outFrom]
  | cons w ws ih =>
    intro pre k s nn count hat hk hw
    obtain ⟨k, rfl⟩ : ∃ j, k = j + 1 := ⟨k - 1, by simp at hk; omega⟩
    have hk' : ws.length < k := by simp at hk; omega
    obtain ⟨hc, hpl⟩ := hw w List.mem_cons_self
    have hw' := fun v hv => hw v (List.mem_cons_of_mem _ hv)
    have hidx : (name :: (pre ++ (w :: ws).map encs))[pre.length + 1]? = some (encs w) := by simp
    have hsplit : name :: (pre ++ (w :: ws).map encs) = name :: ((pre ++ [encs w]) ++ ws.map encs) := by simp
    by_cases hd : w = dashN
    · have hen : encs w = dashN := by rw [hd]; decide
      obtain ⟨s', h1, h2, h3⟩ := getopt_n (name :: (pre ++ (w :: ws).map encs)) name _ s hat rfl hn (by rw [hidx, hen])
      simp only [echoLoop, h1, h2]
      rw [if_neg (by decide), if_neg (by decide), if_neg (by decide), if_pos trivial, hsplit,
        ih (pre ++ [encs w]) k s' true count (by simpa using h3) hk' hw', hd]
      simp [outFrom]
    · have hpl : Plain w := hpl.resolve_right hd
      have hp : Plain (encs w) := by
        rcases hpl with h | h
        · left; rw [h]; decide
        · right
          cases w with
          | nil => simp [encs_nil]
          | cons c t =>
            rw [encs_cons]
            by_cases h1 : c < 128
            · rw [enc_lo h1]; simpa using h
            · obtain ⟨b, bs, hb, _⟩ := enc_cons c
              have := enc_hi h1 b (by rw [hb]; simp)
              rw [hb]; simp; omega
      obtain ⟨s', h1, h2, h3, h4⟩ := getopt_plain _ name (encs w) _ s hat rfl hn hidx hp
      have hputs := (C12_puts_and_lengths w hc [] []).1
      simp only [echoLoop, h1, h2, h3, hputs]
      rw [if_neg (by decide), if_pos trivial, hsplit, ih (pre ++ [encs w]) k s' nn (count + 1) (by simpa using h4) hk' hw']
      have : dashN ≠ w := fun h => hd h.symm
      simp [outFrom, hd, this]

theorem outFrom_eq (ws : List (List Nat)) : ∀ count, outFrom count ws =
    (if count > 0 ∧ ws.filter (· ≠ dashN) ≠ [] then [32] else []) ++ encs (spaced (ws.filter (· ≠ dashN))) := by
  induction ws with
  | nil => intro count; simp [outFrom, spaced, encs_nil]
  | cons w ws ih =>
    intro count
    by_cases hd : w = dashN
    · simp only [outFrom, hd, if_true, ih count]
      simp
    · simp only [outFrom, hd, if_false, ih (count + 1)]
      rw [List.filter_cons_of_pos (by simpa using hd)]
      cases hf : ws.filter (· ≠ dashN) with
      | nil => simp [spaced, encs_nil]
      | cons v vs =>
        simp only [spaced, encs_append, encs_cons, enc_lo (show 32 < 128 by omega)]
        simp

theorem sum_ge (l : List (List Nat)) : l.length ≤ (l.map (·.length + 2)).sum := by
  induction l with
  | nil => simp
  | cons a l ih => simp; omega

/-- C123: `echo` prints its arguments, separated by single blanks, and a newline unless `-n` is
given; everything after `--` is printed as it is. -/
def C123_full : Prop :=
  ∀ (name : List Nat) (args : List (List Nat)) (rest : Option (List (List Nat))), name ≠ [45, 45] →
    (∀ w ∈ args, Chars w ∧ (Plain w ∨ w = dashN)) → (∀ ws, rest = some ws → ∀ w ∈ ws, Chars w) →
    cmdEcho (name :: (args ++ (match rest with | none => [] | some ws => [45, 45] :: ws)).map encs) =
      some (echoed args rest)

/-- C123 is false of the code: `echo -- x` prints the help text (an empty name is an abbreviation of
`--help`), and `echo a -- x` prints just `a`. -/
theorem C123_violated : ¬ C123_full := by
  intro h
  have h1 := h (txt "echo") [] (some [[120]]) (by decide) (by simp) (by
    intro ws h; cases h; decide)
  have h2 : cmdEcho (txt "echo" :: ([] ++ [[45, 45], [120]]).map encs) = some echoHelp := by decide +kernel
  have h3 : cmdEcho (txt "echo" :: ([] ++ [[45, 45], [120]]).map encs) = some (echoed [] (some [[120]])) := h1
  rw [h2] at h3
  revert h3
  decide +kernel

/-- The second part of the remark. -/
theorem C123_rest_lost : cmdEcho ((["echo", "a", "--", "x"]).map txt) = some (txt "a\r\n") := by decide +kernel

/-- C123, the part that holds: plain words and `-n` in any order and number, made of any 16-bit
characters.  Missing: `--`, and words with a hyphen that are no options (an unknown long option
makes the option parser read outside its strings, C25). -/
theorem C123_echo_partial (name : List Nat) (args : List (List Nat)) (hn : name ≠ [45, 45])
    (hw : ∀ w ∈ args, Chars w ∧ (Plain w ∨ w = dashN)) :
    cmdEcho (name :: args.map encs) = some (echoed args none) := by
  have h := echoLoop_eq name hn args [] (((name :: args.map encs).map (·.length + 2)).sum + 2) {} false 0
    (Or.inr ⟨rfl, rfl⟩) (by
      have := sum_ge (name :: args.map encs)
      simp only [List.length_cons, List.length_map] at this
      omega) hw
  rw [List.nil_append] at h
  rw [cmdEcho, h, outFrom_eq]
  simp [echoed, crlf]

example : (∀ w ∈ [txt "a", dashN, [45], [0x20ac, 32]], Chars w ∧ (Plain w ∨ w = dashN)) ∧
    echoed [txt "a", dashN, [45], [0x20ac, 32]] none = txt "a - " ++ [0xe2, 0x82, 0xac, 32] := by
  refine ⟨?_, by decide⟩
  intro w hw
  simp only [List.mem_cons, List.not_mem_nil, or_false] at hw
  rcases hw with rfl | rfl | rfl | rfl
  · exact ⟨by decide, Or.inl (Or.inr (by decide))⟩
  · exact ⟨by decide, Or.inr rfl⟩
  · exact ⟨by decide, Or.inl (Or.inl rfl)⟩
  · exact ⟨by decide, Or.inl (Or.inr (by decide))⟩

/-- C123 from the keyboard to the console: a typed line whose words are `echo` in any spelling and
plain words is run by the shell and prints these words. -/
theorem C123_typed_partial (exist : List Nat → Bool) (hist cmd s junk w : List Nat) (args : List (List Nat)) (hs : Chars s)
    (hl : (encs s).length ≤ 82) (hh : hist.length = 128) (hc : cmd.length = 384)
    (hm : meaning s = .command (w :: args)) (hsp : Spelling (txt "echo") w)
    (hw : ∀ v ∈ args, Plain v ∨ v = dashN) :
    ∃ hist' argv, iteration hist cmd (s ++ 0 :: junk) = some (hist', [], .run argv) ∧
      dispatch exist argv = some (.internal .echo argv) ∧ cmdEcho argv = some (echoed args none) := by
  have hit := C120_line_partial hist cmd s junk hs hl hh hc
  rw [LineOk, hm] at hit
  -- the words consist of characters of the line
  have hch : ∀ v ∈ w :: args, Chars v := by
    unfold meaning at hm
    split at hm
    · cases hm
    · rename_i us hlx
      have := words_chars hs hlx
      unfold ofWords at hm
      split at hm
      · cases hm
      · split at hm
        · cases hm
        · split at hm
          · cases hm
          · simp only [Line.command.injEq] at hm
            rw [hm] at this
            exact fun v hv => (this v hv).1
  have hup : NoUpper (txt "echo") := by decide
  have henc : encs w = w := by
    have hlow : ∀ c ∈ w, c < 128 := by
      have key : ∀ {n w : List Nat}, Spelling n w → (∀ c ∈ n, c < 128) → ∀ c ∈ w, c < 128 := by
        intro n w h
        induction h with
        | nil => simp
        | same c h ih =>
          intro hn d hd
          rcases List.mem_cons.mp hd with rfl | hd
          · exact hn d List.mem_cons_self
          · exact ih (fun x hx => hn x (List.mem_cons_of_mem _ hx)) d hd
        | upper c h1 h2 h ih =>
          intro hn d hd
          rcases List.mem_cons.mp hd with rfl | hd
          · omega
          · exact ih (fun x hx => hn x (List.mem_cons_of_mem _ hx)) d hd
      exact key hsp (by decide)
    have all : ∀ l : List Nat, (∀ c ∈ l, c < 128) → encs l = l := by
      intro l
      induction l with
      | nil => intro _; rfl
      | cons c l ih =>
        intro h
        rw [encs_cons, enc_lo (h c List.mem_cons_self), ih (fun x hx => h x (List.mem_cons_of_mem _ hx))]; rfl
    exact all w hlow
  have hne : w ≠ [45, 45] := by
    rintro rfl
    have := spelling_lower hup hsp
    revert this; decide
  refine ⟨_, _, hit, ?_, ?_⟩
  · rw [List.map_cons, henc]
    exact C121_internal exist (txt "echo") w .echo _ ⟨(["echo"], .echo), by decide, rfl, "echo", by decide, rfl⟩ hsp
  · rw [List.map_cons, henc]
    exact C123_echo_partial w args hne (fun v hv => ⟨hch v (List.mem_cons_of_mem _ hv), hw v hv⟩)

example : meaning (txt "Echo 'a  b' -n c") = .command [txt "Echo", txt "a  b", dashN, txt "c"] ∧
    echoed [txt "a  b", dashN, txt "c"] none = txt "a  b c" := by decide +kernel

end Fpm.Shell
