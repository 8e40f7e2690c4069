import Verif.Shell.Lemmas
/-! # C120, C121, C122: typed lines, choice of the command, history -/
namespace Fpm.Shell
open Fpm.Spec (enc encs Chars overwrite NulFree)
open Fpm.Tok.Spec (lex words)
open Fpm.Shell.Spec

theorem encs_len (s : List Nat) : s.length ≤ (encs s).length := by
  induction s with
  | nil => simp
  | cons c s ih =>
    have := List.length_pos_iff.mpr (enc_ne c)
    rw [encs_cons]; simp; omega

/-- What an iteration of the main loop has to do with a line. -/
def LineOk (hist cmd s junk : List Nat) : Prop :=
  iteration hist cmd (s ++ 0 :: junk) =
    some (if meaning s = .blank then hist else overwrite hist (s ++ [0]),
      (said (meaning s)).toList.map Char.toNat, goesOn (meaning s))

/-- C120: every line that fits the line buffer is split into its words, which are handed to the
command in UTF-8; malformed lines are reported, blank ones ignored, all others remembered, and
`exit` leaves. -/
def C120_full : Prop :=
  ∀ hist cmd s junk : List Nat, Chars s → s.length ≤ 127 → hist.length = 128 → cmd.length = 384 → LineOk hist cmd s junk

/-- 42 words. -/
def manyWords : List Nat := (List.replicate 41 [97, 32]).flatten ++ [97]

/-- C120 is false of the code: the vector has room for 42 pointers including the final NULL, and a
line of 83 characters may have 42 words. -/
theorem C120_violated : ¬ C120_full := by
  intro h
  have h1 := h (List.replicate 128 0) (List.replicate 384 0) manyWords [] (by decide +kernel) (by decide +kernel)
    List.length_replicate List.length_replicate
  have h2 : iteration (List.replicate 128 0) (List.replicate 384 0) (manyWords ++ [0]) = none := by decide +kernel
  rw [LineOk, h2] at h1
  cases h1

/-- C120, the part that holds: lines that take at most 82 bytes in UTF-8.  Missing: longer lines
(with 42 or more words they overrun the vector). -/
theorem C120_line_partial (hist cmd s junk : List Nat) (hs : Chars s) (hl : (encs s).length ≤ 82) (hh : hist.length = 128)
    (hc : cmd.length = 384) : LineOk hist cmd s junk := by
  have hlen := encs_len s
  have hnf : NulFree s := fun c h => by have := hs c h; omega
  have h1 := C15_shell_line s cmd junk hs (by omega) hc
  have h2 : strlcpy hist (s ++ 0 :: junk) 128 = some (overwrite hist (s ++ [0]), s.length) := by
    rw [C13_strlcpy hist s junk 128 hnf (by omega), if_neg (by omega), List.take_of_length_le (by omega)]
  have e : overwrite cmd (encs s ++ [0]) = encs s ++ 0 :: cmd.drop ((encs s).length + 1) := by simp [overwrite]
  have hx : cmd.drop ((encs s).length + 1) ≠ [] := by
    intro h
    have := List.drop_eq_nil_iff.mp h
    omega
  have h3 := Tok.C18_inplace_refines_words 42 (encs s) _ (encs_nulFree hs) hx (by omega)
  rw [lex_encs s.length s (Nat.le_refl _) .plain, ← e] at h3
  unfold LineOk iteration
  rw [h1]
  simp only []
  cases hm : lex .plain s with
  | error er =>
    rw [hm] at h3
    simp only [Except.map] at h3
    rw [h3]
    simp only [h2, meaning, hm, goesOn]
    cases er <;> simp [said, message, crlf, txt]
  | ok us =>
    rw [hm] at h3
    simp only [Except.map] at h3
    obtain ⟨b, offs, h3, h4, _⟩ := h3
    rw [h3, words_encs] at *
    simp only [h4, meaning, hm]
    have hw := words_chars hs hm
    cases hws : words us with
    | nil => simp [ofWords, said, goesOn]
    | cons w ws =>
      rw [hws] at hw
      have hch : Chars exitName := by decide
      have hex : encs exitName = txt "exit" := by decide
      simp only [List.map_cons, h2, ofWords, reduceCtorEq, if_false]
      by_cases hwe : w = exitName
      · subst hwe
        rw [if_pos hex]
        cases ws with
        | nil => simp [said, goesOn]
        | cons v vs => simp [said, goesOn, crlf, txt]
      · rw [if_neg (fun h => hwe (encs_inj (hw w List.mem_cons_self).1 hch (h.trans hex.symm)))]
        simp [hwe, said, goesOn]

example : Chars (txt "cp 'a b' \\\"" ++ [0x20ac]) ∧ (encs (txt "cp 'a b' \\\"" ++ [0x20ac])).length ≤ 82 ∧
    meaning (txt "cp 'a b' \\\"" ++ [0x20ac]) = .command [txt "cp", txt "a b", [34, 0x20ac]] := by
  decide +kernel

/-- C120 for quoted words: a line made of arbitrary non-empty words, each written bare, in
apostrophes or in quotes, starts a command with exactly these words. -/
theorem C120_quoted (args : List (Tok.Spec.Style × List Nat)) (hne : ∀ a ∈ args, a.2 ≠ []) (h : args ≠ [])
    (he : (args.map (·.2)).head? ≠ some exitName) :
    meaning (Tok.Spec.quoteLine args) = .command (args.map (·.2)) := by
  obtain ⟨us, h1, h2⟩ := Tok.lex_quoteLine args hne
  rw [meaning, h1]
  simp only [Tok.words_eq, h2, ofWords]
  rw [if_neg (by simpa using h), if_neg (fun hx => he (by rw [hx]; rfl)), if_neg he]

example : ∃ args : List (Tok.Spec.Style × List Nat), (∀ a ∈ args, a.2 ≠ []) ∧ args ≠ [] ∧
    (args.map (·.2)).head? ≠ some exitName ∧ Tok.Spec.quoteLine args = txt "rm 'a b'" :=
  ⟨[(.bare, txt "rm"), (.single, txt "a b")], by decide⟩

/-! ## Choice of the command -/

theorem lower_idem_up (c : Nat) (h1 : 97 ≤ c) (h2 : c ≤ 122) : lower (c - 32) = c := by
  unfold lower; rw [if_pos (by omega)]; omega

/-- No upper-case letter in the name. -/
def NoUpper (n : List Nat) : Prop := ∀ c ∈ n, ¬ (65 ≤ c ∧ c ≤ 90)

instance (n : List Nat) : Decidable (NoUpper n) := by unfold NoUpper; infer_instance

theorem caseEq_iff (n w : List Nat) (hn : NoUpper n) : caseEq n w = true ↔ Spelling n w := by
  induction n generalizing w with
  | nil =>
    cases w with
    | nil => simp [caseEq, Spelling.nil]
    | cons d w => simp only [caseEq]; constructor <;> (intro h; cases h)
  | cons c n ih =>
    have hc := hn c List.mem_cons_self
    have hn' : NoUpper n := fun x hx => hn x (List.mem_cons_of_mem _ hx)
    cases w with
    | nil => simp only [caseEq]; constructor <;> (intro h; cases h)
    | cons d w =>
      simp only [caseEq, Bool.and_eq_true, beq_iff_eq, ih w hn']
      have lc : lower c = c := by unfold lower; rw [if_neg hc]
      rw [lc]
      constructor
      · rintro ⟨h1, h2⟩
        unfold lower at h1
        split at h1
        · have e : d = c - 32 := by omega
          rw [e]; exact .upper c (by omega) (by omega) h2
        · rw [← h1]; exact .same c h2
      · intro h
        cases h with
        | same _ h => exact ⟨lc.symm, h⟩
        | upper _ h1 h2 h => exact ⟨(lower_idem_up c h1 h2).symm, h⟩

theorem spelling_lower {n w : List Nat} (hn : NoUpper n) (h : Spelling n w) : w.map lower = n := by
  induction h with
  | nil => rfl
  | same c h ih =>
    have hc := hn c List.mem_cons_self
    rw [List.map_cons, ih (fun x hx => hn x (List.mem_cons_of_mem _ hx))]
    unfold lower; rw [if_neg hc]
  | upper c h1 h2 h ih =>
    rw [List.map_cons, ih (fun x hx => hn x (List.mem_cons_of_mem _ hx)), lower_idem_up c h1 h2]

theorem table_noUpper : ∀ e ∈ table, NoUpper e.1 := by decide +kernel

theorem findCmd_iff (w : List Nat) (c : Cmd) (t : List (List Nat × Cmd)) (ht : ∀ e ∈ t, NoUpper e.1)
    (hd : ∀ e ∈ t, ∀ e' ∈ t, e.1 = e'.1 → e = e') :
    findCmd w t = some c ↔ ∃ e ∈ t, e.2 = c ∧ Spelling e.1 w := by
  induction t with
  | nil => simp [findCmd]
  | cons e t ih =>
    obtain ⟨n, d⟩ := e
    have hn : NoUpper n := ht (n, d) List.mem_cons_self
    simp only [findCmd]
    by_cases h : caseEq n w = true
    · rw [if_pos h]
      have hs := (caseEq_iff n w hn).mp h
      constructor
      · intro hh
        cases hh
        exact ⟨(n, c), List.mem_cons_self, rfl, hs⟩
      · rintro ⟨e, he, hc, hsp⟩
        have : e.1 = n := by rw [← spelling_lower (ht e he) hsp, spelling_lower hn hs]
        have := hd e he (n, d) List.mem_cons_self this
        subst this
        exact congrArg some hc
    · rw [if_neg h, ih (fun e he => ht e (List.mem_cons_of_mem _ he))
        (fun e he e' he' => hd e (List.mem_cons_of_mem _ he) e' (List.mem_cons_of_mem _ he'))]
      constructor
      · rintro ⟨e, he, h2⟩; exact ⟨e, List.mem_cons_of_mem _ he, h2⟩
      · rintro ⟨e, he, h2⟩
        rcases List.mem_cons.mp he with rfl | he
        · exact absurd ((caseEq_iff n w hn).mpr h2.2) h
        · exact ⟨e, he, h2⟩

/-- The documented names, flattened. -/
def docPairs : List (List Nat × Cmd) := documented.flatMap fun e => e.1.map fun s => (s.toList.map Char.toNat, e.2)

theorem mem_docPairs (n : List Nat) (c : Cmd) : (n, c) ∈ docPairs ↔ Documented n c := by
  simp only [docPairs, List.mem_flatMap, List.mem_map, Prod.mk.injEq, Documented]
  constructor
  · rintro ⟨e, he, s, hs, rfl, rfl⟩; exact ⟨e, he, rfl, s, hs, rfl⟩
  · rintro ⟨e, he, rfl, s, hs, rfl⟩; exact ⟨e, he, s, hs, rfl, rfl⟩

theorem table_doc : (∀ e ∈ table, e ∈ docPairs) ∧ ∀ e ∈ docPairs, e ∈ table := by decide +kernel

theorem table_unique : ∀ e ∈ table, ∀ e' ∈ table, e.1 = e'.1 → e = e' := by decide +kernel

theorem table_noColon : ∀ e ∈ table, 58 ∉ e.1 := by decide +kernel

theorem spelling_last {n w : List Nat} (h : Spelling n w) (hn : 58 ∉ n) (hz : ∀ c ∈ n, c ≠ 90) : 58 ∉ w := by
  induction h with
  | nil => simp
  | same c h ih =>
    simp only [List.mem_cons, not_or] at hn ⊢
    exact ⟨hn.1, ih hn.2 (fun x hx => hz x (List.mem_cons_of_mem _ hx))⟩
  | upper c h1 h2 h ih =>
    simp only [List.mem_cons, not_or] at hn ⊢
    exact ⟨by omega, ih hn.2 (fun x hx => hz x (List.mem_cons_of_mem _ hx))⟩

theorem lookupPath_eq (exist : List Nat → Bool) (name : List Nat) :
    Exec.lookupPath exist name = some (program exist name) := by
  have e1 : txt ".exe" = [46, 101, 120, 101] := by decide
  have e2 : txt "flash:/bin/" = [102, 108, 97, 115, 104, 58, 47, 98, 105, 110, 47] := by decide
  rw [Exec.C40_path, program, e1, e2]
  congr 1
  by_cases h : 47 ∈ name ∨ 46 ∈ name
  · rw [if_pos h, if_pos h]
  · rw [if_neg h, if_neg h]
    simp only [List.find?]
    cases exist (name ++ [46, 101, 120, 101]) with
    | true => rfl
    | false => cases exist ([102, 108, 97, 115, 104, 58, 47, 98, 105, 110, 47] ++ name ++ [46, 101, 120, 101]) <;> rfl

/-- C121: what a command line with a non-empty first word starts.  A name that ends with a colon
changes the drive; a name that `help` lists, in any spelling in upper and lower case, calls that
command with all arguments, and nothing else does; any other name is looked up as a program. -/
theorem C121_choice (exist : List Nat → Bool) (name : List Nat) (args : List (List Nat)) (h : name ≠ []) :
    (name.getLast? = some 58 ∧ dispatch exist (name :: args) = some (.drive name)) ∨
    (name.getLast? ≠ some 58 ∧ (∃ n c, Documented n c ∧ Spelling n name ∧
      ∀ c', dispatch exist (name :: args) = some (.internal c' (name :: args)) ↔ c' = c)) ∨
    (name.getLast? ≠ some 58 ∧ (∀ n c, Documented n c → ¬ Spelling n name) ∧
      dispatch exist (name :: args) =
        some (match program exist name with
          | some path => .external path (name :: args)
          | none => .notFound name)) := by
  have hd := Exec.C40_drive name h
  by_cases hlast : name.getLast? = some 58
  · refine Or.inl ⟨hlast, ?_⟩
    simp [dispatch, hd, hlast]
  have hd' : Exec.isDrive name = some false := by rw [hd]; simp [hlast]
  cases hf : findCmd name table with
  | some c =>
    obtain ⟨e, he, rfl, hs⟩ := (findCmd_iff name c table table_noUpper table_unique).mp hf
    refine Or.inr (Or.inl ⟨hlast, e.1, e.2, (mem_docPairs _ _).mp (table_doc.1 e he), hs, fun c' => ?_⟩)
    simp only [dispatch, hd', hf, Option.some.injEq, Act.internal.injEq, and_true]
    exact eq_comm
  | none =>
    refine Or.inr (Or.inr ⟨hlast, ?_, ?_⟩)
    · intro n c hdoc hs
      have := (findCmd_iff name c table table_noUpper table_unique).mpr
        ⟨(n, c), table_doc.2 _ ((mem_docPairs n c).mpr hdoc), rfl, hs⟩
      rw [hf] at this; cases this
    · simp only [dispatch, hd', hf]
      rw [lookupPath_eq]
      cases program exist name <;> rfl

/-- C121, commands: every documented name in every spelling calls its command. -/
theorem C121_internal (exist : List Nat → Bool) (n w : List Nat) (c : Cmd) (args : List (List Nat)) (hd : Documented n c)
    (hs : Spelling n w) : dispatch exist (w :: args) = some (.internal c (w :: args)) := by
  have hm := table_doc.2 _ ((mem_docPairs n c).mpr hd)
  have hn0 : ∀ e ∈ table, e.1 ≠ [] := by decide +kernel
  have hw : w ≠ [] := by
    intro h
    subst h
    have := spelling_lower (table_noUpper _ hm) hs
    exact hn0 _ hm this.symm
  have hcol := spelling_last hs (table_noColon _ hm) (fun x hx h => table_noUpper _ hm x hx (by omega))
  have hlast : w.getLast? ≠ some 58 := fun h => hcol (List.mem_of_getLast? h)
  have hf := (findCmd_iff w c table table_noUpper table_unique).mpr ⟨(n, c), hm, rfl, hs⟩
  simp [dispatch, Exec.C40_drive w hw, hlast, hf]

example : Documented (txt "erase") .remove ∧ Spelling (txt "erase") (txt "ErAsE") :=
  ⟨⟨(["rm", "erase"], .remove), by decide, rfl, "erase", by decide, by decide⟩,
   (caseEq_iff (txt "erase") (txt "ErAsE") (by decide)).mp (by decide)⟩

/-- C121, all names that `help` lists: `exit` too is recognised in every spelling. -/
def C121_full : Prop :=
  ∀ hist cmd w junk : List Nat, Spelling exitName w → hist.length = 128 → cmd.length = 384 →
    (iteration hist cmd (w ++ 0 :: junk)).map (·.2.2) = some .quit

/-- C121 is false of the code: `exit` is compared with `strcmp`; `EXIT` is taken for a program. -/
theorem C121_violated : ¬ C121_full := by
  intro h
  have h1 := h (List.replicate 128 0) (List.replicate 384 0) (txt "EXIT") []
    ((caseEq_iff exitName (txt "EXIT") (by decide)).mp (by decide)) List.length_replicate List.length_replicate
  have h2 : (iteration (List.replicate 128 0) (List.replicate 384 0) (txt "EXIT" ++ [0])).map (·.2.2) =
      some (.run [txt "EXIT"]) := by decide +kernel
  rw [h2] at h1
  cases h1

/-- C121, the part about `exit` that holds: in lower case it leaves.  Missing: upper case. -/
theorem C121_exit_partial (hist cmd junk : List Nat) (hh : hist.length = 128) (hc : cmd.length = 384) :
    (iteration hist cmd (exitName ++ 0 :: junk)).map (·.2.2) = some .quit := by
  have := C120_line_partial hist cmd exitName junk (by decide) (by decide) hh hc
  rw [LineOk] at this
  rw [this, show meaning exitName = .leave by decide]
  rfl

example : (List.replicate 128 0).length = 128 ∧ (List.replicate 384 7).length = 384 :=
  ⟨List.length_replicate, List.length_replicate⟩

/-! ## Sessions -/

/-- The contents of the history after a list of lines. -/
def histAfter (hist : List Nat) (ss : List (List Nat)) : List Nat := ((lastLine (seen ss)).getD (textIn hist))

theorem takeWhile_line (s t : List Nat) (h : ∀ c ∈ s, c ≠ 0) : textIn (s ++ 0 :: t) = s := by
  unfold textIn
  induction s with
  | nil => simp
  | cons c s ih =>
    have := h c List.mem_cons_self
    rw [List.cons_append, List.takeWhile_cons_of_pos (by simpa using this), ih (fun x hx => h x (List.mem_cons_of_mem _ hx))]

theorem dispatch_some (exist : List Nat → Bool) (name : List Nat) (args : List (List Nat)) (h : name ≠ []) :
    ∃ a, dispatch exist (name :: args) = some a := by
  rcases C121_choice exist name args h with ⟨_, h⟩ | ⟨_, n, c, _, _, h⟩ | ⟨_, _, h⟩
  · exact ⟨_, h⟩
  · exact ⟨_, (h c).mpr rfl⟩
  · exact ⟨_, h⟩

theorem command_words {s : List Nat} (hs : Chars s) {ws} (h : meaning s = .command ws) :
    ∃ w vs, ws = w :: vs ∧ w ≠ [] := by
  unfold meaning at h
  split at h
  · cases h
  · rename_i us hl
    have hw := words_chars hs hl
    unfold ofWords at h
    split at h
    · cases h
    · rename_i hne
      split at h
      · cases h
      · split at h
        · cases h
        · cases h
          cases hws : words us with
          | nil => exact absurd hws hne
          | cons w vs => exact ⟨w, vs, rfl, (hw w (by rw [hws]; simp)).2⟩

/-- C122: a session of any number of lines.  Exactly the commands among the lines before the first
`exit` are started, in this order and once each; the shell returns if and only if there is such a
line; afterwards the history holds the last line that was not blank (or what it held before). -/
theorem C122_session (exist : List Nat → Bool) (hist : List Nat) (ls : List (List Nat × List Nat × List Nat))
    (hh : hist.length = 128) (hs : ∀ l ∈ ls, Chars l.1 ∧ (encs l.1).length ≤ 82 ∧ l.2.2.length = 384) :
    ∃ hist' acts, session exist hist (ls.map fun l => (l.2.2, l.1 ++ 0 :: l.2.1)) =
        some (hist', acts, decide (∃ l ∈ ls, meaning l.1 = .leave)) ∧
      acts.map some = ((seen (ls.map (·.1))).filterMap wordsOf).map (fun ws => dispatch exist (ws.map encs)) ∧
      textIn hist' = histAfter hist (ls.map (·.1)) ∧ hist'.length = 128 := by
  induction ls generalizing hist with
  | nil => exact ⟨hist, [], by simp [session], by simp [seen], by simp [histAfter, lastLine, seen], hh⟩
  | cons l ls ih =>
    obtain ⟨s, junk, cmd⟩ := l
    obtain ⟨h1, h2, h3⟩ := hs (s, junk, cmd) List.mem_cons_self
    have h2 : (encs s).length ≤ 82 := h2
    have hs' := fun l hl => hs l (List.mem_cons_of_mem _ hl)
    have hit := C120_line_partial hist cmd s junk h1 h2 hh h3
    unfold LineOk at hit
    have hlen := encs_len s
    have ho : (overwrite hist (s ++ [0])).length = 128 := by
      simp only [overwrite, List.length_append, List.length_drop, List.length_singleton]; omega
    have hot : textIn (overwrite hist (s ++ [0])) = s := by
      rw [overwrite, List.append_assoc]
      exact takeWhile_line s _ (fun c hc => by have := h1 c hc; omega)
    have last_cons : ∀ (a : List Nat) (t : List (List Nat)), meaning a ≠ .blank →
        lastLine (a :: t) = some ((lastLine t).getD a) := by
      intro a t ha
      simp [lastLine, ha, List.getLast?_cons]
    simp only [List.map_cons, session]
    cases hm : meaning s with
    | leave =>
      rw [hit]
      simp only [hm, goesOn, reduceCtorEq, if_false]
      refine ⟨_, [], rfl.trans ?_, ?_, ?_, ho⟩
      · simp [hm]
      · simp [seen, hm, wordsOf]
      · rw [hot]; simp [histAfter, seen, hm, lastLine]
    | blank =>
      rw [hit]
      simp only [hm, goesOn, if_true]
      obtain ⟨h', acts, e1, e2, e3, e4⟩ := ih hist hh hs'
      refine ⟨h', acts, by rw [e1]; simp [hm], ?_, ?_, e4⟩
      · rw [e2]; simp [seen, hm, wordsOf]
      · rw [e3]; simp [histAfter, seen, hm, lastLine]
    | bad e =>
      rw [hit]
      simp only [hm, goesOn, reduceCtorEq, if_false]
      obtain ⟨h', acts, e1, e2, e3, e4⟩ := ih _ ho hs'
      refine ⟨h', acts, by rw [e1]; simp [hm], ?_, ?_, e4⟩
      · rw [e2]; simp [seen, hm, wordsOf]
      · rw [e3]; simp [histAfter, seen, hm, last_cons s _ (by simp [hm]), hot]
    | misused =>
      rw [hit]
      simp only [hm, goesOn, reduceCtorEq, if_false]
      obtain ⟨h', acts, e1, e2, e3, e4⟩ := ih _ ho hs'
      refine ⟨h', acts, by rw [e1]; simp [hm], ?_, ?_, e4⟩
      · rw [e2]; simp [seen, hm, wordsOf]
      · rw [e3]; simp [histAfter, seen, hm, last_cons s _ (by simp [hm]), hot]
    | command ws =>
      rw [hit]
      simp only [hm, goesOn, reduceCtorEq, if_false]
      obtain ⟨w, vs, rfl, hw⟩ := command_words h1 hm
      have hwe : encs w ≠ [] := by
        cases w with
        | nil => exact absurd rfl hw
        | cons c t => rw [encs_cons]; simp [enc_ne c]
      obtain ⟨a, ha⟩ := dispatch_some exist (encs w) (vs.map encs) hwe
      obtain ⟨h', acts, e1, e2, e3, e4⟩ := ih _ ho hs'
      refine ⟨h', a :: acts, ?_, ?_, ?_, e4⟩
      · simp only [List.map_cons, ha, e1]; simp [hm]
      · simp only [List.map_cons, e2]; simp [seen, hm, wordsOf, ha]
      · rw [e3]; simp [histAfter, seen, hm, last_cons s _ (by simp [hm]), hot]

example : ∃ ls : List (List Nat × List Nat × List Nat), ls.length = 4 ∧
    (∀ l ∈ ls, Chars l.1 ∧ (encs l.1).length ≤ 82 ∧ l.2.2.length = 384) ∧
    ls.map (fun l => meaning l.1) = [.command [txt "ls", txt "-l"], .blank, .bad .quote, .leave] :=
  ⟨[(txt "ls -l", [], List.replicate 384 0), (txt "  ", [], List.replicate 384 0), (txt "cat \"a", [], List.replicate 384 0),
    (txt "exit", [], List.replicate 384 0)], by decide +kernel⟩

end Fpm.Shell
