import Verif.Format.Model
import Verif.Format.Spec
import Verif.Drive.Props
import Verif.Editline.Props
import Verif.Shell.EchoProps
/-!
# C125: what it takes to format a drive
-/
namespace Fpm.Format
open Fpm.Drive Fpm.Drive.Spec Fpm.Format.Spec Fpm.Editline Fpm.Editline.Spec Fpm.Spec
open Fpm.Shell (txt crlf)

/-- What drives there are, what is known about them, and what comes of formatting them. -/
structure Drives where
  names : List (List Nat)
  curr : Nat
  identify : Nat → Option (List Nat × Nat)
  mkfs : Nat → Nat → Nat
  strerror : Nat → List Nat

/-- Proper names, a current drive, and less than 4 petabytes each. -/
structure Drives.Ok (d : Drives) : Prop where
  names : ∀ n ∈ d.names, ∀ c ∈ n, c ≠ 0 ∧ c ≠ 58
  curr : d.curr < d.names.length
  size : ∀ k p b, d.identify k = some (p, b) → b < 2 ^ 52

/-- As they are in memory. -/
def Drives.env (d : Drives) : Env := ⟨zeroed d.names, d.curr, d.identify, d.mkfs, d.strerror⟩

/-- The outcome `r` for a word and keys. -/
def Right (d : Drives) (w keys : List Nat) (r : Res) : Prop :=
  ((∀ k, ¬ Means d.names d.curr w k) → r = ⟨w ++ text ": Invalid drive name\r\n", [], [], true⟩) ∧
  ∀ k, Means d.names d.curr w k → ∃ n, d.names[k]? = some n ∧ (d.identify k = none → r = ⟨[], [], [], true⟩) ∧
    ∀ p b, d.identify k = some (p, b) → Told n p b r.before ∧ r.done = (typed keys).2 ∧
      (Yes keys → r.made = [(k, kinds k)] ∧ r.after = text "\r\n" ++ if d.mkfs k (kinds k) = 0 then text "Disk " ++ n ++ text " formatted.\r\n" else w ++ text ": " ++ d.strerror (d.mkfs k (kinds k)) ++ text "\r\n") ∧
      (¬ Yes keys → r.made = [] ∧ r.after = if (typed keys).2 then text "\r\nNot formatted.\r\n" else [])

/-- The claim for keys with property `P`: the user is asked about the drive that was named, and this drive, and no other, is formatted if the reply begins with `y` or `Y`, and not otherwise. -/
def C125_statement (P : List Nat → Prop) : Prop :=
  ∀ (d : Drives), d.Ok → ∀ (reply next keys w : List Nat), reply.length = 32 → next.length = 128 → P keys → 0 ∉ w → ∃ r, formatDrive d.env reply next keys w = some r ∧ Right d w keys r

theorem split_unique : ∀ {u u' r r' : List Nat}, Plain u → Plain u' → u ++ 58 :: r = u' ++ 58 :: r' → u = u' ∧ r = r'
  | [], [], _, _, _, _, h => ⟨rfl, (List.cons.inj h).2⟩
  | [], c :: u', _, _, _, h2, h => absurd (List.cons.inj h).1.symm (h2 c (by simp)).2
  | c :: u, [], _, _, h1, _, h => absurd (List.cons.inj h).1 (h1 c (by simp)).2
  | c :: u, c' :: u', _, _, h1, h2, h => by
    rw [List.cons_append, List.cons_append] at h
    injection h with e h
    subst e
    obtain ⟨rfl, h'⟩ := split_unique (u := u) (u' := u') (fun x hx => h1 x (by simp [hx])) (fun x hx => h2 x (by simp [hx])) h
    exact ⟨rfl, h'⟩

theorem unit_spec {d : Drives} (hd : d.Ok) {w : List Nat} (h0 : 0 ∉ w) :
    ((∀ k, ¬ Means d.names d.curr w k) ∧ findDriveUnit d.env w = some none) ∨
    ∃ k n, d.names[k]? = some n ∧ (∀ j, Means d.names d.curr w j ↔ j = k) ∧ findDriveUnit d.env w = some (some k) ∧ getLdnumber d.env.names d.env.curr (w ++ [0]) = some (some k, [0]) := by
  unfold findDriveUnit
  by_cases hc : ∃ u rest, Plain u ∧ w = u ++ 58 :: rest
  · obtain ⟨u, rest, hu, rfl⟩ := hc
    have means : ∀ k, Means d.names d.curr (u ++ 58 :: rest) k ↔ rest = [] ∧ Names d.names u k := by
      intro k
      refine ⟨fun h => ?_, fun ⟨h1, h2⟩ => .inl ⟨u, by rw [h1], hu, h2⟩⟩
      rcases h with ⟨u', h1, h2, h3⟩ | ⟨h1, -⟩
      · obtain ⟨rfl, rfl⟩ := split_unique hu h2 h1
        exact ⟨rfl, h3⟩
      · simp at h1
    rw [List.append_assoc, List.cons_append]
    rcases C99_prefix d.names hd.names d.curr u hu (rest ++ [0]) with ⟨k, h1, h2, h3⟩ | ⟨h1, h2⟩
    · rw [show getLdnumber d.env.names d.env.curr (u ++ 58 :: (rest ++ [0])) = some (some k, rest ++ [0]) from h3]
      cases rest with
      | nil =>
        refine .inr ⟨k, d.names[k], List.getElem?_eq_getElem h1, fun j => ?_, rfl, rfl⟩
        rw [means j]
        refine ⟨fun ⟨_, h⟩ => ?_, fun h => ⟨rfl, h ▸ h2⟩⟩
        have h5 := (C99_prefix d.names hd.names d.curr u hu [0])
        rcases h with ⟨e1, e2, e3⟩ | ⟨e1, n, e2, e3, e4⟩
        · rcases h2 with ⟨f1, -, -⟩ | ⟨f1, -⟩
          · rw [e1] at f1
            have := List.cons.inj f1
            omega
          · exact absurd ⟨j, e2, e1⟩ f1
        · rcases h2 with ⟨f1, f2, -⟩ | ⟨f1, m, f2, f3, f4⟩
          · exact absurd ⟨k, f2, f1⟩ e1
          · rcases Nat.lt_trichotomy j k with hjk | hjk | hjk
            · exact absurd e3 (f4 j hjk n e2)
            · exact hjk
            · exact absurd f3 (e4 k hjk m f2)
      | cons c rest =>
        refine .inl ⟨(fun j hj => by rw [means j] at hj; cases hj.1), ?_⟩
        have : c ≠ 0 := by rintro rfl; exact h0 (by simp)
        simp [this]
    · rw [show getLdnumber d.env.names d.env.curr (u ++ 58 :: (rest ++ [0])) = some (none, u ++ 58 :: (rest ++ [0])) from h2]
      exact .inl ⟨fun j hj => h1 j ((means j).mp hj).2, rfl⟩
  · obtain ⟨u, b, rest, e, hu, hb⟩ := split_path (path := w ++ [0]) ⟨0, by simp, by decide⟩
    rcases hb with hb | rfl
    rotate_left
    · exfalso
      rcases List.eq_nil_or_concat rest with rfl | ⟨r, x, rfl⟩
      · have := List.append_inj_right' e rfl
        simp at this
      · rw [List.concat_eq_append, ← List.cons_append, ← List.append_assoc] at e
        exact hc ⟨u, r, hu, List.append_inj_left' e rfl⟩
    have h3 := C99_current d.env.names d.curr u hu b hb rest
    rw [← e] at h3
    rw [show getLdnumber d.env.names d.env.curr (w ++ [0]) = some (some d.curr, w ++ [0]) from h3]
    cases w with
    | nil =>
      refine .inr ⟨d.curr, d.names[d.curr]'hd.curr, List.getElem?_eq_getElem hd.curr, fun j => ⟨fun h => ?_, fun h => .inr ⟨rfl, h⟩⟩, rfl, rfl⟩
      rcases h with ⟨u', h1, -⟩ | ⟨-, h⟩
      · simp at h1
      · exact h
    | cons c w =>
      have : c ≠ 0 := by rintro rfl; exact h0 (by simp)
      refine .inl ⟨fun j hj => ?_, by simp [this]⟩
      rcases hj with ⟨u', h1, h2, -⟩ | ⟨h1, -⟩
      · exact hc ⟨u', [], h2, h1⟩
      · cases h1

theorem prompt_chars (s : List Nat) : promptChars (s.map .inl) = s := by
  induction s with
  | nil => rfl
  | cons c s ih =>
    unfold promptChars at ih ⊢
    rw [List.map_cons, List.flatMap_cons, ih]
    rfl

theorem zeroed_name {names : List (List Nat)} (hn : ∀ n ∈ names, ∀ c ∈ n, c ≠ 0 ∧ c ≠ 58) {k : Nat} {n : List Nat} (h : names[k]? = some n) : ((zeroed names).getD k []).takeWhile (· ≠ 0) = n := by
  have h1 : (zeroed names)[k]? = some (n ++ [0]) := by simp [zeroed, h]
  rw [List.getD_eq_getElem?_getD, h1, Option.getD_some, List.takeWhile_append_of_pos]
  · simp
  · intro c hc
    have := (hn n (List.mem_of_getElem? h) c hc).1
    simpa using this

theorem told {n p : List Nat} {b k : Nat} {v : Env} (h : (v.names.getD k []).takeWhile (· ≠ 0) = n) (hb : b < 2 ^ 52) : Told n p b (question v k p b) := by
  have e0 : 10 * b / 1048576 / 10 = b / 1048576 := by omega
  have e3 : 10 * (b / 1048576) + 10 * b / 1048576 % 10 = 10 * b / 1048576 := by omega
  refine ⟨b / 1048576, 10 * b / 1048576 % 10, ⟨by omega, ?_, ?_⟩, ?_⟩
  · rw [e3]; omega
  · rw [e3]; omega
  unfold question
  rw [h]
  have e1 : b / 1024 / 1024 % 2 ^ 32 = b / 1048576 := by
    rw [Nat.div_div_eq_div_mul]
    omega
  have e2 : b * 10 % 2 ^ 64 / 1024 / 1024 % 10 % 2 ^ 32 = 10 * b / 1048576 % 10 := by
    rw [Nat.div_div_eq_div_mul, Nat.mod_eq_of_lt (show b * 10 < 2 ^ 64 by omega), Nat.mul_comm, show 1024 * 1024 = 1048576 from rfl]
    omega
  rw [e1, e2]
  simp only [List.append_assoc]
  congr 1

theorem fmt_kinds : ∀ k, diskFmt k = kinds k
  | 0 => rfl
  | 1 => rfl
  | _ + 2 => rfl

/-- It holds as long as no more than 31 characters are typed. -/
theorem C125_drive_partial : C125_statement Short := by
  intro d hd reply next keys w hr hn hk h0
  unfold formatDrive
  rcases unit_spec hd h0 with ⟨h1, h2⟩ | ⟨k, n, hkn, h1, h2, h3⟩
  · rw [h2]
    exact ⟨_, rfl, fun _ => rfl, fun k hk => absurd hk (h1 k)⟩
  rw [h2]
  have only : ∀ r, (∃ n, d.names[k]? = some n ∧ (d.identify k = none → r = ⟨[], [], [], true⟩) ∧
    ∀ p b, d.identify k = some (p, b) → Told n p b r.before ∧ r.done = (typed keys).2 ∧
      (Yes keys → r.made = [(k, kinds k)] ∧ r.after = text "\r\n" ++ if d.mkfs k (kinds k) = 0 then text "Disk " ++ n ++ text " formatted.\r\n" else w ++ text ": " ++ d.strerror (d.mkfs k (kinds k)) ++ text "\r\n") ∧
      (¬ Yes keys → r.made = [] ∧ r.after = if (typed keys).2 then text "\r\nNot formatted.\r\n" else [])) → Right d w keys r :=
    fun r h => ⟨fun hx => absurd ((h1 k).mpr rfl) (hx k), fun j hj => by rw [(h1 j).mp hj]; exact h⟩
  show ∃ r, (match d.identify k with | none => some ⟨[], [], [], true⟩ | some (product, bytes) => ask d.env w k reply next keys (question d.env k product bytes)) = some r ∧ _
  cases hid : d.identify k with
  | none => exact ⟨_, rfl, only _ ⟨n, hkn, fun _ => rfl, fun p b h => by rw [hid] at h; cases h⟩⟩
  | some pb =>
    obtain ⟨p, b⟩ := pb
    have hnm := zeroed_name hd.names hkn
    have htold : Told n p b (question d.env k p b) := told hnm (hd.size k p b hid)
    have key : ∃ r, ask d.env w k reply next keys (question d.env k p b) = some r ∧ r.before = question d.env k p b ∧ r.done = (typed keys).2 ∧
      (Yes keys → r.made = [(k, kinds k)] ∧ r.after = text "\r\n" ++ if d.mkfs k (kinds k) = 0 then text "Disk " ++ n ++ text " formatted.\r\n" else w ++ text ": " ++ d.strerror (d.mkfs k (kinds k)) ++ text "\r\n") ∧
      (¬ Yes keys → r.made = [] ∧ r.after = if (typed keys).2 then text "\r\nNot formatted.\r\n" else []) := by
      generalize question d.env k p b = q
      obtain ⟨e, e1, e2, -⟩ := editline_ok (buf := reply) (bl := 64) (clear := true) (prev := none) (next := next) (s := []) (h := none)
        ⟨⟨by decide, by decide, by rintro rfl; cases hr⟩, rfl, .inl ⟨rfl, rfl⟩, hn⟩ ((txt "Confirm? y/n [n] ").map .inl) keys (fun m => by have := hk m; rw [hr]; exact Nat.lt_succ_of_le this)
      rw [prompt_chars] at e1
      obtain ⟨junk, hb⟩ := e2.buf
      unfold ask
      rw [e1]
      have hty : typed keys = ((Abs.run (64 - 1) keys (start [] none)).1.text, (Abs.run (64 - 1) keys (start [] none)).2) := rfl
      unfold Yes
      rw [hty]
      generalize (Abs.run (64 - 1) keys (start [] none)).1.text = t at hb
      generalize (Abs.run (64 - 1) keys (start [] none)).2 = fin
      cases fin with
      | false => exact ⟨_, rfl, rfl, rfl, (fun ⟨t, h⟩ => by rcases h with h | h <;> cases h), fun _ => ⟨rfl, rfl⟩⟩
      | true =>
        simp only [hb]
        cases t with
        | nil => exact ⟨_, rfl, rfl, rfl, (fun ⟨t, h⟩ => by rcases h with h | h <;> cases h), fun _ => ⟨rfl, rfl⟩⟩
        | cons c t =>
          simp only [List.cons_append]
          by_cases hc : c ≠ 121 ∧ c ≠ 89
          · rw [if_pos hc]
            refine ⟨_, rfl, rfl, rfl, fun ⟨t, h⟩ => ?_, fun _ => ⟨rfl, rfl⟩⟩
            rcases h with h | h <;> cases h
            · exact absurd rfl hc.1
            · exact absurd rfl hc.2
          · rw [if_neg hc]
            have yes : ∃ t', (c :: t, true) = (121 :: t', true) ∨ (c :: t, true) = (89 :: t', true) := by
              by_cases h : c = 121
              · exact ⟨t, .inl (by rw [h])⟩
              · exact ⟨t, .inr (by rw [show c = 89 by omega])⟩
            unfold make
            rw [h3, ← fmt_kinds]
            simp only
            by_cases hm : d.mkfs k (diskFmt k) = 0
            · rw [if_neg (show ¬ d.env.mkfs k (diskFmt k) ≠ 0 from fun h => h hm), if_pos hm]
              refine ⟨_, rfl, rfl, rfl, fun _ => ⟨rfl, ?_⟩, fun h => absurd yes h⟩
              rw [show (d.env.names.getD k []).takeWhile (· ≠ 0) = n from hnm]
              rfl
            · rw [if_pos (show d.env.mkfs k (diskFmt k) ≠ 0 from hm), if_neg hm]
              exact ⟨_, rfl, rfl, rfl, fun _ => ⟨rfl, rfl⟩, fun h => absurd yes h⟩
    obtain ⟨r, r1, r2, r3, r4, r5⟩ := key
    refine ⟨r, r1, only r ⟨n, hkn, (fun h => by rw [hid] at h; cases h), fun p' b' h => ?_⟩⟩
    rw [hid] at h
    cases h
    exact ⟨r2 ▸ htold, r3, r4, r5⟩

/-- The claim for all keys. -/
def C125_full : Prop := C125_statement fun _ => True

/-- The drives of the Pico, with a flash memory of 2 MBytes; no card. -/
def pico : Drives := ⟨[[102, 108, 97, 115, 104], [115, 100]], 0, fun k => if k = 0 then some ([87], 2097152) else none, fun _ _ => 0, fun _ => []⟩

theorem pico_ok : pico.Ok where
  names := by decide
  curr := by decide
  size := by
    intro k p b h
    unfold pico at h
    simp only at h
    split at h
    · cases h; decide
    · cases h

/-- The reply array has 32 items of two bytes, but the line editor takes its size in bytes for the number of items: the 32nd character is written behind the array. -/
theorem C125_violated : ¬ C125_full := by
  intro h
  obtain ⟨r, h, -⟩ := h pico pico_ok (List.replicate 32 0) (List.replicate 128 0) (List.replicate 32 121) [102, 108, 97, 115, 104, 58] List.length_replicate List.length_replicate trivial (by decide)
  have : (formatDrive pico.env (List.replicate 32 0) (List.replicate 128 0) (List.replicate 32 121) [102, 108, 97, 115, 104, 58]).isNone = true := by decide +kernel
  rw [h] at this
  cases this

/-! ## The command -/

theorem getopt_one {argv : List (List Nat)} {s s' : Getopt.St} (h : Getopt.getopt argv (some (txt "h")) (some long) s = some s') (h1 : s'.ret = 1) : ∃ w ∈ argv.tail, s'.arg = some w := by
  have e1 : ((some (txt "h")).map Getopt.skipOrder).map Getopt.skipColon = some [104] := by decide
  have e2 : Getopt.hasColon ((some (txt "h")).map Getopt.skipOrder) = false := by decide
  unfold Getopt.getopt at h
  rw [e1, e2] at h
  split at h
  · cases h; cases h1
  split at h
  · cases h; cases h1
  have hpos : 0 < (if s.ind = 0 then { s with ind := 1, whr := 1 } else s).ind := by
    by_cases hz : s.ind = 0
    · rw [if_pos hz]; exact Nat.one_pos
    · rw [if_neg hz]; omega
  generalize (if s.ind = 0 then { s with ind := 1, whr := 1 } else s) = s0 at h hpos
  have short : ∀ cur, Getopt.shortOpt argv cur (some [104]) false s0 = some s' → False := by
    intro cur h
    unfold Getopt.shortOpt at h
    simp only at h
    split at h
    · cases h
    rename_i c hc
    split at h
    · split at h
      · cases h
      · cases h; cases h1
    · rename_i cp hcp
      unfold Getopt.strchr at hcp
      split at hcp
      · rename_i hx
        cases hcp
        subst hx
        simp only [Getopt.chr] at h
        simp only [List.length_cons, List.length_nil, Nat.zero_add, ite_true] at h
        rw [if_neg (by decide)] at h
        unfold Getopt.getArg at h
        rw [if_neg (by decide), if_neg (by decide)] at h
        simp only at h
        split at h
        · cases h
        · cases h
          unfold Getopt.finish at h1
          simp only at h1
          have : ∀ (p : Prop) [Decidable p] (a b : Getopt.St), a.opt = 104 → b.opt = 104 → (if p then a else b).opt = 104 := fun p _ a b ha hb => by
            split
            · exact ha
            · exact hb
          rw [this _ _ _ rfl rfl] at h1
          cases h1
      · unfold Getopt.strchr at hcp
        split at hcp
        · cases hcp
          simp [Getopt.chr] at h
        · cases hcp
  unfold Getopt.parseArg at h
  split at h
  · cases h; cases h1
  rename_i cur hcur
  split at h
  · cases h
    refine ⟨cur, ?_, rfl⟩
    cases argv with
    | nil => simp at hcur
    | cons a argv =>
      obtain ⟨j, hj⟩ : ∃ j, s0.ind = j + 1 := ⟨s0.ind - 1, by omega⟩
      rw [hj, List.getElem?_cons_succ] at hcur
      exact List.mem_of_getElem? hcur
  · split at h
    · cases h
    · rename_i table _ htab _
      cases htab
      split at h
      · exfalso
        unfold Getopt.longOpt at h
        simp only at h
        split at h
        · cases h
        · cases h; cases h1
        · cases h; cases h1
        · rename_i j hj
          split at h
          · cases h
          · rename_i o ho
            have ho : o ∈ long := List.mem_of_getElem? ho
            rw [long, List.mem_singleton] at ho
            subst ho
            unfold Getopt.getArg at h
            rw [if_neg (by decide), if_neg (by decide)] at h
            cases h
            unfold Getopt.finish at h1
            cases h1
      · exact absurd h (short cur)
    · exact absurd h (short cur)

theorem loop_made (v : Env) (reply next keys : List Nat) (argv : List (List Nat)) : ∀ (k : Nat) (s : Getopt.St) (drive : Option (List Nat)) (r : Res), (∀ w, drive = some w → w ∈ argv.tail) → formatLoop v reply next keys argv k s drive = some r → r.made ≠ [] →
    ∃ w ∈ argv.tail, ∃ r', formatDrive v reply next keys w = some r' ∧ r'.made = r.made
  | 0, _, _, _, _, h, _ => by cases h
  | k + 1, s, drive, r, hd, h, hm => by
    unfold formatLoop at h
    split at h
    · cases h
    rename_i s' hs
    split at h
    · split at h
      · cases h; exact absurd rfl hm
      · rename_i name
        obtain ⟨r', h1, h2⟩ := Option.map_eq_some_iff.mp h
        refine ⟨name, hd name rfl, r', h1, ?_⟩
        rw [← h2]
        split <;> rfl
    split at h
    · rename_i h1
      split at h
      · cases h; exact absurd rfl hm
      · obtain ⟨w, hw, ha⟩ := getopt_one hs h1
        exact loop_made v reply next keys argv k s' _ r (fun x hx => by rw [ha] at hx; cases hx; exact hw) h hm
    split at h
    · cases h; exact absurd rfl hm
    split at h
    · cases h; exact absurd rfl hm
    · exact loop_made v reply next keys argv k s' _ r hd h hm

/-- Whatever the arguments: if a drive is formatted, it is just one, an argument names it, and the reply begins with `y` or `Y`. -/
theorem C125_only_partial (d : Drives) (hd : d.Ok) (reply next keys : List Nat) (hr : reply.length = 32) (hn : next.length = 128) (hk : Short keys) (argv : List (List Nat)) (h0 : ∀ w ∈ argv, 0 ∉ w) (r : Res)
    (h : cmdFormat d.env reply next keys argv = some r) (hm : r.made ≠ []) : Yes keys ∧ ∃ w ∈ argv.tail, ∃ k, Means d.names d.curr w k ∧ r.made = [(k, kinds k)] := by
  obtain ⟨w, hw, r', h1, h2⟩ := loop_made _ _ _ _ _ _ _ _ _ (fun w h => by cases h) h hm
  obtain ⟨r2, h3, h4, h5⟩ := C125_drive_partial d hd reply next keys w hr hn hk (h0 w (List.mem_of_mem_tail hw))
  rw [h1] at h3
  cases h3
  rw [← h2] at hm ⊢
  by_cases hx : ∀ k, ¬ Means d.names d.curr w k
  · rw [h4 hx] at hm
    exact absurd rfl hm
  · obtain ⟨k, hk⟩ := Classical.not_forall_not.mp hx
    obtain ⟨n, -, a1, a2⟩ := h5 k hk
    cases hid : d.identify k with
    | none => rw [a1 hid] at hm; exact absurd rfl hm
    | some pb =>
      obtain ⟨-, -, b1, b2⟩ := a2 pb.1 pb.2 hid
      by_cases hy : Yes keys
      · exact ⟨hy, w, hw, k, hk, (b1 hy).1⟩
      · exact absurd (b2 hy).1 hm

theorem getopt_at (argv : List (List Nat)) (name : List Nat) (k : Nat) (s : Getopt.St) (h : Shell.At k s) (h0 : argv[0]? = some name) (hn : name ≠ [45, 45]) (hk : argv[k]? ≠ some [45, 45]) (hl : k ≤ argv.length) :
    Getopt.getopt argv (some (txt "h")) (some long) s = Getopt.parseArg argv (some [104]) (some long) false { s with ind := k, whr := 1 } := by
  have hlen : argv.length ≠ 0 := by
    intro h; rw [List.length_eq_zero_iff.mp h] at h0; simp at h0
  have e1 : ((some (txt "h")).map Getopt.skipOrder).map Getopt.skipColon = some [104] := by decide
  have e2 : Getopt.hasColon ((some (txt "h")).map Getopt.skipOrder) = false := by decide
  unfold Getopt.getopt
  rw [e1, e2]
  rcases h with ⟨h1, h2, h3⟩ | ⟨h1, h2⟩
  · rw [if_neg (by simp [hlen]; omega), if_neg (by rw [h1]; exact hk), if_neg (by omega)]
    congr 1
    cases s; simp_all
  · rw [if_neg (by simp [hlen]; omega), if_neg (by rw [h1, h0]; simpa using hn), if_pos h1, h2]

theorem getopt_word (argv : List (List Nat)) (name w : List Nat) (k : Nat) (s : Getopt.St) (h : Shell.At k s) (h0 : argv[0]? = some name) (hn : name ≠ [45, 45]) (hw : argv[k]? = some w) (hp : Shell.Spec.Plain w) :
    ∃ s', Getopt.getopt argv (some (txt "h")) (some long) s = some s' ∧ s'.ret = 1 ∧ s'.arg = some w ∧ Shell.At (k + 1) s' := by
  have hne : w ≠ [45, 45] := by
    rintro rfl
    rcases hp with h | h <;> simp at h
  have hk : k < argv.length := (List.getElem?_eq_some_iff.mp hw).1
  rw [getopt_at argv name k s h h0 hn (by rw [hw]; simpa using hne) (by omega)]
  unfold Getopt.parseArg
  simp only [hw]
  have hcond : w.head? ≠ some 45 ∨ w.tail = [] := by
    rcases hp with h | h
    · right; rw [h]; rfl
    · left; exact h
  rw [if_pos ⟨trivial, hcond⟩]
  exact ⟨_, rfl, rfl, rfl, Or.inl ⟨rfl, rfl, by omega⟩⟩

theorem getopt_none (argv : List (List Nat)) (name : List Nat) (s : Getopt.St) (h : Shell.At argv.length s) (h0 : argv[0]? = some name) (hn : name ≠ [45, 45]) :
    ∃ s', Getopt.getopt argv (some (txt "h")) (some long) s = some s' ∧ s'.ret = -1 := by
  have e : argv[argv.length]? = none := by simp
  rw [getopt_at argv name _ s h h0 hn (by rw [e]; simp) (Nat.le_refl _)]
  unfold Getopt.parseArg
  simp only [e]
  exact ⟨_, rfl, rfl⟩

/-- With one word the command does what `C125_statement` says, and ends the line; with none, or more than one, it tells how it is used, and formats nothing. -/
theorem C125_words (d : Drives) (reply next keys name : List Nat) (hn : name ≠ [45, 45]) (ws : List (List Nat)) (hp : ∀ w ∈ ws, Shell.Spec.Plain w) :
    (ws.length ≠ 1 → cmdFormat d.env reply next keys (name :: ws) = some ⟨text "Usage:\r\n    format sd:\r\n    format flash:\r\n\n", [], [], true⟩) ∧
    ∀ w, ws = [w] → ∀ r, formatDrive d.env reply next keys w = some r → cmdFormat d.env reply next keys (name :: ws) = some { r with after := r.after ++ if r.done then text "\r\n" else [] } := by
  have hat : Shell.At 1 {} := .inr ⟨rfl, rfl⟩
  unfold cmdFormat
  match ws, hp with
  | [], _ =>
    refine ⟨fun _ => ?_, fun w h => by cases h⟩
    obtain ⟨s', h1, h2⟩ := getopt_none [name] name {} hat rfl hn
    simp only [formatLoop, h1, h2]
    rfl
  | [w], hp =>
    refine ⟨fun h => absurd rfl h, fun w' h r hr => ?_⟩
    cases h
    obtain ⟨s1, h1, h2, h3, h4⟩ := getopt_word [name, w] name w 1 {} hat rfl hn rfl (hp w (by simp))
    obtain ⟨s2, h5, h6⟩ := getopt_none [name, w] name s1 h4 rfl hn
    obtain ⟨k, hk⟩ : ∃ k, (([name, w].map (·.length + 2)).sum + 2) = k + 2 := ⟨_, rfl⟩
    rw [hk]
    simp only [formatLoop, h1, h2, h3, h5, h6, hr]
    rw [if_neg (by decide), if_pos trivial, if_neg (by simp), if_pos (by decide)]
    cases hd : r.done
    · simp
      rw [hd]
      cases r
      simp_all
    · simp [hd]
      rfl
  | w :: w' :: ws, hp =>
    refine ⟨fun _ => ?_, fun _ h => by cases h⟩
    obtain ⟨s1, h1, h2, h3, h4⟩ := getopt_word (name :: w :: w' :: ws) name w 1 {} hat rfl hn rfl (hp w (by simp))
    obtain ⟨s2, h5, h6, h7, h8⟩ := getopt_word (name :: w :: w' :: ws) name w' 2 s1 h4 rfl hn rfl (hp w' (by simp))
    obtain ⟨k, hk⟩ : ∃ k, (((name :: w :: w' :: ws).map (·.length + 2)).sum + 2) = k + 2 := ⟨_, rfl⟩
    rw [hk]
    simp only [formatLoop, h1, h2, h3, h5, h6, h7]
    rw [if_neg (by decide), if_pos trivial, if_neg (by simp), if_neg (by decide), if_pos trivial, if_pos (by simp)]
    rfl

/-! ## The hypotheses hold -/

/-- `format FLASH:` and `yes`, typed after a correction. -/
example : pico.Ok ∧ 0 ∉ [70, 76, 65, 83, 72, 58] ∧ Means pico.names pico.curr [70, 76, 65, 83, 72, 58] 0 ∧ typed [110, 8, 121, 101, 115, 13] = ([121, 101, 115], true) ∧ Yes [110, 8, 121, 101, 115, 13] ∧
    (formatDrive pico.env (List.replicate 32 7) (List.replicate 128 7) [110, 8, 121, 101, 115, 13] [70, 76, 65, 83, 72, 58]).map (·.made) = some [(0, 9)] ∧
    (cmdFormat pico.env (List.replicate 32 7) (List.replicate 128 7) [110, 8, 121, 101, 115, 13] [[102], [70, 76, 65, 83, 72, 58]]).map (·.made) = some [(0, 9)] :=
  ⟨pico_ok, by decide, .inl ⟨[70, 76, 65, 83, 72], rfl, by decide, .inr ⟨(fun ⟨d, _, h⟩ => by have := congrArg List.length h; simp at this), _, rfl, by decide, fun j hj => absurd hj (Nat.not_lt_zero j)⟩⟩, by decide, ⟨[101, 115], .inl (by decide)⟩, by decide +kernel, by decide +kernel⟩

example : Short [110, 8, 121, 101, 115, 13] := by
  intro n
  have : ∀ n < 7, (typed ([110, 8, 121, 101, 115, 13].take n)).1.length ≤ 31 := by decide
  by_cases h : n < 7
  · exact this n h
  · rw [List.take_of_length_le (by simp; omega)]
    decide

/-- An empty reply, and another one. -/
example : ¬ Yes [13] ∧ ¬ Yes [110, 121, 13] ∧ ¬ Yes [121] := by
  refine ⟨?_, ?_, ?_⟩ <;> rintro ⟨t, h | h⟩ <;> cases h

end Fpm.Format
