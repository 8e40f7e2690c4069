import Verif.Names.ListLemmas
/-!
# C74: names of files
-/
namespace Fpm.Names
open Fpm.Names.Spec Fpm.Lfn Fpm.Lfn.Spec Fpm.TextIo Fpm.TextIo.Spec

/-- Whatever the bytes of the path are, the segment is refused or read as the text that its bytes spell, nothing outside of the path and
the buffer is accessed, and the results belong to this text. -/
theorem C74_path (path buf : List Nat) (h0 : 0 ∈ path) (hb : ∀ b ∈ path, b < 256) (hl : buf.length = 256) :
    createName path buf = .bad ∨
    ∃ seg cs t last rest buf' fn fl, path = seg ++ t ∧ Spells seg cs ∧ (∀ c ∈ cs, NameChar c) ∧ Good cs ∧ Tail t last rest ∧
      createName path buf = .ok buf' fn fl rest ∧ Named cs last buf' fn fl := by
  unfold createName
  rcases scan_any (path.length + 1) path buf [] h0 hb (by omega) ⟨hl, List.nil_prefix⟩ (by simp) with h | ⟨seg, cs, wc, r, buf', e1, e2, e3, e4, e5, e6, e7⟩
  · rw [List.length_nil] at h
    rw [h]
    exact .inl rfl
  · rw [List.length_nil] at e7
    rw [e7]
    simp only [List.nil_append] at e5 e6 ⊢
    have hz : 0 ∈ wc :: r := by
      rw [e1] at h0
      rcases List.mem_append.mp h0 with h | h
      · have key : ∀ s cs, Spells s cs → (∀ c ∈ cs, NameChar c) → 0 ∉ s := by
          intro s cs hs
          induction hs with
          | nil => intro _ h; cases h
          | @cons o s c cs ho _ ih =>
            intro hc hm
            rcases List.mem_append.mp hm with hm | hm
            · have hcc := (hc c (by simp)).2.1
              rcases ho with rfl | ⟨_, ho⟩
              · unfold uenc at hm
                split at hm
                · simp at hm; omega
                · split at hm
                  · simp at hm; omega
                  · split at hm <;> simp at hm <;> omega
              · rcases ho with ⟨_, rfl⟩ | ⟨_, rfl⟩ <;> simp at hm <;> omega
            · exact ih (fun x hx => hc x (by simp [hx])) hm
        exact absurd h (key seg cs e2 e3)
      · exact h
    obtain ⟨last, rest, ht⟩ := tail_exists e4 hz
    obtain ⟨wc', r', et, _, es⟩ := tail_spec ht
    obtain ⟨rfl, rfl⟩ : wc = wc' ∧ r = r' := by simpa using et
    rw [es]
    simp only
    rcases finish e3 e6 e5 last rest with ⟨hg, buf'', fn, fl, e, hn⟩ | ⟨_, e⟩
    · exact .inr ⟨seg, cs, wc :: r, last, rest, buf'', fn, fl, e1, e2, e3, hg, ht, e, hn⟩
    · exact .inl e

example : (0 : Nat) ∈ [0xF0, 0x9F, 0] ∧ (∀ b ∈ [0xF0, 0x9F, 0], b < 256) ∧ (List.replicate 256 7).length = 256 := by decide +kernel

/-- A segment in correct UTF-8 of allowed characters is taken just if it has up to 255 UTF-16 units and is more than spaces and dots
(or is `.` or `..`). -/
theorem C74_text (cs t rest buf : List Nat) (last : Bool) (hc : ∀ c ∈ cs, NameChar c) (ht : Tail t last rest) (hl : buf.length = 256) :
    (Good cs → ∃ buf' fn fl, createName (text cs ++ t) buf = .ok buf' fn fl rest ∧ Named cs last buf' fn fl) ∧
    (¬ Good cs → createName (text cs ++ t) buf = .bad) := by
  obtain ⟨wc, r, rfl, hw, es⟩ := tail_spec ht
  have hlen : cs.length < (text cs ++ wc :: r).length + 1 := by
    have : cs.length ≤ (text cs).length := by
      have key : ∀ cs : List Nat, cs.length ≤ (text cs).length := by
        intro cs
        induction cs with
        | nil => simp
        | cons c cs ih =>
          have := (uenc_length c).1
          rw [text_cons]
          simp
          omega
      exact key cs
    simp
    omega
  have hs := scan_text cs ((text cs ++ wc :: r).length + 1) buf [] wc r hc hw hlen ⟨hl, List.nil_prefix⟩ (by simp)
  rw [List.nil_append, List.length_nil] at hs
  by_cases hle : (units cs).length ≤ 255
  · rw [if_pos hle] at hs
    obtain ⟨buf', hst, e⟩ := hs
    have hcr : createName (text cs ++ wc :: r) buf = if isDot buf' (units cs).length then dotName buf' (units cs).length (if last then 4 else 0) rest else plainName buf' (units cs).length (if last then 4 else 0) rest := by
      unfold createName
      rw [e]
      simp only
      rw [es]
    rw [hcr]
    rcases finish hc hst hle last rest with ⟨hg, h⟩ | ⟨hg, h⟩
    · exact ⟨fun _ => h, fun hn => absurd hg hn⟩
    · exact ⟨fun hn => absurd hn hg, fun _ => h⟩
  · rw [if_neg hle] at hs
    refine ⟨fun hg => absurd hg.1 hle, fun _ => ?_⟩
    unfold createName
    rw [hs]

example : (∀ c ∈ [82, 0xE9, 0x1F600, 46], NameChar c) ∧ Good [82, 0xE9, 0x1F600, 46] ∧ Tail [47, 47, 97, 0] false [97, 0] ∧ Tail [47, 0] true [0] :=
  ⟨by decide, by decide, .sep (s := [47, 47]) (b := 97) (by decide) (by decide) (by decide) (by decide), .sep (s := [47]) (b := 0) (by decide) (by decide) (by decide) (by decide)⟩

example : ¬ Good [32, 46, 32] ∧ ¬ Good (List.replicate 256 97) := by decide +kernel

/-- A long name is listed as it was given, if it has up to 255 bytes; else the short name is listed. -/
theorem C74_long (cs buf e : List Nat) (hc : ∀ c ∈ cs, Scalar c ∧ c ≠ 0) (hne : cs ≠ []) (hb : Holds buf (units cs)) :
    listName (some buf) e = some (if (text cs).length ≤ 255 then text cs else shortName e) := by
  have hle : (units cs).length ≤ 255 := by have := hb.1; have := hb.2.length_le; simp at this; omega
  have := longLoop_spec hb hc cs [] rfl (by simp [text]) 257 (by omega)
  rw [units_nil, List.length_nil, show text [] = [] from rfl] at this
  unfold listName
  simp only
  rw [this]
  by_cases hl : (text cs).length ≤ 255
  · rw [if_pos hl, if_pos hl]
    cases cs with
    | nil => exact absurd rfl hne
    | cons c cs =>
      rw [text_cons]
      have := (uenc_length c).1
      cases hx : uenc c with
      | nil => rw [hx] at this; simp at this
      | cons b r => rfl
  · rw [if_neg hl, if_neg hl]

example : Holds (units [82, 0x1F600] ++ 0 :: List.replicate 252 9) (units [82, 0x1F600]) ∧ (text [82, 0x1F600]).length ≤ 255 :=
  ⟨⟨by decide +kernel, by decide +kernel⟩, by decide⟩

/-- A name that needs no long name entry is listed as it was given: the directory form of its short entry and the two case bits tell it. -/
theorem C74_short (cs buf fn e : List Nat) (fl : Nat) (last : Bool) (hn : Named cs last buf fn fl) (hd : ¬ (cs = [46] ∨ cs = [46, 46])) (h2 : fl &&& 2 = 0)
    (he : e.take 11 = fn) (hnt : byte e 12 = fl &&& 0x18) : listName none e = some (text (trimmed cs)) := by
  obtain ⟨_, _, hf, hfl⟩ := hn.name hd
  have hl : ∃ l, (if last = true then 4 else 0) = l ∧ (l = 0 ∨ l = 4) := ⟨_, rfl, by cases last <;> simp⟩
  obtain ⟨l, hl, hl4⟩ := hl
  by_cases hex : ∃ body ext, EightThree (units (trimmed cs)) body ext
  · obtain ⟨body, ext, h⟩ := hex
    have hflag := hfl.short body ext h
    rw [hl] at hflag
    have hone : oneCase body = true ∧ oneCase ext = true := by
      refine Classical.byContradiction fun hno => ?_
      rw [if_neg hno] at hflag
      rw [hflag] at h2
      rcases hl4 with rfl | rfl <;> exact absurd h2 (by decide)
    rw [if_pos hone] at hflag
    unfold listName
    simp only
    rw [← et_units h]
    congr 1
    refine shortName_back h (by rw [he, hf.short body ext h]) hone.1 hone.2 ?_ ?_
    · rw [hnt, hflag]
      rcases hl4 with rfl | rfl <;> cases hasLower body <;> cases hasLower ext <;> decide
    · rw [hnt, hflag]
      rcases hl4 with rfl | rfl <;> cases hasLower body <;> cases hasLower ext <;> decide
  · have := hfl.long hex
    rw [hl] at this
    rw [this] at h2
    rcases hl4 with rfl | rfl <;> exact absurd h2 (by decide)

/-- `readme.TXT` -/
example : EightThree [114, 101, 97, 100, 109, 101, 46, 84, 88, 84] [114, 101, 97, 100, 109, 101] [84, 88, 84] :=
  ⟨by decide, by decide, by decide, by decide, by decide, by decide⟩

example : ∃ buf, createName [114, 101, 97, 100, 109, 101, 46, 84, 88, 84, 0] (List.replicate 256 7) = .ok buf [82, 69, 65, 68, 77, 69, 32, 32, 84, 88, 84] 12 [] :=
  ⟨[114, 101, 97, 100, 109, 101, 46, 84, 88, 84, 0] ++ List.replicate 245 7, by decide +kernel⟩

/-- Names of the form 8.3 have the same directory form just if they are equal but for ASCII case. -/
theorem C74_same (n body ext n' body' ext' : List Nat) (h : EightThree n body ext) (h' : EightThree n' body' ext') :
    form body ext = form body' ext' ↔ n.map up = n'.map up := form_same h h'

example : EightThree [97, 46, 98] [97] [98] ∧ EightThree [65, 46, 66] [65] [66] :=
  ⟨⟨by decide, by decide, by decide, by decide, by decide, by decide⟩, ⟨by decide, by decide, by decide, by decide, by decide, by decide⟩⟩

end Fpm.Names
