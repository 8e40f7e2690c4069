import Verif.Tree.RmDoneLemmas
import Verif.Tree.CwdProps
import Verif.Tree.StatProps
/-!
# Properties of rm
-/
namespace Fpm.Tree
open Fpm.Fat Fpm.Fat.Spec Fpm.FatFile.Spec Fpm.Lfn Fpm.Names Fpm.Names.Spec Fpm.TextIo.Spec Fpm.FatDir Fpm.FatDir.Spec Fpm.Mount Fpm.Mount.Spec Fpm.DirDev Fpm.DirDev.Spec Fpm.Tree.Spec Fpm.FatSync
open Fpm.FatLock (Sem chkShare incShare decShare Key incAt)

theorem chain_single {n : Nat} {f : Nat → Nat} {A F : List (List Nat)} (h : Chains n f (A ++ F)) {m m' : List Nat} (hm : m ∈ F) (hm' : m' ∈ F) (h0 : m.headD 0 ≠ 0) (he : m.headD 0 = m'.headD 0) : m = m' := by
  have hne : ∀ {x : List Nat}, x.headD 0 ≠ 0 → x ≠ [] := fun {x} hx hy => hx (by rw [hy]; rfl)
  obtain ⟨x, y, rfl⟩ := List.append_of_mem hm
  rw [← List.append_assoc] at h
  rcases List.mem_append.mp hm' with hx | hx
  · obtain ⟨x1, x2, rfl⟩ := List.append_of_mem hx
    rw [List.append_assoc, List.append_assoc, List.cons_append, ← List.append_assoc] at h
    exact (head_once h (m' := m) (by simp) (hne (by rw [← he]; exact h0)) he.symm).elim
  · rcases List.mem_cons.mp hx with rfl | hx
    · rfl
    · exact (head_once h hx (hne h0) he).elim

/-- What is left after removing an object. -/
theorem out_wiped {v : Vol} {i : Info} {T T' : List Dir} {F F' : List (List Nat)} {s s' : St} {G : Goal} {res : Nat} (h : Tree v i T F s) (h' : Tree v i T' F' s') (ho : Out v i T F s G T' F' s' res) :
    res ≠ UB ∧ (res ≠ FR_OK ∧ Pruned v (Inside v T G) T F s T' F' s' ∨
      res = FR_OK ∧ ∃ d cs o, G = .object d cs o ∧ ¬ DotName cs ∧ Wiped v (Inside v T G) d o T F T' F' ∧ ∀ m ∈ F', ∀ n ∈ secs v m, view s' n = view s n) := by
  obtain ⟨hub, ⟨h1, h2⟩ | ⟨h1, d, cs, o, rfl, hn, hd, hdo, hdid, ⟨x, y, hos, hleft⟩, hin, hfree, -⟩⟩ := ho
  · exact ⟨hub, .inl ⟨h1, h2.pruned⟩⟩
  have hp := hdid.pruned
  refine ⟨hub, .inr ⟨h1, d, cs, o, rfl, hn, ⟨x, y, hos, fun e => ⟨fun he => ?_, fun he => ?_⟩, fun m => ⟨fun hm => ⟨hp.chains m hm, hfree m hm, fun e he hS o' ho' hown => ?_⟩, fun ⟨hm, hno, hall⟩ => ?_⟩⟩, hp.data⟩⟩
  · by_cases hs : e.sclust = d.sclust
    · exact .inr (dir_unique h'.once he hleft hs)
    · obtain ⟨e0, he0, a1, -⟩ := hp.dirs e he
      have hi := hin e he
      have := hp.same e0 he0 (by rw [← a1]; rintro (hx | hx); exacts [hi hx, hs hx])
      cases dir_unique h'.once he this a1
      exact .inl ⟨he0, fun hx => hs (by rw [hx]), hi⟩
  · rcases he with ⟨he, hne, hi⟩ | rfl
    · refine hp.same e he ?_
      rintro (hx | hx)
      · exact hi hx
      · exact hne (dir_unique h.once he hd hx)
    · exact hleft
  · obtain ⟨e', he', a1, -⟩ := hp.freed e he o' ho' m hm hown
    exact hin e' he' (by rw [a1]; exact hS)
  · rcases hp.kept m hm with hm' | ⟨e, he, hS, o', ho', hown⟩
    · exact hm'
    rcases hS with hS | hS
    · exact absurd hown (hall e he hS o' ho')
    cases dir_unique h.once he hd hS
    have ho2 : o' ∈ x ++ y := by
      rw [hos] at ho'
      simp only [List.mem_append, List.mem_cons] at ho' ⊢
      rcases ho' with h1 | rfl | h1
      · exact .inl h1
      · exact absurd hown hno
      · exact .inr h1
    obtain ⟨b1, b2, b3, b4⟩ := hown
    obtain ⟨m', hm', hf, -⟩ := h'.files _ hleft o' ho2 b1 b2
    rcases hm' with rfl | hm'
    · exact absurd hf b3
    rw [chain_single h.chains hm (hp.chains m' hm') (by rw [← b4]; exact b3) (b4.symm.trans hf)]
    exact hm'

theorem leads_last {v : Vol} {T : List Dir} {d0 d : Dir} {l : List (List Nat)} {G : Goal} {cs : List Nat} {o : Obj} (hl : Leads v T d0 l G) : G = .object d cs o → cs ∈ l := by
  induction hl with
  | bad _ => exact fun hG => by cases hG
  | missing _ _ _ _ => exact fun hG => by cases hG
  | noDir _ _ _ _ _ => exact fun hG => by cases hG
  | free _ _ _ => exact fun hG => by cases hG
  | self _ _ => exact fun hG => by cases hG
  | stay _ _ _ ih => exact fun hG => List.mem_cons_of_mem _ (ih hG)
  | object _ _ _ => intro hG; cases hG; simp
  | enter _ _ _ _ _ _ _ ih => exact fun hG => List.mem_cons_of_mem _ (ih hG)

theorem resolves_last {v : Vol} {T : List Dir} {cdir : Nat} {abs : Bool} {l : List (List Nat)} {d : Dir} {cs : List Nat} {o : Obj} (h : Resolves v T cdir abs l (.object d cs o)) : cs ∈ l := by
  obtain ⟨d0, -, -, ⟨-, h⟩ | h⟩ := h
  · cases h
  · exact leads_last h rfl

theorem path_empty {abs : Bool} {l : List (List Nat)} {p : List Nat} (h : PathOf p abs l) : p = [0] → l = [] := by
  cases h with
  | empty _ _ => exact fun _ => rfl
  | @segs z p _ hz ht =>
    intro hp
    have key : ∀ {cs t : List Nat}, (∀ c ∈ cs, NameChar c) → cs ≠ [] → z ++ (text cs ++ t) ≠ [0] := by
      intro cs t h1 h2 hp
      cases cs with
      | nil => exact absurd rfl h2
      | cons c cs =>
        obtain ⟨b, r, e, hb, -⟩ := text_first (h1 c (by simp)) cs []
        rw [List.append_nil] at e
        rw [e] at hp
        cases z with
        | nil =>
          have := (List.cons.inj hp).1
          omega
        | cons a z => simp at hp
    cases ht with
    | last h1 h2 h3 => exact absurd hp (key h1 h2)
    | cons h1 h2 h3 h4 => exact absurd hp (key h1 h2)

/-- `remove_recursive` of a path: the tree stays in order, the current directory stays, and no memory is misused.  Nothing outside what the path leads to is changed.  If it succeeds, the object has gone with all that was in it, its clusters are free, and
everything else is as before; if not, some objects in it may have gone. -/
theorem C92_recursive (g : Env) (hr : Ready g.v g.i) (hbig : g.i.fsi ≠ none → 512 ≤ g.v.ss) (hs : Sound g.v) (hold : ∀ n, (g.old n).2.length = 256) (T : List Dir) (F : List (List Nat)) (r : Rm) (h : Tree g.v g.i T F r.st) (hc : ∃ d ∈ T, d.sclust = g.cdir)
    (path : List Nat) (hne : path ≠ []) (hge : ∀ c ∈ path, 32 ≤ c) (abs : Bool) (l : List (List Nat)) (hp : PathOf (path ++ [0]) abs l) (G : Goal) (hG : Resolves g.v T g.cdir abs l G) (hl : ∀ n, Into g.v T G (.inl n) → Listable g.v T n.sclust) (k : Nat) (x : Rm)
    (hx : x = rmRec g k path r) :
    ∃ T' F', Tree g.v g.i T' F' x.st ∧ (∃ d ∈ T', d.sclust = g.cdir) ∧ x.res ≠ UB ∧
      (x.res ≠ FR_OK ∧ Pruned g.v (Inside g.v T G) T F r.st T' F' x.st ∨
       x.res = FR_OK ∧ ∃ d cs o, G = .object d cs o ∧ ¬ DotName cs ∧ Wiped g.v (Inside g.v T G) d o T F T' F' ∧ ∀ m ∈ F', ∀ n ∈ secs g.v m, view x.st n = view r.st n) := by
  subst hx
  obtain ⟨T', F', h1, h2, h3⟩ := rec_spec hr hbig hs hold k path abs l r T F G h hc hne hge hp hG hl
  exact ⟨T', F', h1, h2, out_wiped h h1 h3⟩

/-- It succeeds if nothing prevents it: nothing in the directory is read-only or open, the current directory is not in it, directories are not too deep, and the path has no `.` and `..`.  Afterwards the same objects are open. -/
theorem C92_success (g : Env) (hr : Ready g.v g.i) (hbig : g.i.fsi ≠ none → 512 ≤ g.v.ss) (hs : Sound g.v) (hold : ∀ n, (g.old n).2.length = 256) (hfs : g.fs ≠ 0) (T : List Dir) (F : List (List Nat)) (r : Rm) (h : Tree g.v g.i T F r.st)
    (hc : ∃ d ∈ T, d.sclust = g.cdir) (path : List Nat) (hne : path ≠ []) (hge : ∀ c ∈ path, 32 ≤ c) (abs : Bool) (l : List (List Nat)) (hp : PathOf (path ++ [0]) abs l) (hnd : ∀ c ∈ l, ¬ DotName c) (d : Dir) (cs : List Nat) (o : Obj)
    (hG : Resolves g.v T g.cdir abs l (.object d cs o)) (hl : Listable g.v T (first g.v o)) (k : Nat) (hrm : Removable g.v T g.cdir g.fs r.files k d o) (m : Nat) (hm : k ≤ m) (x : Rm) (hx : x = rmRec g m path r) :
    x.res = FR_OK ∧ SameLocks r.files x.files ∧ ∃ T' F', Tree g.v g.i T' F' x.st ∧ (∃ d ∈ T', d.sclust = g.cdir) ∧ Wiped g.v (Within g.v T (first g.v o)) d o T F T' F' ∧ ∀ m ∈ F', ∀ n ∈ secs g.v m, view x.st n = view r.st n := by
  obtain ⟨hdT, hoT, hcall⟩ := resolves_object hG
  have hcs : ¬ DotName cs := hnd cs (resolves_last hG)
  have hdo : ¬ Dotted o := fun hdot => by
    unfold Calls at hcall
    rw [if_neg hcs] at hcall
    exact means_dotted hcall (h.dots d hdT o hoT hdot)
  have hf0 := (h.subs d hdT o hoT hdo hrm.dir).1
  have hst : Straight g T abs l (first g.v o) := by
    refine ⟨hnd, ?_⟩
    split
    · exact root_outside h hf0
    · exact hrm.cwd
  obtain ⟨h1, h2⟩ := rec_done hr hbig hs hold hfs m path abs l r T F d cs o k h hc hne hge hp hG hcs hl hst hrm hm
  subst hx
  obtain ⟨T', F', h3, h4, -, h5⟩ := C92_recursive g hr hbig hs hold T F r h hc path hne hge abs l hp _ hG (fun n hn => by
    cases hn with
    | dir _ _ h3 => rw [h3]; exact hl) m _ rfl
  refine ⟨h1, h2, T', F', h3, h4, ?_⟩
  rcases h5 with ⟨hx, -⟩ | ⟨-, d', cs', o', hx, -, ⟨x, y, b1, b2, b3⟩, h7⟩
  · exact absurd h1 hx
  · cases hx
    have e : ∀ c, Inside g.v T (.object d cs o) c ↔ Within g.v T (first g.v o) c := fun c => ⟨fun hx => hx.2, fun hx => ⟨hrm.dir, hx⟩⟩
    exact ⟨⟨x, y, b1, fun e' => by rw [b2 e', e], fun m => by rw [b3 m]; simp only [e]⟩, h7⟩

/-- The command for one path: what the user did not want to be removed stays as it is, and so does everything if there is no such object.  A directory is removed only with the option `-r`, and if the user agrees; a file is removed with the option `-f`, or if the user agrees. -/
theorem C92_command (g : Env) (hr : Ready g.v g.i) (hbig : g.i.fsi ≠ none → 512 ≤ g.v.ss) (hs : Sound g.v) (hold : ∀ n, (g.old n).2.length = 256) (T : List Dir) (F : List (List Nat)) (r : Rm) (h : Tree g.v g.i T F r.st) (hc : ∃ d ∈ T, d.sclust = g.cdir)
    (path : List Nat) (hge : ∀ c ∈ path, 32 ≤ c) (abs : Bool) (l : List (List Nat)) (hp : PathOf (path ++ [0]) abs l) (G : Goal) (hG : Resolves g.v T g.cdir abs l G) (hl : ∀ n, Into g.v T G (.inl n) → Listable g.v T n.sclust) (opt : RmOpt) (yes : Bool) (k : Nat) (info : FInfo)
    (x : Rm) (hx : x = rmPath g opt yes k path r info) :
    ∃ T' F', Tree g.v g.i T' F' x.st ∧ (∃ d ∈ T', d.sclust = g.cdir) ∧ x.res ≠ UB ∧ (¬ Wanted opt yes G → T' = T ∧ F' = F ∧ ∀ n, ¬ Fat2 g.v n → view x.st n = view r.st n) ∧
      (Wanted opt yes G → x.res ≠ FR_OK ∧ Pruned g.v (Inside g.v T G) T F r.st T' F' x.st ∨
       x.res = FR_OK ∧ ∃ d cs o, G = .object d cs o ∧ ¬ DotName cs ∧ Wiped g.v (Inside g.v T G) d o T F T' F' ∧ ∀ m ∈ F', ∀ n ∈ secs g.v m, view x.st n = view r.st n) := by
  subst hx
  obtain ⟨h1, h2, h3⟩ := C88_stat g.v g.i hr T F r.st h g.cdir hc _ abs l hp (g.old r.n).1 (g.old r.n).2 (hold r.n) info G hG _ rfl
  have h3 := h3.resolve_left fun hx => hx.2.2 hs
  unfold rmPath
  generalize fStat g.v g.i g.cdir (path ++ [0]) r.st (g.old r.n).1 (g.old r.n).2 info = st at h1 h2 h3
  have hstay : st.2.1 ≠ UB → ¬ Wanted opt yes G → ∃ T' F', Tree g.v g.i T' F' st.1 ∧ (∃ d ∈ T', d.sclust = g.cdir) ∧ st.2.1 ≠ UB ∧ (¬ Wanted opt yes G → T' = T ∧ F' = F ∧ ∀ n, ¬ Fat2 g.v n → view st.1 n = view r.st n) ∧
      (Wanted opt yes G → st.2.1 ≠ FR_OK ∧ Pruned g.v (Inside g.v T G) T F r.st T' F' st.1 ∨
       st.2.1 = FR_OK ∧ ∃ d cs o, G = .object d cs o ∧ ¬ DotName cs ∧ Wiped g.v (Inside g.v T G) d o T F T' F' ∧ ∀ m ∈ F', ∀ n ∈ secs g.v m, view st.1 n = view r.st n) :=
    fun hu hw => ⟨T, F, h1, hc, hu, fun _ => ⟨rfl, rfl, h2⟩, fun hx => absurd hx hw⟩
  have hsec : ∀ m ∈ F, ∀ n ∈ secs g.v m, view st.1 n = view r.st n := fun m hm n hn => h2 n (chain_secs hr (h.chains.chain m (by simp [hm])) hn).2.1
  -- removing it
  have hgo : ∀ (y : Rm), (∃ T' F', Tree g.v g.i T' F' y.st ∧ (∃ d ∈ T', d.sclust = g.cdir) ∧ Out g.v g.i T F st.1 G T' F' y.st y.res) → Wanted opt yes G →
      ∃ T' F', Tree g.v g.i T' F' y.st ∧ (∃ d ∈ T', d.sclust = g.cdir) ∧ y.res ≠ UB ∧ (¬ Wanted opt yes G → T' = T ∧ F' = F ∧ ∀ n, ¬ Fat2 g.v n → view y.st n = view r.st n) ∧
      (Wanted opt yes G → y.res ≠ FR_OK ∧ Pruned g.v (Inside g.v T G) T F r.st T' F' y.st ∨
       y.res = FR_OK ∧ ∃ d cs o, G = .object d cs o ∧ ¬ DotName cs ∧ Wiped g.v (Inside g.v T G) d o T F T' F' ∧ ∀ m ∈ F', ∀ n ∈ secs g.v m, view y.st n = view r.st n) := by
    rintro y ⟨T', F', b1, b2, b3⟩ hw
    obtain ⟨c1, c2⟩ := out_wiped h1 b1 b3
    refine ⟨T', F', b1, b2, c1, fun hx => absurd hw hx, fun _ => ?_⟩
    rcases c2 with ⟨c2, c3⟩ | ⟨c2, d, cs, o, hGo, hn, ⟨u, w, d1, d2, d3⟩, c3⟩
    · exact .inl ⟨c2, pruned_trans (pruned_refl _ _ _ _ hsec) c3⟩
    · exact .inr ⟨c2, d, cs, o, hGo, hn, ⟨u, w, d1, d2, d3⟩, fun m hm n hn => (c3 m hm n hn).trans (hsec m ((d3 m).mp hm).1 n hn)⟩
  cases G with
  | badName => rw [h3.2]; exact hstay (by rw [h3.1]; decide) fun hx => hx
  | noPath => rw [h3.2]; exact hstay (by rw [h3.1]; decide) fun hx => hx
  | free d cs => rw [h3.2]; exact hstay (by rw [h3.1]; decide) fun hx => hx
  | self d => rw [h3.2]; exact hstay (by rw [h3.1]; decide) fun hx => hx
  | object d cs o =>
    obtain ⟨hok, inf, he, htold, -⟩ := h3
    have hub : st.2.1 ≠ UB := by rw [hok]; decide
    have hne : path ≠ [] := fun hx => by
      subst hx
      have := resolves_last hG
      rw [path_empty hp rfl] at this
      cases this
    obtain ⟨hd, ho, -⟩ := resolves_object hG
    have hat : inf.attr &&& 0x10 = byte o.entry 11 &&& 0x10 := by
      rw [htold.attr, ← (attr_bits _ (byte_lt (obj_ent (h.dirs d hd).dir ho).2 11)).1, show 0x3F = 2 ^ 6 - 1 from rfl, Nat.and_two_pow_sub_one_eq_mod]
    rw [he]
    unfold rmStat
    simp only
    by_cases hdir : IsDir o
    · rw [if_pos (show inf.attr &&& 0x10 ≠ 0 by rw [hat]; exact hdir)]
      by_cases hy : opt.recursive = true ∧ yes = true
      · rw [if_pos hy]
        exact hgo _ (rec_spec hr hbig hs hold k path abs l ⟨st.1, r.files, r.n + 1, st.2.1⟩ T F _ h1 hc hne hge hp hG hl) (by unfold Wanted; simp only [if_pos hdir]; exact hy)
      · rw [if_neg hy]
        exact hstay hub (by unfold Wanted; simp only [if_pos hdir]; exact hy)
    · rw [if_neg (show ¬ inf.attr &&& 0x10 ≠ 0 by rw [hat]; exact hdir)]
      by_cases hy : opt.force = true ∨ yes = true
      · rw [if_pos hy]
        exact hgo _ (unlink_removes hr hbig hs hold path abs l ⟨st.1, r.files, r.n + 1, st.2.1⟩ T F _ h1 hc hne hge hp hG hl) (by unfold Wanted; simp only [if_neg hdir]; exact hy)
      · rw [if_neg hy]
        exact hstay hub (by unfold Wanted; simp only [if_neg hdir]; exact hy)

/-! ## Example -/

/-- Four places for open objects, one of them with file `X.C` of the example, and other local variables in each call. -/
def trLocks : List Sem := [⟨⟨1, 0, 32⟩, 1⟩, ⟨⟨0, 0, 0⟩, 0⟩, ⟨⟨0, 9, 9⟩, 3⟩, ⟨⟨0, 0, 0⟩, 0⟩]
def trEnv (cdir : Nat) : Env := ⟨trV, trI, cdir, 1, fun n => (⟨n, 7, 7, 7⟩, List.replicate 256 (n + 1))⟩
def trRm : Rm := ⟨trS, trLocks, 0, FR_OK⟩

theorem tr_below (c : Nat) (h : Within trV trT 2 c) : c = 2 ∨ c = 5 := by
  have key : ∀ d ∈ trT, d.sclust = 2 ∨ d.sclust = 5 → ∀ o ∈ d.os, ¬ Dotted o → IsDir o → first trV o = 5 := by decide +kernel
  induction h with
  | self => exact .inl rfl
  | sub _ hd ho hdo hdir ih => exact .inr (key _ hd ih _ ho hdo hdir)

/-- Hypotheses of `C92_success` hold for directory `A` of the example. -/
example : Removable trV trT 0 1 trLocks 2 trRoot ⟨0, none, trA⟩ ∧ Listable trV trT 2 := by
  have hf : first trV ⟨0, none, trA⟩ = 2 := by decide +kernel
  refine ⟨⟨by decide, by decide, fun e he hw => ?_, fun hw => ?_, fun y hy => ⟨?_, fun hy1 hw => ?_⟩, ?_, by decide⟩, fun e he hw o ho hdo => ?_⟩
  · rw [hf] at hw
    have : ∀ e ∈ trT, e.sclust = 2 ∨ e.sclust = 5 → ∀ o ∈ e.os, ¬ Dotted o → ¬ ReadOnly o ∧ o.pos ≠ 0 := by unfold ReadOnly; decide +kernel
    exact this e he (tr_below _ hw)
  · rw [hf] at hw
    exact absurd (tr_below _ hw) (by decide)
  · revert y
    decide
  · rw [hf] at hw
    have hy2 : ∀ y ∈ trLocks, y.key.fs = 1 → ¬ (y.key.clu = 2 ∨ y.key.clu = 5) := by decide
    exact hy2 y hy hy1 (tr_below _ hw)
  · intro e he hes o ho hdo hdir
    have h5 : ∀ e ∈ trT, e.sclust = first trV ⟨0, none, trA⟩ → ∀ o ∈ e.os, ¬ Dotted o → IsDir o → first trV o = 5 := by decide +kernel
    rw [h5 e he hes o ho hdo hdir]
    intro e2 he2 hes2 o2 ho2 hdo2 hdir2
    have h6 : ∀ e ∈ trT, e.sclust = 5 → ∀ o ∈ e.os, Dotted o := by decide +kernel
    exact absurd (h6 e2 he2 hes2 o2 ho2) hdo2
  · have : ∀ e ∈ trT, e.sclust = 2 ∨ e.sclust = 5 → ∀ o ∈ e.os, ¬ Dotted o → o = ⟨2, none, trB⟩ := by decide +kernel
    rw [this e he (tr_below _ hw) o ho hdo]
    exact ⟨[66], by decide, by decide, .inr ⟨.inl rfl, [66], [], ⟨by decide, by decide, by decide, by decide, by decide, by decide⟩, by decide, by decide, by decide, by decide, by decide⟩⟩

example : Ready trV trI ∧ Sound trV ∧ Tree trV trI trT trF trS ∧ PathOf ([65] ++ [0]) false [[65]] ∧ Resolves trV trT 0 false [[65]] (.object trRoot [65] ⟨0, none, trA⟩) :=
  ⟨tr_ready, tr_sound, tr_tree, .segs (z := []) (p := [65, 0]) (by decide) (.last (cs := [65]) (t := [0]) (rest := []) (by decide) (by decide) (.fin (by decide))), trRoot, by simp [trT], rfl, .inr (.object (by decide) (by decide) tr_calls_a)⟩

/-- `rm -r a` with the answer yes, and with no answer. -/
example : (rmPath (trEnv 0) ⟨false, true⟩ true 5 [97] trRm ⟨[], 0, 0, 0, 0, 0⟩).res = FR_OK ∧ view (rmPath (trEnv 0) ⟨false, true⟩ true 5 [97] trRm ⟨[], 0, 0, 0, 0, 0⟩).st 2 = [0xE5] ++ trA.drop 1 ++ trX ∧
    view (rmPath (trEnv 0) ⟨false, true⟩ true 5 [97] trRm ⟨[], 0, 0, 0, 0, 0⟩).st 1 = [0xF8, 0xFF, 0xFF, 0, 0, 0, 6, 0, 0, 0xFF, 0x0F, 0] ++ List.replicate 52 0 ∧
    view (rmPath (trEnv 0) ⟨true, true⟩ false 5 [97] trRm ⟨[], 0, 0, 0, 0, 0⟩).st 2 = trA ++ trX := by decide +kernel

end Fpm.Tree
