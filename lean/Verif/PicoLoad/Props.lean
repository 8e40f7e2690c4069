import Verif.PicoLoad.Spec
import Verif.Tree.StatProps
import Verif.Statfs.Props
/-!
# C90: programs are taken from the right place of flash memory
-/
namespace Fpm.PicoLoad
open Fpm.Fat Fpm.Fat.Spec Fpm.FatFile.Spec Fpm.Lfn Fpm.Names Fpm.Names.Spec Fpm.TextIo.Spec Fpm.FatDir Fpm.FatDir.Spec Fpm.Mount Fpm.Mount.Spec Fpm.DirDev Fpm.DirDev.Spec Fpm.Tree Fpm.Tree.Spec Fpm.Statfs Fpm.Statfs.Spec Fpm.PicoLoad.Spec

/-- `f_stat` changes nothing that can be seen. -/
theorem stat_quiet {v : Vol} {i : Info} (hr : Ready v i) {T : List Dir} {F : List (List Nat)} {s : St} (h : Tree v i T F s) {cdir : Nat} (hc : ∃ d ∈ T, d.sclust = cdir) {path : List Nat} {abs : Bool} {l : List (List Nat)}
    (hp : PathOf path abs l) (dp : Dp) {buf : List Nat} (hb : buf.length = 256) (old : FInfo) : Quiet v s (fStat v i cdir path s dp buf old).1 := by
  have e : (fStat v i cdir path s dp buf old).1 = (followPath v i cdir path s dp buf).st := by
    unfold fStat statAt
    split
    · split
      · rfl
      · split
        · rfl
        · split <;> rfl
    · rfl
  rw [e]
  exact (follow_spec hr h hc hp dp hb).1

/-- No entry of the table of a volume in order is 1. -/
theorem links_ne_one {n : Nat} {f : Nat → Nat} (hn : 3 ≤ n) : ∀ {l : List Nat}, Links n f l → ∀ c ∈ l, f c ≠ 1
  | [], h, _, _ => by cases h
  | [c], h, x, hx => by
    rw [List.mem_singleton.mp hx]
    have := h.2.2
    omega
  | c :: d :: l, h, x, hx => by
    obtain ⟨h1, h2, h3, h4⟩ := h
    rcases List.mem_cons.mp hx with rfl | hx
    · have : 2 ≤ d := by
        cases l with
        | nil => exact h4.1
        | cons e l => exact h4.1
      omega
    · exact links_ne_one hn h4 x hx

theorem statfs_trace {v : Vol} (hg : Geo v) (hs : Sound v) {s : St} (hi : Inv v s) (hm : v.fsType ≠ 1 → Marked (tab v s)) (n : Nat) : Trace v s (statFs v n s).1 := by
  unfold statFs
  split
  · exact .refl v s
  · unfold statDone
    have := (countFree_spec hg hi hm).1.trace hs
    split <;> exact this

theorem not_fat2 {v : Vol} (hd : DataGeo v) {n : Nat} (h : v.database ≤ n) : ¬ Fat2 v n := by
  intro ⟨h1, _, h3⟩
  have := hd.base
  rw [h1] at this
  omega

/-- What `fpm_load_arch` does: the volume remains as it was, and the outcome depends on the path as described by `Taken`. -/
theorem C90_outcome (v : Vol) (i : Info) (hr : Ready v i) (hs : Sound v) (hsz : v.ss * v.csize < 2 ^ 32) (T : List Dir) (F : List (List Nat)) (s : St) (h : Tree v i T F s) (hm : v.fsType ≠ 1 → Marked (tab v s)) (cdir : Nat)
    (hc : ∃ d ∈ T, d.sclust = cdir) (path : List Nat) (abs : Bool) (l : List (List Nat)) (hp : PathOf path abs l) (dp : Dp) (buf : List Nat) (hb : buf.length = 256) (old : FInfo) (G : Goal) (hG : Resolves v T cdir abs l G)
    (r : St × Load) (he : r = loadArch v i cdir path s dp buf old) :
    Tree v i T F r.1 ∧ (∀ n, ¬ Fat2 v n → view r.1 n = view s n) ∧ (s.wflag = false → ∀ n, ¬ Fat2 v n → r.1.disk n = s.disk n) ∧ Taken v r.2 G := by
  have q := stat_quiet hr h hc hp dp hb old
  obtain ⟨h1, h2, h3⟩ := C88_stat v i hr T F s h cdir hc path abs l hp dp buf hb old G hG _ rfl
  unfold loadArch at he
  generalize fStat v i cdir path s dp buf old = p at q h1 h2 h3 he
  have hclean : ∀ {a b : St}, Inv v a → a.wflag = false → Trace v a b → ∀ n, ¬ Fat2 v n → b.disk n = a.disk n := by
    intro a b hi hf ht n hn
    rcases ht.2 with e | e
    · rw [e]
    · rw [e n hn]
      unfold view
      split
      · rename_i hw; exact hi.clean hf n hw
      · rfl
  have hpd := fun hf => hclean h.inv hf (q.trace hs)
  rcases h3 with ⟨-, -, h3⟩ | h3
  · exact absurd hs h3
  have fail : p.2.1 ≠ FR_OK → r = (p.1, .cannotOpen) := by
    intro hx
    rw [he]
    unfold loadInfo
    rw [if_neg hx]
  cases G with
  | badName => rw [fail (by rw [h3.1]; decide)]; exact ⟨h1, h2, hpd, rfl⟩
  | noPath => rw [fail (by rw [h3.1]; decide)]; exact ⟨h1, h2, hpd, rfl⟩
  | free d cs => rw [fail (by rw [h3.1]; decide)]; exact ⟨h1, h2, hpd, rfl⟩
  | self d => rw [fail (by rw [h3.1]; decide)]; exact ⟨h1, h2, hpd, rfl⟩
  | object d cs o =>
    obtain ⟨hok, x, hx, ht, -⟩ := h3
    have hm1 : v.fsType ≠ 1 → Marked (tab v p.1) := by rw [tab_same q.same]; exact hm
    obtain ⟨k1, k2, -, k3, k4⟩ := C89_statfs v i hr.toLayout hsz p.1 h1.inv h1.count hm1 _ rfl
    have k5 := statfs_trace hr.geo hs h1.inv hm1 i.totsec
    have hin : loadInfo v i old p = loadAt x.startblk (statFs v i.totsec p.1) := by
      unfold loadInfo
      rw [if_pos hok, hx]
      rfl
    rw [hin] at he
    generalize statFs v i.totsec p.1 = g at k1 k2 k3 k4 k5 he
    have hsame : Same v p.1 g.1 := k2
    have hst : r.1 = g.1 := by
      rw [he]
      unfold loadAt
      split
      · split
        · rfl
        · split <;> rfl
      · rfl
    rw [hst]
    refine ⟨⟨k1, k3, by rw [tab_same hsame]; exact h1.chains, h1.root, h1.once, fun d hd => dirok_quiet hr (tree_linked h1 hd) hsame (h1.dirs d hd), h1.refs, h1.files, h1.subs, h1.dots⟩, fun n hn => (k2 n hn).trans (h2 n hn), fun hf n hn => ?_, fun hd => ?_⟩
    · rcases k5.2 with e | e
      · rw [e]; exact hpd hf n hn
      · rw [e n hn, h2 n hn]
        unfold view
        split
        · rename_i hw; exact h.inv.clean hf n hw
        · rfl
    · rcases k4 with ⟨-, hn⟩ | ⟨-, -, c, c1, c2, c3⟩ | ⟨e1, -, f, e2, e3⟩
      · exact absurd hs hn
      · obtain ⟨m, hm1, hm2⟩ := List.mem_flatten.mp (h1.chains.used c c1 c2 (by rw [c3]; decide))
        exact absurd c3 (links_ne_one hr.geo.pos (h1.chains.chain m hm1) c hm2)
      · rw [he]
        unfold loadAt
        rw [if_pos e1, e2]
        simp only
        rw [ht.start hd, e3.bsize]
        split
        · rfl
        · have := hr.data.pos
          rw [if_neg (by omega)]

/-- The statement: the program is taken from the place where its bytes are in flash memory.  Nothing waits to be written, and flash memory has less than 4 gigabytes. -/
def C90_full : Prop := ∀ (v : Vol) (i : Info), Ready v i → Sound v → v.ss = 4096 → (i.volbase + i.totsec) * 4096 < 2 ^ 32 → ∀ (T : List Dir) (F : List (List Nat)) (s : St), Tree v i T F s → (v.fsType ≠ 1 → Marked (tab v s)) → s.wflag = false →
  ∀ cdir, (∃ d ∈ T, d.sclust = cdir) → ∀ (path : List Nat) (abs : Bool) (l : List (List Nat)), PathOf path abs l → ∀ (dp : Dp) (buf : List Nat), buf.length = 256 → ∀ (old : FInfo) (off : Nat), (loadArch v i cdir path s dp buf old).2 = .base off →
  ∃ d cs o m, Resolves v T cdir abs l (.object d cs o) ∧ ¬ IsDir o ∧ (m = [] ∨ m ∈ F) ∧ first v o = m.headD 0 ∧ LiesAt (loadArch v i cdir path s dp buf old).1.disk off (bytesOf v s m o)

theorem secs_one {v : Vol} (h1 : v.csize = 1) : ∀ (m : List Nat), secs v m = m.map fun c => v.database + (c - 2)
  | [] => rfl
  | c :: m => by
    have : secs v (c :: m) = sectors v c ++ secs v m := rfl
    rw [this, secs_one h1 m]
    unfold sectors
    rw [h1]
    simp [List.range_succ]

/-- It holds for files whose clusters lie one after another, on volumes with clusters of one sector; such files are taken. -/
theorem C90_place_partial (v : Vol) (i : Info) (hr : Ready v i) (hs : Sound v) (hss : v.ss = 4096) (hone : v.csize = 1) (hlim : (i.volbase + i.totsec) * 4096 < 2 ^ 32) (T : List Dir) (F : List (List Nat)) (s : St) (h : Tree v i T F s)
    (hm : v.fsType ≠ 1 → Marked (tab v s)) (hf : s.wflag = false) (cdir : Nat) (hc : ∃ d ∈ T, d.sclust = cdir) (path : List Nat) (abs : Bool) (l : List (List Nat)) (hp : PathOf path abs l) (dp : Dp) (buf : List Nat)
    (hb : buf.length = 256) (old : FInfo) (d : Dir) (cs : List Nat) (o : Obj) (hG : Resolves v T cdir abs l (.object d cs o)) (hd : ¬ IsDir o) (m : List Nat) (hmF : m ∈ F) (hfirst : first v o = m.headD 0) (hcons : Consecutive m) :
    ∃ off, (loadArch v i cdir path s dp buf old).2 = .base off ∧ LiesAt (loadArch v i cdir path s dp buf old).1.disk off (bytesOf v s m o) := by
  obtain ⟨-, -, h1, h2⟩ := C90_outcome v i hr hs (by rw [hss, hone]; decide) T F s h hm cdir hc path abs l hp dp buf hb old _ hG _ rfl
  have h2 := h2 hd
  have h1 := h1 hf
  generalize loadArch v i cdir path s dp buf old = r at h1 h2
  have hlink : Links v.nFatent (tab v s) m := h.chains.chain m (List.mem_append_right _ hmF)
  obtain ⟨c, m', rfl⟩ : ∃ c m', m = c :: m' := by
    cases m with
    | nil => cases hlink
    | cons c m' => exact ⟨c, m', rfl⟩
  have hmem : ∀ x ∈ c :: m', 2 ≤ x ∧ x < v.nFatent := links_mem hlink
  obtain ⟨hc1, hc2⟩ := hmem c (by simp)
  rw [hfirst, if_neg (by simp only [List.headD_cons]; omega)] at h2
  simp only [List.headD_cons, hone, hss, Nat.one_mul, Nat.mul_one] at h2
  have hin := hr.inside
  unfold Mount.Spec.clusters at hin
  rw [hone] at hin
  have hle : v.database + (c - 2) ≤ i.volbase + i.totsec := by clear h2 hlim; omega
  have hlt : (v.database + (c - 2)) * 4096 < 2 ^ 32 := Nat.lt_of_le_of_lt (Nat.mul_le_mul_right 4096 hle) hlim
  rw [Nat.mod_eq_of_lt hlt] at h2
  refine ⟨_, h2, fun k hk => ?_⟩
  have hlen : ∀ n ∈ secs v (c :: m'), (view s n).length = 4096 := fun n _ => by rw [← hss]; exact (view_sec h.inv n).1
  unfold bytesOf at hk ⊢
  have hk1 : k < size o := by rw [List.length_take] at hk; omega
  have hk2 : k < ((secs v (c :: m')).flatMap (view s)).length := by rw [List.length_take] at hk; omega
  rw [List.getElem?_take_of_lt hk1, flatGet (by decide) _ hlen, secs_one hone, List.getElem?_map]
  rw [flatLength _ hlen, secs_one hone, List.length_map] at hk2
  rw [hcons (k / 4096) (by omega)]
  simp only [List.headD_cons, Option.map_some, Option.bind_some]
  unfold image
  rw [show ((v.database + (c - 2)) * 4096 + k) / 4096 = v.database + (c + k / 4096 - 2) by omega, show ((v.database + (c - 2)) * 4096 + k) % 4096 = k % 4096 by omega, h1 _ (not_fat2 hr.data (by omega))]
  congr 1
  unfold view
  split
  · rename_i hw; exact (h.inv.clean hf _ hw).symm
  · rfl

end Fpm.PicoLoad
