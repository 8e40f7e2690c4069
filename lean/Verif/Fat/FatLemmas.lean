import Verif.Fat.BitLemmas
/-!
# `get_fat` and `put_fat`
-/
namespace Fpm.Fat
open Fpm.Fat.Spec Fpm.FatBytes

theorem bytes_of {v : Vol} (hg : Geo v) {s : St} (hi : Inv v s) : Bytes v (view s) := by
  refine ⟨hg.ss, fun n => ?_⟩
  unfold view
  split
  · exact hi.win
  · exact hi.disk n

theorem sector_fat1 {v : Vol} (hg : Geo v) {k : Nat} (hk : k < v.fsize * v.ss) : Fat1 v (v.fatbase + k / v.ss) := by
  have := (Nat.div_lt_iff_lt_mul hg.ss.2).mpr hk
  exact ⟨Nat.le_add_right _ _, by omega⟩

theorem fat1_not2 {v : Vol} {n : Nat} (h : Fat1 v n) : ¬ Fat2 v n := by
  rintro ⟨-, h1, -⟩
  have := h.2
  omega

theorem B_same {v : Vol} (hg : Geo v) {s s' : St} (h : Same v s s') {k : Nat} (hk : k < v.fsize * v.ss) : B v (view s') k = B v (view s) k := by
  unfold B
  rw [h _ (fat1_not2 (sector_fat1 hg hk))]

theorem win_get {v : Vol} (hg : Geo v) {s s' : St} (hi : Inv v s) {k : Nat} (h : s'.win = view s (v.fatbase + k / v.ss)) :
    s'.win[k % v.ss]? = some (B v (view s) k) := by
  have hs := ((bytes_of hg hi).sec (v.fatbase + k / v.ss)).1
  have hm : k % v.ss < (view s (v.fatbase + k / v.ss)).length := by rw [hs]; exact Nat.mod_lt _ hg.ss.2
  unfold B
  rw [h, List.getD_eq_getElem?_getD, List.getElem?_eq_getElem hm]
  rfl

/-- Multiples of a divisor of the sector size do not cross a sector. -/
theorem div_same {ss k i m : Nat} (h0 : 0 < ss) (hm : ss % m = 0) (hk : k % m = 0) (hi : i < m) : (k + i) / ss = k / ss ∧ (k + i) % ss = k % ss + i := by
  obtain ⟨q, rfl⟩ := Nat.dvd_of_mod_eq_zero hm
  obtain ⟨p, rfl⟩ := Nat.dvd_of_mod_eq_zero hk
  have hmpos : 0 < m := by omega
  have hq : 0 < q := Nat.pos_of_mul_pos_left h0
  have h1 : (m * p + i) / (m * q) = p / q := by
    rw [← Nat.div_div_eq_div_mul, Nat.mul_add_div hmpos, Nat.div_eq_of_lt hi, Nat.add_zero]
  have h2 : m * p / (m * q) = p / q := Nat.mul_div_mul_left _ _ hmpos
  refine ⟨h1.trans h2.symm, ?_⟩
  have e1 := Nat.div_add_mod (m * p + i) (m * q)
  have e2 := Nat.div_add_mod (m * p) (m * q)
  rw [h1] at e1
  rw [h2] at e2
  omega

theorem sect16 {v : Vol} (hg : Geo v) (c : Nat) : c / (v.ss / 2) = 2 * c / v.ss := by
  obtain ⟨q, hq⟩ := Nat.dvd_of_mod_eq_zero hg.ss.1
  rw [hq, show 4 * q = 2 * (2 * q) from by omega, Nat.mul_div_cancel_left _ (by decide), Nat.mul_div_mul_left _ _ (by decide)]

theorem sect32 {v : Vol} (hg : Geo v) (c : Nat) : c / (v.ss / 4) = 4 * c / v.ss := by
  obtain ⟨q, hq⟩ := Nat.dvd_of_mod_eq_zero hg.ss.1
  rw [hq, Nat.mul_div_cancel_left _ (by decide), Nat.mul_div_mul_left _ _ (by decide)]

theorem size12 {v : Vol} (hg : Geo v) (ht : v.fsType = 1) {c : Nat} (hc : c < v.nFatent) : bc12 c + 1 < v.fsize * v.ss := by
  have := hg.size
  unfold bc12
  simp only [width, ht, if_true] at this
  omega

theorem size16 {v : Vol} (hg : Geo v) (ht : v.fsType = 2) {c : Nat} (hc : c < v.nFatent) : 2 * c + 1 < v.fsize * v.ss := by
  have := hg.size
  simp only [width, ht] at this
  simp at this
  omega

theorem size32 {v : Vol} (hg : Geo v) (ht : v.fsType = 3) {c : Nat} (hc : c < v.nFatent) : 4 * c + 3 < v.fsize * v.ss := by
  have := hg.size
  simp only [width, ht] at this
  simp at this
  omega

theorem kinds {v : Vol} (hg : Geo v) : v.fsType = 1 ∨ v.fsType = 2 ∨ v.fsType = 3 := by
  rcases hg.kind with h | h | h
  · exact .inl h.1
  · exact .inr (.inl h.1)
  · exact .inr (.inr h.1)

/-- The entry by bytes. -/
def byBytes (v : Vol) (d : Disk) (c : Nat) : Nat :=
  if v.fsType = 1 then if c % 2 = 1 then B v d (bc12 c) / 16 + 16 * B v d (bc12 c + 1) else B v d (bc12 c) + 256 * (B v d (bc12 c + 1) % 16)
  else if v.fsType = 2 then B v d (2 * c) + 256 * B v d (2 * c + 1)
  else B v d (4 * c) + 256 * (B v d (4 * c + 1) + 256 * (B v d (4 * c + 2) + 256 * B v d (4 * c + 3)))

theorem entry_eq {v : Vol} (hg : Geo v) {d : Disk} (hb : Bytes v d) {c : Nat} (hc : c < v.nFatent) : entry (width v) (area v d) c = byBytes v d c := by
  unfold byBytes width
  rcases kinds hg with h | h | h
  · rw [if_pos h, if_pos h, entry12 hb (size12 hg h hc)]
  · rw [if_neg (by omega), if_pos h, if_neg (by omega), if_pos h, entry16 hb (size16 hg h hc)]
  · rw [if_neg (by omega), if_neg (by omega), if_neg (by omega), if_neg (by omega), entry32 hb (size32 hg h hc)]

/-- What `get_fat` does. -/
theorem getFat_spec {v : Vol} (hg : Geo v) {s : St} (hi : Inv v s) {c : Nat} (h2 : 2 ≤ c) (hc : c < v.nFatent) :
    ∃ s' r, getFat v s c = (s', r) ∧ Inv v s' ∧ Same v s s' ∧ Rest s s' ∧ (Sound v → Trace v s s') ∧
      (r = fat v (view s) c ∨ r = DERR ∧ ¬ Sound v) := by
  have hb := bytes_of hg hi
  unfold getFat
  rw [if_neg (by omega)]
  unfold fat
  rw [entry_eq hg hb hc]
  rcases kinds hg with ht | ht | ht
  · rw [if_pos ht]
    have hk := size12 hg ht hc
    have hk0 : bc12 c < v.fsize * v.ss := by omega
    unfold getFat12
    rcases window_spec hg hi (fat1_not2 (sector_fat1 hg hk0)) DERR _ with ⟨s1, h1, i1, sm1, r1, ns, nw1⟩ | ⟨s1, h1, i1, sm1, r1, tr1, w1, win1, un1⟩
    · rw [h1]; exact ⟨s1, DERR, rfl, i1, sm1, r1, fun h => absurd h ns, .inr ⟨rfl, ns⟩⟩
    · rw [h1, win_get hg hi win1, fromWin]
      rcases window_spec hg i1 (fat1_not2 (sector_fat1 hg hk)) DERR _ with ⟨s2, h2, i2, sm2, r2, ns, nw2⟩ | ⟨s2, h2, i2, sm2, r2, tr2, w2, win2, un2⟩
      · rw [h2]; exact ⟨s2, DERR, rfl, i2, sm1.trans sm2, r1.trans r2, fun h => absurd h ns, .inr ⟨rfl, ns⟩⟩
      · rw [h2, win_get hg i1 win2, fromWin]
        refine ⟨s2, _, rfl, i2, sm1.trans sm2, r1.trans r2, fun h => (tr1 h).trans sm1 (tr2 h), .inl ?_⟩
        rw [B_same hg sm1 hk, val12_eq (hb.lt _)]
        unfold byBytes bits
        rw [if_pos ht, if_pos ht]
        have := hb.lt (bc12 c)
        have := hb.lt (bc12 c + 1)
        split <;> omega
  · rw [if_neg (by omega), if_pos ht]
    have hk := size16 hg ht hc
    have hk0 : 2 * c < v.fsize * v.ss := by omega
    unfold getFat16
    rw [sect16 hg]
    rcases window_spec hg hi (fat1_not2 (sector_fat1 hg hk0)) DERR _ with ⟨s1, h1, i1, sm1, r1, ns, nw1⟩ | ⟨s1, h1, i1, sm1, r1, tr1, w1, win1, un1⟩
    · rw [h1]; exact ⟨s1, DERR, rfl, i1, sm1, r1, fun h => absurd h ns, .inr ⟨rfl, ns⟩⟩
    · have hd := div_same (ss := v.ss) (k := 2 * c) (i := 1) (m := 2) hg.ss.2 (by have := hg.ss.1; omega) (by omega) (by omega)
      have g0 := win_get hg hi win1
      have g1 := win_get (k := 2 * c + 1) hg hi (by rw [hd.1]; exact win1)
      rw [hd.2] at g1
      rw [h1, Nat.mul_comm c 2, ld16 g0 g1 (hb.lt _) (hb.lt _), fromWin]
      refine ⟨s1, _, rfl, i1, sm1, r1, tr1, .inl ?_⟩
      unfold byBytes bits
      rw [if_neg (by omega), if_pos ht, if_neg (by omega), if_pos ht]
      have := hb.lt (2 * c)
      have := hb.lt (2 * c + 1)
      omega
  · rw [if_neg (by omega), if_neg (by omega), if_pos ht]
    have hk := size32 hg ht hc
    have hk0 : 4 * c < v.fsize * v.ss := by omega
    unfold getFat32
    rw [sect32 hg]
    rcases window_spec hg hi (fat1_not2 (sector_fat1 hg hk0)) DERR _ with ⟨s1, h1, i1, sm1, r1, ns, nw1⟩ | ⟨s1, h1, i1, sm1, r1, tr1, w1, win1, un1⟩
    · rw [h1]; exact ⟨s1, DERR, rfl, i1, sm1, r1, fun h => absurd h ns, .inr ⟨rfl, ns⟩⟩
    · have hd := fun i hi => div_same (ss := v.ss) (k := 4 * c) (i := i) (m := 4) hg.ss.2 hg.ss.1 (by omega) hi
      have g0 := win_get hg hi win1
      have g1 := win_get (k := 4 * c + 1) hg hi (by rw [(hd 1 (by omega)).1]; exact win1)
      have g2 := win_get (k := 4 * c + 2) hg hi (by rw [(hd 2 (by omega)).1]; exact win1)
      have g3 := win_get (k := 4 * c + 3) hg hi (by rw [(hd 3 (by omega)).1]; exact win1)
      rw [(hd 1 (by omega)).2] at g1
      rw [(hd 2 (by omega)).2] at g2
      rw [(hd 3 (by omega)).2] at g3
      rw [h1, Nat.mul_comm c 4, ld32 g0 g1 g2 g3 (hb.lt _) (hb.lt _) (hb.lt _) (hb.lt _), fromWin]
      refine ⟨s1, _, rfl, i1, sm1, r1, tr1, .inl ?_⟩
      unfold byBytes bits
      rw [if_neg (by omega), if_neg (by omega), if_neg (by omega), if_neg (by omega), show (0x0FFFFFFF : Nat) = 2 ^ 28 - 1 from rfl, and_mask]

/-- Storing a byte through the window. -/
theorem set_byte {v : Vol} (hg : Geo v) {s : St} (hi : Inv v s) {k x : Nat} (hw : s.winsect = some (v.fatbase + k / v.ss)) (hx : x < 256) :
    Inv v (setWin s (s.win.set (k % v.ss) x)) ∧ (∀ n, n ≠ v.fatbase + k / v.ss → view (setWin s (s.win.set (k % v.ss) x)) n = view s n) ∧
    (∀ j, B v (view (setWin s (s.win.set (k % v.ss) x))) j = if j = k then x else B v (view s) j) := by
  refine ⟨⟨hi.disk, ⟨by simp [setWin, hi.win.1], ?_⟩, (fun h => by cases h), fun _ => ?_, hi.fat2⟩, fun n hn => ?_, fun j => ?_⟩
  · intro y hy
    rcases List.mem_or_eq_of_mem_set hy with h | rfl
    · exact hi.win.2 y h
    · exact hx
  · simp only [setWin]; rw [hw]; simp
  · unfold view setWin
    simp only [hw]
    rw [if_neg (by simpa using Ne.symm hn), if_neg (by simpa using Ne.symm hn)]
  · unfold B view setWin
    simp only [hw, Option.some.injEq]
    by_cases h : v.fatbase + k / v.ss = v.fatbase + j / v.ss
    · rw [if_pos h, if_pos h]
      have hm : k % v.ss < s.win.length := by rw [hi.win.1]; exact Nat.mod_lt _ hg.ss.2
      simp only [List.getD_eq_getElem?_getD]
      by_cases hjk : j = k
      · subst hjk
        rw [if_pos rfl, List.getElem?_set_self hm]; rfl
      · rw [if_neg hjk, List.getElem?_set_ne]
        intro he
        have e1 := Nat.div_add_mod k v.ss
        have e2 := Nat.div_add_mod j v.ss
        rw [he, show k / v.ss = j / v.ss from by omega] at e1
        omega
    · rw [if_neg h, if_neg h, if_neg (by rintro rfl; exact h rfl)]

/-- An entry of FAT12 in two sectors. -/
def Straddle (v : Vol) (c : Nat) : Prop := v.fsType = 1 ∧ bc12 c / v.ss ≠ (bc12 c + 1) / v.ss

/-- The bytes of an entry after writing it. -/
structure Put (v : Vol) (s s' : St) (c val : Nat) : Prop where
  out : ∀ n, ¬ Fat1 v n → ¬ Fat2 v n → view s' n = view s n
  other : ∀ c', c' ≠ c → c' < v.nFatent → byBytes v (view s') c' = byBytes v (view s) c'
  same : byBytes v (view s') c = val % 2 ^ bits v + 2 ^ bits v * (byBytes v (view s) c / 2 ^ bits v)

theorem setWin_setWin (s : St) (a b : List Nat) : setWin (setWin s a) b = setWin s b := rfl

theorem byBytes_same {v : Vol} (hg : Geo v) {s s' : St} (h : Same v s s') {c : Nat} (hc : c < v.nFatent) : byBytes v (view s') c = byBytes v (view s) c := by
  unfold byBytes
  rcases kinds hg with ht | ht | ht
  · have := size12 hg ht hc
    rw [if_pos ht, if_pos ht, B_same hg h (by omega), B_same hg h (by omega)]
  · have := size16 hg ht hc
    rw [if_neg (by omega), if_pos ht, if_neg (by omega), if_pos ht, B_same hg h (by omega), B_same hg h (by omega)]
  · have := size32 hg ht hc
    rw [if_neg (by omega), if_neg (by omega), if_neg (by omega), if_neg (by omega), B_same hg h (by omega), B_same hg h (by omega), B_same hg h (by omega), B_same hg h (by omega)]

theorem Put.of_same {v : Vol} (hg : Geo v) {s s1 s' : St} {c val : Nat} (hc : c < v.nFatent) (h : Same v s s1) (hp : Put v s1 s' c val) : Put v s s' c val where
  out n h1 h2 := (hp.out n h1 h2).trans (h n h2)
  other c' h1 h2 := (hp.other c' h1 h2).trans (byBytes_same hg h h2)
  same := by rw [hp.same, byBytes_same hg h hc]

theorem trace_setWin {v : Vol} {s s' : St} {w : List Nat} (h : Trace v s s') : Trace v s (setWin s' w) := h

/-- Storing two bytes. -/
theorem put16 {v : Vol} (hg : Geo v) {s : St} (hi : Inv v s) {c val : Nat} (ht : v.fsType = 2) (hc : c < v.nFatent) (hw : s.winsect = some (v.fatbase + 2 * c / v.ss)) :
    ∃ s', stored s (stWord s.win (2 * c % v.ss) (val % 2 ^ 16)) = (s', FR_OK) ∧ Inv v s' ∧ Put v s s' c val ∧ ∃ w, s' = setWin s w := by
  have hd := div_same (ss := v.ss) (k := 2 * c) (i := 1) (m := 2) hg.ss.2 (by have := hg.ss.1; omega) (by omega) (by omega)
  have hlen : 2 * c % v.ss + 1 < s.win.length := by rw [← hd.2, hi.win.1]; exact Nat.mod_lt _ hg.ss.2
  have hk := size16 hg ht hc
  rw [st16 hlen, stored]
  obtain ⟨i1, o1, b1⟩ := set_byte hg hi hw (x := val % 2 ^ 16 % 256) (by omega)
  obtain ⟨i2, o2, b2⟩ := set_byte (k := 2 * c + 1) hg i1 (by rw [hd.1]; exact hw) (x := val % 2 ^ 16 / 256 % 256) (by omega)
  rw [hd.2] at i2 o2 b2
  rw [hd.1] at o2
  refine ⟨_, rfl, i2, ⟨fun n h1 h2 => ?_, fun c' hne hc' => ?_, ?_⟩, _, rfl⟩
  · have hn : n ≠ v.fatbase + 2 * c / v.ss := by rintro rfl; exact h1 (sector_fat1 hg (by omega))
    exact (o2 n hn).trans (o1 n hn)
  · unfold byBytes
    rw [if_neg (by omega), if_pos ht, if_neg (by omega), if_pos ht]
    have e0 := b2 (2 * c')
    have e1 := b2 (2 * c' + 1)
    rw [b1, if_neg (by omega), if_neg (by omega)] at e0 e1
    have key : ∀ a b a' b' : Nat, a = a' → b = b' → a + 256 * b = a' + 256 * b' := by omega
    exact key _ _ _ _ e0 e1
  · unfold byBytes bits
    rw [if_neg (by omega), if_pos ht, if_neg (by omega), if_pos ht, if_neg (by omega), if_pos ht]
    have e0 := b2 (2 * c)
    have e1 := b2 (2 * c + 1)
    rw [b1, if_neg (by omega), if_pos rfl] at e0
    rw [if_pos rfl] at e1
    have hb := bytes_of hg hi
    have := hb.lt (2 * c)
    have := hb.lt (2 * c + 1)
    have key : ∀ a b : Nat, a = val % 2 ^ 16 % 256 → b = val % 2 ^ 16 / 256 % 256 →
        a + 256 * b = val % 2 ^ 16 + 2 ^ 16 * ((B v (view s) (2 * c) + 256 * B v (view s) (2 * c + 1)) / 2 ^ 16) := by omega
    exact key _ _ e0 e1

/-- Storing four bytes. -/
theorem put32 {v : Vol} (hg : Geo v) {s : St} (hi : Inv v s) {c val : Nat} (ht : v.fsType = 3) (hc : c < v.nFatent) (hw : s.winsect = some (v.fatbase + 4 * c / v.ss)) :
    ∃ s', stored s (stDword s.win (4 * c % v.ss) (val % 2 ^ 28 + 2 ^ 28 * (byBytes v (view s) c / 2 ^ 28))) = (s', FR_OK) ∧ Inv v s' ∧ Put v s s' c val ∧ ∃ w, s' = setWin s w := by
  have hd := fun i hi => div_same (ss := v.ss) (k := 4 * c) (i := i) (m := 4) hg.ss.2 hg.ss.1 (by omega) hi
  have hlen : 4 * c % v.ss + 3 < s.win.length := by rw [← (hd 3 (by omega)).2, hi.win.1]; exact Nat.mod_lt _ hg.ss.2
  have hk := size32 hg ht hc
  have hb := bytes_of hg hi
  have hx : byBytes v (view s) c < 2 ^ 32 := by
    unfold byBytes
    rw [if_neg (by omega), if_neg (by omega)]
    have := hb.lt (4 * c)
    have := hb.lt (4 * c + 1)
    have := hb.lt (4 * c + 2)
    have := hb.lt (4 * c + 3)
    omega
  have hvlt : val % 2 ^ 28 + 2 ^ 28 * (byBytes v (view s) c / 2 ^ 28) < 2 ^ 32 := by omega
  generalize hy : val % 2 ^ 28 + 2 ^ 28 * (byBytes v (view s) c / 2 ^ 28) = y at *
  rw [st32 hlen, stored]
  obtain ⟨i1, o1, b1⟩ := set_byte hg hi hw (x := y % 256) (by omega)
  obtain ⟨i2, o2, b2⟩ := set_byte (k := 4 * c + 1) hg i1 (by rw [(hd 1 (by omega)).1]; exact hw) (x := y / 256 % 256) (by omega)
  rw [(hd 1 (by omega)).2] at i2 o2 b2
  obtain ⟨i3, o3, b3⟩ := set_byte (k := 4 * c + 2) hg i2 (by rw [(hd 2 (by omega)).1]; exact hw) (x := y / 256 / 256 % 256) (by omega)
  rw [(hd 2 (by omega)).2] at i3 o3 b3
  obtain ⟨i4, o4, b4⟩ := set_byte (k := 4 * c + 3) hg i3 (by rw [(hd 3 (by omega)).1]; exact hw) (x := y / 256 / 256 / 256 % 256) (by omega)
  rw [(hd 3 (by omega)).2] at i4 o4 b4
  rw [(hd 1 (by omega)).1] at o2
  rw [(hd 2 (by omega)).1] at o3
  rw [(hd 3 (by omega)).1] at o4
  refine ⟨_, rfl, i4, ⟨fun n h1 h2 => ?_, fun c' hne hc' => ?_, ?_⟩, _, rfl⟩
  · have hn : n ≠ v.fatbase + 4 * c / v.ss := by rintro rfl; exact h1 (sector_fat1 hg (by omega))
    exact (o4 n hn).trans ((o3 n hn).trans ((o2 n hn).trans (o1 n hn)))
  · have e : ∀ i, i < 4 → B v (view (setWin s ((((s.win.set (4 * c % v.ss) (y % 256)).set (4 * c % v.ss + 1) (y / 256 % 256)).set (4 * c % v.ss + 2) (y / 256 / 256 % 256)).set (4 * c % v.ss + 3) (y / 256 / 256 / 256 % 256)))) (4 * c' + i) = B v (view s) (4 * c' + i) := by
      intro i hi4
      have e := b4 (4 * c' + i)
      rw [b3, b2, b1, if_neg (by omega), if_neg (by omega), if_neg (by omega), if_neg (by omega)] at e
      exact e
    unfold byBytes
    rw [if_neg (by omega), if_neg (by omega), if_neg (by omega), if_neg (by omega)]
    have key : ∀ a b c d a' b' c' d' : Nat, a = a' → b = b' → c = c' → d = d' → a + 256 * (b + 256 * (c + 256 * d)) = a' + 256 * (b' + 256 * (c' + 256 * d')) := by omega
    exact key _ _ _ _ _ _ _ _ (e 0 (by omega)) (e 1 (by omega)) (e 2 (by omega)) (e 3 (by omega))
  · have e0 := b4 (4 * c)
    have e1 := b4 (4 * c + 1)
    have e2 := b4 (4 * c + 2)
    have e3 := b4 (4 * c + 3)
    rw [b3, b2, b1, if_neg (by omega), if_neg (by omega), if_neg (by omega), if_pos rfl] at e0
    rw [b3, b2, if_neg (by omega), if_neg (by omega), if_pos rfl] at e1
    rw [b3, if_neg (by omega), if_pos rfl] at e2
    rw [if_pos rfl] at e3
    have hbits : bits v = 28 := by unfold bits; rw [if_neg (by omega), if_neg (by omega)]
    rw [hbits, hy]
    conv => lhs; unfold byBytes
    rw [if_neg (by omega), if_neg (by omega)]
    have : ∀ a b c d, a = y % 256 → b = y / 256 % 256 → c = y / 256 / 256 % 256 → d = y / 256 / 256 / 256 % 256 → a + 256 * (b + 256 * (c + 256 * d)) = y := by omega
    exact this _ _ _ _ e0 e1 e2 e3

/-- What `put_fat` does. -/
theorem putFat_spec {v : Vol} (hg : Geo v) {s : St} (hi : Inv v s) {c val : Nat} (h2 : 2 ≤ c) (hc : c < v.nFatent) :
    ∃ s' r, putFat v s c val = (s', r) ∧ Inv v s' ∧ Rest s s' ∧ (Sound v → ¬ Straddle v c → Trace v s s') ∧
      (r = FR_OK ∧ Put v s s' c val ∨
       r = FR_DISK_ERR ∧ ¬ Sound v ∧ (∀ n, ¬ Fat1 v n → ¬ Fat2 v n → view s' n = view s n) ∧
        (∀ c', c' ≠ c → c' < v.nFatent → byBytes v (view s') c' = byBytes v (view s) c') ∧ (¬ Straddle v c → Same v s s')) := by
  have hb := bytes_of hg hi
  unfold putFat
  rw [if_neg (by omega)]
  rcases kinds hg with ht | ht | ht
  · rw [if_pos ht]
    have hk := size12 hg ht hc
    have hk0 : bc12 c < v.fsize * v.ss := by omega
    unfold putFat12
    rcases window_spec hg hi (fat1_not2 (sector_fat1 hg hk0)) FR_DISK_ERR _ with ⟨s1, h1, i1, sm1, r1, ns, nw1⟩ | ⟨s1, h1, i1, sm1, r1, tr1, w1, win1, un1⟩
    · rw [h1]
      exact ⟨s1, FR_DISK_ERR, rfl, i1, r1, fun h => absurd h ns, .inr ⟨rfl, ns, fun n _ h => sm1 n h, fun c' _ h => byBytes_same hg sm1 h, fun _ => sm1⟩⟩
    · rw [h1, win_get hg hi win1, fromWin]
      have b0 := hb.lt (bc12 c)
      have b0' := hb.lt (bc12 c + 1)
      have hf := first12_eq c val (B v (view s) (bc12 c))
      have hflt : first12 c val (B v (view s) (bc12 c)) < 256 := by rw [hf]; split <;> omega
      obtain ⟨i2, o2, by2⟩ := set_byte hg i1 w1 hflt
      obtain ⟨t, ht'⟩ : ∃ t, t = setWin s1 (s1.win.set (bc12 c % v.ss) (first12 c val (B v (view s) (bc12 c)))) := ⟨_, rfl⟩
      rw [← ht'] at i2 o2 by2 ⊢
      -- entries other than `c` with the first byte written
      have half : ∀ c', c' ≠ c → c' < v.nFatent → byBytes v (view t) c' = byBytes v (view s) c' := by
        intro c' hne hc'
        have hk' := size12 hg ht hc'
        have e0 := by2 (bc12 c')
        have e1 := by2 (bc12 c' + 1)
        rw [B_same hg sm1 (by omega)] at e0
        rw [B_same hg sm1 (by omega)] at e1
        unfold byBytes
        rw [if_pos ht, if_pos ht]
        have g0 := hb.lt (bc12 c')
        have g1 := hb.lt (bc12 c' + 1)
        rw [hf] at e0 e1
        unfold bc12 at *
        by_cases p1 : c' % 2 = 1 <;> by_cases p2 : c % 2 = 1
        · rw [if_pos p1, if_pos p1, e0, e1, if_neg (by omega), if_neg (by omega)]
        · rw [if_pos p1, if_pos p1, e0, e1, if_neg (by omega), if_neg (by omega)]
        · rw [if_neg p1, if_neg p1, e0, e1, if_neg (by omega)]
          by_cases hh : c' + c' / 2 + 1 = c + c / 2
          · rw [if_pos hh, if_pos p2, hh]; omega
          · rw [if_neg hh]
        · rw [if_neg p1, if_neg p1, e0, e1, if_neg (by omega), if_neg (by omega)]
      rcases window_spec hg i2 (fat1_not2 (sector_fat1 hg hk)) FR_DISK_ERR _ with ⟨s3, h3, i3, sm3, r3, ns, nw3⟩ | ⟨s3, h3, i3, sm3, r3, tr3, w3, win3, un3⟩
      · rw [h3]
        refine ⟨s3, FR_DISK_ERR, rfl, i3, r1.trans (Rest.trans (b := t) ?_ r3), fun h => absurd h ns, .inr ⟨rfl, ns, fun n n1 n2 => ?_, fun c' hne hc' => ?_, fun hst => ?_⟩⟩
        · rw [ht']; exact ⟨rfl, rfl, rfl⟩
        · rw [sm3 n n2, o2 n (by rintro rfl; exact n1 (sector_fat1 hg hk0)), sm1 n n2]
        · rw [byBytes_same hg sm3 hc', half c' hne hc']
        · -- in one sector the second `move_window` does nothing
          exfalso
          have hsec : bc12 c / v.ss = (bc12 c + 1) / v.ss := Classical.byContradiction fun h => hst ⟨ht, h⟩
          exact nw3 (by rw [ht', ← hsec]; exact w1)
      · rw [h3, win_get hg i2 win3, fromWin]
        have hBt : B v (view t) (bc12 c + 1) = B v (view s) (bc12 c + 1) := by
          rw [by2, if_neg (by omega), B_same hg sm1 hk]
        rw [hBt]
        have hs2 := second12_eq c val b0'
        have hslt : second12 c val (B v (view s) (bc12 c + 1)) < 256 := by rw [hs2]; split <;> omega
        generalize second12 c val (B v (view s) (bc12 c + 1)) = x2 at *
        obtain ⟨i4, o4, by4⟩ := set_byte hg i3 w3 hslt
        have hB3 : ∀ j, j < v.fsize * v.ss → B v (view s3) j = B v (view t) j := fun j hj => B_same hg sm3 hj
        refine ⟨_, FR_OK, rfl, i4, r1.trans (Rest.trans (b := t) ?_ (r3.trans ⟨rfl, rfl, rfl⟩)), fun hs hst => ?_, .inl ⟨rfl, fun n n1 n2 => ?_, fun c' hne hc' => ?_, ?_⟩⟩
        · rw [ht']; exact ⟨rfl, rfl, rfl⟩
        · have hsec : bc12 c / v.ss = (bc12 c + 1) / v.ss := Classical.byContradiction fun h => hst ⟨ht, h⟩
          obtain rfl := un3 (by rw [ht', ← hsec]; exact w1)
          rw [ht']
          exact trace_setWin (trace_setWin (tr1 hs))
        · rw [o4 n (by rintro rfl; exact n1 (sector_fat1 hg hk)), sm3 n n2, o2 n (by rintro rfl; exact n1 (sector_fat1 hg hk0)), sm1 n n2]
        · rw [← half c' hne hc']
          have hk' := size12 hg ht hc'
          have e0 := by4 (bc12 c')
          have e1 := by4 (bc12 c' + 1)
          rw [hB3 _ (by omega)] at e0
          rw [hB3 _ (by omega)] at e1
          unfold byBytes
          rw [if_pos ht, if_pos ht]
          have hbt := bytes_of hg i2
          have g0 := hbt.lt (bc12 c')
          have g1 := hbt.lt (bc12 c' + 1)
          rw [← hBt] at hs2
          unfold bc12 at *
          by_cases p1 : c' % 2 = 1 <;> by_cases p2 : c % 2 = 1
          · rw [if_pos p1, if_pos p1, e0, e1, if_neg (by omega), if_neg (by omega)]
          · rw [if_pos p1, if_pos p1, e0, e1, if_neg (show ¬ c' + c' / 2 + 1 = c + c / 2 + 1 from by omega)]
            by_cases hh : c' + c' / 2 = c + c / 2 + 1
            · rw [if_pos hh, hs2, if_neg p2, ← hh]; omega
            · rw [if_neg hh]
          · rw [if_neg p1, if_neg p1, e0, e1, if_neg (by omega), if_neg (by omega)]
          · rw [if_neg p1, if_neg p1, e0, e1, if_neg (by omega), if_neg (by omega)]
        · have e0 := by4 (bc12 c)
          have e1 := by4 (bc12 c + 1)
          rw [if_neg (by omega), hB3 _ hk0, by2, if_pos rfl, hf] at e0
          rw [if_pos rfl] at e1
          unfold byBytes bits
          rw [if_pos ht, if_pos ht, if_pos ht]
          rw [e0, e1, hs2]
          split <;> omega
  · rw [if_neg (by omega), if_pos ht]
    have hk := size16 hg ht hc
    unfold putFat16
    rw [sect16 hg]
    have hns : ¬ Straddle v c := by rintro ⟨h, -⟩; omega
    rcases window_spec hg hi (fat1_not2 (sector_fat1 hg (k := 2 * c) (by omega))) FR_DISK_ERR _ with ⟨s1, h1, i1, sm1, r1, ns, nw1⟩ | ⟨s1, h1, i1, sm1, r1, tr1, w1, win1, un1⟩
    · rw [h1]
      exact ⟨s1, FR_DISK_ERR, rfl, i1, r1, fun h => absurd h ns, .inr ⟨rfl, ns, fun n _ h => sm1 n h, fun c' _ h => byBytes_same hg sm1 h, fun _ => sm1⟩⟩
    · obtain ⟨s2, e2, i2, p2, w, rfl⟩ := put16 (val := val) hg i1 ht hc w1
      rw [h1, Nat.mul_comm c 2, e2]
      exact ⟨_, FR_OK, rfl, i2, r1.trans ⟨rfl, rfl, rfl⟩, fun h _ => trace_setWin (tr1 h), .inl ⟨rfl, p2.of_same hg hc sm1⟩⟩
  · rw [if_neg (by omega), if_neg (by omega), if_pos ht]
    have hk := size32 hg ht hc
    unfold putFat32
    rw [sect32 hg]
    rcases window_spec hg hi (fat1_not2 (sector_fat1 hg (k := 4 * c) (by omega))) FR_DISK_ERR _ with ⟨s1, h1, i1, sm1, r1, ns, nw1⟩ | ⟨s1, h1, i1, sm1, r1, tr1, w1, win1, un1⟩
    · rw [h1]
      exact ⟨s1, FR_DISK_ERR, rfl, i1, r1, fun h => absurd h ns, .inr ⟨rfl, ns, fun n _ h => sm1 n h, fun c' _ h => byBytes_same hg sm1 h, fun _ => sm1⟩⟩
    · obtain ⟨s2, e2, i2, p2, w, rfl⟩ := put32 (val := val) hg i1 ht hc w1
      have hd := fun i hi => div_same (ss := v.ss) (k := 4 * c) (i := i) (m := 4) hg.ss.2 hg.ss.1 (by omega) hi
      have g0 := win_get hg hi win1
      have g1 := win_get (k := 4 * c + 1) hg hi (by rw [(hd 1 (by omega)).1]; exact win1)
      have g2 := win_get (k := 4 * c + 2) hg hi (by rw [(hd 2 (by omega)).1]; exact win1)
      have g3 := win_get (k := 4 * c + 3) hg hi (by rw [(hd 3 (by omega)).1]; exact win1)
      rw [(hd 1 (by omega)).2] at g1
      rw [(hd 2 (by omega)).2] at g2
      rw [(hd 3 (by omega)).2] at g3
      have hx : B v (view s) (4 * c) + 256 * (B v (view s) (4 * c + 1) + 256 * (B v (view s) (4 * c + 2) + 256 * B v (view s) (4 * c + 3))) = byBytes v (view s1) c := by
        rw [byBytes_same hg sm1 hc]
        unfold byBytes
        rw [if_neg (by omega), if_neg (by omega)]
      rw [h1, Nat.mul_comm c 4, ld32 g0 g1 g2 g3 (hb.lt _) (hb.lt _) (hb.lt _) (hb.lt _), fromWin, hx, put32_eq val (by
        rw [← hx]
        have := hb.lt (4 * c)
        have := hb.lt (4 * c + 1)
        have := hb.lt (4 * c + 2)
        have := hb.lt (4 * c + 3)
        omega), e2]
      exact ⟨_, FR_OK, rfl, i2, r1.trans ⟨rfl, rfl, rfl⟩, fun h _ => trace_setWin (tr1 h), .inl ⟨rfl, p2.of_same hg hc sm1⟩⟩

end Fpm.Fat
