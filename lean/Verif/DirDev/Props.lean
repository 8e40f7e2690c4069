import Verif.DirDev.ChangeLemmas
import Verif.DirDev.ListLemmas
/-!
# C80: directories on the device
-/
namespace Fpm.DirDev
open Fpm.Fat Fpm.Fat.Spec Fpm.Lfn Fpm.Lfn.Spec Fpm.Names Fpm.Names.Spec Fpm.TextIo.Spec Fpm.FatFile Fpm.FatFile.Spec Fpm.FatDir Fpm.FatDir.Spec Fpm.Mount Fpm.Mount.Spec Fpm.DirDev.Spec

/-! A small FAT12 volume with sectors of 64 bytes and six clusters of one sector; the directory has three clusters with the entries of `exTable`. -/

def devV : Vol := { ss := 64, csize := 1, fatbase := 1, fsize := 1, nFats := 1, nFatent := 8, fsType := 1, database := 3, io := fun _ => .ok }
def devI : Info := { volbase := 0, totsec := 9, nRoot := 2, dirbase := 2, fsi := none }
def devFat (x : List Nat) : List Nat := [0xF8, 0xFF, 0xFF] ++ x ++ List.replicate (61 - x.length) 0
def devSect (t : List (List Nat)) (n : Nat) : List Nat := t.getD (2 * (n - 3)) blank ++ t.getD (2 * (n - 3) + 1) blank
def devDisk (x : List Nat) (t : List (List Nat)) : Disk := fun n => if n = 1 then devFat x else if 3 ≤ n ∧ n < 9 then devSect t n else List.replicate 64 0
def devSt (free : Nat) (x : List Nat) (t : List (List Nat)) : St :=
  { disk := devDisk x t, past := [], cnt := 0, win := List.replicate 64 0, winsect := none, wflag := false, lastClst := 2, freeClst := free, fsiFlag := false }
def devS : St := devSt 3 [3, 0x40, 0, 0xFF, 0x0F] exTable
def devDp : Dp := ⟨2, 0, 2, 3⟩

theorem dev_ready : Ready devV devI where
  geo := { ss := by decide, nFats := by decide, kind := by decide, size := by decide, pos := by decide, junk := fun _ _ h => by cases h }
  data := { pow := ⟨0, rfl⟩, base := by decide, pos := by decide }
  reserved := by decide
  root := by decide
  root32 := by decide
  inside := by decide
  rest := by decide
  limit := by decide
  kind := by decide
  fsi := fun _ h => by cases h
  whole := by decide

theorem dev_sound : Sound devV := fun _ => rfl

theorem dev_inv {free : Nat} {x : List Nat} {t : List (List Nat)} (hx : x.length ≤ 61 ∧ ∀ b ∈ x, b < 256) (ht : FatDir.Spec.Table t) : Fat.Spec.Inv devV (devSt free x t) := by
  have hz : Sec devV (List.replicate 64 0) := ⟨List.length_replicate, fun b hb => by rw [(List.mem_replicate.mp hb).2]; decide⟩
  have hge : ∀ k, (t.getD k blank).length = 32 ∧ ∀ b ∈ t.getD k blank, b < 256 := by
    intro k
    rw [List.getD_eq_getElem?_getD]
    cases h : t[k]? with
    | none => exact ⟨rfl, fun b hb => by rw [(List.mem_replicate.mp (show b ∈ List.replicate 32 0 from hb)).2]; decide⟩
    | some e => exact ht e (List.mem_of_getElem? h)
  refine ⟨fun n => ?_, hz, (fun _ n h => by cases h), (fun h => by cases h), fun n h => by cases h⟩
  show Sec devV (devDisk x t n)
  unfold devDisk
  split
  · unfold devFat
    refine ⟨?_, fun b hb => ?_⟩
    · simp only [List.length_append, List.length_replicate, List.length_cons, List.length_nil]
      show _ = 64
      omega
    · rcases List.mem_append.mp hb with hb | hb
      · rcases List.mem_append.mp hb with hb | hb
        · simp only [List.mem_cons, List.not_mem_nil, or_false] at hb
          omega
        · exact hx.2 b hb
      · rw [(List.mem_replicate.mp hb).2]; decide
  · split
    · unfold devSect
      refine ⟨?_, fun b hb => ?_⟩
      · rw [List.length_append, (hge _).1, (hge _).1]
        rfl
      · rcases List.mem_append.mp hb with hb | hb
        · exact (hge _).2 b hb
        · exact (hge _).2 b hb
    · exact hz

theorem dev_vol : DirVol devV [] [] (.chain [2, 3, 4]) devS where
  inv := dev_inv (by decide) ex_directory.table
  kind := fun h => by cases h
  chains := by
    have key : ∀ c < 8, 2 ≤ c → tab devV devS c ≠ 0 → c ∈ [2, 3, 4] := by decide +kernel
    refine ⟨fun l hl => ?_, by decide, fun c h2 hc h => key c hc h2 h⟩
    rw [List.mem_singleton.mp (show l ∈ [[2, 3, 4]] from hl)]
    show 2 ≤ 2 ∧ 2 < 8 ∧ tab devV devS 2 = 3 ∧ 2 ≤ 3 ∧ 3 < 8 ∧ tab devV devS 3 = 4 ∧ 2 ≤ 4 ∧ 4 < 8 ∧ 8 ≤ tab devV devS 4
    decide +kernel
  count := fun _ => by decide +kernel

theorem dev_entries : entries devV devI (view devS) (.chain [2, 3, 4]) = exTable := by decide +kernel

theorem dev_dir : OnDevice true devV devI [] [] (.chain [2, 3, 4]) devS [exObj1, exObj2] := ⟨dev_vol, by rw [dev_entries]; exact ex_directory⟩

theorem dev_starts : Starts devV devI devDp.sclust (.chain [2, 3, 4]) := ⟨rfl, fun h => by cases h⟩

/-! ## Finding -/

theorem ok_bytes {fn : List Nat} (h : Ok83 fn) : fn.length = 11 ∧ ∀ x ∈ fn, x < 256 := by
  refine ⟨h.1, fun x hx => ?_⟩
  have key : ∀ c, FormByte c → c < 256 := by
    intro c hc
    rcases hc with h | h
    · omega
    · have := h.1
      unfold Char83 at this
      omega
  exact key x (h.2 x hx)

theorem form_bytes {n fn : List Nat} (h : Form n fn) : fn.length = 11 ∧ ∀ x ∈ fn, x < 256 := ok_bytes ⟨h.len, h.chars⟩

/-- The entry of an object is at its place. -/
theorem rep_pos {c : Bool} {i : Nat} {t : List (List Nat)} {os : List Obj} (h : Rep c i t os) : ∀ o ∈ os, i ≤ o.pos ∧ t[o.pos - i]? = some o.entry := by
  induction h with
  | nil _ => exact fun o ho => by cases ho
  | fin _ _ => exact fun o ho => by cases ho
  | @skip i j e t os _ _ _ ih =>
    intro o ho
    obtain ⟨h1, h2⟩ := ih o ho
    refine ⟨by omega, ?_⟩
    rw [List.getElem?_append_right (by omega), List.getElem?_cons, if_neg (by omega), ← h2]
    congr 1
    omega
  | @obj i j es s long t os _ _ _ _ ih =>
    intro o ho
    rcases List.mem_cons.mp ho with rfl | ho
    · refine ⟨by simp only; omega, ?_⟩
      rw [List.getElem?_append_right (by simp only; omega), List.getElem?_append_right (by simp only; omega), List.getElem?_cons, if_pos (by simp only; omega)]
    · obtain ⟨h1, h2⟩ := ih o ho
      refine ⟨by omega, ?_⟩
      rw [List.getElem?_append_right (by omega), List.getElem?_append_right (by omega), List.getElem?_cons, if_neg (by omega), ← h2]
      congr 1
      omega

theorem rep_entry {c : Bool} {t : List (List Nat)} {os : List Obj} (h : Rep c 0 t os) (o : Obj) (ho : o ∈ os) : t[o.pos]? = some o.entry := by
  simpa using (rep_pos h o ho).2

/-- A name is found on the device just if it means one of the objects of the directory, and then it is the first of those: the directory object is at its entry.  Nothing changes by this.
Only a failing device can prevent it. -/
theorem C80_find (v : Vol) (i : Info) (hr : Ready v i) (a b : List (List Nat)) (loc : Loc) (s : St) (dp : Dp) (c : Bool) (os : List Obj) (hd : OnDevice c v i a b loc s os) (hst : Starts v i dp.sclust loc)
    (cs : List Nat) (last : Bool) (buf fn : List Nat) (fl : Nat) (hf : FileName cs last buf fn fl) :
    OnDevice c v i a b loc (dirFind v i s dp fn fl buf).st os ∧ (∀ n, ¬ Fat2 v n → view (dirFind v i s dp fn fl buf).st n = view s n) ∧ (dirFind v i s dp fn fl buf).dp.sclust = dp.sclust ∧
    ((dirFind v i s dp fn fl buf).res = FR_DISK_ERR ∧ ¬ Sound v ∨
     (dirFind v i s dp fn fl buf).res = FR_NO_FILE ∧ (∀ o ∈ os, ¬ Means (units (trimmed cs)) o) ∨
     (dirFind v i s dp fn fl buf).res = FR_OK ∧ ∃ x o y, os = x ++ o :: y ∧ (∀ o' ∈ x, ¬ Means (units (trimmed cs)) o') ∧ Means (units (trimmed cs)) o ∧ At v i loc o.pos (dirFind v i s dp fn fl buf).dp ∧
      dirEnt v (dirFind v i s dp fn fl buf).st (dirFind v i s dp fn fl buf).dp = some o.entry) := by
  obtain ⟨q, h1, h2⟩ := find_spec hr hd.vol.inv hd.vol.linked hst fn fl buf
  have he := entries_same hr hd.vol.linked q.same
  generalize dirFind v i s dp fn fl buf = g at q h1 h2 he
  refine ⟨⟨dirvol_same hd.vol q, by rw [he]; exact hd.dir⟩, q.same, h1, ?_⟩
  rcases h2 with h2 | h2
  · exact .inl h2
  · rcases C75_find cs last buf fn fl c _ os hf hd.dir.table hd.dir.rep with ⟨e, h3⟩ | ⟨x, o, y, blk, h3, h4, h5, e⟩
    · rw [e] at h2
      exact .inr (.inl ⟨h2, h3⟩)
    · rw [e] at h2
      refine .inr (.inr ⟨h2.1, x, o, y, h3, h4, h5, h2.2.2.2.1, ?_⟩)
      obtain ⟨e1, he1, hg, -⟩ := ent_entry hr q.inv h2.2.2.2.1 h2.2.2.2.2
      rw [he, rep_entry hd.dir.rep o (by rw [h3]; simp)] at hg
      rw [he1, hg]

example : ∃ buf fn fl, Ready devV devI ∧ OnDevice true devV devI [] [] (.chain [2, 3, 4]) devS [exObj1, exObj2] ∧ Starts devV devI devDp.sclust (.chain [2, 3, 4]) ∧ FileName [65, 32, 66] true buf fn fl ∧
    Means (units (trimmed [65, 32, 66])) exObj1 := by
  obtain ⟨buf, fn, fl, h⟩ := ex_name (cs := [65, 32, 66]) (by decide) (by decide) (by decide)
  exact ⟨buf, fn, fl, dev_ready, dev_dir, dev_starts, h, .inl ⟨[97, 32, 98], rfl, by unfold SameName; decide +kernel⟩⟩

/-! ## Listing -/

/-- Reading a directory on the device to its end gives each object but `.` and `..` once, in order, each with its name and entry. -/
theorem C80_list (v : Vol) (i : Info) (hr : Ready v i) (a b : List (List Nat)) (loc : Loc) (s : St) (dp : Dp) (c : Bool) (os : List Obj) (hd : OnDevice c v i a b loc s os) (hst : Starts v i dp.sclust loc)
    (buf : List Nat) (k : Nat) (hb : buf.length = 256) (hk : os.length < k) :
    OnDevice c v i a b loc (list v i s dp k buf).st os ∧ (∀ n, ¬ Fat2 v n → view (list v i s dp k buf).st n = view s n) ∧
    ((list v i s dp k buf).res = FR_DISK_ERR ∧ ¬ Sound v ∨ (list v i s dp k buf).res = FR_OK ∧ Listing os (list v i s dp k buf).items) := by
  obtain ⟨l, e, hl⟩ := C75_list c _ os buf k hd.dir.table hd.dir.rep hb hk
  obtain ⟨q, h1⟩ := list_dev hr hd.vol.inv hd.vol.linked hst k buf e
  have he := entries_same hr hd.vol.linked q.same
  generalize list v i s dp k buf = g at q h1 he
  refine ⟨⟨dirvol_same hd.vol q, by rw [he]; exact hd.dir⟩, q.same, ?_⟩
  rcases h1 with h1 | ⟨h1, h2⟩
  · exact .inl h1
  · exact .inr ⟨h1, by rw [h2]; exact hl⟩

example : (list devV devI devS devDp 3 (List.replicate 256 7)).res = FR_OK ∧ (list devV devI devS devDp 3 (List.replicate 256 7)).items.map Prod.fst = [[97, 32, 98], [88, 46, 67]] := by decide +kernel

/-! ## Creating -/

theorem growth_full {v : Vol} {i : Info} (hr : Ready v i) {a b : List (List Nat)} {loc loc' : Loc} {s : St} (hlo : Longer loc loc') (hv : DirVol v a b loc' s) {d : Disk}
    (h : growth v a b loc (entries v i d loc').length = 0) : Full v i a b d loc' := by
  rw [← growth_longer hlo] at h
  cases loc' with
  | root => exact .inl rfl
  | chain l =>
    rw [growth_chain] at h
    by_cases h1 : (entries v i d (.chain l)).length = 65536
    · exact .inr (.inl h1)
    have hlen := entries_length v i d (.chain l)
    have hs : (dirSecs v i (.chain l)).length = l.length * v.csize := secs_length v l
    have hp := per_ss hr
    have hc := csize_pos hr
    have hcp : 0 < v.csize * per v := Nat.mul_pos hc hp.2
    unfold total at hlen
    have e1 : (entries v i d (.chain l)).length = l.length * (v.csize * per v) := by
      rw [hs, Nat.mul_assoc] at hlen
      omega
    rw [e1, Nat.mul_div_cancel _ hcp] at h
    rw [e1, hs, Nat.mul_assoc] at hlen
    have h2 := chains_le hv.chains
    rw [all_length] at h2
    refine .inr (.inr ?_)
    rw [all_length]
    split at h
    · omega
    · rw [e1] at h1
      omega

theorem prefix_all {t : List (List Nat)} {ws : List (Nat × List Nat)} {k : Nat} (_hk : k ≤ ws.length) {P Q : List (List Nat) → Prop} (h1 : ∀ k < ws.length, P (writeAll t (ws.take k))) (h2 : Q (writeAll t ws)) :
    P (writeAll t (ws.take k)) ∨ Q (writeAll t (ws.take k)) := by
  rcases Nat.lt_or_ge k ws.length with h | h
  · exact .inl (h1 k h)
  · right
    rw [List.take_of_length_le h]
    exact h2

/-- What the device shows at any time, if there was a state `s1` with the same contents as at the start, and writes after it. -/
theorem all_times {v : Vol} {i : Info} {loc : Loc} {s s1 s2 : St} {ws : List (Nat × List Nat)} (hr : Ready v i) {f : Nat → Nat} (hl : Linked v f loc) (hs : Sound v) (q : Quiet v s s1) (hw : Written v i loc ws s1 s2)
    {P Q : List (List Nat) → Prop} (h1 : ∀ k < ws.length, P (writeAll (entries v i (view s) loc) (ws.take k))) (h2 : Q (writeAll (entries v i (view s) loc) ws)) :
    AtAllTimes s s2 fun d => Elsewhere v i loc (view s) d ∧ (P (entries v i d loc) ∨ Q (entries v i d loc)) := by
  have e1 := entries_same hr hl q.same
  refine ⟨fun d hd => ?_, fun n a1 a2 => (hw.rest n a1 a2).trans (q.same n a1), .inr (by rw [hw.ents, e1]; exact h2)⟩
  rcases hw.trace hs d hd with h3 | ⟨k, hk, e, h3⟩
  · rcases (q.trace hs).1 d h3 with h4 | h4
    · exact .inl h4
    · refine .inr ⟨fun n a1 _ => h4 n a1, ?_⟩
      have : entries v i d loc = entries v i (view s) loc := entries_congr fun n hn => h4 n (secs_place hr hl hn).2.1
      rw [this]
      exact prefix_all (Nat.zero_le _) h1 h2
  · refine .inr ⟨fun n a1 a2 => (h3 n a1 a2).trans (q.same n a1), ?_⟩
    rw [e, e1]
    exact prefix_all hk h1 h2

/-- Creating an object on the device.  Other chains and all sectors that do not belong to the directory stay as they are.  If the device does not fail, either it is refused and the
objects are what they were - this happens only if there is no room and the directory cannot get more clusters, or if 99 numbered names are in use.  Or there is one new object with this name, all others are where
they were; the directory gets more clusters only if there was no room. -/
theorem C80_register (v : Vol) (i : Info) (hr : Ready v i) (a b : List (List Nat)) (loc : Loc) (s : St) (dp : Dp) (c : Bool) (os : List Obj) (hd : OnDevice c v i a b loc s os) (hst : Starts v i dp.sclust loc)
    (cs : List Nat) (last : Bool) (buf fn : List Nat) (fl : Nat) (hf : FileName cs last buf fn fl) (hff : 0xFFFF ∉ cs) (hb : buf.length = 256)
    (horph : c = true ∨ fl &&& 2 ≠ 0 ∨ ¬ Orphan (entries v i (view s) loc) (sumSfn fn)) :
    Apart v i a b loc s (dirRegister v i s dp fn fl buf).st ∧ (dirRegister v i s dp fn fl buf).dp.sclust = dp.sclust ∧
    ((dirRegister v i s dp fn fl buf).res = FR_DISK_ERR ∧ ¬ Sound v ∨
     (dirRegister v i s dp fn fl buf).res = FR_DENIED ∧ (∃ loc', Longer loc loc' ∧ OnDevice c v i a b loc' (dirRegister v i s dp fn fl buf).st os ∧
       (Full v i a b (view (dirRegister v i s dp fn fl buf).st) loc' ∧ NoRoom (entries v i (view (dirRegister v i s dp fn fl buf).st) loc') (fl &&& 2 ≠ 0) (units (trimmed cs)).length ∨
        ∀ z, 1 ≤ z → z < 100 → ∃ o ∈ os, genNumname fn buf z = some o.fn)) ∨
     (dirRegister v i s dp fn fl buf).res = FR_OK ∧ ∃ loc' x o y, Longer loc loc' ∧ (loc' = loc ∨ NoRoom (entries v i (view s) loc) (fl &&& 2 ≠ 0) (units (trimmed cs)).length) ∧ os = x ++ y ∧
       NewObj (units (trimmed cs)) fn fl os o ∧ OnDevice c v i a b loc' (dirRegister v i s dp fn fl buf).st (x ++ o :: y) ∧ At v i loc' o.pos (dirRegister v i s dp fn fl buf).dp ∧
       dirEnt v (dirRegister v i s dp fn fl buf).st (dirRegister v i s dp fn fl buf).dp = some o.entry ∧ (dirRegister v i s dp fn fl buf).st.winsect = some (dirRegister v i s dp fn fl buf).dp.sect ∧
       (loc' = loc → Sound v → AtAllTimes s (dirRegister v i s dp fn fl buf).st fun d =>
         Elsewhere v i loc (view s) d ∧ (Directory false (entries v i d loc) os ∨ Directory c (entries v i d loc) (x ++ o :: y)))) := by
  obtain ⟨-, hholds, hfo, -⟩ := hf.named.name hf.nodot
  have hok : Ok83 fn := ⟨hfo.len, hfo.chars⟩
  obtain ⟨h1, h2, h3⟩ := register_dev hr hd.vol hst (form_bytes hfo) fl (buf := buf) (by omega) (fun z fn' hz => by
    obtain ⟨f2, e, h⟩ := numname_spec hok hholds z
    rw [hz] at e
    cases e
    exact ok_bytes h)
  generalize dirRegister v i s dp fn fl buf = g at h1 h2 h3
  refine ⟨h1, h2, ?_⟩
  rcases h3 with h3 | h3
  · exact .inl h3
  right
  rcases C75_register (growth v a b loc) cs last buf fn fl c _ os hf hff hd.dir horph with ⟨t', e, hpre, hdir, hwhy⟩ | ⟨t', ws, x, y, o, e, hpre, hroom, hxy, hnew, hdir, hcrash⟩
  · rw [e] at h3
    obtain ⟨c1, loc', c2, c3, rfl⟩ := h3
    refine .inl ⟨c1, loc', c2, ⟨c3, hdir⟩, ?_⟩
    rcases hwhy with hwhy | hwhy
    · exact .inl ⟨growth_full hr c2 c3 hwhy.1, hwhy.2⟩
    · exact .inr hwhy
  · rw [e] at h3
    obtain ⟨c1, loc', s1, c2, c3, c4, c5, c6, c7, c8, c9⟩ := h3
    have hdir' : Directory c (entries v i (view g.st) loc') (x ++ o :: y) := by rw [c6.ents, c5]; exact hdir
    refine .inr ⟨c1, loc', x, o, y, c2, ?_, hxy, hnew, ⟨c3, hdir'⟩, c7, ?_, c8, fun hl hs => ?_⟩
    · rcases hroom with rfl | hroom
      · exact .inl (c9 rfl).1
      · exact .inr hroom
    · obtain ⟨e1, he1, hg, -⟩ := ent_entry hr c3.inv c7 c8
      rw [rep_entry hdir'.rep o (by simp)] at hg
      rw [he1, hg]
    · subst hl
      have ht : t' = entries v i (view s) loc' := by
        obtain ⟨z, hz⟩ := hpre
        have hlen := congrArg List.length hz
        rw [← c5, List.length_append, entries_length, entries_length] at hlen
        have : z = [] := List.eq_nil_of_length_eq_zero (by omega)
        rw [← hz, this, List.append_nil]
      rw [ht] at c9 hcrash hdir
      exact all_times hr hd.vol.linked hs (c9 rfl).2.1 c6 (P := fun t => Directory false t os) (Q := fun t => Directory c t (x ++ o :: y)) hcrash hdir

example : ∃ buf fn fl, FileName [97, 32, 99] true buf fn fl ∧ 0xFFFF ∉ [97, 32, 99] ∧ buf.length = 256 ∧ ∀ o ∈ [exObj1, exObj2], ¬ Means (units (trimmed [97, 32, 99])) o := by
  obtain ⟨buf, fn, fl, h, h1⟩ := (C74_text [97, 32, 99] [0] [] (List.replicate 256 7) true (by decide) (.fin (by decide)) List.length_replicate).1 (by decide)
  have e : createName [97, 32, 99, 0] (List.replicate 256 7) = .ok ([97, 32, 99, 0] ++ List.replicate 252 7) [65, 67, 32, 32, 32, 32, 32, 32, 32, 32, 32] 7 [] := by decide +kernel
  have h : createName [97, 32, 99, 0] (List.replicate 256 7) = .ok buf fn fl [] := h
  rw [e] at h
  cases h
  exact ⟨_, _, _, ⟨by decide, by decide, h1⟩, by decide, by rw [List.length_append, List.length_replicate]; rfl, ex_new⟩

/-- In the example the object is created, and the directory has the room for it. -/
example : (dirRegister devV devI devS devDp [65, 67, 32, 32, 32, 32, 32, 32, 32, 32, 32] 7 ([97, 32, 99, 0] ++ List.replicate 252 7)).res = FR_OK ∧
    (dirRegister devV devI devS devDp [65, 67, 32, 32, 32, 32, 32, 32, 32, 32, 32] 7 ([97, 32, 99, 0] ++ List.replicate 252 7)).dp.dptr = 160 := by decide +kernel

/-- Creating keeps names distinct; the new object is found on the device by its name, in any case of letters. -/
theorem C80_created (v : Vol) (i : Info) (hr : Ready v i) (a b : List (List Nat)) (loc : Loc) (s : St) (dp : Dp) (c : Bool) (os : List Obj) (hd : OnDevice c v i a b loc s os) (hst : Starts v i dp.sclust loc)
    (cs : List Nat) (last : Bool) (buf fn : List Nat) (fl : Nat) (hf : FileName cs last buf fn fl) (hff : 0xFFFF ∉ cs) (hb : buf.length = 256)
    (horph : c = true ∨ fl &&& 2 ≠ 0 ∨ ¬ Orphan (entries v i (view s) loc) (sumSfn fn)) (hno : ∀ o ∈ os, ¬ Means (units (trimmed cs)) o) (hn : Names os)
    (hok : (dirRegister v i s dp fn fl buf).res = FR_OK) :
    ∃ loc' os' o, Longer loc loc' ∧ OnDevice c v i a b loc' (dirRegister v i s dp fn fl buf).st os' ∧ Names os' ∧ o ∈ os' ∧ At v i loc' o.pos (dirRegister v i s dp fn fl buf).dp ∧ (∀ o' ∈ os, o' ∈ os') ∧
      os'.length = os.length + 1 ∧ ∀ cs' last' buf' fn' fl', FileName cs' last' buf' fn' fl' → SameName (units (trimmed cs')) (units (trimmed cs)) → Sound v → ∀ dp', dp'.sclust = dp.sclust →
        (dirFind v i (dirRegister v i s dp fn fl buf).st dp' fn' fl' buf').res = FR_OK ∧ At v i loc' o.pos (dirFind v i (dirRegister v i s dp fn fl buf).st dp' fn' fl' buf').dp := by
  obtain ⟨-, -, h3⟩ := C80_register v i hr a b loc s dp c os hd hst cs last buf fn fl hf hff hb horph
  generalize dirRegister v i s dp fn fl buf = g at h3 hok
  rcases h3 with ⟨h3, -⟩ | ⟨h3, -⟩ | ⟨-, loc', x, o, y, c1, -, c2, c3, c4, c5, -, -, -⟩
  · rw [h3] at hok; cases hok
  · rw [h3] at hok; cases hok
  obtain ⟨-, -, hfo, hfl⟩ := hf.named.name hf.nodot
  have hnm : Names (x ++ o :: y) := new_names hfo hfl (by rw [← c2]; exact c3) (by rw [← c2]; exact hn) (by rw [← c2]; exact hno)
  refine ⟨loc', x ++ o :: y, o, c1, c4, hnm, by simp, c5, fun o' ho => ?_, by rw [c2]; simp; omega, fun cs' last' buf' fn' fl' hf' hs hso dp' hdp => ?_⟩
  · rw [c2] at ho
    simp only [List.mem_append, List.mem_cons] at ho ⊢
    exact ho.elim .inl fun h => .inr (.inr h)
  · obtain ⟨-, -, h4⟩ := find_spec hr c4.vol.inv c4.vol.linked (dp := dp') (by rw [hdp]; exact starts_longer c1 hd.vol.linked hst) fn' fl' buf'
    generalize dirFind v i g.st dp' fn' fl' buf' = G at h4
    rcases h4 with ⟨-, h4⟩ | h4
    · exact absurd hso h4
    · obtain ⟨blk, e⟩ := C75_refind cs' last' buf' fn' fl' c _ _ o hf' c4.dir.table c4.dir.rep hnm (by simp) (by
        by_cases h2 : fl &&& 2 ≠ 0
        · exact .inl ⟨_, by rw [c3.long, if_pos h2], same_symm hs⟩
        · obtain ⟨_, _, h8, h21⟩ := flags_bits hfl
          have h1 := h21 (by omega)
          obtain ⟨body, ext, he⟩ := h8.mpr h1
          obtain ⟨b', e', h8', hform⟩ := same_83 he hs
          exact .inr ⟨b', e', h8', by rw [c3.same h1, hform]; exact hfo.short body ext he⟩)
      rw [e] at h4
      exact ⟨h4.1, h4.2.2.2.1⟩

example : Names [exObj1, exObj2] := ex_names

/-! ## Removing -/

/-- What is found on the device by a name can be removed: afterwards the other objects are what they were, as are all other sectors.  Only a failing device can prevent it.  At all times the device shows the
object, perhaps with its short name only, or not at all, and the others. -/
theorem C80_remove (v : Vol) (i : Info) (hr : Ready v i) (a b : List (List Nat)) (loc : Loc) (s : St) (dp : Dp) (c : Bool) (os : List Obj) (hd : OnDevice c v i a b loc s os) (hst : Starts v i dp.sclust loc)
    (cs : List Nat) (last : Bool) (buf fn : List Nat) (fl : Nat) (hf : FileName cs last buf fn fl) (hfound : (dirFind v i s dp fn fl buf).res = FR_OK) (r : Ret)
    (hrem : r = dirRemove v i (dirFind v i s dp fn fl buf).st (dirFind v i s dp fn fl buf).dp (dirFind v i s dp fn fl buf).blk) :
    DirVol v a b loc r.st ∧ Apart v i a b loc s r.st ∧
    (r.res = FR_DISK_ERR ∧ ¬ Sound v ∨
     r.res = FR_OK ∧ ∃ x o y, os = x ++ o :: y ∧ Means (units (trimmed cs)) o ∧ OnDevice c v i a b loc r.st (x ++ y) ∧ (Names os → Names (x ++ y)) ∧
       (Sound v → AtAllTimes s r.st fun d => Elsewhere v i loc (view s) d ∧
         ((∃ long, (long = o.long ∨ long = none) ∧ Directory false (entries v i d loc) (x ++ { o with long := long } :: y)) ∨ Directory c (entries v i d loc) (x ++ y)))) := by
  obtain ⟨q, h1, h2⟩ := find_spec hr hd.vol.inv hd.vol.linked hst fn fl buf
  have he := entries_same hr hd.vol.linked q.same
  generalize dirFind v i s dp fn fl buf = g at q h1 h2 hfound hrem he
  rcases h2 with ⟨h2, -⟩ | h2
  · rw [h2] at hfound; cases hfound
  cases hF : FatDir.dirFind (entries v i (view s) loc) fn fl buf with
  | ub => rw [hF] at h2; have h2 : g.res = UB := h2; rw [h2] at hfound; cases hfound
  | noFile => rw [hF] at h2; have h2 : g.res = FR_NO_FILE := h2; rw [h2] at hfound; cases hfound
  | found p blk bf =>
    rw [hF] at h2
    obtain ⟨c1, c2, c3, c4, c5⟩ := h2
    have hblk : ∀ x, blk = some x → x ≤ p := (find_blk fn fl buf _ 0 _ (fun x hx => by cases hx) p blk bf hF).2
    have hv1 := dirvol_same hd.vol q
    have hrm := remove_dev hr hv1 (by rw [h1]; exact hst) c4 hblk
    rw [← c2, ← hrem, he] at hrm
    have hap : Apart v i a b loc s r.st := by
      rcases hrm.cases with ⟨_, _, ws, d⟩ | ⟨_, _, ws, d⟩ | ⟨ws, _, _, _, d⟩ <;> exact (apart_quiet hd.vol q).trans (.refl loc) (d.apart hv1 hrm.vol)
    refine ⟨hrm.vol, hap, ?_⟩
    rcases hrm.cases with ⟨d1, d2, -⟩ | ⟨d1, -⟩ | ⟨ws, d1, d2, -, d4⟩
    · exact .inl ⟨d1, d2⟩
    · cases d1
    cases d1
    right
    obtain ⟨x, o, y, e1, -, e3, e4, e5, e6⟩ := C75_remove cs last buf fn fl c _ os p blk bf hf hd.dir hF
    refine ⟨d2, x, o, y, e1, e3, ⟨hrm.vol, by rw [d4.ents, he]; exact e4⟩, e5, fun hs => ?_⟩
    exact all_times hr hd.vol.linked hs q d4 (P := fun t => ∃ long, (long = o.long ∨ long = none) ∧ Directory false t (x ++ { o with long := long } :: y)) (Q := fun t => Directory c t (x ++ y))
      (fun k hk => by
        refine ⟨_, ?_, e6 k hk⟩
        by_cases hk0 : k = 0
        · exact .inl (if_pos hk0)
        · exact .inr (if_neg hk0)) e4

example : (dirFind devV devI devS devDp [65, 66, 32, 32, 32, 32, 32, 32, 32, 32, 32] 7 ([65, 32, 66, 0] ++ List.replicate 252 7)).res = FR_OK := by decide +kernel

/-! ## Crashes -/

/-- The claim: if the device does not fail, at all times while an object is created the directory that the device shows has the old objects, or these and the new one. -/
def C80_full : Prop := ∀ (v : Vol) (i : Info), Ready v i → Sound v → ∀ (a b : List (List Nat)) (loc : Loc) (s : St) (dp : Dp) (os : List Obj), OnDevice true v i a b loc s os → Starts v i dp.sclust loc →
  ∀ (cs : List Nat) (buf fn : List Nat) (fl : Nat), FileName cs true buf fn fl → 0xFFFF ∉ cs → buf.length = 256 → (∀ o ∈ os, ¬ Means (units (trimmed cs)) o) →
  AtAllTimes s (dirRegister v i s dp fn fl buf).st fun d => ∀ loc', Starts v i dp.sclust loc' → Linked v (fat v d) loc' →
    Directory false (entries v i d loc') os ∨ ∃ x o y, os = x ++ y ∧ Directory true (entries v i d loc') (x ++ o :: y)

/-- It holds if there is room in the directory. -/
theorem C80_crash_partial (v : Vol) (i : Info) (hr : Ready v i) (hs : Sound v) (a b : List (List Nat)) (loc : Loc) (s : St) (dp : Dp) (os : List Obj) (hd : OnDevice true v i a b loc s os) (hst : Starts v i dp.sclust loc)
    (cs : List Nat) (buf fn : List Nat) (fl : Nat) (hf : FileName cs true buf fn fl) (hff : 0xFFFF ∉ cs) (hb : buf.length = 256) (hno : ∀ o ∈ os, ¬ Means (units (trimmed cs)) o)
    (hroom : ¬ NoRoom (entries v i (view s) loc) (fl &&& 2 ≠ 0) (units (trimmed cs)).length) (hok : (dirRegister v i s dp fn fl buf).res = FR_OK) :
    ∃ x o y, os = x ++ y ∧ NewObj (units (trimmed cs)) fn fl os o ∧ AtAllTimes s (dirRegister v i s dp fn fl buf).st fun d =>
      Elsewhere v i loc (view s) d ∧ (Directory false (entries v i d loc) os ∨ Directory true (entries v i d loc) (x ++ o :: y)) := by
  obtain ⟨-, -, h3⟩ := C80_register v i hr a b loc s dp true os hd hst cs true buf fn fl hf hff hb (.inl rfl)
  rcases h3 with ⟨-, h3⟩ | ⟨h3, -⟩ | ⟨-, loc', x, o, y, -, c1, c2, c3, -, -, -, c4⟩
  · exact absurd hs h3
  · rw [h3] at hok; cases hok
  · exact ⟨x, o, y, c2, c3, c4.2 (c1.resolve_right hroom) hs⟩

example : ¬ NoRoom (entries devV devI (view devS) (.chain [2, 3, 4])) (7 &&& 2 ≠ 0) 3 := by
  intro h
  obtain ⟨e, he, h1⟩ := h (exTable.take 4) [blank, blank] [] (by rw [dev_entries]; rfl) rfl
  rw [List.mem_cons, List.mem_singleton, or_self] at he
  rw [he] at h1
  exact h1.1 rfl

/-! A directory of one cluster, with two objects.  The next cluster is free; there are two entries of a removed directory in it. -/

def crFn (k : Nat) : List Nat := [k, 32, 32, 32, 32, 32, 32, 32, 32, 32, 32]
def crTable : List (List Nat) := [sfnEntry (crFn 65) 0, sfnEntry (crFn 66) 0, sfnEntry (crFn 67) 0, sfnEntry (crFn 68) 0]
def crS : St := devSt 5 [0xFF, 0x0F] crTable
def crObjs : List Obj := [⟨0, none, sfnEntry (crFn 65) 0⟩, ⟨1, none, sfnEntry (crFn 66) 0⟩]
def crBuf : List Nat := [69, 0] ++ List.replicate 254 7
def crEnd : St := (dirRegister devV devI crS devDp (crFn 69) 4 crBuf).st
def crDisk : Disk := crEnd.past.getD 0 crS.disk

theorem cr_dir : OnDevice true devV devI [] [] (.chain [2]) crS crObjs := by
  have ht : FatDir.Spec.Table crTable := by unfold FatDir.Spec.Table; decide +kernel
  have he : entries devV devI (view crS) (.chain [2]) = crTable.take 2 := by decide +kernel
  refine ⟨⟨dev_inv (by decide) ht, (fun h => by cases h), ?_, fun _ => by decide +kernel⟩, ?_⟩
  · have key : ∀ c < 8, 2 ≤ c → tab devV crS c ≠ 0 → c ∈ [2] := by decide +kernel
    refine ⟨fun l hl => ?_, by decide, fun c h2 hc h => key c hc h2 h⟩
    rw [List.mem_singleton.mp (show l ∈ [[2]] from hl)]
    show 2 ≤ 2 ∧ 2 < 8 ∧ 8 ≤ tab devV crS 2
    decide +kernel
  · rw [he]
    have hok : ∀ k, FormByte k → Ok83 (crFn k) := by
      intro k hk
      refine ⟨rfl, fun c hc => ?_⟩
      rcases List.mem_cons.mp hc with rfl | hc
      · exact hk
      · rw [List.mem_replicate.mp (show c ∈ List.replicate 10 32 from hc) |>.2]
        decide
    refine ⟨fun e h => ht e (List.mem_of_mem_take h), ?_, ?_⟩
    · refine Rep.obj (i := 0) (j := []) (es := []) (s := sfnEntry (crFn 65) 0) (long := none) (junk_nil _) (long_nil _) (sfn_ok (hok 65 (by decide)) 0).1 ?_
      refine Rep.obj (i := 1) (j := []) (es := []) (s := sfnEntry (crFn 66) 0) (long := none) (junk_nil _) (long_nil _) (sfn_ok (hok 66 (by decide)) 0).1 ?_
      exact Rep.nil (j := []) (junk_nil _)
    · intro x e y h h0
      have key : ∀ e ∈ crTable.take 2, byte e 0 ≠ 0 := by decide +kernel
      exact absurd h0 (key e (by rw [h]; simp))

theorem listing_le : ∀ {os : List Obj} {l : List (List Nat × List Nat)}, Listing os l → l.length ≤ os.length
  | _, _, .nil => Nat.le_refl _
  | _, _, .dot _ h => Nat.le_succ_of_le (listing_le h)
  | _, _, .cons _ _ h => Nat.succ_le_succ (listing_le h)

/-- It does not hold if the directory gets a new cluster: the FAT is written before the cluster is cleared, and what the cluster had before comes to light as objects. -/
theorem C80_violated : ¬ C80_full := by
  intro h
  have e : createName [69, 0] (List.replicate 256 7) = .ok crBuf (crFn 69) 4 [] := by decide +kernel
  obtain ⟨buf, fn, fl, h0, h1⟩ := (C74_text [69] [0] [] (List.replicate 256 7) true (by decide) (.fin (by decide)) List.length_replicate).1 (by decide)
  have h0 : createName [69, 0] (List.replicate 256 7) = .ok buf fn fl [] := h0
  rw [e] at h0
  cases h0
  have hmem : crDisk ∈ crEnd.disk :: crEnd.past := by
    have hl : crEnd.past.length = 2 := by decide +kernel
    unfold crDisk
    rw [List.getD_eq_getElem?_getD, List.getElem?_eq_getElem (by omega)]
    exact List.mem_cons_of_mem _ (List.getElem_mem _)
  have hnew : ¬ crDisk ∈ crS.disk :: crS.past := by
    intro hm
    have := List.mem_singleton.mp (show crDisk ∈ [crS.disk] from hm)
    have h2 : crDisk 1 ≠ crS.disk 1 := by decide +kernel
    exact h2 (congrFun this 1)
  have he : entries devV devI crDisk (.chain [2, 3]) = crTable := by decide +kernel
  have hlist : (listAll crTable 9 0 (List.replicate 256 0)).map List.length = some 4 := by decide +kernel
  have most : ∀ c os, Directory c crTable os → os.length < 9 → 4 ≤ os.length := by
    intro c os hd hlt
    obtain ⟨l, e1, hl⟩ := C75_list c crTable os (List.replicate 256 0) 9 hd.table hd.rep List.length_replicate hlt
    rw [e1] at hlist
    have := listing_le hl
    have := Option.some.inj hlist
    omega
  rcases (h devV devI dev_ready dev_sound [] [] (.chain [2]) crS devDp crObjs cr_dir ⟨rfl, fun h => by cases h⟩ [69] crBuf (crFn 69) 4 ⟨by decide, by decide, h1⟩ (by decide) (by unfold crBuf; rw [List.length_append, List.length_replicate]; rfl) (by
      intro o ho hm
      rcases hm with ⟨m, hm, -⟩ | ⟨body, ext, h8, hfn⟩
      · simp only [crObjs, List.mem_cons, List.not_mem_nil, or_false] at ho
        rcases ho with rfl | rfl <;> cases hm
      · have h9 := (h1.name (by decide)).2.2.1.short body ext h8
        rw [← h9] at hfn
        simp only [crObjs, List.mem_cons, List.not_mem_nil, or_false] at ho
        rcases ho with rfl | rfl <;> exact absurd hfn (by decide))).1 crDisk hmem with h2 | h2
  · exact hnew h2
  · have h3 := h2 (.chain [2, 3]) ⟨rfl, fun h => by cases h⟩ (by
      show 2 ≤ 2 ∧ 2 < 8 ∧ fat devV crDisk 2 = 3 ∧ 2 ≤ 3 ∧ 3 < 8 ∧ 8 ≤ fat devV crDisk 3
      decide +kernel)
    rw [he] at h3
    rcases h3 with h3 | ⟨x, o, y, hxy, h3⟩
    · exact absurd (most _ _ h3 (by decide)) (by decide)
    · have hl : x.length + y.length = 2 := by
        have := congrArg List.length hxy
        rw [List.length_append] at this
        exact this.symm
      have := most _ _ h3 (by simp; omega)
      simp at this
      omega

end Fpm.DirDev
