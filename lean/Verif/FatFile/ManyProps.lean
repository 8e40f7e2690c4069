import Verif.FatFile.ManyLemmas
import Verif.FatFile.Props
/-!
# C93: several open files do not affect each other
-/
namespace Fpm.FatFile
open Fpm.Fat Fpm.Fat.Spec Fpm.FatFile.Spec

/-- Clusters for the open files. -/
def Spec.share (v : Vol) (C : List (List Nat)) : Nat := v.nFatent - 2 - C.flatten.length

/-- **C93**, as stated: whatever is done with several open files of a volume, in whatever order, each of them is an array of bytes with a position. -/
def C93_full : Prop := ∀ (v : Vol) (C : List (List Nat)) (s : St) (L : List Opened) (hist : List (Nat × Op)), Geo v → DataGeo v → Sound v → Desk v C s L →
  (∀ e ∈ hist, e.1 < L.length ∧ Arg e.2) → ∃ M, Shared (share v C) (v.csize * v.ss) (L.map sheet) hist (turns v s (L.map Opened.fp) hist).2.2 M

theorem taken_append (L M : List Sheet) : taken (L ++ M) = taken L + taken M := by
  unfold taken
  rw [List.map_append, List.sum_append]

theorem taken_chains : ∀ L : List Opened, (chainsOf L).flatten.length = taken (L.map sheet)
  | [] => rfl
  | x :: L => by
    have ih := taken_chains L
    have e : taken ((x :: L).map sheet) = x.chain.length + taken (L.map sheet) := by simp [taken, sheet]
    rw [e, ← ih]
    unfold chainsOf
    by_cases h : x.chain = []
    · simp [h]
    · simp [h]

/-- The history, one operation after the other. -/
theorem desk_turns {v : Vol} (hg : Geo v) (hd : DataGeo v) (hs : Sound v) (C : List (List Nat)) : ∀ (hist : List (Nat × Op)) (s : St) (L : List Opened), Desk v C s L →
    (∀ e ∈ hist, e.1 < L.length ∧ Arg e.2) → calm v s (L.map Opened.fp) hist = true →
    ∃ L', Shared (share v C) (v.csize * v.ss) (L.map sheet) hist (turns v s (L.map Opened.fp) hist).2.2 (L'.map sheet) ∧ Desk v C (turns v s (L.map Opened.fp) hist).1 L' ∧
      L'.map Opened.fp = (turns v s (L.map Opened.fp) hist).2.1 ∧ Others v C [] s (turns v s (L.map Opened.fp) hist).1
  | [], s, L, h, _, _ => ⟨L, .nil _, h, rfl, fun l hl => h.chains.chain l (by rw [List.append_nil] at hl; exact List.mem_append_left _ hl), fun _ _ _ _ => rfl, fun _ => ⟨fun _ h => .inl h, .inl (.refl _ _ _ _)⟩⟩
  | (k, op) :: hist, s, L, h, ha, hc => by
    obtain ⟨hk, harg⟩ := ha (k, op) (by simp)
    obtain ⟨x, hx⟩ : ∃ x, L[k]? = some x := ⟨_, List.getElem?_eq_getElem hk⟩
    have hL : L = L.take k ++ x :: L.drop (k + 1) := by
      obtain ⟨hi, rfl⟩ := List.getElem?_eq_some_iff.mp hx
      rw [← List.drop_eq_getElem_cons hi, List.take_append_drop]
    have hfx : (L.map Opened.fp)[k]? = some x.fp := by rw [List.getElem?_map, hx]; rfl
    rw [calm] at hc
    simp only [hfx, Bool.and_eq_true] at hc
    obtain ⟨hc0, hc2⟩ := hc
    have hc1 : op = .truncate → x.fp.fptr % v.ss ≠ 0 ∨ x.fp.objsize ≤ x.fp.fptr := by
      rintro rfl
      exact of_decide_eq_true hc0
    have hlen : (L.take k).length = k := by rw [List.length_take]; omega
    have h0 := h
    rw [hL] at h0
    obtain ⟨m', B, hran, hdesk, hrd, hwr, hoth⟩ := desk_step hg hd hs h0 op harg hc1
    have hset : L.take k ++ (⟨m', (call v s x.fp op).fp, B⟩ : Opened) :: L.drop (k + 1) = L.set k ⟨m', (call v s x.fp op).fp, B⟩ := by
      rw [List.set_eq_take_append_cons_drop, if_pos hk]
    rw [hset] at hdesk
    have hfp : (L.set k ⟨m', (call v s x.fp op).fp, B⟩).map Opened.fp = (L.map Opened.fp).set k (call v s x.fp op).fp := by rw [List.map_set]
    have hsh : (L.set k ⟨m', (call v s x.fp op).fp, B⟩).map sheet = (L.map sheet).set k { sheet x with arr := B, held := m'.length } := by
      rw [List.map_set]
      congr 1
      unfold sheet
      simp only
      rw [hrd, hwr]
    obtain ⟨L', k1, k2, k3, k4⟩ := desk_turns hg hd hs C hist _ _ hdesk (fun e he => by rw [List.length_set]; exact ha e (by simp [he])) (by rw [hfp]; exact hc2)
    rw [hfp] at k1 k2 k3 k4
    rw [hsh] at k1
    have herase : taken ((L.map sheet).eraseIdx k) = taken ((L.take k).map sheet) + taken ((L.drop (k + 1)).map sheet) := by
      rw [List.eraseIdx_eq_take_drop_succ, taken_append, List.map_take, List.map_drop]
    have hcap : capacity v ((C ++ chainsOf (L.take k)) ++ chainsOf (L.drop (k + 1))).flatten = (share v C - taken ((L.map sheet).eraseIdx k)) * (v.csize * v.ss) := by
      unfold capacity share
      rw [herase, List.flatten_append, List.flatten_append, List.length_append, List.length_append, taken_chains, taken_chains]
      congr 1
      omega
    rw [hcap] at hran
    have hdesk' := hdesk
    rw [← hset] at hdesk'
    have hrep := desk_repr hdesk'
    have hroom := room_le hrep.toVolOk
    rw [List.flatten_append, List.flatten_append, List.length_append, List.length_append, taken_chains, taken_chains] at hroom
    have hBlen : B.data.length = (call v s x.fp op).fp.objsize := by
      have := contents_len hrep.toBase
      rw [← hrep.data] at this
      exact this
    have hB2 : B.pos = (call v s x.fp op).fp.fptr := hrep.at_
    have hstep := Shared.cons (L := L.map sheet) (x := sheet x) (by rw [List.getElem?_map, hx]; rfl) hran (by rw [hBlen]; exact hrep.size)
      (by unfold share; rw [herase]; simp only at hroom; omega) k1
    rw [hB2, hBlen] at hstep
    have e : turns v s (L.map Opened.fp) ((k, op) :: hist) =
        ((turns v (call v s x.fp op).st ((L.map Opened.fp).set k (call v s x.fp op).fp) hist).1, (turns v (call v s x.fp op).st ((L.map Opened.fp).set k (call v s x.fp op).fp) hist).2.1,
          ⟨(call v s x.fp op).res, (call v s x.fp op).got, (call v s x.fp op).fp.fptr, (call v s x.fp op).fp.objsize⟩ ::
            (turns v (call v s x.fp op).st ((L.map Opened.fp).set k (call v s x.fp op).fp) hist).2.2) := by
      rw [turns]
      simp only [hfx]
    rw [e]
    refine ⟨L', hstep, k2, k3, (hoth.mono fun l hl => ?_).trans k4⟩
    rw [List.append_nil] at hl
    exact List.mem_append_left _ (List.mem_append_left _ hl)

/-- **C93**, as far as it holds: if no file is cut at a multiple of the sector size before its end, then whatever is done with several open files, in whatever order, each of
them is an array of bytes with a position, and the others, as well as everything else on the volume, stay as they are; only the clusters are shared.  Missing: cutting a file at a
multiple of the sector size leaves in its buffer a sector that no longer belongs to it; see `C93_violated`. -/
theorem C93_any_order_partial (v : Vol) (hg : Geo v) (hd : DataGeo v) (hs : Sound v) (C : List (List Nat)) (s : St) (L : List Opened) (h : Desk v C s L) (hist : List (Nat × Op))
    (ha : ∀ e ∈ hist, e.1 < L.length ∧ Arg e.2) (hc : calm v s (L.map Opened.fp) hist = true) :
    ∃ L', Shared (share v C) (v.csize * v.ss) (L.map sheet) hist (turns v s (L.map Opened.fp) hist).2.2 (L'.map sheet) ∧ Desk v C (turns v s (L.map Opened.fp) hist).1 L' ∧
      L'.map Opened.fp = (turns v s (L.map Opened.fp) hist).2.1 ∧ Others v C [] s (turns v s (L.map Opened.fp) hist).1 := desk_turns hg hd hs C hist s L h ha hc

/-- C93: after the write-back of one of the files, with which `f_sync` and `f_close` begin (fatfs/fatfs.c:3903-3909), the device itself holds its bytes, and the files stay what they are. -/
theorem C93_written (v : Vol) (hg : Geo v) (hd : DataGeo v) (hs : Sound v) (C : List (List Nat)) (s : St) (L1 L2 : List Opened) (x : Opened) (h : Desk v C s (L1 ++ x :: L2)) :
    (flush v s x.fp done).res = 0 ∧ Desk v C (flush v s x.fp done).st (L1 ++ { x with fp := (flush v s x.fp done).fp } :: L2) ∧ (flush v s x.fp done).fp.dirty = false ∧
    ((secs v x.chain).flatMap (flush v s x.fp done).st.disk).take x.arr.data.length = x.arr.data := by
  have hr := desk_repr h
  obtain ⟨h1, h2, h3, h4⟩ := C54_written v hg hd hs _ _ _ s x.fp x.arr hr
  refine ⟨h1, ?_, h3, h4⟩
  have ho : Others v (C ++ chainsOf L1) (chainsOf L2) s (flush v s x.fp done).st :=
    flush_spec hg hd hr.toBase (P := fun o => Others v (C ++ chainsOf L1) (chainsOf L2) s o.st) (fun o hf => hf.2.2.2) fun _ _ _ ho => ho
  refine desk_update hg hd (h := h) (x' := { x with fp := (flush v s x.fp done).fp }) h2 ho (fun n hn hown => ?_) ?_
  · have hst : Stays v s (flush v s x.fp done).st := stays_flush fun t _ => .refl v t
    rcases hst n hn with z | z
    · exact h.window n z hown
    · exact own_not1 hg hd hown z
  · have e : (flush v s x.fp done).fp.sect = x.fp.sect := by
      unfold flush
      split
      · split <;> rfl
      · rfl
    show (flush v s x.fp done).fp.sect ∈ secs v x.chain ∨ ¬ OwnSect v [] (flush v s x.fp done).fp.sect
    rw [e]
    exact (h.files x (by simp)).held.imp id fun z => z.2

/-! ## Why not always -/

/-- A volume with three clusters of eight bytes. -/
def dkV : Vol := { ss := 8, csize := 1, fatbase := 1, fsize := 1, nFats := 1, nFatent := 5, fsType := 1, database := 2, io := fun _ => .ok }

/-- One file has clusters 2 and 3, the other has cluster 4. -/
def dkS : St :=
  { disk := fun n => if n = 1 then [0xF8, 0xFF, 0xFF, 3, 0xF0, 0xFF, 0xFF, 0x0F] else if n = 2 then List.replicate 8 1 else if n = 3 then List.replicate 8 2 else List.replicate 8 4,
    past := [], cnt := 0, win := List.replicate 8 0, winsect := none, wflag := false, lastClst := 4, freeClst := 0, fsiFlag := false }

/-- A file as `f_open` leaves it, for reading and writing. -/
def dkFile (size first : Nat) : File :=
  { fptr := 0, objsize := size, sclust := first, clust := 0, sect := 0, buf := List.replicate 8 0, dirty := false, modified := false, canRead := true, canWrite := true, err := 0 }

def dkL : List Opened := [⟨[2, 3], dkFile 12 2, ⟨List.replicate 8 1 ++ List.replicate 4 2, 0⟩⟩, ⟨[4], dkFile 8 4, ⟨List.replicate 8 4, 0⟩⟩]

theorem dkGeo : Geo dkV := { ss := by decide, nFats := by decide, kind := by decide, size := by decide, pos := by decide, junk := fun _ _ h => by cases h }

theorem dkData : DataGeo dkV := ⟨⟨0, rfl⟩, by decide, by decide⟩

theorem dkInv : Inv dkV dkS where
  disk n := by
    show Sec dkV (if n = 1 then [0xF8, 0xFF, 0xFF, 3, 0xF0, 0xFF, 0xFF, 0x0F] else if n = 2 then List.replicate 8 1 else if n = 3 then List.replicate 8 2 else List.replicate 8 4)
    split
    · exact ⟨by decide, by decide⟩
    · split
      · exact ⟨by decide, by decide⟩
      · split
        · exact ⟨by decide, by decide⟩
        · exact ⟨by decide, by decide⟩
  win := ⟨by decide, by decide⟩
  clean _ n h := by cases h
  dirty h := by cases h
  fat2 n h := by cases h

theorem dkTab : ∀ c, 2 ≤ c → c < 5 → tab dkV dkS c = if c = 2 then 3 else 0xFFF := by
  intro c h2 hc
  have h : tab dkV dkS c = byBytes dkV (view dkS) c % 2 ^ 12 := by
    unfold tab fat
    rw [entry_eq dkGeo (bytes_of dkGeo dkInv) hc]
    rfl
  rw [h]
  have hall : ∀ c, c < 5 → 2 ≤ c → byBytes dkV (view dkS) c % 2 ^ 12 = if c = 2 then 3 else 0xFFF := by decide +kernel
  exact hall c hc h2

theorem dkChains : Chains dkV.nFatent (tab dkV dkS) [[2, 3], [4]] := by
  refine ⟨fun l hl => ?_, by decide, fun c h2 hc _ => ?_⟩
  · rcases List.mem_cons.mp hl with rfl | hl
    · refine ⟨by decide, by decide, ?_, by decide, by decide, ?_⟩
      · rw [dkTab 2 (by decide) (by decide)]; rfl
      · rw [dkTab 3 (by decide) (by decide)]; decide
    · rw [List.mem_singleton] at hl
      subst hl
      refine ⟨by decide, by decide, ?_⟩
      rw [dkTab 4 (by decide) (by decide)]; decide
  · have hc' : c < 5 := hc
    have : c = 2 ∨ c = 3 ∨ c = 4 := by omega
    rcases this with rfl | rfl | rfl <;> decide

theorem dk_own (n : Nat) (h : OwnSect dkV [] n) : n ≠ 0 := by
  obtain ⟨c, -, hc⟩ := h
  rw [mem_sectors] at hc
  have := hc.1
  have h2 : dkV.database = 2 := rfl
  omega

theorem dkDesk : Desk dkV [] dkS dkL where
  inv := dkInv
  chains := dkChains
  count _ := by
    have h2 := dkTab 2 (by decide) (by decide)
    have h3 := dkTab 3 (by decide) (by decide)
    have h4 := dkTab 4 (by decide) (by decide)
    show 0 = freeCount (tab dkV dkS) 5
    simp [freeCount, h2, h3, h4]
  window n h := by cases h
  files x hx := by
    rcases List.mem_cons.mp hx with rfl | hx
    · exact ⟨rfl, ⟨by decide, by decide⟩, .inr ⟨rfl, fun z => dk_own _ z rfl⟩, fun _ z => absurd z (by decide), by decide, by decide, by decide, (fun z => absurd z (by decide)),
        (fun z => absurd z (by decide)), rfl, by decide +kernel, rfl⟩
    · rw [List.mem_singleton] at hx
      subst hx
      exact ⟨rfl, ⟨by decide, by decide⟩, .inr ⟨rfl, fun z => dk_own _ z rfl⟩, fun _ z => absurd z (by decide), by decide, by decide, by decide, (fun z => absurd z (by decide)),
        (fun z => absurd z (by decide)), rfl, by decide +kernel, rfl⟩

/-- The first file is cut after its first cluster, the other one takes the cluster, fills it and gives it back, and the first file gets it again. -/
def dkBefore : List (Nat × Op) :=
  [(0, .seek 9), (0, .seek 8), (0, .truncate), (1, .seek 8), (1, .write (List.replicate 8 9)), (1, .seek 8), (1, .truncate), (0, .seek 12)]

/-- Then a byte of it is read twice. -/
def dkAfter : List (Nat × Op) := [(0, .seek 8), (0, .read 1), (0, .seek 0), (0, .read 1), (0, .seek 8), (0, .read 1)]

theorem dkSeen : (turns dkV dkS (dkL.map Opened.fp) (dkBefore ++ dkAfter)).2.2.map (fun x => (x.res, x.got, x.pos, x.size)) =
    [(0, [], 9, 12), (0, [], 8, 12), (0, [], 8, 8), (0, [], 8, 8), (0, List.replicate 8 9, 16, 16), (0, [], 8, 16), (0, [], 8, 8), (0, [], 12, 12),
     (0, [], 8, 12), (0, [2], 9, 12), (0, [], 0, 12), (0, [1], 1, 12), (0, [], 8, 12), (0, [9], 9, 12)] := by decide +kernel

theorem shared_append {N u : Nat} : ∀ {h1 h2 : List (Nat × Op)} {L M : List Sheet} {t : List Seen}, Shared N u L (h1 ++ h2) t M → ∃ L', Shared N u L' h2 (t.drop h1.length) M
  | [], _, L, _, _, h => ⟨L, h⟩
  | (_, _) :: h1, h2, _, _, _, .cons _ _ _ _ hs => shared_append (h1 := h1) (h2 := h2) hs

theorem set_get {L : List Sheet} {x y z : Sheet} (h : L[0]? = some z) (h' : (L.set 0 y)[0]? = some x) : x = y := by
  cases L with
  | nil => cases h
  | cons a L => exact (Option.some.inj h').symm

/-- Moving never takes bytes away. -/
theorem ran_seek {K : Nat} {rd wr : Bool} {A B : Arr} {o r : Nat} {g : List Nat} (h : Ran K rd wr A (.seek o) r g B) : A.data <+: B.data := by
  cases h with
  | back _ _ => exact List.prefix_refl _
  | toEnd _ _ => exact List.prefix_refl _
  | beyond _ _ _ _ _ => exact List.prefix_append _ _

theorem ran_read {K : Nat} {rd wr : Bool} {A B : Arr} {n : Nat} {g : List Nat} (h : Ran K rd wr A (.read n) 0 g B) : B.data = A.data ∧ g = (A.data.drop A.pos).take n := by
  cases h with
  | read _ _ => exact ⟨rfl, rfl⟩

/-- **C93**, as stated, does not hold. -/
theorem C93_violated : ¬ C93_full := by
  intro h
  obtain ⟨M, hM⟩ := h dkV [] dkS dkL (dkBefore ++ dkAfter) dkGeo dkData (fun _ => rfl) dkDesk (by
    intro e he
    have hall : ∀ e ∈ dkBefore ++ dkAfter, e.1 < 2 := by decide
    refine ⟨hall e he, ?_⟩
    have hw : ∀ e ∈ dkBefore ++ dkAfter, ∀ b, e.2 = .write b → (∀ x ∈ b, x < 256) ∧ b.length < 2 ^ 32 := by
      intro e he b hb
      simp [dkBefore, dkAfter] at he
      rcases he with rfl | rfl | rfl | rfl | rfl | rfl | rfl | rfl | rfl | rfl | rfl | rfl | rfl | rfl <;> cases hb
      exact ⟨by decide, by decide⟩
    cases hop : e.2 with
    | write b => exact hw e he b hop
    | read _ => trivial
    | seek _ => trivial
    | truncate => trivial)
  have hseen := dkSeen
  generalize (turns dkV dkS (dkL.map Opened.fp) (dkBefore ++ dkAfter)).2.2 = t at hM hseen
  obtain ⟨L', hL⟩ := shared_append hM
  have hd := congrArg (List.drop 8) hseen
  rw [← List.map_drop] at hd
  have hlen : dkBefore.length = 8 := rfl
  rw [hlen] at hL
  generalize t.drop 8 = t' at hL hd
  unfold dkAfter at hL
  cases hL with
  | cons e1 r1 _ _ hL =>
    cases hL with
    | cons e2 r2 _ _ hL =>
      cases hL with
      | cons e3 r3 _ _ hL =>
        cases hL with
        | cons e4 r4 _ _ hL =>
          cases hL with
          | cons e5 r5 _ _ hL =>
            cases hL with
            | cons e6 r6 _ _ hL =>
              simp only [List.map_cons, List.drop_succ_cons, List.drop_zero, List.cons.injEq, Prod.mk.injEq] at hd
              obtain ⟨⟨-, -, p1, -⟩, ⟨rfl, rfl, -⟩, -, ⟨rfl, -⟩, ⟨-, -, p5, -⟩, ⟨rfl, rfl, -⟩, -⟩ := hd
              obtain rfl := set_get e1 e2
              obtain rfl := set_get e2 e3
              obtain rfl := set_get e3 e4
              obtain rfl := set_get e4 e5
              obtain rfl := set_get e5 e6
              have q2 := ran_read r2
              have q3 := ran_seek r3
              have q4 := ran_read r4
              have q5 := ran_seek r5
              have q6 := ran_read r6
              simp only at q2 q3 q4 q5 q6
              rw [p1] at q2
              rw [p5] at q6
              rw [q2.1] at q3
              rw [q4.1] at q5
              obtain ⟨j, hj⟩ := q3.trans q5
              have h1 := q2.2
              have h2 := q6.2
              rw [← hj] at h2
              have h1' := congrArg (fun l => l[0]?) h1
              have h2' := congrArg (fun l => l[0]?) h2
              simp only [List.getElem?_take, List.getElem?_drop, List.getElem?_cons_zero, Nat.zero_lt_one, if_true, Nat.add_zero] at h1' h2'
              rw [List.getElem?_append_left (List.getElem?_eq_some_iff.mp h1'.symm).1, ← h1'] at h2'
              cases h2'

/-- Two files used in turn, none of them cut at a multiple of the sector size. -/
def dkTurns : List (Nat × Op) := [(0, .seek 9), (1, .read 3), (0, .write [7, 7]), (1, .write [8]), (0, .truncate), (1, .seek 3), (0, .seek 9), (0, .read 5), (1, .read 2)]

/-- Hypotheses of C93 can be met. -/
example : Geo dkV ∧ DataGeo dkV ∧ Sound dkV ∧ Desk dkV [] dkS dkL ∧ (∀ e ∈ dkTurns, e.1 < dkL.length) ∧
    (turns dkV dkS (dkL.map Opened.fp) dkTurns).2.2.map (fun x => (x.res, x.got)) =
      [(0, []), (0, [4, 4, 4]), (0, [7, 7]), (0, [8]), (0, []), (0, []), (0, []), (0, [7, 7]), (0, [8, 4])] :=
  ⟨dkGeo, dkData, fun _ => rfl, dkDesk, by decide, by decide +kernel⟩

/-- In particular the one about cutting. -/
example : calm dkV dkS (dkL.map Opened.fp) dkTurns = true := by decide +kernel

end Fpm.FatFile
