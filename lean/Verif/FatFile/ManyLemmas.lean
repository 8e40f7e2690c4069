import Verif.FatFile.CutLemmas
import Verif.FatFile.ManySpec
/-!
# Several open files: one operation
-/
namespace Fpm.FatFile
open Fpm.Fat Fpm.Fat.Spec Fpm.FatFile.Spec

/-! ## The window stays, or moves to the FAT -/

theorem stays_read (v : Vol) (s : St) (n : Nat) : Stays v s (diskRead v s n).1 := by
  unfold diskRead
  split <;> exact .of_eq rfl

theorem stays_readN (v : Vol) : ∀ (k : Nat) (s : St) (n : Nat), Stays v s (diskReadN v s n k).1
  | 0, s, _ => .refl v s
  | k + 1, s, n => (stays_read v s n).trans (stays_readN v k _ _)

theorem stays_writeN (v : Vol) : ∀ (k : Nat) (s : St) (n : Nat) (b : List Nat), Stays v s (diskWriteN v s n b k).1
  | 0, s, _, _ => .refl v s
  | k + 1, s, n, b => (Stays.of_eq (winsect_write v s n (b.take v.ss))).trans (stays_writeN v k _ _ _)

theorem stays_flush {v : Vol} {s : St} {fp : File} {k : St → File → Out} (hk : ∀ t f, Stays v t (k t f).st) : Stays v s (flush v s fp k).st := by
  unfold flush
  split
  · split
    · exact (Stays.of_eq (winsect_write ..)).trans (hk _ _)
    · exact .of_eq (winsect_write ..)
  · exact hk _ _

theorem stays_fill {v : Vol} {s : St} {fp : File} {n : Nat} {k : St → File → Out} (hk : ∀ t f, Stays v t (k t f).st) : Stays v s (fill v s fp n k).st := by
  unfold fill
  split
  · exact (stays_read _ _ _).trans (hk _ _)
  · exact stays_read _ _ _

theorem stays_sectorR (v : Vol) (n : Nat) (s : St) (fp : File) : Stays v s (readSector v n s fp).st := by
  unfold readSector
  split
  · exact .refl _ _
  · split
    · unfold readDirect
      split <;> exact stays_readN _ _ _ _
    · unfold readCached
      split
      · exact stays_flush fun _ _ => stays_fill fun t _ => .refl v t
      · exact .refl _ _

theorem stays_roundR {v : Vol} (hg : Geo v) (s : St) (fp : File) (n : Nat) : Stays v s (readRound v s fp n).st := by
  have hf : Stays v s (followed v s fp).1 := by
    unfold followed
    split
    · exact .refl _ _
    · exact stays_get hg _ _
  unfold readRound
  split
  · split
    · unfold entered
      split
      · exact hf
      · split
        · exact hf
        · split
          · exact hf
          · exact hf.trans (stays_sectorR _ _ _ _)
    · exact stays_sectorR _ _ _ _
  · exact .refl _ _

theorem stays_loopR {v : Vol} (hg : Geo v) : ∀ (k : Nat) (s : St) (fp : File) (n : Nat) (acc : List Nat), Stays v s (readLoop v k s fp n acc).st
  | 0, s, _, _, _ => .refl v s
  | k + 1, s, fp, n, acc => by
    unfold readLoop
    split
    · exact .refl _ _
    · split
      · exact (stays_roundR hg s fp n).trans (stays_loopR hg k _ _ _ _)
      · exact stays_roundR hg s fp n

theorem stays_sectorW (v : Vol) (x : List Nat) (s : St) (fp : File) : Stays v s (writeSector v x s fp).st := by
  unfold writeSector
  refine stays_flush fun t f => ?_
  unfold writeHere
  split
  · exact .refl _ _
  · split
    · unfold writeDirect
      split <;> exact stays_writeN _ _ _ _ _
    · unfold writeCached
      split
      · exact stays_fill fun t _ => .refl v t
      · exact .refl _ _

theorem stays_roundW {v : Vol} (hg : Geo v) (s : St) (fp : File) (x : List Nat) : Stays v s (writeRound v s fp x).st := by
  have hf : Stays v s (stretched v s fp).1 := by
    unfold stretched
    split
    · split
      · exact stays_create hg _ _
      · exact .refl _ _
    · exact stays_create hg _ _
  unfold writeRound
  split
  · split
    · unfold grown
      split
      · exact hf
      · split
        · exact hf
        · split
          · exact hf
          · split
            · exact hf
            · exact hf.trans (stays_sectorW _ _ _ _)
    · exact stays_sectorW _ _ _ _
  · exact .refl _ _

theorem stays_loopW {v : Vol} (hg : Geo v) : ∀ (k : Nat) (s : St) (fp : File) (x acc : List Nat), Stays v s (writeLoop v k s fp x acc).st
  | 0, s, _, _, _ => .refl v s
  | k + 1, s, fp, x, acc => by
    unfold writeLoop
    split
    · exact .refl _ _
    · split
      · exact stays_roundW hg s fp x
      · split
        · exact stays_roundW hg s fp x
        · exact (stays_roundW hg s fp x).trans (stays_loopW hg k _ _ _ _)

theorem stays_seekEnd (v : Vol) (n : Nat) (s : St) (fp : File) : Stays v s (seekEnd v n s fp).st := by
  unfold seekEnd seekFill
  split
  · exact stays_flush fun _ _ => stays_fill fun t _ => .refl v t
  · exact .refl _ _

theorem stays_seekHere (v : Vol) (s : St) (fp : File) (o c : Nat) : Stays v s (seekHere v s fp o c).st := by
  unfold seekHere
  split
  · split
    · exact .refl _ _
    · exact stays_seekEnd _ _ _ _
  · exact stays_seekEnd _ _ _ _

theorem stays_seekLoop {v : Vol} (hg : Geo v) : ∀ (k : Nat) (s : St) (fp : File) (o c : Nat), Stays v s (seekLoop v k s fp o c).st
  | 0, s, _, _, _ => .refl v s
  | k + 1, s, fp, o, c => by
    have hf : Stays v s (seekNext v s (seekStep v fp) c).1 := by
      unfold seekNext
      split
      · exact stays_create hg _ _
      · exact stays_get hg _ _
    unfold seekLoop
    split
    · unfold seekChecked
      split
      · exact hf
      · split
        · exact hf.trans (stays_seekHere _ _ _ _ _)
        · split
          · exact hf
          · split
            · exact hf
            · exact hf.trans (stays_seekLoop hg k _ _ _ _)
    · exact stays_seekHere _ _ _ _ _

theorem stays_seekFrom {v : Vol} (hg : Geo v) (o c : Nat) (s : St) (fp : File) : Stays v s (seekFrom v o c s fp).st := by
  unfold seekFrom
  split
  · exact stays_seekLoop hg _ _ _ _ _
  · exact stays_seekEnd _ _ _ _

theorem stays_seekTo {v : Vol} (hg : Geo v) (s : St) (fp : File) (o : Nat) : Stays v s (seekTo v s fp o).st := by
  unfold seekTo
  split
  · exact stays_seekEnd _ _ _ _
  · split
    · exact stays_seekFrom hg _ _ _ _
    · unfold seekStart
      split
      · have hf := stays_create hg s 0
        unfold seekNew
        split
        · exact hf
        · split
          · exact hf
          · split
            · exact hf
            · exact hf.trans (stays_seekFrom hg _ _ _ _)
      · exact stays_seekFrom hg _ _ _ _

theorem stays_cutEnd {v : Vol} {s : St} {fp : File} {p : St × Nat} (h : Stays v s p.1) : Stays v s (cutEnd v fp p).st := by
  unfold cutEnd
  split
  · exact h
  · exact h.trans (stays_flush fun t _ => .refl v t)

theorem stays_cutAfter {v : Vol} (hg : Geo v) {s : St} {fp : File} {p : St × Nat} (h : Stays v s p.1) : Stays v s (cutAfter v fp p).1 := by
  unfold cutAfter
  split
  · exact h
  · split
    · exact h
    · split
      · exact h
      · split
        · exact h.trans (stays_remove hg _ _ _)
        · exact h

theorem stays_call {v : Vol} (hg : Geo v) (s : St) (fp : File) (op : Op) : Stays v s (call v s fp op).st := by
  cases op with
  | read n =>
    show Stays v s (fRead v s fp n).st
    unfold fRead
    split
    · exact .refl _ _
    · split
      · exact .refl _ _
      · exact stays_loopR hg _ _ _ _ _
  | write b =>
    show Stays v s (fWrite v s fp b).st
    unfold fWrite
    split
    · exact .refl _ _
    · split
      · exact .refl _ _
      · exact stays_loopW hg _ _ _ _ _
  | seek o =>
    show Stays v s (fLseek v s fp o).st
    unfold fLseek
    split
    · exact .refl _ _
    · exact stays_seekTo hg _ _ _
  | truncate =>
    show Stays v s (fTruncate v s fp).st
    unfold fTruncate
    split
    · exact .refl _ _
    · split
      · exact .refl _ _
      · split
        · split
          · exact stays_cutEnd (stays_remove hg _ _ _)
          · exact stays_cutEnd (stays_cutAfter hg (stays_get hg _ _))
        · exact .refl _ _

/-! ## One file of many -/

theorem chainsOf_split (L1 : List Opened) (x : Opened) (L2 : List Opened) (C : List (List Nat)) :
    C ++ chainsOf (L1 ++ x :: L2) = withRest (C ++ chainsOf L1) x.chain (chainsOf L2) := by
  unfold withRest chainsOf
  by_cases h : x.chain = []
  · rw [if_pos h]
    simp [h]
  · rw [if_neg h]
    simp [h]

theorem own_mono {v : Vol} {o o' : List Nat} {n : Nat} (h : ∀ c, c ∈ o' → c ∈ o) (hn : OwnSect v o n) : OwnSect v o' n := by
  obtain ⟨c, ⟨h1, h2, h3⟩, h4⟩ := hn
  exact ⟨c, ⟨h1, h2, fun z => h3 (h c z)⟩, h4⟩

theorem own_nil {v : Vol} {o : List Nat} {n : Nat} (h : OwnSect v o n) : OwnSect v [] n := own_mono (fun _ z => by cases z) h

/-- A file of the desk behaves as one alone does. -/
theorem desk_repr {v : Vol} {C : List (List Nat)} {s : St} {L1 L2 : List Opened} {x : Opened} (h : Desk v C s (L1 ++ x :: L2)) :
    Repr v (C ++ chainsOf L1) (chainsOf L2) x.chain s x.fp x.arr := by
  have hf := h.files x (by simp)
  have hch := h.chains
  rw [chainsOf_split] at hch
  have hv : VolOk v (C ++ chainsOf L1) (chainsOf L2) x.chain s := by
    refine ⟨h.inv, hch, h.count, fun n hn hown => h.window n hn (own_mono (fun c hc => ?_) hown)⟩
    rw [List.flatten_append, List.flatten_append]
    exact List.mem_append_left _ (List.mem_append_left _ hc)
  refine ⟨⟨hv, hf.sclust, hf.buf, fun hd => ?_, fun hc hown => ?_, hf.size, hf.small⟩, hf.pos, hf.clust, hf.sect, hf.noErr, hf.data, hf.at_⟩
  · rcases hf.held with z | z
    · exact hv.secs_own z
    · rw [z.1] at hd; cases hd
  · rcases hf.held with z | z
    · exact hf.clean hc z
    · exact absurd (own_nil hown) z.2

/-- Sectors of another chain. -/
theorem other_sect {v : Vol} (hg : Geo v) (hd : DataGeo v) {a b : List (List Nat)} {T : Nat → Nat} {l : List Nat} (hl : l ∈ a ++ b) (hk : Links v.nFatent T l) {n : Nat} (hn : n ∈ secs v l) :
    ¬ Fat1 v n ∧ ¬ Fat2 v n ∧ ¬ OwnSect v (a ++ b).flatten n ∧ OwnSect v [] n := by
  obtain ⟨c, hc, hcn⟩ := secs_mem hn
  have hm := links_mem hk c hc
  have hown : OwnSect v [] n := ⟨c, ⟨hm.1, hm.2, List.not_mem_nil⟩, hcn⟩
  refine ⟨own_not1 hg hd hown, own_not2 hd hown, ?_, hown⟩
  rintro ⟨c', ⟨h2', -, hno⟩, hcn'⟩
  apply hno
  rw [sectors_inj hcn' hcn h2' hm.1]
  exact List.mem_flatten.mpr ⟨l, hl, hc⟩

theorem view_apart {s : St} {n : Nat} (h : s.winsect ≠ some n) : view s n = s.disk n := by
  unfold view
  rw [if_neg h]

/-- Another file after one of them has changed. -/
theorem file_other {v : Vol} {s s' : St} {y : Opened} (h : FileOk v s y) (hd : ∀ n ∈ secs v y.chain, s'.disk n = s.disk n) : FileOk v s' y := by
  refine ⟨h.sclust, h.buf, h.held, fun z1 z2 => by rw [hd _ z2]; exact h.clean z1 z2, h.size, h.small, h.pos, h.clust, h.sect, h.noErr, ?_, h.at_⟩
  rw [h.data]
  unfold contents
  congr 1
  refine flat_congr fun n hn => ?_
  unfold overlay
  rw [hd n hn]

/-- One of the files has changed. -/
theorem desk_update {v : Vol} (hg : Geo v) (hdg : DataGeo v) {C : List (List Nat)} {s s' : St} {L1 L2 : List Opened} {x x' : Opened} (h : Desk v C s (L1 ++ x :: L2))
    (hr : Repr v (C ++ chainsOf L1) (chainsOf L2) x'.chain s' x'.fp x'.arr) (ho : Others v (C ++ chainsOf L1) (chainsOf L2) s s') (hst : ∀ n, s'.winsect = some n → ¬ OwnSect v C.flatten n)
    (hheld : x'.fp.sect ∈ secs v x'.chain ∨ ¬ OwnSect v [] x'.fp.sect) : Desk v C s' (L1 ++ x' :: L2) := by
  have hch := hr.chains
  rw [← chainsOf_split] at hch
  have hx : FileOk v s' x' := by
    refine ⟨hr.sclust, hr.buf, ?_, fun z1 z2 => hr.clean z1 (hr.secs_own z2), hr.size, hr.small, hr.pos, hr.clust, hr.sect, hr.noErr, hr.data, hr.at_⟩
    rcases hheld with z | z
    · exact .inl z
    · refine .inr ⟨?_, z⟩
      cases hd : x'.fp.dirty with
      | false => rfl
      | true => exact absurd (own_nil (hr.own hd)) z
  refine ⟨hr.inv, hch, hr.count, hst, fun y hy => ?_⟩
  have hoth : ∀ y, y ∈ L1 ∨ y ∈ L2 → FileOk v s' y := by
    intro y hy
    have hy0 : FileOk v s y := h.files y (by rcases hy with z | z <;> simp [z])
    refine file_other hy0 fun n hn => ?_
    have hne : y.chain ≠ [] := by
      intro z
      rw [z] at hn
      exact absurd hn List.not_mem_nil
    have hmem : y.chain ∈ (C ++ chainsOf L1) ++ chainsOf L2 := by
      rcases hy with z | z
      · refine List.mem_append_left _ (List.mem_append_right _ ?_)
        exact List.mem_filter.mpr ⟨List.mem_map.mpr ⟨y, z, rfl⟩, by simpa using hne⟩
      · exact List.mem_append_right _ (List.mem_filter.mpr ⟨List.mem_map.mpr ⟨y, z, rfl⟩, by simpa using hne⟩)
    have hlk := ho.1 _ hmem
    obtain ⟨h1, h2, h3, -⟩ := other_sect hg hdg hmem hlk hn
    have hnC : OwnSect v C.flatten n := by
      obtain ⟨c, hc, hcn⟩ := secs_mem hn
      have hm := links_mem hlk c hc
      refine ⟨c, ⟨hm.1, hm.2, fun hcC => ?_⟩, hcn⟩
      have hnd := h.chains.nodup
      rw [List.flatten_append] at hnd
      refine (List.nodup_append.mp hnd).2.2 c hcC c ?_ rfl
      refine List.mem_flatten.mpr ⟨y.chain, List.mem_filter.mpr ⟨List.mem_map.mpr ⟨y, ?_, rfl⟩, by simpa using hne⟩, hc⟩
      rcases hy with z | z <;> simp [z]
    have e := ho.2.1 n h1 h2 h3
    rw [view_apart fun z => hst n z hnC, view_apart fun z => h.window n z hnC] at e
    exact e
  rcases List.mem_append.mp hy with z | z
  · exact hoth y (.inl z)
  · rcases List.mem_cons.mp z with rfl | z
    · exact hx
    · exact hoth y (.inr z)

/-- Chain of a file after an operation. -/
theorem call_did {v : Vol} (hg : Geo v) (hd : DataGeo v) (hs : Sound v) {a b : List (List Nat)} {m : List Nat} {s : St} {fp : File} {A : Arr} (h : Repr v a b m s fp A) (op : Op)
    (ha : Arg op) : Did v a b m s fp A op (call v s fp op) := by
  have key : Failed v a b s (call v s fp op) ∨ Did v a b m s fp A op (call v s fp op) := by
    cases op with
    | read n => exact read_spec hg hd h n
    | write b => exact write_spec hg hd h b ha.1 ha.2
    | seek o => exact seek_spec hg hd h o
    | truncate => exact truncate_spec hg hd h
  exact key.resolve_left fun z => z.1 hs

theorem ran_cut {K : Nat} {rd wr : Bool} {A B : Arr} {r : Nat} {g : List Nat} (h : Ran K rd wr A .truncate r g B) : B.pos = A.pos := by
  cases h <;> rfl

/-- One operation on one of the files. -/
theorem desk_step {v : Vol} (hg : Geo v) (hd : DataGeo v) (hs : Sound v) {C : List (List Nat)} {s : St} {L1 L2 : List Opened} {x : Opened} (h : Desk v C s (L1 ++ x :: L2)) (op : Op)
    (ha : Arg op) (hc : op = .truncate → x.fp.fptr % v.ss ≠ 0 ∨ x.fp.objsize ≤ x.fp.fptr) :
    ∃ m' B, Ran (capacity v ((C ++ chainsOf L1) ++ chainsOf L2).flatten) x.fp.canRead x.fp.canWrite x.arr op (call v s x.fp op).res (call v s x.fp op).got B ∧
      Desk v C (call v s x.fp op).st (L1 ++ ⟨m', (call v s x.fp op).fp, B⟩ :: L2) ∧ (call v s x.fp op).fp.canRead = x.fp.canRead ∧
      (call v s x.fp op).fp.canWrite = x.fp.canWrite ∧ Others v (C ++ chainsOf L1) (chainsOf L2) s (call v s x.fp op).st := by
  have hr := desk_repr h
  obtain ⟨m', B, hran, hrep, hfl, ho, hm⟩ := call_did hg hd hs hr op ha
  have hst : ∀ n, (call v s x.fp op).st.winsect = some n → ¬ OwnSect v C.flatten n := by
    intro n hn hown
    rcases stays_call hg s x.fp op n hn with z | z
    · exact h.window n z hown
    · exact own_not1 hg hd hown z
  refine ⟨m', B, hran, desk_update hg hd (h := h) (x' := ⟨m', (call v s x.fp op).fp, B⟩) hrep ho hst ?_, hfl.1, hfl.2.1, ho⟩
  show (call v s x.fp op).fp.sect ∈ secs v m' ∨ ¬ OwnSect v [] (call v s x.fp op).fp.sect
  rcases hm with ⟨rfl, hw, hlt⟩ | ⟨⟨e, he⟩, hnear⟩
  · refine .inl ?_
    have hlen : x.arr.data.length = x.fp.objsize := by rw [hr.data, contents_len hr.toBase]
    rw [hlen, hr.at_] at hlt
    have hne := (hc rfl).resolve_right (by omega)
    have hpos := ran_cut hran
    have e : (call v s x.fp .truncate).fp.fptr = x.fp.fptr := by rw [← hrep.at_, hpos, hr.at_]
    exact List.mem_of_getElem? (hrep.sect (by rw [e]; exact hne))
  · rcases hnear with z | z
    · rw [z]
      rcases (h.files x (by simp)).held with y | y
      · refine .inl ?_
        rw [← he, secs_append]
        exact List.mem_append_left _ y
      · exact .inr y.2
    · exact .inl z

end Fpm.FatFile
