import Verif.FatFile.CutLemmas
import Verif.Fat.CrashProps
/-!
# C54: an open file is an array of bytes with a position
-/
namespace Fpm.FatFile
open Fpm.Fat Fpm.Fat.Spec Fpm.FatFile.Spec

/-- C54, one operation: it does with the file what it should do with an array of bytes, and everything else stays as it is; or the
device has failed, and then the result is an error, which the file keeps, and still everything else stays as it is. -/
theorem C54_step (v : Vol) (hg : Geo v) (hd : DataGeo v) (a b : List (List Nat)) (m : List Nat) (s : St) (fp : File) (A : Arr) (h : Spec.Repr v a b m s fp A) (op : Op)
    (ha : Arg op) :
    Others v a b s (call v s fp op).st ∧
    ((∃ m' B, Ran (capacity v (a ++ b).flatten) fp.canRead fp.canWrite A op (call v s fp op).res (call v s fp op).got B ∧
        Spec.Repr v a b m' (call v s fp op).st (call v s fp op).fp B ∧ (call v s fp op).fp.canRead = fp.canRead ∧ (call v s fp op).fp.canWrite = fp.canWrite) ∨
     ¬ Sound v ∧ (call v s fp op).res ≠ 0 ∧ (call v s fp op).fp.err = (call v s fp op).res) := by
  have key : Failed v a b s (call v s fp op) ∨ Did v a b m s fp A op (call v s fp op) := by
    cases op with
    | read n => exact read_spec hg hd h n
    | write b => exact write_spec hg hd h b ha.1 ha.2
    | seek o => exact seek_spec hg hd h o
    | truncate => exact truncate_spec hg hd h
  rcases key with ⟨h1, h2, h3, h4⟩ | ⟨m', B, h1, h2, h3, h4, -⟩
  · exact ⟨h4, .inr ⟨h1, h2, h3⟩⟩
  · exact ⟨h4, .inl ⟨m', B, h1, h2, h3.1, h3.2.1⟩⟩

/-- C54, any history of operations on a device that does not fail. -/
theorem C54_history (v : Vol) (hg : Geo v) (hd : DataGeo v) (hs : Sound v) (a b : List (List Nat)) : ∀ (ops : List Op) (m : List Nat) (s : St) (fp : File) (A : Arr)
    (_ : Spec.Repr v a b m s fp A) (_ : ∀ op ∈ ops, Arg op),
    Others v a b s (calls v s fp ops).1 ∧
    ∃ m' B, Runs (capacity v (a ++ b).flatten) fp.canRead fp.canWrite A ops (calls v s fp ops).2.2 B ∧ Spec.Repr v a b m' (calls v s fp ops).1 (calls v s fp ops).2.1 B
  | [], m, s, fp, A, h, _ => ⟨.refl h.toVolOk, m, A, .nil A, h⟩
  | op :: ops, m, s, fp, A, h, ha => by
    obtain ⟨h1, ⟨m1, B, h2, h3, h4, h5⟩ | ⟨h2, -⟩⟩ := C54_step v hg hd a b m s fp A h op (ha op (by simp))
    · obtain ⟨k1, m2, C, k2, k3⟩ := C54_history v hg hd hs a b ops m1 _ _ B h3 fun x hx => ha x (by simp [hx])
      rw [h4, h5] at k2
      refine ⟨h1.trans k1, m2, C, ?_, k3⟩
      have := Runs.cons h2 k2
      rw [h3.at_, h3.data, contents_len h3.toBase] at this
      exact this
    · exact absurd hs h2

/-- C54: what is read is what has been written: after a write that reports success for all bytes, going back and reading gives them again. -/
theorem C54_readback (v : Vol) (hg : Geo v) (hd : DataGeo v) (hs : Sound v) (a b : List (List Nat)) (m : List Nat) (s : St) (fp : File) (A : Arr) (h : Spec.Repr v a b m s fp A)
    (hr : fp.canRead = true) (hw : fp.canWrite = true) (x : List Nat) (hx : Arg (.write x)) :
    ∃ n p q z, (calls v s fp [.write x, .seek fp.fptr, .read x.length]).2.2 = [⟨0, x.take n, fp.fptr + n, z⟩, ⟨0, [], fp.fptr, z⟩, ⟨0, p, q, z⟩] ∧ p.take n = x.take n ∧
      n = min x.length (limit (capacity v (a ++ b).flatten) - fp.fptr) := by
  have hle := contents_size h
  have hat := h.at_
  obtain ⟨-, m', C, hr', -⟩ := C54_history v hg hd hs a b [.write x, .seek fp.fptr, .read x.length] m s fp A h fun op hop => by
    rcases List.mem_cons.mp hop with rfl | hop
    · exact hx
    · rcases List.mem_cons.mp hop with rfl | hop
      · trivial
      · rw [List.mem_singleton] at hop
        subst hop
        trivial
  rw [hr, hw] at hr'
  generalize (calls v s fp [.write x, .seek fp.fptr, .read x.length]).2.2 = t at *
  cases hr' with
  | cons h1 hr' =>
    cases hr' with
    | cons h2 hr' =>
      cases hr' with
      | cons h3 hr' =>
        cases hr'
        cases h1 with
        | denyWrite _ h => cases h
        | write _ k _ hk =>
          have hkl : (x.take k).length = k := by rw [List.length_take]; omega
          have hol := overwrite_length (b := x.take k) hle
          cases h2 with
          | toEnd _ h => cases h
          | beyond _ _ _ h =>
            simp only at h
            omega
          | back _ h2 =>
            cases h3 with
            | denyRead _ h => cases h
            | read _ _ =>
              refine ⟨k, ((overwrite A.data A.pos (x.take k)).drop fp.fptr).take x.length,
                fp.fptr + (((overwrite A.data A.pos (x.take k)).drop fp.fptr).take x.length).length, (overwrite A.data A.pos (x.take k)).length, ?_, ?_, by rw [hk, hat]⟩
              · rw [hat]
              · rw [← hat]
                refine List.ext_getElem? fun i => ?_
                rw [List.take_take, Nat.min_eq_left (by omega), List.getElem?_take, List.getElem?_take, List.getElem?_drop, overwrite_get hle, hkl]
                split
                · rw [if_neg (by omega), if_pos (by omega), List.getElem?_take, Nat.add_sub_cancel_left, if_pos (by omega)]
                · rfl

/-- C54, after a failure: the file does nothing any more and keeps telling the error. -/
theorem C54_stuck (v : Vol) (s : St) (fp : File) (he : fp.err ≠ 0) (op : Op) : call v s fp op = ⟨s, fp, fp.err, [], false⟩ := by
  cases op with
  | read n => unfold call fRead; exact if_pos he
  | write b => unfold call fWrite; exact if_pos he
  | seek o => unfold call fLseek; exact if_pos he
  | truncate => unfold call fTruncate; exact if_pos he

/-- C54: another file, or directory, with chain `l` keeps its chain and its contents whatever is done with this file, even if the device fails. -/
theorem C54_other_files (v : Vol) (hg : Geo v) (hd : DataGeo v) (a b : List (List Nat)) (m : List Nat) (s : St) (fp : File) (A : Arr) (h : Spec.Repr v a b m s fp A) (op : Op)
    (ha : Arg op) (l : List Nat) (hl : l ∈ a ++ b) :
    Links v.nFatent (tab v (call v s fp op).st) l ∧ (secs v l).flatMap (view (call v s fp op).st) = (secs v l).flatMap (view s) := by
  obtain ⟨⟨h1, h2, -⟩, -⟩ := C54_step v hg hd a b m s fp A h op ha
  refine ⟨h1 l hl, flat_congr fun n hn => ?_⟩
  obtain ⟨c, hc, hcn⟩ := secs_mem hn
  have hm := links_mem (h1 l hl) c hc
  have hown : OwnSect v [] n := ⟨c, ⟨hm.1, hm.2, List.not_mem_nil⟩, hcn⟩
  refine h2 n (own_not1 hg hd hown) (own_not2 hd hown) ?_
  rintro ⟨c', ⟨h2', -, hno⟩, hcn'⟩
  apply hno
  rw [sectors_inj hcn' hcn h2' hm.1]
  exact List.mem_flatten.mpr ⟨l, hl, hc⟩

/-- C54: after the write-back, with which `f_sync` and `f_close` begin (fatfs/fatfs.c:3903-3909), the device itself holds the bytes of the file. -/
theorem C54_written (v : Vol) (hg : Geo v) (hd : DataGeo v) (hs : Sound v) (a b : List (List Nat)) (m : List Nat) (s : St) (fp : File) (A : Arr) (h : Spec.Repr v a b m s fp A) :
    (flush v s fp done).res = 0 ∧ Spec.Repr v a b m (flush v s fp done).st (flush v s fp done).fp A ∧ (flush v s fp done).fp.dirty = false ∧
    ((secs v m).flatMap (flush v s fp done).st.disk).take A.data.length = A.data := by
  have hlen : A.data.length = fp.objsize := by rw [h.data, contents_len h.toBase]
  refine flush_spec hg hd h.toBase (P := fun o => o.res = 0 ∧ Spec.Repr v a b m o.st o.fp A ∧ o.fp.dirty = false ∧ ((secs v m).flatMap o.st.disk).take A.data.length = A.data)
    (fun o hf => absurd hs hf.1) fun s' hb hd' _ => ?_
  have hfl : (secs v m).flatMap s'.disk = (secs v m).flatMap (overlay s fp) := flat_congr fun n _ => hd' n
  have h2 : (secs v m).flatMap (overlay s' { fp with dirty := false }) = (secs v m).flatMap (overlay s fp) := flat_congr fun n _ => by rw [overlay_clean rfl, hd']
  refine ⟨rfl, ⟨hb, h.pos, h.clust, h.sect, h.noErr, ?_, h.at_⟩, rfl, ?_⟩
  · rw [h.data]
    exact congrArg (List.take fp.objsize) h2.symm
  · show ((secs v m).flatMap s'.disk).take A.data.length = A.data
    rw [hfl, hlen, h.data]
    rfl

/-! ## Hypotheses can be met -/

/-- A file of 700 bytes in clusters 341 and 291 at position 600, open for reading and writing. -/
def exFile : File :=
  { fptr := 600, objsize := 700, sclust := 341, clust := 291, sect := 299, buf := List.replicate 512 0, dirty := false, modified := false, canRead := true,
    canWrite := true, err := 0 }

theorem exData : DataGeo cxVol := ⟨⟨0, rfl⟩, by decide, by decide⟩

theorem exRepr : Spec.Repr cxVol [] [[303]] [341, 291] cxSt exFile ⟨contents cxVol [341, 291] cxSt exFile, 600⟩ where
  inv := cxInv
  chains := cxChains
  count h := by
    have h' : 0xFFFFFFFF ≤ 598 := h
    omega
  window n h := by cases h
  sclust := rfl
  buf := sec_replicate _ 0 (by decide)
  own h := by cases h
  clean _ _ := rfl
  size := by decide
  small := by decide
  pos := by decide
  clust _ := rfl
  sect _ := rfl
  noErr := rfl
  data := rfl
  at_ := rfl

/-- Hypotheses of C54 can be met. -/
example : Geo cxVol ∧ DataGeo cxVol ∧ Sound cxVol ∧ Spec.Repr cxVol [] [[303]] [341, 291] cxSt exFile ⟨contents cxVol [341, 291] cxSt exFile, 600⟩ ∧
    exFile.canRead = true ∧ exFile.canWrite = true ∧ Arg (.write [1, 2, 3]) ∧ [303] ∈ [] ++ [[303]] ∧ capacity cxVol [303] = 597 * 512 :=
  ⟨cxGeo, exData, fun _ => rfl, exRepr, rfl, rfl, ⟨by decide, by decide⟩, by decide, by decide⟩

/-- A file after an error. -/
example : ({ exFile with err := 1 } : File).err ≠ 0 := by decide

end Fpm.FatFile
