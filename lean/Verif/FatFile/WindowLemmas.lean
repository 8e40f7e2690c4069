import Verif.Fat.ChainProps
/-!
# The FAT operations move the window only to the FAT
-/
namespace Fpm.FatFile
open Fpm.Fat Fpm.Fat.Spec

/-- The window is where it was, or in the first FAT. -/
def Stays (v : Vol) (s s' : St) : Prop := ∀ n, s'.winsect = some n → s.winsect = some n ∨ Fat1 v n

theorem Stays.refl (v : Vol) (s : St) : Stays v s s := fun _ h => .inl h

theorem Stays.of_eq {v : Vol} {s s' : St} (h : s'.winsect = s.winsect) : Stays v s s' := fun _ hn => .inl (h ▸ hn)

theorem Stays.trans {v : Vol} {s t u : St} (h : Stays v s t) (h' : Stays v t u) : Stays v s u := by
  intro n hn
  rcases h' n hn with h1 | h1
  · exact h n h1
  · exact .inr h1

theorem winsect_write (v : Vol) (s : St) (n : Nat) (b : List Nat) : (diskWrite v s n b).1.winsect = s.winsect := by
  unfold diskWrite
  split <;> rfl

theorem winsect_mirror (v : Vol) (s : St) (w : Nat) : (mirror v s w).winsect = s.winsect := by
  unfold mirror
  split
  · split
    · exact winsect_write ..
    · rfl
  · rfl

theorem winsect_sync (v : Vol) (s : St) : (syncWindow v s).1.winsect = s.winsect := by
  unfold syncWindow
  split
  · split
    · rfl
    · split
      · rw [winsect_mirror]
        exact winsect_write ..
      · exact winsect_write ..
  · rfl

theorem stays_move {v : Vol} {s : St} {sect : Nat} (h : Fat1 v sect) : Stays v s (moveWindow v s sect).1 := by
  unfold moveWindow
  split
  · exact .refl _ _
  · split
    · unfold fillWindow
      split
      · intro n hn
        cases hn
        exact .inr h
      · exact fun n hn => by cases hn
    · exact .of_eq (winsect_sync v s)

theorem stays_window {v : Vol} {s : St} {sect err : Nat} {k : St → St × Nat} (h : Fat1 v sect) (hk : ∀ t, Stays v t (k t).1) : Stays v s (window v s sect err k).1 := by
  unfold window
  split
  · exact (stays_move h).trans (hk _)
  · exact stays_move h

theorem stays_from {v : Vol} {s : St} {x : Option Nat} {k : Nat → St × Nat} (hk : ∀ b, Stays v s (k b).1) : Stays v s (fromWin s x k).1 := by
  unfold fromWin
  split
  · exact .refl _ _
  · exact hk _

theorem stays_set {v : Vol} {s t : St} {w : List Nat} (h : Stays v (setWin s w) t) : Stays v s t := h

theorem stays_stored {v : Vol} {s : St} {w : Option (List Nat)} : Stays v s (stored s w).1 := by
  unfold stored
  split <;> exact .of_eq rfl

theorem stays_get {v : Vol} (hg : Geo v) (s : St) (c : Nat) : Stays v s (getFat v s c).1 := by
  unfold getFat
  split
  · exact .refl _ _
  · rename_i hc
    split
    · rename_i ht
      have := size12 hg ht (c := c) (by omega)
      refine stays_window (sector_fat1 hg (by omega)) fun t => stays_from fun b0 => stays_window (sector_fat1 hg (by omega)) fun t => stays_from fun b1 => .refl _ _
    · split
      · rename_i ht
        have := size16 hg ht (c := c) (by omega)
        refine stays_window ?_ fun t => stays_from fun x => .refl _ _
        rw [sect16 hg]
        exact sector_fat1 hg (by omega)
      · split
        · rename_i ht
          have := size32 hg ht (c := c) (by omega)
          refine stays_window ?_ fun t => stays_from fun x => .refl _ _
          rw [sect32 hg]
          exact sector_fat1 hg (by omega)
        · exact .refl _ _

theorem stays_put {v : Vol} (hg : Geo v) (s : St) (c val : Nat) : Stays v s (putFat v s c val).1 := by
  unfold putFat
  split
  · exact .refl _ _
  · rename_i hc
    split
    · rename_i ht
      have := size12 hg ht (c := c) (by omega)
      refine stays_window (sector_fat1 hg (by omega)) fun t => stays_from fun b0 => stays_set (stays_window (sector_fat1 hg (by omega)) fun t => stays_from fun b1 => .of_eq rfl)
    · split
      · rename_i ht
        have := size16 hg ht (c := c) (by omega)
        refine stays_window ?_ fun t => stays_stored
        rw [sect16 hg]
        exact sector_fat1 hg (by omega)
      · split
        · rename_i ht
          have := size32 hg ht (c := c) (by omega)
          refine stays_window ?_ fun t => stays_from fun x => stays_stored
          rw [sect32 hg]
          exact sector_fat1 hg (by omega)
        · exact .refl _ _

theorem stays_withFat {v : Vol} (hg : Geo v) {s : St} {c : Nat} {k : St → Nat → St × Nat} (hk : ∀ t x, Stays v t (k t x).1) : Stays v s (withFat v s c k).1 := by
  unfold withFat
  split
  · exact stays_get hg s c
  · exact (stays_get hg s c).trans (hk _ _)

theorem stays_withPut {v : Vol} (hg : Geo v) {s : St} {c val : Nat} {k : St → St × Nat} (hk : ∀ t, Stays v t (k t).1) : Stays v s (withPut v s c val k).1 := by
  unfold withPut
  split
  · exact (stays_put hg s c val).trans (hk _)
  · exact stays_put hg s c val

theorem stays_more {v : Vol} (s : St) : Stays v s (oneMore v s) := by
  unfold oneMore
  split
  · exact .of_eq rfl
  · exact .refl _ _

theorem stays_removeLoop {v : Vol} (hg : Geo v) : ∀ (k : Nat) (s : St) (c : Nat), Stays v s (removeLoop v k s c).1
  | 0, s, _ => .refl v s
  | k + 1, s, c => by
    unfold removeLoop
    refine stays_withFat hg fun t x => ?_
    split
    · exact .refl _ _
    · split
      · exact .refl _ _
      · split
        · exact .refl _ _
        · refine stays_withPut hg fun u => ?_
          split
          · exact (stays_more u).trans (stays_removeLoop hg k _ _)
          · exact stays_more u

theorem stays_remove {v : Vol} (hg : Geo v) (s : St) (c p : Nat) : Stays v s (removeChain v s c p).1 := by
  unfold removeChain
  split
  · exact .refl _ _
  · split
    · exact stays_withPut hg fun t => stays_removeLoop hg _ _ _
    · exact stays_removeLoop hg _ _ _

theorem stays_search {v : Vol} (hg : Geo v) (scl : Nat) : ∀ (k : Nat) (s : St) (c : Nat), Stays v s (search v scl k s c).1
  | 0, s, _ => .refl v s
  | k + 1, s, c => by
    unfold search
    split
    · exact .refl _ _
    · split
      · exact stays_get hg s _
      · split
        · exact stays_get hg s _
        · split
          · exact stays_get hg s _
          · exact (stays_get hg s _).trans (stays_search hg scl k _ _)

theorem stays_link {v : Vol} (hg : Geo v) (s : St) (c n : Nat) : Stays v s (link v s c n).1 := by
  have h : Stays v s (withPut v s n 0xFFFFFFFF fun s => if c ≠ 0 then putFat v s c n else (s, FR_OK)).1 := by
    refine stays_withPut hg fun t => ?_
    split
    · exact stays_put hg t c n
    · exact .refl _ _
  unfold link
  revert h
  generalize (withPut v s n 0xFFFFFFFF fun s => if c ≠ 0 then putFat v s c n else (s, FR_OK)) = p
  intro h
  unfold created
  split
  · exact h.trans (.of_eq rfl)
  · split <;> exact h

theorem stays_place {v : Vol} (hg : Geo v) {s : St} {c : Nat} {p : St × Found} (h : Stays v s p.1) : Stays v s (place v c p).1 := by
  unfold place
  split
  · exact h
  · exact h.trans (stays_link hg _ _ _)

theorem stays_create {v : Vol} (hg : Geo v) (s : St) (c : Nat) : Stays v s (createChain v s c).1 := by
  unfold createChain
  split
  · split
    · exact .refl _ _
    · exact stays_place hg (stays_search hg _ _ _ _)
  · refine stays_withFat hg fun t x => ?_
    split
    · exact .refl _ _
    · split
      · exact .refl _ _
      · split
        · exact .refl _ _
        · split
          · exact .refl _ _
          · unfold stretch
            refine stays_withFat hg fun u y => ?_
            split
            · exact .refl _ _
            · split
              · exact stays_place hg (stays_search hg _ _ _ _)
              · exact stays_link hg _ _ _

end Fpm.FatFile
