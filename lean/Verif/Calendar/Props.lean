import Verif.Calendar.Model
import Verif.Calendar.Spec
/-! # Properties C31, C32, C65, C66: dates and times -/
namespace Fpm.Calendar
open Fpm.Calendar.Spec

/-! ## Day of the week -/

/-- Largest year for which the computation stays within `int`. -/
def maxYear : Nat := 1700000000

theorem int32_ok {x : Int} (h : -2147483648 ≤ x ∧ x < 2147483648) : int32 x = some x := if_pos h

/-- Value of the formula. -/
def sakamoto (d : Date) : Nat :=
  let y := if d.month < 3 then d.year - 1 else d.year
  y + y / 4 - y / 100 + y / 400 + (offset[d.month - 1]?.getD 0).toNat + d.day

theorem offset_cases {m : Nat} (h : 1 ≤ m ∧ m ≤ 12) : ∃ o : Nat, o ≤ 6 ∧ offset[m - 1]? = some (o : Int) := by
  obtain ⟨h1, h2⟩ := h
  have : m = 1 ∨ m = 2 ∨ m = 3 ∨ m = 4 ∨ m = 5 ∨ m = 6 ∨ m = 7 ∨ m = 8 ∨ m = 9 ∨ m = 10 ∨ m = 11 ∨ m = 12 := by omega
  rcases this with rfl | rfl | rfl | rfl | rfl | rfl | rfl | rfl | rfl | rfl | rfl | rfl
  · exact ⟨0, by decide, rfl⟩
  · exact ⟨3, by decide, rfl⟩
  · exact ⟨2, by decide, rfl⟩
  · exact ⟨5, by decide, rfl⟩
  · exact ⟨0, by decide, rfl⟩
  · exact ⟨3, by decide, rfl⟩
  · exact ⟨5, by decide, rfl⟩
  · exact ⟨1, by decide, rfl⟩
  · exact ⟨4, by decide, rfl⟩
  · exact ⟨6, by decide, rfl⟩
  · exact ⟨2, by decide, rfl⟩
  · exact ⟨4, by decide, rfl⟩

theorem monthDays_le (y m : Nat) : monthDays y m ≤ 31 := by
  unfold monthDays
  repeat' split
  all_goals decide

theorem monthDays_pos (y m : Nat) : 1 ≤ monthDays y m := by
  unfold monthDays
  repeat' split
  all_goals decide

theorem tdiv_nat (z k : Nat) : (z : Int).tdiv k = ((z / k : Nat) : Int) := by
  rw [Int.tdiv_eq_ediv_of_nonneg (by omega)]; rfl

theorem sum_int32 {z o day : Nat} (hle : z ≤ 1700000000) (ho : o ≤ 6) (hd : day ≤ 31) :
    (int32 (z : Int) = some (z : Int)) ∧
    (int32 ((z : Int) + ((z / 4 : Nat) : Int)) = some ((z + z / 4 : Nat) : Int)) ∧
    (int32 (((z + z / 4 : Nat) : Int) - ((z / 100 : Nat) : Int)) = some ((z + z / 4 - z / 100 : Nat) : Int)) ∧
    (int32 (((z + z / 4 - z / 100 : Nat) : Int) + ((z / 400 : Nat) : Int)) = some ((z + z / 4 - z / 100 + z / 400 : Nat) : Int)) ∧
    (int32 (((z + z / 4 - z / 100 + z / 400 : Nat) : Int) + (o : Int)) = some ((z + z / 4 - z / 100 + z / 400 + o : Nat) : Int)) ∧
    (int32 (((z + z / 4 - z / 100 + z / 400 + o : Nat) : Int) + (day : Int)) = some ((z + z / 4 - z / 100 + z / 400 + o + day : Nat) : Int)) := by
  refine ⟨int32_ok (by omega), ?_, ?_, ?_, ?_, ?_⟩
  · rw [int32_ok (by omega)]; exact congrArg some (by omega)
  · rw [int32_ok (by omega)]; exact congrArg some (by omega)
  · rw [int32_ok (by omega)]; exact congrArg some (by omega)
  · rw [int32_ok (by omega)]; exact congrArg some (by omega)
  · rw [int32_ok (by omega)]; exact congrArg some (by omega)

theorem dotw_of {year month : Int} {z o day : Nat} (hz : (if month < 3 then year - 1 else year) = (z : Int)) (hle : z ≤ 1700000000)
    (ho : o ≤ 6) (hof : offsetOf month = some (o : Int)) (hd : day ≤ 31) :
    dotw year month day = some (((z + z / 4 - z / 100 + z / 400 + o + day) % 7 : Nat) : Int) := by
  obtain ⟨r1, r2, r3, r4, r5, r6⟩ := sum_int32 hle ho hd
  have e1 : (z : Int).tdiv 4 = _ := tdiv_nat z 4
  have e2 : (z : Int).tdiv 100 = _ := tdiv_nat z 100
  have e3 : (z : Int).tdiv 400 = _ := tdiv_nat z 400
  have r7 : ((z + z / 4 - z / 100 + z / 400 + o + day : Nat) : Int).tmod 7 = (((z + z / 4 - z / 100 + z / 400 + o + day) % 7 : Nat) : Int) := by
    rw [Int.tmod_eq_emod_of_nonneg (Int.natCast_nonneg _)]
    omega
  unfold dotw
  rw [hz, r1, hof]
  simp only [Option.bind_eq_bind]
  rw [Option.bind_some, e1, e2, e3, r2, Option.bind_some, r3, Option.bind_some, r4, Option.bind_some, Option.bind_some, r5, Option.bind_some,
    r6, Option.bind_some, r7, Option.pure_def]

theorem dotw_formula {d : Date} (hv : d.Valid) (hy : d.year ≤ maxYear) :
    dotw d.year d.month d.day = some ((sakamoto d % 7 : Nat) : Int) := by
  obtain ⟨h1, h2, h3, h4, h5⟩ := hv
  have h6 := monthDays_le d.year d.month
  obtain ⟨o, ho, hoe⟩ := offset_cases ⟨h2, h3⟩
  have hof : offsetOf (d.month : Int) = some (o : Int) := by
    unfold offsetOf
    rw [if_pos (by omega), show ((d.month : Int) - 1).toNat = d.month - 1 by omega, hoe]
  have hs : sakamoto d = (if d.month < 3 then d.year - 1 else d.year) + (if d.month < 3 then d.year - 1 else d.year) / 4 -
      (if d.month < 3 then d.year - 1 else d.year) / 100 + (if d.month < 3 then d.year - 1 else d.year) / 400 + o + d.day := by
    simp only [sakamoto, hoe, Option.getD_some, Int.toNat_natCast]
  rw [hs]
  refine dotw_of ?_ (Nat.le_trans ?_ hy) ho hof (Nat.le_trans h5 h6)
  · clear hy; split <;> split <;> omega
  · clear hy; split <;> omega

theorem leap_iff (y : Nat) : leap y = true ↔ y % 4 = 0 ∧ (y % 100 ≠ 0 ∨ y % 400 = 0) := by
  simp [leap]

theorem next_valid {d : Date} (h : d.Valid) : d.next.Valid := by
  obtain ⟨y, m, day⟩ := d
  obtain ⟨h1, h2, h3, h4, h5⟩ := h
  have hpos := monthDays_pos
  simp only [Date.next] at *
  split
  · exact ⟨h1, h2, h3, by simp, by simpa using by omega⟩
  · split
    · exact ⟨h1, by simp, by simp; omega, by simp, hpos _ _⟩
    · exact ⟨by simp, by simp, by simp, by simp, hpos _ _⟩

/-- Days of the years before, modulo 7. -/
def yearPart (z : Nat) : Nat := z + z / 4 - z / 100 + z / 400

theorem sakamoto_eq (y m day : Nat) : sakamoto ⟨y, m, day⟩ =
    yearPart (if m < 3 then y - 1 else y) + (offset[m - 1]?.getD 0).toNat + day := rfl

theorem yearPart_leap {y : Nat} (h1 : 1 ≤ y) (h : y % 4 = 0 ∧ (y % 100 ≠ 0 ∨ y % 400 = 0)) :
    yearPart y = yearPart (y - 1) + 2 := by
  unfold yearPart
  obtain ⟨h2, h3 | h3⟩ := h <;> omega

theorem yearPart_common {y : Nat} (h1 : 1 ≤ y) (h : ¬ (y % 4 = 0 ∧ (y % 100 ≠ 0 ∨ y % 400 = 0))) :
    yearPart y = yearPart (y - 1) + 1 := by
  unfold yearPart
  have : y % 4 ≠ 0 ∨ (y % 100 = 0 ∧ y % 400 ≠ 0) := by omega
  clear h
  rcases this with h3 | h3 <;> omega

theorem sakamoto_next {d : Date} (h : d.Valid) : sakamoto d.next % 7 = (sakamoto d + 1) % 7 := by
  obtain ⟨y, m, day⟩ := d
  obtain ⟨h1, h2, h3, h4, h5⟩ := h
  simp only at h1 h2 h3 h4 h5
  unfold Date.next
  simp only
  by_cases hd : day < monthDays y m
  · rw [if_pos hd, sakamoto_eq, sakamoto_eq]; rfl
  · rw [if_neg hd]
    have hde : day = monthDays y m := by omega
    subst hde
    clear hd h4 h5
    have hm : m = 1 ∨ m = 2 ∨ m = 3 ∨ m = 4 ∨ m = 5 ∨ m = 6 ∨ m = 7 ∨ m = 8 ∨ m = 9 ∨ m = 10 ∨ m = 11 ∨ m = 12 := by omega
    by_cases hm2 : m = 2
    · subst hm2
      rw [if_pos (by decide), sakamoto_eq, sakamoto_eq, if_neg (by decide), if_pos (by decide)]
      show (yearPart y + 2 + 1) % 7 = (yearPart (y - 1) + 3 + (if leap y = true then 29 else 28) + 1) % 7
      by_cases hl : leap y = true
      · rw [if_pos hl, yearPart_leap h1 ((leap_iff y).mp hl)]; omega
      · rw [if_neg hl, yearPart_common h1 (fun hh => hl ((leap_iff y).mpr hh))]; omega
    · rcases hm with rfl | rfl | rfl | rfl | rfl | rfl | rfl | rfl | rfl | rfl | rfl | rfl
      · show (yearPart (y - 1) + 3 + 1) % 7 = (yearPart (y - 1) + 0 + 31 + 1) % 7; omega
      · exact absurd rfl hm2
      · show (yearPart y + 5 + 1) % 7 = (yearPart y + 2 + 31 + 1) % 7; omega
      · show (yearPart y + 0 + 1) % 7 = (yearPart y + 5 + 30 + 1) % 7; omega
      · show (yearPart y + 3 + 1) % 7 = (yearPart y + 0 + 31 + 1) % 7; omega
      · show (yearPart y + 5 + 1) % 7 = (yearPart y + 3 + 30 + 1) % 7; omega
      · show (yearPart y + 1 + 1) % 7 = (yearPart y + 5 + 31 + 1) % 7; omega
      · show (yearPart y + 4 + 1) % 7 = (yearPart y + 1 + 31 + 1) % 7; omega
      · show (yearPart y + 6 + 1) % 7 = (yearPart y + 4 + 30 + 1) % 7; omega
      · show (yearPart y + 2 + 1) % 7 = (yearPart y + 6 + 31 + 1) % 7; omega
      · show (yearPart y + 4 + 1) % 7 = (yearPart y + 2 + 30 + 1) % 7; omega
      · show (yearPart (y + 1 - 1) + 0 + 1) % 7 = (yearPart y + 4 + 31 + 1) % 7; rw [Nat.add_sub_cancel]; omega

theorem dayAfter_valid (n : Nat) : (dayAfter n).Valid := by
  induction n with
  | zero => exact ⟨by decide, by decide, by decide, by decide, by decide⟩
  | succ n ih => exact next_valid ih

theorem sakamoto_dayAfter (n : Nat) : sakamoto (dayAfter n) % 7 = (n + 1) % 7 := by
  induction n with
  | zero => rfl
  | succ n ih =>
    show sakamoto (dayAfter n).next % 7 = _
    rw [sakamoto_next (dayAfter_valid n)]
    omega

/-- Every valid date but the first has a day before. -/
theorem exists_prev {d : Date} (h : d.Valid) (hne : d ≠ ⟨1, 1, 1⟩) : ∃ p : Date, p.Valid ∧ p.next = d ∧
    p.year * 400 + p.month * 32 + p.day < d.year * 400 + d.month * 32 + d.day := by
  obtain ⟨y, m, day⟩ := d
  obtain ⟨h1, h2, h3, h4, h5⟩ := h
  have hle := monthDays_le
  have hpos := monthDays_pos
  simp only at *
  by_cases hd : 1 < day
  · refine ⟨⟨y, m, day - 1⟩, ⟨h1, h2, h3, by simp; omega, by simp; omega⟩, ?_, by simp; omega⟩
    unfold Date.next
    rw [if_pos (by simp; omega)]
    simp; omega
  · by_cases hm : 1 < m
    · refine ⟨⟨y, m - 1, monthDays y (m - 1)⟩, ⟨h1, by simp; omega, by simp; omega, hpos _ _, Nat.le_refl _⟩, ?_, ?_⟩
      · unfold Date.next
        simp only [Nat.lt_irrefl, if_false]
        rw [if_pos (by omega)]
        simp; omega
      · have := hle y (m - 1); simp; omega
    · have hy : 1 < y := by
        rcases Nat.lt_or_ge 1 y with h | h
        · exact h
        · exact absurd (by simp; omega) hne
      refine ⟨⟨y - 1, 12, monthDays (y - 1) 12⟩, ⟨by simp; omega, by simp, by simp, hpos (y - 1) 12, Nat.le_refl _⟩, ?_, ?_⟩
      · unfold Date.next
        simp only [Nat.lt_irrefl, if_false]
        simp; omega
      · have := hle (y - 1) 12; simp; omega

theorem exists_dayAfter {d : Date} (h : d.Valid) : ∃ n, dayAfter n = d := by
  generalize hn : d.year * 400 + d.month * 32 + d.day = k
  induction k using Nat.strongRecOn generalizing d with
  | ind k ih =>
    by_cases he : d = ⟨1, 1, 1⟩
    · exact ⟨0, he.symm⟩
    · obtain ⟨p, hp, hnext, hlt⟩ := exists_prev h he
      obtain ⟨n, hn'⟩ := ih _ (by omega) hp rfl
      exact ⟨n + 1, by rw [dayAfter, hn', hnext]⟩

/-- **C31**: 1 January 2000 is one of the days counted from 1 January of year 1, and it is a
Saturday (6); every other day `n` of the count - every valid date is one - has the weekday obtained
by counting from that Saturday. -/
theorem C31_day_of_week : ∃ base, dayAfter base = ⟨2000, 1, 1⟩ ∧
    (∀ d : Date, d.Valid → ∃ n, dayAfter n = d) ∧
    ∀ n, (dayAfter n).year ≤ maxYear →
      dotw (dayAfter n).year (dayAfter n).month (dayAfter n).day = some (((6 + n - base : Int)) % 7) := by
  obtain ⟨base, hb⟩ := exists_dayAfter (d := ⟨2000, 1, 1⟩) ⟨by decide, by decide, by decide, by decide, by decide⟩
  refine ⟨base, hb, fun d => exists_dayAfter, ?_⟩
  intro n hn
  have h1 := sakamoto_dayAfter base
  have h2 := sakamoto_dayAfter n
  rw [hb] at h1
  have h3 : sakamoto ⟨2000, 1, 1⟩ % 7 = 6 := by decide
  rw [dotw_formula (dayAfter_valid n) hn]
  congr 1
  omega

/-- Consecutive dates have consecutive weekdays. -/
theorem C31_consecutive (d : Date) (h : d.Valid) (hy : d.next.year ≤ maxYear) :
    ∃ w : Nat, w < 7 ∧ dotw d.year d.month d.day = some (w : Int) ∧
      dotw d.next.year d.next.month d.next.day = some (((w + 1) % 7 : Nat) : Int) := by
  have hle : d.year ≤ d.next.year := by
    unfold Date.next
    repeat' split
    all_goals simp
  refine ⟨sakamoto d % 7, Nat.mod_lt _ (by decide), dotw_formula h (by omega), ?_⟩
  rw [dotw_formula (next_valid h) hy, sakamoto_next h]
  congr 2
  omega

/-- 28 February 2000, a Monday; the next day is 29 February. -/
example : (Date.mk 2000 2 28).Valid ∧ (Date.mk 2000 2 28).next = ⟨2000, 2, 29⟩ ∧ (Date.mk 1900 2 28).next = ⟨1900, 3, 1⟩ ∧
    dotw 2000 2 28 = some 1 := ⟨⟨by decide, by decide, by decide, by decide, by decide⟩, by decide, by decide, by decide⟩

/-! ## 12-hour clock -/

/-- **C32**: for every hour, the hour shown lies in 1..12 and with AM/PM determines the hour. -/
theorem C32_clock : ∀ h < 24, 1 ≤ (clock12 h).1 ∧ (clock12 h).1 ≤ 12 ∧ hour24 (clock12 h).1 (clock12 h).2 = h := by
  decide

example : clock12 0 = (12, false) ∧ clock12 12 = (12, true) := by decide

/-! ## Setting the date -/

/-- C65: a date accepted by the `date` command exists. -/
def C65_full : Prop := ∀ y m d : Nat, acceptDate y m d = true → (Date.mk y m d).Valid

/-- **C65 is violated**: 31 February is accepted. -/
theorem C65_violated : ¬ C65_full := by
  intro h
  exact absurd (h 2024 2 31 (by decide)).2.2.2.2 (by decide)

/-- Existing dates of the years 2000..9999 are accepted, the others of these years only up to day 31;
existing dates are stored with their weekday. -/
theorem C65_date_partial (y m d : Nat) :
    ((Date.mk y m d).Valid → 2000 ≤ y → y ≤ 9999 →
      acceptDate y m d = true ∧ ∃ n, dayAfter n = ⟨y, m, d⟩ ∧ setDate y m d = some ((y : Int), (m : Int), (d : Int), (((n + 1) % 7 : Nat) : Int))) ∧
    (acceptDate y m d = true → 2000 ≤ y ∧ y ≤ 9999 ∧ 1 ≤ m ∧ m ≤ 12 ∧ 1 ≤ d ∧ d ≤ 31 ∧ (d ≤ 28 → (Date.mk y m d).Valid)) := by
  have hacc : acceptDate y m d = true ↔ 1 ≤ m ∧ m ≤ 12 ∧ 1 ≤ d ∧ d ≤ 31 ∧ 2000 ≤ y ∧ y ≤ 9999 := by
    simp only [acceptDate, decide_eq_true_eq]
    omega
  constructor
  · intro hv h1 h2
    have h3 := monthDays_le y m
    have ha : acceptDate y m d = true := by
      rw [hacc]; obtain ⟨a, b, c, e, f⟩ := hv; simp only at *; omega
    refine ⟨ha, ?_⟩
    obtain ⟨n, hn⟩ := exists_dayAfter hv
    refine ⟨n, hn, ?_⟩
    have := dotw_formula hv (by unfold maxYear; simp only; omega)
    have h4 := sakamoto_dayAfter n
    rw [hn] at h4
    rw [setDate, if_pos ha]
    simp only at this
    rw [this, h4]
    rfl
  · intro ha
    rw [hacc] at ha
    refine ⟨by omega, by omega, by omega, by omega, by omega, by omega, ?_⟩
    intro hd
    refine ⟨by simp; omega, by simp; omega, by simp; omega, by simp; omega, ?_⟩
    show d ≤ monthDays y m
    unfold monthDays
    repeat' split
    all_goals omega

example : (Date.mk 2024 2 29).Valid ∧ acceptDate 2024 2 29 = true := ⟨⟨by decide, by decide, by decide, by decide, by decide⟩, by decide⟩

/-! ## Time stamps of files -/

/-- C66: the time of last change shown by `dir` for a file is the clock's when it was written. -/
def C66_full : Prop := ∀ (y m d h mi s : Nat), (Date.mk y m d).Valid → acceptDate y m d = true → h < 24 → mi < 60 → s < 60 →
  shown (mtime (storeStamp (fattime y m d h mi s))) = (y, m, d, h, mi)

/-- **C66 is violated**: the year field has 7 bits; files written in 2108 are shown as from 1980. -/
theorem C66_violated : ¬ C66_full := by
  intro h
  have := h 2108 1 1 0 0 0 ⟨by decide, by decide, by decide, by decide, by decide⟩ (by decide) (by decide) (by decide) (by decide)
  revert this
  decide

theorem mtime_store {t : Nat} (h : t < 2 ^ 32) : mtime (storeStamp t) = t := by
  unfold mtime storeStamp; simp only; omega

theorem fattime_eq {y m d h mi s : Nat} (hv : (Date.mk y m d).Valid) (hy : 1980 ≤ y ∧ y ≤ 2107) (hh : h < 24) (hm : mi < 60) (hs : s < 60) :
    fattime y m d h mi s = (y - 1980) * 2 ^ 25 + m * 2 ^ 21 + d * 2 ^ 16 + h * 2 ^ 11 + mi * 2 ^ 5 + s / 2 ∧ m ≤ 12 ∧ d ≤ 31 := by
  have := monthDays_le y m
  obtain ⟨h1, h2, h3, h4, h5⟩ := hv
  simp only at *
  refine ⟨?_, h3, by omega⟩
  unfold fattime
  omega

/-- For the years 1980..2107 it is; and stamps are ordered like the times. -/
theorem C66_stamp_partial (y m d h mi s : Nat) (hv : (Date.mk y m d).Valid) (hy : 1980 ≤ y ∧ y ≤ 2107) (hh : h < 24) (hm : mi < 60) (hs : s < 60) :
    shown (mtime (storeStamp (fattime y m d h mi s))) = (y, m, d, h, mi) := by
  obtain ⟨he, h1, h2⟩ := fattime_eq hv hy hh hm hs
  rw [mtime_store (by omega), he]
  unfold shown
  simp only [Prod.mk.injEq]
  refine ⟨by omega, by omega, by omega, by omega, by omega⟩

/-- A file written on a later day, or at least two seconds later on the same day, has the larger
time stamp. -/
theorem C66_order (y m d h mi s y' m' d' h' mi' s' : Nat) (hv : (Date.mk y m d).Valid) (hy : 1980 ≤ y ∧ y ≤ 2107) (hh : h < 24) (hm : mi < 60) (hs : s < 60)
    (hv' : (Date.mk y' m' d').Valid) (hy' : 1980 ≤ y' ∧ y' ≤ 2107) (hh' : h' < 24) (hm' : mi' < 60) (hs' : s' < 60)
    (hb : (Date.mk y m d).before ⟨y', m', d'⟩ ∨
      ((Date.mk y m d) = ⟨y', m', d'⟩ ∧ (h * 60 + mi) * 60 + s + 2 ≤ (h' * 60 + mi') * 60 + s')) :
    mtime (storeStamp (fattime y m d h mi s)) < mtime (storeStamp (fattime y' m' d' h' mi' s')) := by
  obtain ⟨he, h1, h2⟩ := fattime_eq hv hy hh hm hs
  obtain ⟨he', h1', h2'⟩ := fattime_eq hv' hy' hh' hm' hs'
  rw [mtime_store (by omega), mtime_store (by omega), he, he']
  rcases hb with (hb | ⟨rfl, hb | ⟨rfl, hb⟩⟩) | ⟨hb, ht⟩
  · simp only at hb; omega
  · simp only at hb ⊢; omega
  · simp only at hb ⊢; omega
  · cases hb; omega

example : (Date.mk 2024 2 29).Valid ∧ shown (mtime (storeStamp (fattime 2024 2 29 23 59 58))) = (2024, 2, 29, 23, 59) :=
  ⟨⟨by decide, by decide, by decide, by decide, by decide⟩, by decide⟩

end Fpm.Calendar
