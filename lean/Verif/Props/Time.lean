import Verif.Proof.Time
/-
Properties C45 to C47: the Date header.
-/
namespace Octane
open Spec

/-! ## C45 -/

/-- C45: for every clock reading (in whole seconds, up to `i64::MAX`) there is a Date header, and its
text names the weekday, day, month, year and time of day of exactly that instant in the proleptic
Gregorian calendar. In particular no table is indexed out of bounds. -/
theorem C45_date_denotes_instant (clock : Int) (h0 : 0 ≤ clock) (h1 : clock ≤ i64Max) :
    ∃ c : Civil, ∃ s k, c.Valid ∧ c.instant = clock ∧ dateHeader clock = .ok (some s) ∧
      DateText octaneMonthNames k c s := by
  obtain ⟨c, hv, hi, w, mon, hw, hmon, hs⟩ := dateHeader_spec clock h0 h1
  have hy := yearStart_nonneg_year hv (by omega)
  have hml : monthLength c.year c.month ≤ 31 := by
    unfold monthLength
    repeat' split
    all_goals decide
  have hv' := hv
  obtain ⟨hm, hd1, hd2, a1, a2, a3, a4, a5, a6⟩ := hv'
  exact ⟨c, _, _, hv, hi, hs, w, mon, _, _, _, _, _, hw, hmon, two_isDecimal _ (by omega) (by omega),
    showInt_isDecimal _ (by omega), two_isDecimal _ (by omega) (by omega),
    two_isDecimal _ (by omega) (by omega), two_isDecimal _ (by omega) (by omega), rfl⟩

/-- C45: the range, in figures. There is a date from second 0 to second 9223372036854775807 of the epoch,
none after it, and before it the code panics. -/
theorem C45_range (clock : Int) :
    (clock < 0 → dateHeader clock = .panic) ∧
    (0 ≤ clock ∧ clock ≤ 9223372036854775807 → ∃ s, dateHeader clock = .ok (some s)) ∧
    (9223372036854775807 < clock → dateHeader clock = .ok none) := by
  refine ⟨fun h => ?_, fun h => ?_, fun h => ?_⟩
  · simp [dateHeader, Time.now, h]
  · obtain ⟨c, s, k, -, -, h1, -⟩ := C45_date_denotes_instant clock h.1 (by
      have : (i64Max : Int) = 9223372036854775807 := by decide
      omega)
    exact ⟨s, h1⟩
  · have : (i64Max : Int) = 9223372036854775807 := by decide
    rw [dateHeader, Time.now, if_neg (by omega), if_pos (by omega)]
    rfl

/-- C45: the calendar date of an instant is unique, so the header cannot be read as any other instant:
a text is the date of only one civil time, and a civil time of only one instant. -/
theorem C45_date_unambiguous :
    (∀ c c' : Civil, c.Valid → c'.Valid → c.instant = c'.instant → c = c') ∧
    (∀ c c' k k' s, DateText octaneMonthNames k c s → DateText octaneMonthNames k' c' s → c = c') :=
  ⟨fun _ _ h h' he => Civil.instant_inj h h' he,
   fun _ _ _ _ _ h h' => DateText.unique (by decide) (by decide) h h'⟩

/-- C45: the field computation is right for every stamp for which it does not overflow (see C109),
negative ones included. -/
theorem C45_fields_all_stamps (stamp : Int) (h0 : -9223372035902907008 ≤ stamp) (h1 : stamp ≤ 9223372036854775807) :
    ∃ t, Time.time stamp = .ok t ∧ 0 ≤ t.month ∧
      (⟨t.year, t.month.toNat, t.day, t.hour, t.min, t.sec⟩ : Civil).Valid ∧
      (⟨t.year, t.month.toNat, t.day, t.hour, t.min, t.sec⟩ : Civil).instant = stamp ∧
      t.week = (⟨t.year, t.month.toNat, t.day, t.hour, t.min, t.sec⟩ : Civil).weekday := by
  obtain ⟨t, ht, h⟩ := time_spec stamp
  have hl : leapoch = 951868800 := by decide
  rw [← time_checked i64_fits stamp (by omega) h1] at ht
  exact ⟨t, ht, h⟩

/-- a second before the epoch -/
example := C45_fields_all_stamps (-1) (by decide) (by decide)

/-- The calendar itself is the Gregorian one: day 0 is 1 January 1970, and every year begins when the
previous one (of 365 days, or 366 in leap years) has ended. -/
theorem C45_calendar_sanity :
    yearStart 1970 = 0 ∧
      ∀ y, yearStart (y + 1) = yearStart y +
        (if (y % 4 = 0 ∧ y % 100 ≠ 0) ∨ y % 400 = 0 then 366 else 365) := by
  refine ⟨by decide +kernel, fun y => ?_⟩
  rw [yearStart_succ, yearLength]
  by_cases h : isLeap y = true
  · rw [if_pos h, if_pos ((isLeap_iff y).1 h)]
  · rw [if_neg h, if_neg (fun h' => h ((isLeap_iff y).2 h'))]

-- 29 February 2000, 23:59:59, and the second after it
example : dateHeader 951868799 = .ok (some c!"Tue, 29 Feb 2000 23:59:59 GMT") := by
  obtain ⟨c, hv, hi, w, mon, hw, hmon, hs⟩ :=
    dateHeader_spec 951868799 (by decide) (by decide)
  have : c = ⟨2000, 1, 29, 23, 59, 59⟩ := by
    refine Civil.instant_inj hv ?_ ?_
    · unfold Civil.Valid; decide
    · rw [hi]; decide +kernel
  subst this
  have hw' : w = c!"Tue" := by
    have : (⟨2000, 1, 29, 23, 59, 59⟩ : Civil).weekday = 2 := by decide +kernel
    rw [this] at hw; simpa [dayNames] using hw.symm
  have hm' : mon = c!"Feb" := by simpa [months] using hmon.symm
  subst hw' hm'
  rw [hs]
  simp [two, showInt, showNat, digitChar]
example : dateHeader (-1) = .panic ∧ dateHeader 9223372036854775808 = .ok none := by decide +kernel
example : (⟨2000, 2, 1, 0, 0, 0⟩ : Civil).instant = 951868800 := by decide +kernel
example : (⟨1900, 1, 29, 0, 0, 0⟩ : Civil).Valid → False := by unfold Civil.Valid; decide

/-! ## C109 -/

/-- C109: no reading of the clock makes the date computation overflow. However a build treats results that
do not fit an `i64` (a debug build panics, a release build wraps), it computes the same fields from every
stamp from 1970 to the last one there is, and returns. -/
theorem C109_no_overflow (fit : Int → Res Int) (hf : Fits fit) (stamp : Int) (h0 : 0 ≤ stamp)
    (h1 : stamp ≤ 9223372036854775807) :
    ∃ t, Time.timeWith fit stamp = .ok t ∧ Time.time stamp = .ok t := by
  obtain ⟨t, ht, -⟩ := time_spec stamp
  have hl : leapoch = 951868800 := by decide
  refine ⟨t, ?_, ?_⟩
  · rw [time_checked hf stamp (by omega) h1]; exact ht
  · exact (time_checked i64_fits stamp (by omega) h1).trans ht

/-- C109, exactly: of the stamps that fit an `i64` those overflow that are within 951868800 seconds (from
1970 to March 2000) of the least one. No clock gives them. -/
theorem C109_overflow_iff (stamp : Int) (h0 : -9223372036854775808 ≤ stamp) (h1 : stamp ≤ 9223372036854775807) :
    Time.time stamp = .panic ↔ stamp < -9223372036854775808 + 951868800 := by
  have hl : leapoch = 951868800 := by decide
  constructor
  · intro h
    false_or_by_contra
    obtain ⟨t, ht, -⟩ := C45_fields_all_stamps stamp (by omega) h1
    rw [ht] at h
    cases h
  · intro h
    have : i64 (stamp - leapoch) = .panic := by
      unfold i64
      rw [if_neg (by omega)]
    show Time.timeWith i64 stamp = .panic
    unfold Time.timeWith
    rw [this]
    rfl

/-- a release build: the result modulo 2^64 -/
def Spec.wrapping (n : Int) : Res Int := .ok ((n + 9223372036854775808) % 18446744073709551616 - 9223372036854775808)

theorem Spec.wrapping_fits : Fits wrapping := by
  intro n h0 h1
  unfold wrapping
  congr 1
  omega

/-- the last stamp, in a release build -/
example := C109_no_overflow wrapping wrapping_fits 9223372036854775807 (by decide) (by decide)

/-! ## C46 -/

/-- The full statement of C46. -/
def C46_statement : Prop :=
  ∀ clock : Int, 0 ≤ clock → clock ≤ i64Max → ∀ c : Civil, c.Valid → c.instant = clock → c.year ≤ 9999 →
    ∃ s, dateHeader clock = .ok (some s) ∧ IMFFixdate c s ∧ s.length = 29

theorem month_names_agree {m : Nat} (h : m ≠ 8) {mon : Str} (hm : months[m]? = some mon) :
    monthNames[m]? = some mon := by
  have hl : m < 12 := by
    rcases Nat.lt_or_ge m 12 with h | h
    · exact h
    · rw [List.getElem?_eq_none (by simpa [months] using h)] at hm; simp at hm
  have hp : ∀ m, m < 12 → m ≠ 8 → months[m]? = monthNames[m]? := by decide
  rw [← hp m hl h]; exact hm

/-- C46, partial: the Date header is an IMF-fixdate of 29 characters in every month but September.
Missing for the full statement: September, where the code writes `Sept` (`C46_september`). -/
theorem C46_imf_fixdate_partial (clock : Int) (h0 : 0 ≤ clock) (h1 : clock ≤ i64Max) (c : Civil)
    (hv : c.Valid) (hi : c.instant = clock) (hy : c.year ≤ 9999) (hsep : c.month ≠ 8) :
    ∃ s, dateHeader clock = .ok (some s) ∧ IMFFixdate c s ∧ s.length = 29 := by
  obtain ⟨c', hv', hi', w, mon, hw, hmon, hs⟩ := dateHeader_spec clock h0 h1
  obtain rfl : c' = c := Civil.instant_inj hv' hv (by rw [hi, hi'])
  have hyy := yearStart_nonneg_year hv (by omega)
  have hml : monthLength c'.year c'.month ≤ 31 := by
    unfold monthLength
    repeat' split
    all_goals decide
  obtain ⟨hm, hd1, hd2, a1, a2, a3, a4, a5, a6⟩ := hv
  have hylen : (showInt c'.year).length = 4 := by
    rw [showInt_nonneg (by omega)]
    exact showNat_length _ 3 (by omega) (by omega)
  have hwl : w.length = 3 := by
    have : ∀ w ∈ dayNames, w.length = 3 := by decide
    exact this w (List.mem_of_getElem? hw)
  have hmon' := month_names_agree hsep hmon
  have hmlen : mon.length = 3 := by
    have : ∀ w ∈ monthNames, w.length = 3 := by decide
    exact this mon (List.mem_of_getElem? hmon')
  have hyd := showInt_isDecimal c'.year (by omega)
  rw [hylen] at hyd
  refine ⟨_, hs, ⟨w, mon, _, _, _, _, _, hw, hmon', two_isDecimal _ (by omega) (by omega), hyd,
    two_isDecimal _ (by omega) (by omega), two_isDecimal _ (by omega) (by omega),
    two_isDecimal _ (by omega) (by omega), rfl⟩, ?_⟩
  simp [two, hwl, hmlen, hylen]

/-- In September the header is never an IMF-fixdate: it is one character longer. -/
theorem C46_september (clock : Int) (h0 : 0 ≤ clock) (h1 : clock ≤ i64Max) (c : Civil)
    (hv : c.Valid) (hi : c.instant = clock) (hy : c.year ≤ 9999) (hsep : c.month = 8) :
    ∃ s, dateHeader clock = .ok (some s) ∧ s.length = 30 ∧ ∀ c', ¬ IMFFixdate c' s := by
  obtain ⟨c', hv', hi', w, mon, hw, hmon, hs⟩ := dateHeader_spec clock h0 h1
  obtain rfl : c' = c := Civil.instant_inj hv' hv (by rw [hi, hi'])
  have hyy := yearStart_nonneg_year hv (by omega)
  have hylen : (showInt c'.year).length = 4 := by
    rw [showInt_nonneg (by omega)]
    exact showNat_length _ 3 (by omega) (by omega)
  have hdn : ∀ w ∈ dayNames, w.length = 3 := by decide
  have hmn : ∀ w ∈ monthNames, w.length = 3 := by decide
  have hwl : w.length = 3 := hdn w (List.mem_of_getElem? hw)
  rw [hsep] at hmon
  have hmlen : mon.length = 4 := by
    have : mon = c!"Sept" := by simpa [months] using hmon.symm
    rw [this]; rfl
  have hlen : (w ++ c!", " ++ two c'.day ++ c!" " ++ mon ++ c!" " ++
        showInt c'.year ++ c!" " ++ two c'.hour ++ c!":" ++ two c'.min ++ c!":" ++ two c'.sec ++
        c!" GMT").length = 30 := by simp [two, hwl, hmlen, hylen]
  refine ⟨_, hs, hlen, ?_⟩
  rintro c'' ⟨w', mon', dd, yy, hh, mm, ss, e1, e2, e3, e4, e5, e6, e7, e8⟩
  rw [e8] at hlen
  have g1 := hdn w' (List.mem_of_getElem? e1)
  have g2 := hmn mon' (List.mem_of_getElem? e2)
  simp [g1, g2, e3.1, e4.1, e5.1, e6.1, e7.1] at hlen

/-- C46 is false as stated: on 1 September 2020, 00:00:00. -/
theorem C46_counterexample : ¬ C46_statement := by
  intro h
  have hv : (⟨2020, 8, 1, 0, 0, 0⟩ : Civil).Valid := by unfold Civil.Valid; decide
  have hi : (⟨2020, 8, 1, 0, 0, 0⟩ : Civil).instant = 1598918400 := by decide +kernel
  obtain ⟨s, hs, hf, -⟩ := h 1598918400 (by decide) (by decide) _ hv hi (by decide)
  obtain ⟨s', hs', -, hn⟩ := C46_september 1598918400 (by decide) (by decide) _ hv hi (by decide) rfl
  rw [hs] at hs'
  obtain rfl := Option.some.inj (Res.ok.inj hs')
  exact hn _ hf

example : ∃ s, dateHeader 0 = .ok (some s) ∧ IMFFixdate ⟨1970, 0, 1, 0, 0, 0⟩ s ∧ s.length = 29 :=
  C46_imf_fixdate_partial 0 (by decide) (by decide) _ (by unfold Civil.Valid; decide)
    (by decide +kernel) (by decide) (by decide)

/-! ## C47 -/

/-- C47: two clock readings with the same Date header are the same. -/
theorem C47_date_injective (a b : Int) (ha : 0 ≤ a) (ha' : a ≤ i64Max) (hb : 0 ≤ b)
    (hb' : b ≤ i64Max) (h : dateHeader a = dateHeader b) : a = b := by
  obtain ⟨c, s, k, -, hi, hs, hd⟩ := C45_date_denotes_instant a ha ha'
  obtain ⟨c', s', k', -, hi', hs', hd'⟩ := C45_date_denotes_instant b hb hb'
  rw [hs, hs'] at h
  obtain rfl := Option.some.inj (Res.ok.inj h)
  rw [← hi, ← hi', C45_date_unambiguous.2 _ _ _ _ _ hd hd']

example : dateHeader 951868799 ≠ dateHeader 951868800 := fun h =>
  absurd (C47_date_injective _ _ (by decide) (by decide) (by decide) (by decide) h) (by decide)

end Octane
