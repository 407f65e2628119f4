import Verif.Model.Time
import Verif.Spec.Calendar
import Verif.Proof.Show
/-
Helper lemmas about the calendar and the date computation.
-/
namespace Octane
open Spec

/-- number of leap years up to and including `n` -/
def leaps (n : Int) : Int := n / 4 - n / 100 + n / 400

theorem yearLength_leaps (y : Int) : yearLength y = 365 + leaps y - leaps (y - 1) := by
  unfold yearLength isLeap leaps
  by_cases h4 : y % 4 = 0 <;> by_cases h100 : y % 100 = 0 <;> by_cases h400 : y % 400 = 0 <;>
    simp [h4, h100, h400] <;> omega

theorem sum_snoc (l : List Int) (a : Int) : (l ++ [a]).sum = l.sum + a := by
  rw [List.sum_append]; simp

theorem yearStart_forward (k : Nat) :
    ((List.range k).map fun k : Nat => yearLength (1970 + (k : Int))).sum =
      365 * k + leaps (1970 + k - 1) - leaps 1969 := by
  induction k with
  | zero => simp [leaps]
  | succ k ih =>
    rw [List.range_succ, List.map_append, List.map_singleton, sum_snoc, ih, yearLength_leaps]
    have : (1970 : Int) + ((k + 1 : Nat) : Int) - 1 = 1970 + k := by omega
    rw [this]; omega

theorem yearStart_backward (k : Nat) :
    ((List.range k).map fun k : Nat => yearLength (1969 - (k : Int))).sum =
      365 * k + leaps 1969 - leaps (1969 - k) := by
  induction k with
  | zero => simp [leaps]
  | succ k ih =>
    rw [List.range_succ, List.map_append, List.map_singleton, sum_snoc, ih, yearLength_leaps]
    have : (1969 : Int) - ((k + 1 : Nat) : Int) = 1969 - k - 1 := by omega
    rw [this]; omega

theorem yearStart_closed (y : Int) :
    yearStart y = 365 * (y - 1970) + leaps (y - 1) - leaps 1969 := by
  unfold yearStart
  split
  · rw [yearStart_forward]
    have : (((y - 1970).toNat : Nat) : Int) = y - 1970 := by omega
    rw [this]
    have : (1970 : Int) + (y - 1970) - 1 = y - 1 := by omega
    rw [this]
  · rw [yearStart_backward]
    have : (((1970 - y).toNat : Nat) : Int) = 1970 - y := by omega
    rw [this]
    have : (1969 : Int) - (1970 - y) = y - 1 := by omega
    rw [this]; omega

/-- days before a month in a common year -/
def monthCum : Nat → Int
  | 0 => 0 | 1 => 31 | 2 => 59 | 3 => 90 | 4 => 120 | 5 => 151 | 6 => 181 | 7 => 212 | 8 => 243
  | 9 => 273 | 10 => 304 | _ => 334

theorem monthStart_cases (y : Int) (m : Nat) (hm : m < 12) :
    monthStart y m = monthCum m + (if 2 ≤ m then (if isLeap y then 1 else 0) else 0) := by
  have : m = 0 ∨ m = 1 ∨ m = 2 ∨ m = 3 ∨ m = 4 ∨ m = 5 ∨ m = 6 ∨ m = 7 ∨ m = 8 ∨ m = 9 ∨ m = 10 ∨
    m = 11 := by omega
  rcases this with h | h | h | h | h | h | h | h | h | h | h | h <;> subst h <;>
    cases hl : isLeap y <;> simp [monthStart, List.range_succ, monthLength, hl, monthCum]

namespace Time

/-- `Time.monthLoop` in unbounded integers -/
def monthLoopZ : List Int → Int → Nat → Res (Nat × Int)
  | [], _, _ => .panic
  | m :: ms, remdays, month =>
    if m ≤ remdays then monthLoopZ ms (remdays - m) (month + 1) else .ok (month, remdays)

/-- `Time.time` in unbounded integers -/
def timeZ (stamp : Int) : Res Time :=
  let secs := stamp - leapoch
  let days := secs.tdiv 86400
  let remsecs := secs.tmod 86400
  let (remsecs, days) := if remsecs < 0 then (remsecs + 86400, days - 1) else (remsecs, days)
  let wday := (days + 3).tmod 7
  let wday := if wday < 0 then wday + 7 else wday
  let qc := days.tdiv daysPer400Y
  let remdays := days.tmod daysPer400Y
  let (remdays, qc) := if remdays < 0 then (remdays + daysPer400Y, qc - 1) else (remdays, qc)
  let c := remdays.tdiv daysPer100Y
  let c := if c = 4 then c - 1 else c
  let remdays := remdays - c * daysPer100Y
  let q := remdays.tdiv daysPer4Y
  let q := if q = 25 then q - 1 else q
  let remdays := remdays - q * daysPer4Y
  let remyears := remdays.tdiv 365
  let remyears := if remyears = 4 then remyears - 1 else remyears
  let remdays := remdays - remyears * 365
  let years := remyears + 4 * q + 100 * c + 400 * qc
  (monthLoopZ daysInMonth remdays 0).bind fun (month, remdays) =>
    let finalYear := years + 100
    let finalMon := (month : Int) + 2
    let (finalMon, finalYear) :=
      if finalMon ≥ 12 then (finalMon - 12, finalYear + 1) else (finalMon, finalYear)
    .ok { min := (remsecs.tdiv 60).tmod 60
          sec := remsecs.tmod 60
          hour := remsecs.tdiv 3600
          week := wday
          day := remdays + 1
          year := 1900 + finalYear
          month := finalMon }

end Time

/-- the month loop on a day number within a March-based year -/
theorem monthLoop_spec (d : Int) (h0 : 0 ≤ d) (h1 : d ≤ 365) :
    ∃ m : Nat, ∃ r : Int, Time.monthLoopZ daysInMonth d 0 = .ok (m, r) ∧ m < 12 ∧ 0 ≤ r ∧
      d = r + (match m with
        | 0 => 0 | 1 => 31 | 2 => 61 | 3 => 92 | 4 => 122 | 5 => 153 | 6 => 184 | 7 => 214 | 8 => 245
        | 9 => 275 | 10 => 306 | _ => 337) ∧
      r < (match m with | 1 | 3 | 6 | 8 => 30 | 11 => 29 | _ => 31) := by
  simp only [daysInMonth]
  by_cases g0 : d < 31
  · refine ⟨0, d - 0, ?_, by omega, by omega, by simp, by simp; omega⟩
    simp only [Time.monthLoopZ, show ¬ (31 : Int) ≤ d from by omega, if_false]
    simp
  by_cases g1 : d < 61
  · refine ⟨1, d - 31, ?_, by omega, by omega, by simp, by simp; omega⟩
    simp only [Time.monthLoopZ, show (31 : Int) ≤ d from by omega, show ¬ (30 : Int) ≤ d - 31 from by omega, if_true, if_false]
  by_cases g2 : d < 92
  · refine ⟨2, d - 61, ?_, by omega, by omega, by simp, by simp; omega⟩
    simp only [Time.monthLoopZ, show (31 : Int) ≤ d from by omega, show (30 : Int) ≤ d - 31 from by omega, show ¬ (31 : Int) ≤ d - 31 - 30 from by omega, if_true, if_false]
    congr 2; omega
  by_cases g3 : d < 122
  · refine ⟨3, d - 92, ?_, by omega, by omega, by simp, by simp; omega⟩
    simp only [Time.monthLoopZ, show (31 : Int) ≤ d from by omega, show (30 : Int) ≤ d - 31 from by omega, show (31 : Int) ≤ d - 31 - 30 from by omega, show ¬ (30 : Int) ≤ d - 31 - 30 - 31 from by omega, if_true, if_false]
    congr 2; omega
  by_cases g4 : d < 153
  · refine ⟨4, d - 122, ?_, by omega, by omega, by simp, by simp; omega⟩
    simp only [Time.monthLoopZ, show (31 : Int) ≤ d from by omega, show (30 : Int) ≤ d - 31 from by omega, show (31 : Int) ≤ d - 31 - 30 from by omega, show (30 : Int) ≤ d - 31 - 30 - 31 from by omega, show ¬ (31 : Int) ≤ d - 31 - 30 - 31 - 30 from by omega, if_true, if_false]
    congr 2; omega
  by_cases g5 : d < 184
  · refine ⟨5, d - 153, ?_, by omega, by omega, by simp, by simp; omega⟩
    simp only [Time.monthLoopZ, show (31 : Int) ≤ d from by omega, show (30 : Int) ≤ d - 31 from by omega, show (31 : Int) ≤ d - 31 - 30 from by omega, show (30 : Int) ≤ d - 31 - 30 - 31 from by omega, show (31 : Int) ≤ d - 31 - 30 - 31 - 30 from by omega, show ¬ (31 : Int) ≤ d - 31 - 30 - 31 - 30 - 31 from by omega, if_true, if_false]
    congr 2; omega
  by_cases g6 : d < 214
  · refine ⟨6, d - 184, ?_, by omega, by omega, by simp, by simp; omega⟩
    simp only [Time.monthLoopZ, show (31 : Int) ≤ d from by omega, show (30 : Int) ≤ d - 31 from by omega, show (31 : Int) ≤ d - 31 - 30 from by omega, show (30 : Int) ≤ d - 31 - 30 - 31 from by omega, show (31 : Int) ≤ d - 31 - 30 - 31 - 30 from by omega, show (31 : Int) ≤ d - 31 - 30 - 31 - 30 - 31 from by omega, show ¬ (30 : Int) ≤ d - 31 - 30 - 31 - 30 - 31 - 31 from by omega, if_true, if_false]
    congr 2; omega
  by_cases g7 : d < 245
  · refine ⟨7, d - 214, ?_, by omega, by omega, by simp, by simp; omega⟩
    simp only [Time.monthLoopZ, show (31 : Int) ≤ d from by omega, show (30 : Int) ≤ d - 31 from by omega, show (31 : Int) ≤ d - 31 - 30 from by omega, show (30 : Int) ≤ d - 31 - 30 - 31 from by omega, show (31 : Int) ≤ d - 31 - 30 - 31 - 30 from by omega, show (31 : Int) ≤ d - 31 - 30 - 31 - 30 - 31 from by omega, show (30 : Int) ≤ d - 31 - 30 - 31 - 30 - 31 - 31 from by omega, show ¬ (31 : Int) ≤ d - 31 - 30 - 31 - 30 - 31 - 31 - 30 from by omega, if_true, if_false]
    congr 2; omega
  by_cases g8 : d < 275
  · refine ⟨8, d - 245, ?_, by omega, by omega, by simp, by simp; omega⟩
    simp only [Time.monthLoopZ, show (31 : Int) ≤ d from by omega, show (30 : Int) ≤ d - 31 from by omega, show (31 : Int) ≤ d - 31 - 30 from by omega, show (30 : Int) ≤ d - 31 - 30 - 31 from by omega, show (31 : Int) ≤ d - 31 - 30 - 31 - 30 from by omega, show (31 : Int) ≤ d - 31 - 30 - 31 - 30 - 31 from by omega, show (30 : Int) ≤ d - 31 - 30 - 31 - 30 - 31 - 31 from by omega, show (31 : Int) ≤ d - 31 - 30 - 31 - 30 - 31 - 31 - 30 from by omega, show ¬ (30 : Int) ≤ d - 31 - 30 - 31 - 30 - 31 - 31 - 30 - 31 from by omega, if_true, if_false]
    congr 2; omega
  by_cases g9 : d < 306
  · refine ⟨9, d - 275, ?_, by omega, by omega, by simp, by simp; omega⟩
    simp only [Time.monthLoopZ, show (31 : Int) ≤ d from by omega, show (30 : Int) ≤ d - 31 from by omega, show (31 : Int) ≤ d - 31 - 30 from by omega, show (30 : Int) ≤ d - 31 - 30 - 31 from by omega, show (31 : Int) ≤ d - 31 - 30 - 31 - 30 from by omega, show (31 : Int) ≤ d - 31 - 30 - 31 - 30 - 31 from by omega, show (30 : Int) ≤ d - 31 - 30 - 31 - 30 - 31 - 31 from by omega, show (31 : Int) ≤ d - 31 - 30 - 31 - 30 - 31 - 31 - 30 from by omega, show (30 : Int) ≤ d - 31 - 30 - 31 - 30 - 31 - 31 - 30 - 31 from by omega, show ¬ (31 : Int) ≤ d - 31 - 30 - 31 - 30 - 31 - 31 - 30 - 31 - 30 from by omega, if_true, if_false]
    congr 2; omega
  by_cases g10 : d < 337
  · refine ⟨10, d - 306, ?_, by omega, by omega, by simp, by simp; omega⟩
    simp only [Time.monthLoopZ, show (31 : Int) ≤ d from by omega, show (30 : Int) ≤ d - 31 from by omega, show (31 : Int) ≤ d - 31 - 30 from by omega, show (30 : Int) ≤ d - 31 - 30 - 31 from by omega, show (31 : Int) ≤ d - 31 - 30 - 31 - 30 from by omega, show (31 : Int) ≤ d - 31 - 30 - 31 - 30 - 31 from by omega, show (30 : Int) ≤ d - 31 - 30 - 31 - 30 - 31 - 31 from by omega, show (31 : Int) ≤ d - 31 - 30 - 31 - 30 - 31 - 31 - 30 from by omega, show (30 : Int) ≤ d - 31 - 30 - 31 - 30 - 31 - 31 - 30 - 31 from by omega, show (31 : Int) ≤ d - 31 - 30 - 31 - 30 - 31 - 31 - 30 - 31 - 30 from by omega, show ¬ (31 : Int) ≤ d - 31 - 30 - 31 - 30 - 31 - 31 - 30 - 31 - 30 - 31 from by omega, if_true, if_false]
    congr 2; omega
  by_cases g11 : d < 366
  · refine ⟨11, d - 337, ?_, by omega, by omega, by simp, by simp; omega⟩
    simp only [Time.monthLoopZ, show (31 : Int) ≤ d from by omega, show (30 : Int) ≤ d - 31 from by omega, show (31 : Int) ≤ d - 31 - 30 from by omega, show (30 : Int) ≤ d - 31 - 30 - 31 from by omega, show (31 : Int) ≤ d - 31 - 30 - 31 - 30 from by omega, show (31 : Int) ≤ d - 31 - 30 - 31 - 30 - 31 from by omega, show (30 : Int) ≤ d - 31 - 30 - 31 - 30 - 31 - 31 from by omega, show (31 : Int) ≤ d - 31 - 30 - 31 - 30 - 31 - 31 - 30 from by omega, show (30 : Int) ≤ d - 31 - 30 - 31 - 30 - 31 - 31 - 30 - 31 from by omega, show (31 : Int) ≤ d - 31 - 30 - 31 - 30 - 31 - 31 - 30 - 31 - 30 from by omega, show (31 : Int) ≤ d - 31 - 30 - 31 - 30 - 31 - 31 - 30 - 31 - 30 - 31 from by omega, show ¬ (29 : Int) ≤ d - 31 - 30 - 31 - 30 - 31 - 31 - 30 - 31 - 30 - 31 - 31 from by omega, if_true, if_false]
    congr 2; omega
  omega

theorem floor_fix (x k : Int) (hk : 0 < k) :
    (if x.tmod k < 0 then (x.tmod k + k, x.tdiv k - 1) else (x.tmod k, x.tdiv k)) =
      (x % k, x / k) := by
  have h1 : x.tdiv k * k + x.tmod k = x := Int.tdiv_mul_add_tmod x k
  have h2 := Int.emod_nonneg x (Int.ne_of_gt hk)
  have h3 := Int.emod_lt_of_pos x hk
  have h4 : x / k * k + x % k = x := Int.ediv_mul_add_emod x k
  by_cases hx : 0 ≤ x
  · rw [Int.tmod_eq_emod_of_nonneg hx, Int.tdiv_eq_ediv_of_nonneg hx]
    rw [if_neg (by omega)]
  · have hd := Int.tmod_eq_emod (a := x) (b := k)
    have hq := Int.tdiv_eq_ediv (a := x) (b := k)
    by_cases hdv : k ∣ x
    · simp [hdv] at hd hq
      rw [hd, hq, if_neg (by omega)]
    · have hs : k.sign = 1 := Int.sign_eq_one_of_pos hk
      have hn : ((k.natAbs : Nat) : Int) = k := by omega
      simp [hx, hdv, hs, hn] at hd hq
      rw [hd, hq, if_pos (by omega)]
      congr 1 <;> omega

theorem floor_fix_mod (x k : Int) (hk : 0 < k) :
    (if x.tmod k < 0 then x.tmod k + k else x.tmod k) = x % k := by
  have := congrArg Prod.fst (floor_fix x k hk)
  rw [apply_ite Prod.fst] at this
  exact this

/-- the computation of `Time.timeZ` after the flooring divisions are recognised -/
theorem time_unfold (stamp : Int) :
    ∃ qc c q ry rd S D : Int,
      stamp = leapoch + 86400 * D + S ∧ 0 ≤ S ∧ S < 86400 ∧
      D = 146097 * qc + 36524 * c + 1461 * q + 365 * ry + rd ∧
      0 ≤ c ∧ c ≤ 3 ∧ 0 ≤ q ∧ q ≤ 24 ∧ 0 ≤ ry ∧ ry ≤ 3 ∧ 0 ≤ rd ∧ rd ≤ 365 ∧
      (rd = 365 → ry = 3 ∧ (q = 24 → c = 3)) ∧
      Time.timeZ stamp =
        (Time.monthLoopZ daysInMonth rd 0).bind fun (month, remdays) =>
          let finalYear := ry + 4 * q + 100 * c + 400 * qc + 100
          let finalMon := (month : Int) + 2
          let (finalMon, finalYear) :=
            if finalMon ≥ 12 then (finalMon - 12, finalYear + 1) else (finalMon, finalYear)
          .ok { min := (S / 60) % 60
                sec := S % 60
                hour := S / 3600
                week := (D + 3) % 7
                day := remdays + 1
                year := 1900 + finalYear
                month := finalMon } := by
  let secs := stamp - leapoch
  let S := secs % 86400
  let D := secs / 86400
  have hS0 : 0 ≤ S := Int.emod_nonneg _ (by decide)
  have hS1 : S < 86400 := Int.emod_lt_of_pos _ (by decide)
  let qc := D / 146097
  let R := D % 146097
  have hR0 : 0 ≤ R := Int.emod_nonneg _ (by decide)
  have hR1 : R < 146097 := Int.emod_lt_of_pos _ (by decide)
  let c := if R / 36524 = 4 then R / 36524 - 1 else R / 36524
  have hc : 0 ≤ c ∧ c ≤ 3 ∧ 0 ≤ R - c * 36524 ∧ R - c * 36524 ≤ 36524 ∧
      (R - c * 36524 = 36524 → c = 3) := by
    show 0 ≤ (if R / 36524 = 4 then R / 36524 - 1 else R / 36524) ∧ _
    simp only [c]
    split <;> omega
  let R1 := R - c * 36524
  let q := if R1 / 1461 = 25 then R1 / 1461 - 1 else R1 / 1461
  have hq : 0 ≤ q ∧ q ≤ 24 ∧ 0 ≤ R1 - q * 1461 ∧ R1 - q * 1461 ≤ 1460 ∧
      (R1 - q * 1461 = 1460 → q = 24 → c = 3) := by
    have h0 : 0 ≤ R1 := hc.2.2.1
    have h1 : R1 ≤ 36524 := hc.2.2.2.1
    have h2 : R1 = 36524 → c = 3 := hc.2.2.2.2
    simp only [q]
    split <;> omega
  let R2 := R1 - q * 1461
  let ry := if R2 / 365 = 4 then R2 / 365 - 1 else R2 / 365
  have hry : 0 ≤ ry ∧ ry ≤ 3 ∧ 0 ≤ R2 - ry * 365 ∧ R2 - ry * 365 ≤ 365 ∧
      (R2 - ry * 365 = 365 → ry = 3 ∧ R2 = 1460) := by
    have h0 : 0 ≤ R2 := hq.2.2.1
    have h1 : R2 ≤ 1460 := hq.2.2.2.1
    simp only [ry]
    split <;> omega
  refine ⟨qc, c, q, ry, R2 - ry * 365, S, D, ?_, hS0, hS1, ?_, hc.1, hc.2.1, hq.1, hq.2.1,
    hry.1, hry.2.1, hry.2.2.1, hry.2.2.2.1, ?_, ?_⟩
  · have : secs = stamp - leapoch := rfl
    simp only [S, D]; omega
  · simp only [R2, R1, R, qc]; omega
  · intro h
    exact ⟨(hry.2.2.2.2 h).1, fun h24 => hq.2.2.2.2 (hry.2.2.2.2 h).2 h24⟩
  · unfold Time.timeZ
    simp only [show daysPer400Y = 146097 from by decide, show daysPer100Y = 36524 from by decide,
      show daysPer4Y = 1461 from by decide]
    rw [floor_fix (stamp - leapoch) 86400 (by decide)]
    simp only []
    rw [floor_fix _ 146097 (by decide), floor_fix_mod _ 7 (by decide)]
    simp only []
    have e1 : (R.tdiv 36524) = R / 36524 := Int.tdiv_eq_ediv_of_nonneg hR0
    have e2 : (R1.tdiv 1461) = R1 / 1461 := Int.tdiv_eq_ediv_of_nonneg hc.2.2.1
    have e3 : (R2.tdiv 365) = R2 / 365 := Int.tdiv_eq_ediv_of_nonneg hq.2.2.1
    have e4 : S.tdiv 60 = S / 60 := Int.tdiv_eq_ediv_of_nonneg hS0
    have e5 : S.tdiv 3600 = S / 3600 := Int.tdiv_eq_ediv_of_nonneg hS0
    have e6 : S.tmod 60 = S % 60 := Int.tmod_eq_emod_of_nonneg hS0
    have e7 : (S / 60).tmod 60 = S / 60 % 60 := Int.tmod_eq_emod_of_nonneg (by omega)
    simp only [ry, R2, q, R1, c, R, qc, D, S, secs] at e1 e2 e3 e4 e5 e6 e7 ⊢
    rw [e1, e2, e3]
    simp only [e4, e5, e6, e7]

/-- the civil date the fields of a `Time` denote -/
def Time.civil (t : Time) : Civil := ⟨t.year, t.month.toNat, t.day, t.hour, t.min, t.sec⟩

theorem isLeap_iff (y : Int) :
    isLeap y = true ↔ (y % 4 = 0 ∧ y % 100 ≠ 0) ∨ y % 400 = 0 := by
  simp [isLeap]

theorem yearStart_succ (y : Int) : yearStart (y + 1) = yearStart y + yearLength y := by
  rw [yearStart_closed, yearStart_closed, yearLength_leaps]
  have : y + 1 - 1 = y := by omega
  rw [this]; omega

theorem leaps_parts (qc c q ry : Int) (hc0 : 0 ≤ c) (hc1 : c ≤ 3) (hq0 : 0 ≤ q) (hq1 : q ≤ 24)
    (hr0 : 0 ≤ ry) (hr1 : ry ≤ 3) :
    leaps (ry + 4 * q + 100 * c + 400 * qc + 2000) = 97 * qc + 24 * c + q + 485 := by
  unfold leaps
  have h4 : (ry + 4 * q + 100 * c + 400 * qc + 2000) / 4 = q + 25 * c + 100 * qc + 500 := by omega
  have h100 : (ry + 4 * q + 100 * c + 400 * qc + 2000) / 100 = c + 4 * qc + 20 := by omega
  have h400 : (ry + 4 * q + 100 * c + 400 * qc + 2000) / 400 = qc + 5 := by omega
  omega

theorem leap_parts (qc c q ry : Int) (hq0 : 0 ≤ q) (hq1 : q ≤ 24)
    (h : ry = 3 ∧ (q = 24 → c = 3)) :
    isLeap (ry + 4 * q + 100 * c + 400 * qc + 2000 + 1) = true := by
  rw [isLeap_iff]
  obtain ⟨rfl, h⟩ := h
  by_cases h24 : q = 24
  · have := h h24
    right; omega
  · left; omega

theorem time_spec (stamp : Int) :
    ∃ t, Time.timeZ stamp = .ok t ∧ 0 ≤ t.month ∧ t.civil.Valid ∧ t.civil.instant = stamp ∧
      t.week = t.civil.weekday := by
  obtain ⟨qc, c, q, ry, rd, S, D, hst, hS0, hS1, hD, hc0, hc1, hq0, hq1, hr0, hr1, hd0, hd1, hlp, ht⟩ :=
    time_unfold stamp
  obtain ⟨m, r, hm, hm12, hr, hdr, hrl⟩ := monthLoop_spec rd hd0 hd1
  rw [hm] at ht
  simp only [Res.bind_ok'] at ht
  have hleap : leapoch = 951868800 := by decide
  have hL := leaps_parts qc c q ry hc0 hc1 hq0 hq1 hr0 hr1
  have hlp' : rd = 365 → isLeap (ry + 4 * q + 100 * c + 400 * qc + 2000 + 1) = true :=
    fun h => leap_parts qc c q ry hq0 hq1 (hlp h)
  have hY : 1900 + (ry + 4 * q + 100 * c + 400 * qc + 100) =
    ry + 4 * q + 100 * c + 400 * qc + 2000 := by omega
  have hY1 : 1900 + (ry + 4 * q + 100 * c + 400 * qc + 100 + 1) =
    ry + 4 * q + 100 * c + 400 * qc + 2000 + 1 := by omega
  have hys1 := yearStart_closed (ry + 4 * q + 100 * c + 400 * qc + 2000 + 1)
  rw [show ry + 4 * q + 100 * c + 400 * qc + 2000 + 1 - 1 =
    ry + 4 * q + 100 * c + 400 * qc + 2000 from by omega, hL,
    show leaps 1969 = 477 from by decide] at hys1
  have hsucc := yearStart_succ (ry + 4 * q + 100 * c + 400 * qc + 2000)
  generalize hYg : ry + 4 * q + 100 * c + 400 * qc + 2000 = Y at *
  have hday : D + 11017 = yearStart (Y + 1) - 306 + rd := by omega
  clear hys1 hL
  have hw : ∀ dn : Int, dn = D + 11017 → (D + 3) % 7 = (dn + 4) % 7 := by intro dn h; omega
  have hins : ∀ dn : Int, dn = D + 11017 →
      86400 * dn + 3600 * (S / 3600) + 60 * (S / 60 % 60) + S % 60 = stamp := by intro dn h; omega
  have hlt : ∀ y : Int, (if isLeap y then (366 : Int) else 365) = 365 + (if isLeap y then 1 else 0) := by
    intro y; split <;> rfl
  rw [yearLength, hlt] at hsucc
  by_cases h12 : (m : Int) + 2 ≥ 12
  · rw [if_pos h12] at ht
    refine ⟨_, ht, by simp only []; omega, ?_⟩
    have hm2 : m = 10 ∨ m = 11 := by omega
    rcases hm2 with rfl | rfl
    · simp only [Time.civil, Civil.Valid, Civil.instant, Civil.weekday, Civil.dayNumber, hY1]
      refine ⟨?_, hins _ ?_, hw _ ?_⟩
      · simp [monthLength] at hrl ⊢; omega
      · simp [monthStart] at hdr ⊢; omega
      · simp [monthStart] at hdr ⊢; omega
    · simp only [Time.civil, Civil.Valid, Civil.instant, Civil.weekday, Civil.dayNumber, hY1]
      refine ⟨?_, hins _ ?_, hw _ ?_⟩
      · simp only at hdr hrl
        have : r = 28 → isLeap (Y + 1) = true := fun h => hlp' (by omega)
        simp [monthLength]
        cases hl : isLeap (Y + 1)
        · have : r ≠ 28 := fun h => by rw [this h] at hl; exact absurd hl (by decide)
          simp; omega
        · simp; omega
      · simp [monthStart, monthLength] at hdr ⊢; omega
      · simp [monthStart, monthLength] at hdr ⊢; omega
  · rw [if_neg h12] at ht
    refine ⟨_, ht, by simp only []; omega, ?_⟩
    have hm' : ((m : Int) + 2).toNat = m + 2 := by omega
    simp only [Time.civil, Civil.Valid, Civil.instant, Civil.weekday, Civil.dayNumber, hY, hm']
    have hms := monthStart_cases Y (m + 2) (by omega)
    rw [if_pos (by omega)] at hms
    have hdn : yearStart Y + monthStart Y (m + 2) + (r + 1 - 1) = D + 11017 := by
      rw [hms, hday]
      clear hms hins hw ht hm hYg hY hY1 hm'
      generalize (if isLeap Y then (1 : Int) else 0) = l at *
      have : m = 0 ∨ m = 1 ∨ m = 2 ∨ m = 3 ∨ m = 4 ∨ m = 5 ∨ m = 6 ∨ m = 7 ∨ m = 8 ∨ m = 9 := by omega
      rcases this with rfl | rfl | rfl | rfl | rfl | rfl | rfl | rfl | rfl | rfl <;>
        simp [monthCum] at hdr ⊢ <;> omega
    refine ⟨?_, hins _ hdn, hw _ hdn⟩
    clear hms hins hw ht hm hYg hY hY1 hm' hdn hsucc hlp hlp' hday
    have : m = 0 ∨ m = 1 ∨ m = 2 ∨ m = 3 ∨ m = 4 ∨ m = 5 ∨ m = 6 ∨ m = 7 ∨ m = 8 ∨ m = 9 := by omega
    rcases this with rfl | rfl | rfl | rfl | rfl | rfl | rfl | rfl | rfl | rfl <;>
      simp [monthLength] at hrl ⊢ <;> omega

/-! ### the civil date of an instant is unique -/

theorem leaps_mono {a b : Int} (h : a ≤ b) : leaps a ≤ leaps b := by
  unfold leaps
  have h1 : a / 100 = a / 4 / 25 := by omega
  have h2 : b / 100 = b / 4 / 25 := by omega
  have h3 : a / 4 ≤ b / 4 := by omega
  have h4 : a / 400 ≤ b / 400 := by omega
  rw [h1, h2]
  generalize a / 4 = x at *
  generalize b / 4 = y at *
  omega

theorem yearStart_mono {y y' : Int} (h : y < y') : yearStart y + yearLength y ≤ yearStart y' := by
  rw [← yearStart_succ, yearStart_closed, yearStart_closed]
  have := leaps_mono (a := y + 1 - 1) (b := y' - 1) (by omega)
  omega

theorem monthLength_pos (y : Int) (m : Nat) : 0 < monthLength y m := by
  unfold monthLength
  repeat' split
  all_goals decide

theorem monthStart_succ (y : Int) (m : Nat) :
    monthStart y (m + 1) = monthStart y m + monthLength y m := by
  unfold monthStart
  rw [List.range_succ, List.map_append, List.map_singleton, sum_snoc]

theorem monthStart_mono (y : Int) {m m' : Nat} (h : m < m') :
    monthStart y m + monthLength y m ≤ monthStart y m' := by
  rw [← monthStart_succ]
  obtain ⟨k, rfl⟩ : ∃ k, m' = m + 1 + k := ⟨m' - (m + 1), by omega⟩
  clear h
  induction k with
  | zero => simp
  | succ k ih =>
    have := monthStart_succ y (m + 1 + k)
    have := monthLength_pos y (m + 1 + k)
    rw [show m + 1 + (k + 1) = m + 1 + k + 1 from rfl]; omega

theorem monthStart_year (y : Int) : monthStart y 12 = yearLength y := by
  unfold yearLength
  cases hl : isLeap y <;> simp [monthStart, List.range_succ, monthLength, hl]

theorem monthStart_nonneg (y : Int) (m : Nat) : 0 ≤ monthStart y m := by
  induction m with
  | zero => simp [monthStart]
  | succ m ih =>
    have := monthStart_succ y m
    have := monthLength_pos y m
    omega

theorem Spec.Civil.Valid.dayInYear {c : Civil} (h : c.Valid) :
    0 ≤ monthStart c.year c.month + (c.day - 1) ∧
      monthStart c.year c.month + (c.day - 1) < yearLength c.year := by
  obtain ⟨hm, hd1, hd2, -⟩ := h
  have h0 := monthStart_nonneg c.year c.month
  have h1 := monthStart_mono c.year hm
  rw [monthStart_year] at h1
  omega

theorem Spec.Civil.instant_inj {c c' : Civil} (h : c.Valid) (h' : c'.Valid)
    (he : c.instant = c'.instant) : c = c' := by
  have hd := h.dayInYear
  have hd' := h'.dayInYear
  obtain ⟨hm, hd1, hd2, a1, a2, a3, a4, a5, a6⟩ := h
  obtain ⟨hm', hd1', hd2', b1, b2, b3, b4, b5, b6⟩ := h'
  have hdn : c.dayNumber = c'.dayNumber := by unfold Civil.instant at he; omega
  have hh : c.hour = c'.hour := by unfold Civil.instant at he; omega
  have hmi : c.min = c'.min := by unfold Civil.instant at he; omega
  have hs : c.sec = c'.sec := by unfold Civil.instant at he; omega
  unfold Civil.dayNumber at hdn
  have hy : c.year = c'.year := by
    rcases Int.lt_trichotomy c.year c'.year with hlt | heq | hlt
    · have := yearStart_mono hlt; omega
    · exact heq
    · have := yearStart_mono hlt; omega
  cases c; cases c'
  simp only [Civil.mk.injEq] at *
  subst hy
  rename_i y m d _ _ _ m' d' _ _ _
  have hmm : m = m' := by
    rcases Nat.lt_trichotomy m m' with hlt | heq | hlt
    · have := monthStart_mono y hlt; omega
    · exact heq
    · have := monthStart_mono y hlt; omega
  subst hmm
  exact ⟨rfl, rfl, by omega, hh, hmi, hs⟩

/-! ### formatting -/

theorem padZero_spec (n : Int) (h0 : 0 ≤ n) (h1 : n < 100) :
    Time.padZero n = .ok [digitChar (n.toNat / 10), digitChar (n.toNat % 10)] := by
  unfold Time.padZero
  rw [showInt_nonneg h0]
  have hz : digitChar 0 = '0' := by decide
  by_cases h : n.toNat < 10
  · have e := digitChar_facts n.toNat h
    rw [showNat_lt h]
    have hlen : (utf8 (c!"0" ++ [digitChar n.toNat])).length - 2 = 0 := by
      simp [utf8, e.2.2]; decide
    simp only [hlen]
    rw [show n.toNat / 10 = 0 by omega, show n.toNat % 10 = n.toNat by omega, hz]
    rfl
  · have e1 := digitChar_facts (n.toNat / 10) (by omega)
    have e2 := digitChar_facts (n.toNat % 10) (by omega)
    rw [showNat_pair (by omega) (by omega)]
    have hlen : (utf8 (c!"0" ++ [digitChar (n.toNat / 10), digitChar (n.toNat % 10)])).length - 2 = 1 := by
      simp [utf8, e1.2.2, e2.2.2]; decide
    simp only [hlen]
    have hz1 : '0'.utf8Size = 1 := by decide
    simp [sliceFrom, splitAtByte, hz1]

theorem pad_isDecimal (n : Int) (h0 : 0 ≤ n) (h1 : n < 100) :
    IsDecimal 2 [digitChar (n.toNat / 10), digitChar (n.toNat % 10)] n := by
  have e1 := (digitChar_facts (n.toNat / 10) (by omega)).1
  have e2 := (digitChar_facts (n.toNat % 10) (by omega)).1
  refine ⟨rfl, ?_, ?_⟩
  · intro c hc
    simp at hc
    have : 48 ≤ c.toNat ∧ c.toNat ≤ 57 := by rcases hc with rfl | rfl <;> omega
    exact ⟨by rw [Char.le_def, UInt32.le_iff_toNat_le]; exact this.1,
      by rw [Char.le_def, UInt32.le_iff_toNat_le]; exact this.2⟩
  · simp [e1, e2]; omega

theorem IsDecimal.unique {k : Nat} {ds : Str} {n n' : Int} (h : IsDecimal k ds n)
    (h' : IsDecimal k ds n') : n = n' := by rw [h.2.2, h'.2.2]

/-- the two digits of a number below 100 -/
def two (n : Int) : Str := [digitChar (n.toNat / 10), digitChar (n.toNat % 10)]

theorem format_spec (t : Time) (hm : 0 ≤ t.month) (hv : t.civil.Valid) (hw : t.week = t.civil.weekday) :
    ∃ w mon, dayNames[t.civil.weekday.toNat]? = some w ∧ months[t.civil.month]? = some mon ∧
      t.format = .ok (w ++ c!", " ++ two t.day ++ c!" " ++ mon ++ c!" " ++ showInt t.year ++ c!" " ++
        two t.hour ++ c!":" ++ two t.min ++ c!":" ++ two t.sec ++ c!" GMT") := by
  obtain ⟨hm12, hd1, hd2, a1, a2, a3, a4, a5, a6⟩ := hv
  have hml : monthLength t.year t.month.toNat ≤ 31 := by
    unfold monthLength
    repeat' split
    all_goals decide
  simp only [Time.civil] at hm12 hd1 hd2 a1 a2 a3 a4 a5 a6
  have hwr : 0 ≤ t.civil.weekday ∧ t.civil.weekday < 7 := by unfold Civil.weekday; omega
  have hwl : t.civil.weekday.toNat < dayNames.length := by
    have : dayNames.length = 7 := rfl
    omega
  have hmo : t.civil.month < months.length := by
    have : months.length = 12 := rfl
    simp only [Time.civil]; omega
  refine ⟨_, _, List.getElem?_eq_getElem hwl, List.getElem?_eq_getElem hmo, ?_⟩
  have e1 : Time.nth months t.month = some months[t.civil.month] := by
    unfold Time.nth
    rw [if_neg (by omega)]
    exact List.getElem?_eq_getElem hmo
  have e2 : Time.nth weeks t.week = some dayNames[t.civil.weekday.toNat] := by
    unfold Time.nth
    rw [hw, if_neg (by omega)]
    exact List.getElem?_eq_getElem hwl
  unfold Time.format
  rw [e1, e2]
  simp only []
  rw [padZero_spec t.day (by omega) (by omega), padZero_spec t.hour (by omega) (by omega),
    padZero_spec t.min (by omega) (by omega), padZero_spec t.sec (by omega) (by omega)]
  simp [two]

theorem two_isDecimal (n : Int) (h0 : 0 ≤ n) (h1 : n < 100) : IsDecimal 2 (two n) n :=
  pad_isDecimal n h0 h1

theorem showInt_isDecimal (n : Int) (h0 : 0 ≤ n) :
    IsDecimal (showInt n).length (showInt n) n := by
  rw [showInt_nonneg h0]
  refine ⟨rfl, ?_, ?_⟩
  · intro c hc
    have := showNat_digits _ c hc
    exact ⟨by rw [Char.le_def, UInt32.le_iff_toNat_le]; exact this.1,
      by rw [Char.le_def, UInt32.le_iff_toNat_le]; exact this.2⟩
  · rw [showNat_val]; omega

theorem yearStart_nonneg_year {c : Civil} (h : c.Valid) (hi : 0 ≤ c.instant) : 1970 ≤ c.year := by
  have hd := h.dayInYear
  obtain ⟨hm, hd1, hd2, a1, a2, a3, a4, a5, a6⟩ := h
  have hdn : 0 ≤ c.dayNumber := by unfold Civil.instant at hi; omega
  unfold Civil.dayNumber at hdn
  rcases Int.lt_or_le c.year 1970 with hlt | hle
  · have := yearStart_mono hlt
    have h0 : yearStart 1970 = 0 := by decide +kernel
    omega
  · exact hle

theorem tdiv_tmod (x k : Int) (hk : 0 < k) : x = x.tdiv k * k + x.tmod k ∧ x.tmod k < k ∧ -k < x.tmod k ∧
    (0 ≤ x → 0 ≤ x.tmod k) ∧ (x ≤ 0 → x.tmod k ≤ 0) := by
  refine ⟨(Int.tdiv_mul_add_tmod x k).symm, Int.tmod_lt_of_pos x hk, ?_, Int.tmod_nonneg k, ?_⟩
  · have := Int.tmod_lt_of_pos (-x) hk
    rw [Int.neg_tmod] at this
    omega
  · intro h
    have := Int.tmod_nonneg k (a := -x) (by omega)
    rw [Int.neg_tmod] at this
    omega

theorem i64_fits : Fits i64 := by
  intro n h0 h1
  have : (i64Max : Int) = 9223372036854775807 := by decide
  unfold i64
  rw [if_pos ⟨by omega, by omega⟩]

section
variable {fit : Int → Res Int} (hfit : Fits fit)
include hfit

theorem fit_ok {n : Int} (h0 : -9223372036854775808 ≤ n) (h1 : n ≤ 9223372036854775807) : fit n = .ok n :=
  hfit n h0 h1

theorem monthLoop_checked (ms : List Int) (hm : ∀ m ∈ ms, 0 ≤ m) (d : Int) (n : Nat) (h0 : 0 ≤ d) (h1 : d ≤ 366) :
    Time.monthLoop fit ms d n = Time.monthLoopZ ms d n ∧
      ∀ k r, Time.monthLoopZ ms d n = .ok (k, r) → k ≤ n + ms.length ∧ 0 ≤ r ∧ r ≤ 366 := by
  induction ms generalizing d n with
  | nil => exact ⟨rfl, by simp [Time.monthLoopZ]⟩
  | cons m ms ih =>
    unfold Time.monthLoop Time.monthLoopZ
    have := hm m (by simp)
    split
    · rw [fit_ok hfit (by omega) (by omega), Res.bind_ok']
      refine ⟨(ih (fun x hx => hm x (by simp [hx])) _ _ (by omega) (by omega)).1, fun k r h => ?_⟩
      have := (ih (fun x hx => hm x (by simp [hx])) _ _ (by omega) (by omega)).2 k r h
      simp; omega
    · refine ⟨rfl, fun k r h => ?_⟩
      injection h with h; injection h with h1 h2
      simp; omega

theorem floor_checked (x k : Int) (hk : 0 < k) (hk' : k ≤ 1000000) (h0 : -9223372036854775808 ≤ x)
    (h1 : x ≤ 9223372036854775807) (hk2 : 3 ≤ k) :
    Time.borrow fit k (x.tmod k) (x.tdiv k) = .ok (if x.tmod k < 0 then (x.tmod k + k, x.tdiv k - 1) else (x.tmod k, x.tdiv k)) ∧
    ∀ r d, (if x.tmod k < 0 then (x.tmod k + k, x.tdiv k - 1) else (x.tmod k, x.tdiv k)) = (r, d) →
      0 ≤ r ∧ r < k ∧ -3074457345618258604 ≤ d ∧ d ≤ 3074457345618258604 := by
  obtain ⟨a1, a2, a3, a4, a5⟩ := tdiv_tmod x k hk
  generalize x.tmod k = r at *
  generalize x.tdiv k = d at *
  have b1 : d ≤ 3074457345618258603 := by
    false_or_by_contra
    rename_i h
    have : 3074457345618258604 * 3 ≤ d * k := Int.mul_le_mul (by omega) hk2 (by omega) (by omega)
    omega
  have b2 : -3074457345618258603 ≤ d := by
    false_or_by_contra
    rename_i h
    have : 3074457345618258604 * 3 ≤ (-d) * k := Int.mul_le_mul (by omega) hk2 (by omega) (by omega)
    rw [Int.neg_mul] at this
    omega
  unfold Time.borrow
  split
  · rw [fit_ok hfit (by omega) (by omega), fit_ok hfit (by omega) (by omega)]
    refine ⟨rfl, fun r' d' h => ?_⟩
    injection h with h2 h3
    omega
  · refine ⟨rfl, fun r' d' h => ?_⟩
    injection h with h2 h3
    omega

theorem lower_checked {x m : Int} (h0 : 0 ≤ x) (hm : m ≤ 1000) :
    Time.lower fit m x = .ok (if x = m then x - 1 else x) := by
  unfold Time.lower
  split
  · rw [fit_ok hfit (by omega) (by omega)]
  · rfl

theorem time_checked (stamp : Int) (h0 : -9223372036854775808 ≤ stamp - leapoch)
    (h1 : stamp ≤ 9223372036854775807) : Time.timeWith fit stamp = Time.timeZ stamp := by
  have hl : leapoch = 951868800 := by decide
  unfold Time.timeWith Time.timeZ
  rw [fit_ok hfit h0 (by omega), Res.bind_ok]
  generalize hx : stamp - leapoch = x at *
  obtain ⟨f1, f2⟩ := floor_checked hfit x 86400 (by decide) (by decide) h0 (by omega) (by decide)
  rw [f1, Res.bind_ok]
  simp only []
  revert f2
  generalize (if x.tmod 86400 < 0 then (x.tmod 86400 + 86400, x.tdiv 86400 - 1) else (x.tmod 86400, x.tdiv 86400)) = p
  obtain ⟨remsecs, days⟩ := p
  intro f2
  obtain ⟨r1, r2, d1, d2⟩ := f2 _ _ rfl
  simp only [show daysPer400Y = 146097 from by decide, show daysPer100Y = 36524 from by decide,
      show daysPer4Y = 1461 from by decide]
  rw [fit_ok hfit (by omega) (by omega), Res.bind_ok]
  obtain ⟨-, m2, m3, -, -⟩ := tdiv_tmod (days + 3) 7 (by decide)
  generalize (days + 3).tmod 7 = wd at *
  have hw : Time.weekUp fit wd = .ok (if wd < 0 then wd + 7 else wd) := by
    unfold Time.weekUp
    split
    · rw [fit_ok hfit (by omega) (by omega)]
    · rfl
  rw [hw, Res.bind_ok]
  generalize (if wd < 0 then wd + 7 else wd) = wday
  obtain ⟨g1, g2⟩ := floor_checked hfit days 146097 (by decide) (by decide) (by omega) (by omega) (by decide)
  obtain ⟨s1, s2, s3, s4, s5⟩ := tdiv_tmod days 146097 (by decide)
  have g3 : ∀ r d, (if days.tmod 146097 < 0 then (days.tmod 146097 + 146097, days.tdiv 146097 - 1)
      else (days.tmod 146097, days.tdiv 146097)) = (r, d) → -100000000000000 ≤ d ∧ d ≤ 100000000000000 := by
    intro r d h
    split at h <;> (injection h; omega)
  rw [g1, Res.bind_ok]
  revert g2 g3
  generalize (if days.tmod 146097 < 0 then (days.tmod 146097 + 146097, days.tdiv 146097 - 1)
      else (days.tmod 146097, days.tdiv 146097)) = p
  obtain ⟨rd, qc⟩ := p
  intro g2 g3
  obtain ⟨r3, r4, -, -⟩ := g2 _ _ rfl
  obtain ⟨d3, d4⟩ := g3 _ _ rfl
  clear g1 g2 g3 f1 f2 hw s1 s2 s3 s4 s5
  simp only []
  rw [Int.tdiv_eq_ediv_of_nonneg r3]
  rw [lower_checked hfit (by omega) (by decide), Res.bind_ok]
  have hc : ∀ c, (if rd / 36524 = 4 then rd / 36524 - 1 else rd / 36524) = c → 0 ≤ c ∧ c ≤ 3 ∧ 0 ≤ rd - c * 36524 ∧
      rd - c * 36524 ≤ 36524 := by
    intro c h
    split at h <;> omega
  revert hc
  generalize (if rd / 36524 = 4 then rd / 36524 - 1 else rd / 36524) = c
  intro hc
  obtain ⟨c1, c2, c3, c4⟩ := hc c rfl
  rw [fit_ok hfit (by omega) (by omega), Res.bind_ok, fit_ok hfit (by omega) (by omega), Res.bind_ok]
  generalize rd - c * 36524 = rd1 at *
  rw [Int.tdiv_eq_ediv_of_nonneg c3]
  rw [lower_checked hfit (by omega) (by decide), Res.bind_ok]
  have hq : ∀ q, (if rd1 / 1461 = 25 then rd1 / 1461 - 1 else rd1 / 1461) = q → 0 ≤ q ∧ q ≤ 24 ∧ 0 ≤ rd1 - q * 1461 ∧
      rd1 - q * 1461 ≤ 1460 := by
    intro q h
    split at h <;> omega
  revert hq
  generalize (if rd1 / 1461 = 25 then rd1 / 1461 - 1 else rd1 / 1461) = q
  intro hq
  obtain ⟨q1, q2, q3, q4⟩ := hq q rfl
  rw [fit_ok hfit (by omega) (by omega), Res.bind_ok, fit_ok hfit (by omega) (by omega), Res.bind_ok]
  generalize rd1 - q * 1461 = rd2 at *
  rw [Int.tdiv_eq_ediv_of_nonneg q3]
  rw [lower_checked hfit (by omega) (by decide), Res.bind_ok]
  have hy : ∀ y, (if rd2 / 365 = 4 then rd2 / 365 - 1 else rd2 / 365) = y → 0 ≤ y ∧ y ≤ 3 ∧ 0 ≤ rd2 - y * 365 ∧
      rd2 - y * 365 ≤ 365 := by
    intro y h
    split at h <;> omega
  revert hy
  generalize (if rd2 / 365 = 4 then rd2 / 365 - 1 else rd2 / 365) = y
  intro hy
  obtain ⟨y1, y2, y3, y4⟩ := hy y rfl
  rw [fit_ok hfit (by omega) (by omega), Res.bind_ok, fit_ok hfit (by omega) (by omega), Res.bind_ok]
  generalize rd2 - y * 365 = rd3 at *
  rw [fit_ok hfit (by omega) (by omega), Res.bind_ok, fit_ok hfit (by omega) (by omega), Res.bind_ok,
    fit_ok hfit (by omega) (by omega), Res.bind_ok, fit_ok hfit (by omega) (by omega), Res.bind_ok,
    fit_ok hfit (by omega) (by omega), Res.bind_ok, fit_ok hfit (by omega) (by omega), Res.bind_ok]
  obtain ⟨l1, l2⟩ := monthLoop_checked hfit daysInMonth (by decide) rd3 0 y3 (by omega)
  rw [l1]
  show Res.bind _ _ = Res.bind _ _
  revert l2
  cases Time.monthLoopZ daysInMonth rd3 0 with
  | panic => intro _; rfl
  | ok p =>
    obtain ⟨month, rd4⟩ := p
    intro l2
    obtain ⟨n1, n2, n3⟩ := l2 _ _ rfl
    have hlen : daysInMonth.length = 12 := rfl
    simp only [Res.bind_ok']
    rw [fit_ok hfit (by omega) (by omega), Res.bind_ok, fit_ok hfit (by omega) (by omega), Res.bind_ok]
    have hm : Time.carry fit ((month : Int) + 2) (y + 4 * q + 100 * c + 400 * qc + 100) =
        .ok (if (month : Int) + 2 ≥ 12 then ((month : Int) + 2 - 12, y + 4 * q + 100 * c + 400 * qc + 100 + 1)
          else ((month : Int) + 2, y + 4 * q + 100 * c + 400 * qc + 100)) := by
      unfold Time.carry
      split
      · rw [fit_ok hfit (by omega) (by omega), Res.bind_ok, fit_ok hfit (by omega) (by omega), Res.bind_ok]
      · rfl
    have hb : ∀ m f, (if (month : Int) + 2 ≥ 12 then ((month : Int) + 2 - 12, y + 4 * q + 100 * c + 400 * qc + 100 + 1)
          else ((month : Int) + 2, y + 4 * q + 100 * c + 400 * qc + 100)) = (m, f) →
        f ≤ 1000000000000000000 ∧ -1000000000000000000 ≤ f := by
      intro m f h
      split at h <;> (injection h; omega)
    rw [hm, Res.bind_ok]
    revert hb
    generalize (if (month : Int) + 2 ≥ 12 then ((month : Int) + 2 - 12, y + 4 * q + 100 * c + 400 * qc + 100 + 1)
          else ((month : Int) + 2, y + 4 * q + 100 * c + 400 * qc + 100)) = p
    obtain ⟨m, f⟩ := p
    intro hb
    obtain ⟨b1, b2⟩ := hb _ _ rfl
    simp only []
    rw [fit_ok hfit (by omega) (by omega), Res.bind_ok, fit_ok hfit (by omega) (by omega), Res.bind_ok]

end

theorem dateHeader_spec (clock : Int) (h0 : 0 ≤ clock) (h1 : clock ≤ i64Max) :
    ∃ c : Civil, c.Valid ∧ c.instant = clock ∧ ∃ w mon,
      dayNames[c.weekday.toNat]? = some w ∧ months[c.month]? = some mon ∧
      dateHeader clock = .ok (some (w ++ c!", " ++ two c.day ++ c!" " ++ mon ++ c!" " ++
        showInt c.year ++ c!" " ++ two c.hour ++ c!":" ++ two c.min ++ c!":" ++ two c.sec ++
        c!" GMT")) := by
  obtain ⟨t, ht, hm, hv, hi, hw⟩ := time_spec clock
  have hl : leapoch = 951868800 := by decide
  have hmax : (i64Max : Int) = 9223372036854775807 := by decide
  rw [← time_checked i64_fits clock (by omega) (by omega)] at ht
  change Time.time clock = .ok t at ht
  obtain ⟨w, mon, hw', hmon, hf⟩ := format_spec t hm hv hw
  refine ⟨t.civil, hv, hi, w, mon, hw', hmon, ?_⟩
  unfold dateHeader Time.now
  rw [if_neg (by omega), if_neg (by omega), ht]
  simp only [Res.bind_ok']
  rw [hf]; rfl

theorem split_at_space {a b x y : Str} (ha : ' ' ∉ a) (hb : ' ' ∉ b)
    (h : a ++ ' ' :: x = b ++ ' ' :: y) : a = b ∧ x = y := by
  induction a generalizing b with
  | nil =>
    cases b with
    | nil => simpa using h
    | cons d b => simp at h hb; exact absurd h.1 hb.1
  | cons d a ih =>
    cases b with
    | nil => simp at h ha; exact absurd h.1.symm ha.1
    | cons e b =>
      simp at h ha hb
      obtain ⟨rfl, rfl⟩ := ih ha.2 hb.2 h.2
      exact ⟨by rw [h.1], rfl⟩

theorem dec_no_space {k : Nat} {ds : Str} {n : Int} (h : IsDecimal k ds n) : ' ' ∉ ds := by
  intro hc
  have := (h.2.1 _ hc).1
  revert this; decide

theorem dec_val {k k' : Nat} {ds : Str} {n n' : Int} (h : IsDecimal k ds n)
    (h' : IsDecimal k' ds n') : n = n' := by rw [h.2.2, h'.2.2]

/-- a date text is read in only one way -/
theorem Spec.DateText.unique {names : List Str} (hn : names.Nodup) (hsp : ∀ n ∈ names, ' ' ∉ n)
    {k k' : Nat} {c c' : Civil} {s : Str} (h : DateText names k c s) (h' : DateText names k' c' s) :
    c = c' := by
  obtain ⟨w, mon, dd, yy, hh, mm, ss, hw, hmon, hdd, hyy, hhh, hmm, hss, rfl⟩ := h
  obtain ⟨w', mon', dd', yy', hh', mm', ss', hw', hmon', hdd', hyy', hhh', hmm', hss', he⟩ := h'
  have hlen : ∀ w ∈ dayNames, w.length = 3 := by decide
  have hlw := hlen w (List.mem_of_getElem? hw)
  have hlw' := hlen w' (List.mem_of_getElem? hw')
  simp only [List.append_assoc] at he
  obtain ⟨r, he1⟩ := List.append_inj he (by omega)
  subst r; clear he
  replace he1 := List.append_cancel_left he1
  obtain ⟨r, he2⟩ := List.append_inj he1 (by rw [hdd.1, hdd'.1])
  subst r; clear he1
  replace he2 := List.append_cancel_left he2
  obtain ⟨r, he3⟩ := split_at_space (hsp _ (List.mem_of_getElem? hmon))
    (hsp _ (List.mem_of_getElem? hmon')) (by simpa using he2)
  subst r; clear he2
  obtain ⟨r, he4⟩ := split_at_space (dec_no_space hyy) (dec_no_space hyy') (by simpa using he3)
  subst r; clear he3
  obtain ⟨r, he5⟩ := List.append_inj he4 (by rw [hhh.1, hhh'.1])
  subst r; clear he4
  replace he5 := (List.cons.inj he5).2
  obtain ⟨r, he6⟩ := List.append_inj he5 (by rw [hmm.1, hmm'.1])
  subst r; clear he5
  replace he6 := (List.cons.inj he6).2
  obtain ⟨r, -⟩ := List.append_inj he6 (by rw [hss.1, hss'.1])
  subst r; clear he6
  have hmo : c.month = c'.month := by
    obtain ⟨hl, e⟩ := List.getElem?_eq_some_iff.1 hmon
    obtain ⟨hl', e'⟩ := List.getElem?_eq_some_iff.1 hmon'
    have hp := List.pairwise_iff_getElem.1 hn
    rcases Nat.lt_trichotomy c.month c'.month with hlt | heq | hlt
    · exact absurd (e.trans e'.symm) (hp _ _ hl hl' hlt)
    · exact heq
    · exact absurd (e'.trans e.symm) (hp _ _ hl' hl hlt)
  have h1 := dec_val hdd hdd'
  have h2 := dec_val hyy hyy'
  have h3 := dec_val hhh hhh'
  have h4 := dec_val hmm hmm'
  have h5 := dec_val hss hss'
  cases c; cases c'
  simp only [Civil.mk.injEq] at *
  exact ⟨h2, hmo, h1, h3, h4, h5⟩

end Octane
