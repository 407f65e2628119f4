import Verif.Model.Basic
/-
Model of `src/time.rs` and of the calendar constants of `src/constants.rs`.
-/
namespace Octane

/-- `src/constants.rs:11` `WEEKS`. -/
def weeks : List Str := [c!"Sun", c!"Mon", c!"Tue", c!"Wed", c!"Thu", c!"Fri", c!"Sat"]

/-- `src/constants.rs:12-14` `MONTHS`. -/
def months : List Str :=
  [c!"Jan", c!"Feb", c!"Mar", c!"Apr", c!"May", c!"Jun", c!"Jul", c!"Aug", c!"Sept", c!"Oct",
   c!"Nov", c!"Dec"]

/-- `src/constants.rs:17-21`. -/
def leapoch : Int := 946684800 + 86400 * (31 + 29)
def daysPer400Y : Int := 365 * 400 + 97
def daysPer100Y : Int := 365 * 100 + 24
def daysPer4Y : Int := 365 * 4 + 1
def daysInMonth : List Int := [31, 30, 31, 30, 31, 31, 30, 31, 30, 31, 31, 29]

/-- `src/time.rs:7-15` `struct Time`. -/
structure Time where
  min : Int
  sec : Int
  hour : Int
  week : Int
  year : Int
  month : Int
  day : Int
  deriving DecidableEq

/-- The result of an arithmetic operation on `i64`: one that does not fit panics in a debug build. -/
def i64 (n : Int) : Res Int := if -(2 ^ 63) ≤ n ∧ n ≤ i64Max then .ok n else .panic

namespace Time

/-- `src/time.rs:21-26` `pad_zero`: the last two bytes of `"0"` followed by the number. -/
def padZero (n : Int) : Res Str :=
  let s := c!"0" ++ showInt n
  sliceFrom ((utf8 s).length - 2) s

/-- `src/time.rs:72-84` `week_day` and `:85-97` `month_day`: the entry whose position is the
number, if there is one (`try_into` fails for negative numbers). -/
def nth (l : List Str) (i : Int) : Option Str := if i < 0 then none else l[i.toNat]?

/-- `src/time.rs:134-137`: the loop over `DAYS_IN_MONTH`; running off the table panics. -/
def monthLoop (fit : Int → Res Int) : List Int → Int → Nat → Res (Nat × Int)
  | [], _, _ => .panic
  | m :: ms, remdays, month =>
    if m ≤ remdays then (fit (remdays - m)).bind fun remdays => monthLoop fit ms remdays (month + 1)
    else .ok (month, remdays)

/-- `src/time.rs:103-106` and `:113-116`: `if rem < 0 { rem += k; quot -= 1; }` -/
def borrow (fit : Int → Res Int) (k rem quot : Int) : Res (Int × Int) :=
  if rem < 0 then do
    let rem ← fit (rem + k)
    let quot ← fit (quot - 1)
    .ok (rem, quot)
  else .ok (rem, quot)

/-- `src/time.rs:118-120`, `:123-125` and `:128-130`: `if n == m { n -= 1; }` -/
def lower (fit : Int → Res Int) (m n : Int) : Res Int := if n = m then fit (n - 1) else .ok n

/-- `src/time.rs:108-110`: `if wday < 0 { wday += 7; }` -/
def weekUp (fit : Int → Res Int) (wday : Int) : Res Int := if wday < 0 then fit (wday + 7) else .ok wday

/-- `src/time.rs:140-143`: `if final_mon >= 12 { final_mon -= 12; final_year += 1; }` -/
def carry (fit : Int → Res Int) (finalMon finalYear : Int) : Res (Int × Int) :=
  if finalMon ≥ 12 then do
    let finalMon ← fit (finalMon - 12)
    let finalYear ← fit (finalYear + 1)
    .ok (finalMon, finalYear)
  else .ok (finalMon, finalYear)

/-- `src/time.rs:99-153` `Time::time`, given what becomes of the result of an addition, a subtraction or
a multiplication. Rust's `/` and `%` truncate (`Int.tdiv`, `Int.tmod`); by the positive constants here
they cannot overflow. -/
def timeWith (fit : Int → Res Int) (stamp : Int) : Res Time := do
  let secs ← fit (stamp - leapoch)
  let (remsecs, days) ← borrow fit 86400 (secs.tmod 86400) (secs.tdiv 86400)
  let days3 ← fit (days + 3)
  let wday ← weekUp fit (days3.tmod 7)
  let (remdays, qc) ← borrow fit daysPer400Y (days.tmod daysPer400Y) (days.tdiv daysPer400Y)
  let c ← lower fit 4 (remdays.tdiv daysPer100Y)
  let cdays ← fit (c * daysPer100Y)
  let remdays ← fit (remdays - cdays)
  let q ← lower fit 25 (remdays.tdiv daysPer4Y)
  let qdays ← fit (q * daysPer4Y)
  let remdays ← fit (remdays - qdays)
  let remyears ← lower fit 4 (remdays.tdiv 365)
  let ydays ← fit (remyears * 365)
  let remdays ← fit (remdays - ydays)
  let qyears ← fit (4 * q)
  let years ← fit (remyears + qyears)
  let cyears ← fit (100 * c)
  let years ← fit (years + cyears)
  let qcyears ← fit (400 * qc)
  let years ← fit (years + qcyears)
  let (month, remdays) ← monthLoop fit daysInMonth remdays 0
  let finalYear ← fit (years + 100)
  let finalMon ← fit ((month : Int) + 2)
  let (finalMon, finalYear) ← carry fit finalMon finalYear
  let day ← fit (remdays + 1)
  let year ← fit (1900 + finalYear)
  .ok { min := (remsecs.tdiv 60).tmod 60
        sec := remsecs.tmod 60
        hour := remsecs.tdiv 3600
        week := wday
        day := day
        year := year
        month := finalMon }

/-- `src/time.rs:99-153` `Time::time` as a debug build computes it. (It makes no difference: C109.) -/
def time (stamp : Int) : Res Time := timeWith i64 stamp

/-- `src/time.rs:29-41` `Time::now` for a clock reading in whole seconds: a reading before 1970 is the
explicit panic, one that does not fit an `i64` gives `None`. -/
def now (clock : Int) : Res (Option Time) :=
  if clock < 0 then .panic
  else if clock > i64Max then .ok none
  else (time clock).bind fun t => .ok (some t)

/-- `src/time.rs:42-66` `Time::format`. -/
def format (t : Time) : Res Str :=
  match nth months t.month with
  | none => .ok []
  | some monthDay =>
    match nth weeks t.week with
    | none => .ok []
    | some weekDay =>
      (padZero t.day).bind fun d =>
        (padZero t.hour).bind fun h =>
          (padZero t.min).bind fun m =>
            (padZero t.sec).bind fun s =>
              let date := d ++ c!" " ++ monthDay ++ c!" " ++ showInt t.year
              let time := h ++ c!":" ++ m ++ c!":" ++ s
              .ok (weekDay ++ c!"," ++ c!" " ++ date ++ c!" " ++ time ++ c!" " ++ c!"GMT")

end Time

/-- `src/responder.rs:153-155`: the value of the `Date` header for a clock reading (`none`: no header). -/
def dateHeader (clock : Int) : Res (Option Str) :=
  (Time.now clock).bind fun
    | none => .ok none
    | some t => t.format.bind fun s => .ok (some s)

end Octane
