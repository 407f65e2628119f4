import Verif.Model.Basic
/-
Specification of the proleptic Gregorian calendar. Independent of the model.
Division and remainder on `Int` are the flooring ones (for positive divisors).
-/
namespace Octane.Spec

def isLeap (y : Int) : Bool := (y % 4 == 0 && y % 100 != 0) || y % 400 == 0

def yearLength (y : Int) : Int := if isLeap y then 366 else 365

/-- length of month `m` (0 is January) -/
def monthLength (y : Int) (m : Nat) : Int :=
  match m with
  | 1 => if isLeap y then 29 else 28
  | 3 | 5 | 8 | 10 => 30
  | _ => 31

/-- number of the first day of the year, with 1 January 1970 being day 0: years after 1970 are
counted forwards, earlier ones backwards -/
def yearStart (y : Int) : Int :=
  if 1970 ≤ y then ((List.range (y - 1970).toNat).map fun k : Nat => yearLength (1970 + (k : Int))).sum
  else -((List.range (1970 - y).toNat).map fun k : Nat => yearLength (1969 - (k : Int))).sum

/-- number of days of the year before the month -/
def monthStart (y : Int) (m : Nat) : Int := ((List.range m).map (monthLength y)).sum

/-- a civil date and time of day -/
structure Civil where
  year : Int
  month : Nat -- 0 is January
  day : Int   -- 1 is the first
  hour : Int
  min : Int
  sec : Int
  deriving DecidableEq

/-- the date exists in the calendar -/
def Civil.Valid (c : Civil) : Prop :=
  c.month < 12 ∧ 1 ≤ c.day ∧ c.day ≤ monthLength c.year c.month ∧
    0 ≤ c.hour ∧ c.hour < 24 ∧ 0 ≤ c.min ∧ c.min < 60 ∧ 0 ≤ c.sec ∧ c.sec < 60

def Civil.dayNumber (c : Civil) : Int := yearStart c.year + monthStart c.year c.month + (c.day - 1)

/-- seconds since 1 January 1970, 00:00:00 -/
def Civil.instant (c : Civil) : Int := 86400 * c.dayNumber + 3600 * c.hour + 60 * c.min + c.sec

/-- day of the week (0 is Sunday); 1 January 1970 was a Thursday -/
def Civil.weekday (c : Civil) : Int := (c.dayNumber + 4) % 7

def dayNames : List Str := [c!"Sun", c!"Mon", c!"Tue", c!"Wed", c!"Thu", c!"Fri", c!"Sat"]

/-- RFC 7231 month names -/
def monthNames : List Str :=
  [c!"Jan", c!"Feb", c!"Mar", c!"Apr", c!"May", c!"Jun", c!"Jul", c!"Aug", c!"Sep", c!"Oct",
   c!"Nov", c!"Dec"]

/-- `ds` are exactly `k` decimal digits denoting `n` -/
def IsDecimal (k : Nat) (ds : Str) (n : Int) : Prop :=
  ds.length = k ∧ (∀ c ∈ ds, '0' ≤ c ∧ c ≤ '9') ∧
    n = (ds.foldl (fun a c => 10 * a + (c.toNat - 48)) 0 : Nat)

/-- `s` is `Www, DD Mon Y.. HH:MM:SS GMT` for the civil time, with a year of `k` digits and the given
month names -/
def DateText (names : List Str) (k : Nat) (c : Civil) (s : Str) : Prop :=
  ∃ w mon dd yyyy hh mm ss,
    dayNames[c.weekday.toNat]? = some w ∧ names[c.month]? = some mon ∧
    IsDecimal 2 dd c.day ∧ IsDecimal k yyyy c.year ∧ IsDecimal 2 hh c.hour ∧
    IsDecimal 2 mm c.min ∧ IsDecimal 2 ss c.sec ∧
    s = w ++ c!", " ++ dd ++ c!" " ++ mon ++ c!" " ++ yyyy ++ c!" " ++ hh ++ c!":" ++ mm ++ c!":" ++
      ss ++ c!" GMT"

/-- `s` is the RFC 7231 IMF-fixdate of the civil time: `Www, DD Mon YYYY HH:MM:SS GMT` -/
def IMFFixdate (c : Civil) (s : Str) : Prop := DateText monthNames 4 c s

/-- the month names with September as `Sept` -/
def octaneMonthNames : List Str :=
  [c!"Jan", c!"Feb", c!"Mar", c!"Apr", c!"May", c!"Jun", c!"Jul", c!"Aug", c!"Sept", c!"Oct",
   c!"Nov", c!"Dec"]

/-- A way of computing with `i64` that is right whenever the result fits, whatever it does otherwise. -/
def Fits (fit : Int → Res Int) : Prop :=
  ∀ n : Int, -9223372036854775808 ≤ n → n ≤ 9223372036854775807 → fit n = .ok n

end Octane.Spec
