import Verif.Py.Basic

/-
The proleptic Gregorian calendar of Python's `datetime`
(/app/python311/lib/python3.11/datetime.py:33-148), used by every `datetime` in /repo/src/ics.
-/
namespace Ics

/-- `_is_leap` (datetime.py:42-44 of CPython; used by /repo/src/ics/valuetype/datetime.py:88). -/
def isLeap (y : Nat) : Bool := y % 4 = 0 && (y % 100 ≠ 0 || y % 400 = 0)

/-- `_days_before_year` (datetime.py:46-49 of CPython; used as `isLeap`,
/repo/src/ics/valuetype/datetime.py:88). -/
def daysBeforeYear (year : Nat) : Nat :=
  let y := year - 1
  y * 365 + y / 4 - y / 100 + y / 400

/-- `_DAYS_IN_MONTH` (datetime.py:33 of CPython; used as `isLeap`,
/repo/src/ics/valuetype/datetime.py:88). -/
def daysInMonthTable : List Nat := [0, 31, 28, 31, 30, 31, 30, 31, 31, 30, 31, 30, 31]

/-- `_DAYS_BEFORE_MONTH` (datetime.py:35-40 of CPython; used as `isLeap`,
/repo/src/ics/valuetype/datetime.py:88). -/
def daysBeforeMonthTable : List Nat := [0, 0, 31, 59, 90, 120, 151, 181, 212, 243, 273, 304, 334]

/-- `_days_in_month` (datetime.py:51-56 of CPython; used as `isLeap`,
/repo/src/ics/valuetype/datetime.py:88). -/
def daysInMonth (leap : Bool) (m : Nat) : Nat :=
  if m = 2 ∧ leap then 29 else daysInMonthTable.getD m 0

/-- `_days_before_month` (datetime.py:58-61 of CPython; used as `isLeap`,
/repo/src/ics/valuetype/datetime.py:88). -/
def daysBeforeMonth (leap : Bool) (m : Nat) : Nat :=
  daysBeforeMonthTable.getD m 0 + (if m > 2 ∧ leap then 1 else 0)

/-- `_ymd2ord` (datetime.py:63-70 of CPython; used as `isLeap`,
/repo/src/ics/valuetype/datetime.py:88). -/
def ymd2ord (y m d : Nat) : Nat := daysBeforeYear y + daysBeforeMonth (isLeap y) m + d

/-- The search for the month in `_ord2ymd` (datetime.py:134-148 of CPython): month and day of the
`n`-th day of a year, counted from 0; used by `strftime`, /repo/src/ics/valuetype/datetime.py:45, 53. -/
def dayOfYear (leap : Bool) (n : Nat) : Nat × Nat :=
  let month := (n + 50) / 32
  let preceding := daysBeforeMonth leap month
  if n < preceding then
    let month := month - 1
    let preceding := preceding - daysInMonth leap month
    (month, n - preceding + 1)
  else (month, n - preceding + 1)

/-- `_ord2ymd` (datetime.py:88-148 of CPython; used by `strftime`,
/repo/src/ics/valuetype/datetime.py:45, 53). -/
def ord2ymd (n : Nat) : Nat × Nat × Nat :=
  let n := n - 1
  let n400 := n / 146097
  let n := n % 146097
  let n100 := n / 36524
  let n := n % 36524
  let n4 := n / 1461
  let n := n % 1461
  let n1 := n / 365
  let n := n % 365
  let year := n400 * 400 + 1 + (n100 * 100 + n4 * 4 + n1)
  if n1 = 4 ∨ n100 = 4 then (year - 1, 12, 31)
  else
    let leap := n1 = 3 && (n4 ≠ 24 || n100 = 3)
    (year, dayOfYear leap n)

end Ics
