import Verif.Py.Basic

/-
Python's `int` ↔ `str` conversions and `datetime.timedelta`.
-/
namespace Ics

/-- `str.isdigit` for one character, ASCII only (simplified: Python also says yes to non-ASCII
digits, on which `int` then either works or raises `ValueError`;
/repo/src/ics/valuetype/datetime.py:324). -/
def isDigit (c : Char) : Bool := decide ('0' ≤ c ∧ c ≤ '9')

/-- CPython's limit on the number of digits in `int` ↔ `str` conversions
(`sys.int_info.default_max_str_digits`, used by every `int(...)` and `str(...)` in
/repo/src/ics/valuetype). -/
def maxStrDigits : Nat := 4300

/-- `str(n)` for `n ≥ 0` within the digit limit (/repo/src/ics/valuetype/datetime.py:353-363). -/
def natStr (n : Nat) : Str := Nat.toDigits 10 n

/-- `int(s)` for a string of ASCII digits (/repo/src/ics/valuetype/datetime.py:328, 253). -/
def intOfDigits (s : Str) : Except PyErr Int :=
  if s = [] ∨ maxStrDigits < s.length then .error .valueError
  else .ok (Nat.ofDigitChars 10 s 0 : Nat)

/-- `"%02d" % n` for `n ≥ 0` (/repo/src/ics/valuetype/datetime.py:274-283). -/
def pad2 (n : Nat) : Str := if n < 10 then '0' :: natStr n else natStr n

/-- The smallest `datetime.timedelta`, in microseconds (`timedelta.min`; every `timedelta` in
/repo/src/ics is at least this). -/
def tdMin : Int := -999999999 * 86400000000

/-- The largest `datetime.timedelta`, in microseconds (`timedelta.max`). Used as `tdMin`, see
/repo/src/ics/valuetype/datetime.py:338. -/
def tdMax : Int := 999999999 * 86400000000 + 86399999999

/-- Construction of a `datetime.timedelta` from its total number of microseconds
(/repo/src/ics/valuetype/datetime.py:338, 253): `OverflowError` outside of the range. -/
def mkTimedelta (us : Int) : Except PyErr Int :=
  if tdMin ≤ us ∧ us ≤ tdMax then .ok us else .error .overflowError

end Ics
