import Verif.Py.Number

/-
`DurationConverter` and `UTCOffsetConverter`, /repo/src/ics/valuetype/datetime.py:230-370.
A `timedelta` is its number of microseconds.
-/
namespace Ics

/-- The `while` loop of `DurationConverter.parse` (/repo/src/ics/valuetype/datetime.py:318-337) on
`value[i:]`; the first argument bounds the number of iterations, `DAYS` and `SECS` are the
dictionaries with the units not used so far. -/
def durationLoop : Nat → Str → List (Char × Int) → List (Char × Int) → Int → Int →
    Except PyErr (Int × Int)
  | _, [], _, _, days, secs => .ok (days, secs)
  | 0, _ :: _, _, _, _, _ => .error .outOfFuel
  | n + 1, c :: rest, DAYS, SECS, days, secs =>
    if c = 'T' ∧ rest = [] then .ok (days, secs)
    else
      let s := if c = 'T' then rest else c :: rest
      match s.dropWhile isDigit with
      | [] => .error .indexError
      | u :: rest' =>
        if s.takeWhile isDigit = [] then .error .valueError
        else
          match intOfDigits (s.takeWhile isDigit) with
          | .error e => .error e
          | .ok val =>
            match dictGet? DAYS u with
            | some k => durationLoop n rest' (dictErase DAYS u) SECS (days + val * k) secs
            | none =>
              match dictGet? SECS u with
              | some k => durationLoop n rest' DAYS (dictErase SECS u) days (secs + val * k)
              | none => .error .valueError

/-- `DurationConverter.parse` after the sign has been read
(/repo/src/ics/valuetype/datetime.py:314-338). -/
def durationBody (sign : Int) (s : Str) : Except PyErr Int :=
  match s with
  | [] => .error .indexError
  | c :: s =>
    if c = 'P' then
      match durationLoop s.length s [('D', 1), ('W', 7)] [('S', 1), ('M', 60), ('H', 3600)] 0 0 with
      | .error e => .error e
      | .ok (days, secs) => mkTimedelta (sign * days * 86400000000 + sign * secs * 1000000)
    else .error .valueError

/-- `DurationConverter.parse` (/repo/src/ics/valuetype/datetime.py:300-338). -/
def durationParse (value : Str) : Except PyErr Int :=
  match value with
  | [] => .error .indexError
  | c :: s =>
    if c = '-' then durationBody (-1) s
    else if c = '+' then durationBody 1 s
    else durationBody 1 (c :: s)

/-- The components after the `T` (/repo/src/ics/valuetype/datetime.py:354-363), for
`0 ≤ seconds < 86400`. -/
def durationTime (seconds : Nat) : Str :=
  if seconds = 0 then []
  else
    let h := if seconds / 3600 ≠ 0 then natStr (seconds / 3600) ++ ['H'] else []
    let seconds := if seconds / 3600 ≠ 0 then seconds % 3600 else seconds
    let m := if seconds / 60 ≠ 0 then natStr (seconds / 60) ++ ['M'] else []
    let seconds := if seconds / 60 ≠ 0 then seconds % 60 else seconds
    let s := if seconds ≠ 0 then natStr seconds ++ ['S'] else []
    'T' :: (h ++ m ++ s)

/-- `DurationConverter.serialize` (/repo/src/ics/valuetype/datetime.py:340-370).
Simplified: `total_seconds()` is taken as the exact quotient, not as the nearest double (this makes a
difference only for durations over 272 years with a fraction of a second). -/
def durationSerialize (us : Int) : Str :=
  let total := us.natAbs / 1000000
  let days := total / 86400
  let res := (if days ≠ 0 then natStr days ++ ['D'] else []) ++ durationTime (total % 86400)
  let res := if res = [] then "T0S".toList else res
  if 0 ≤ us then 'P' :: res else '-' :: 'P' :: res

/-- The digits matched by `[0-9]{2}` (/repo/src/ics/valuetype/datetime.py:246). -/
def twoDigits (a b : Char) : Option Int :=
  if isDigit a ∧ isDigit b then some (Nat.ofDigitChars 10 [a, b] 0 : Nat) else none

/-- The part of `UTCOffsetConverter.parse` after the sign
(/repo/src/ics/valuetype/datetime.py:245-253). -/
def utcOffsetBody (s : Str) : Except PyErr Int :=
  match s with
  | [a, b, c, d] =>
    match twoDigits a b, twoDigits c d with
    | some h, some m => .ok (h * 3600000000 + m * 60000000)
    | _, _ => .error .valueError
  | [a, b, c, d, e, f] =>
    match twoDigits a b, twoDigits c d, twoDigits e f with
    | some h, some m, some s => .ok (h * 3600000000 + m * 60000000 + s * 1000000)
    | _, _, _ => .error .valueError
  | _ => .error .valueError

/-- `UTCOffsetConverter.parse` (/repo/src/ics/valuetype/datetime.py:239-257). -/
def utcOffsetParse (value : Str) : Except PyErr Int :=
  match value with
  | [] => .error .valueError
  | c :: s =>
    if c = '-' then
      match utcOffsetBody s with
      | .ok td => .ok (-td)
      | .error e => .error e
    else if c = '+' then utcOffsetBody s
    else utcOffsetBody (c :: s)

/-- `UTCOffsetConverter.serialize` (/repo/src/ics/valuetype/datetime.py:259-285).  `seconds` is a
float there, here it is the exact number of microseconds; `%02d` cuts off the fraction. -/
def utcOffsetSerialize (us : Int) : Str :=
  let sign := if us < 0 then '-' else '+'
  let t := us.natAbs
  let hours := t / 3600000000
  let t := t % 3600000000
  let minutes := t / 60000000
  let t := t % 60000000
  let sec := if t ≠ 0 then pad2 (t / 1000000) else []
  sign :: (pad2 hours ++ pad2 minutes ++ sec)

end Ics
