import Verif.Spec.Duration

/-
Which texts are read as durations, UTC offsets and date-times.  Nothing in here refers to the parsers.
-/
namespace Ics

/-- The length of a unit in seconds. -/
def unitSeconds (u : Char) : Nat :=
  if u = 'W' then 604800 else if u = 'D' then 86400 else if u = 'H' then 3600 else if u = 'M' then 60 else 1

/-- `DurParts U s v`: the text `s` is a sequence of numbers with units, in any order, each unit of `U` at most once,
each possibly after a `T`, and possibly one `T` at the end; it stands for `v` seconds. -/
inductive DurParts : List Char → Str → Nat → Prop
  | nil {U : List Char} : DurParts U [] 0
  | trailing {U : List Char} : DurParts U ['T'] 0
  | part {U : List Char} {ds rest : Str} {n v : Nat} {u : Char} (b : Bool) : Digits ds n → ds.length ≤ 4300 → u ∈ U →
      DurParts (U.erase u) rest v →
      DurParts U ((if b then ['T'] else []) ++ (ds ++ u :: rest)) (n * unitSeconds u + v)

/-- A text that is read as a duration of `v` seconds. -/
inductive LooseDuration : Str → Int → Prop
  | pos {t : Str} {v : Nat} : DurParts ['W', 'D', 'H', 'M', 'S'] t v → LooseDuration ('P' :: t) v
  | plus {t : Str} {v : Nat} : DurParts ['W', 'D', 'H', 'M', 'S'] t v → LooseDuration ('+' :: 'P' :: t) v
  | neg {t : Str} {v : Nat} : DurParts ['W', 'D', 'H', 'M', 'S'] t v → LooseDuration ('-' :: 'P' :: t) (-(v : Int))

/-- The digit. -/
def digit (n : Nat) : Char := Char.ofNat (48 + n)

/-- A number below 100 with two digits. -/
def two (n : Nat) : Str := [digit (n / 10), digit (n % 10)]

/-- A number below 10000 with four digits. -/
def four (n : Nat) : Str := two (n / 100) ++ two (n % 100)

/-- A UTC offset without its sign, in seconds: two digits each for hours, minutes and possibly seconds. -/
inductive OffsetBody : Str → Nat → Prop
  | hm {h m : Nat} : h < 100 → m < 100 → OffsetBody (two h ++ two m) (h * 3600 + m * 60)
  | hms {h m s : Nat} : h < 100 → m < 100 → s < 100 → OffsetBody (two h ++ two m ++ two s) (h * 3600 + m * 60 + s)

/-- A text that is read as a UTC offset of `v` seconds. -/
inductive OffsetText : Str → Int → Prop
  | bare {t : Str} {v : Nat} : OffsetBody t v → OffsetText t v
  | plus {t : Str} {v : Nat} : OffsetBody t v → OffsetText ('+' :: t) v
  | minus {t : Str} {v : Nat} : OffsetBody t v → OffsetText ('-' :: t) (-(v : Int))

/-- The day of the month: two digits, or a space and a digit. -/
inductive DayText : Str → Nat → Prop
  | digits {d : Nat} : d < 100 → DayText (two d) d
  | space {d : Nat} : d < 10 → DayText [' ', digit d] d

/-- `TimeText s h m sec`: hours, hours and minutes, or hours, minutes and seconds, with two digits each. -/
inductive TimeText : Str → Nat → Nat → Nat → Prop
  | h {h : Nat} : h < 24 → TimeText (two h) h 0 0
  | hm {h m : Nat} : h < 24 → m < 60 → TimeText (two h ++ two m) h m 0
  | hms {h m s : Nat} : h < 24 → m < 60 → s < 60 → TimeText (two h ++ two m ++ two s) h m s

/-- A leap year. -/
def Leap (y : Nat) : Prop := y % 4 = 0 ∧ (y % 100 = 0 → y % 400 = 0)

instance : DecidablePred Leap := fun y => inferInstanceAs (Decidable (y % 4 = 0 ∧ (y % 100 = 0 → y % 400 = 0)))

/-- The number of days of a month. -/
def monthLength (y m : Nat) : Nat :=
  if m = 2 then (if Leap y then 29 else 28) else if m ∈ [4, 6, 9, 11] then 30 else 31

/-- The number of days of a year. -/
def yearLength (y : Nat) : Nat := if Leap y then 366 else 365

/-- Is there such a day in the years from 1 to 9999? -/
def DayExists (y m d : Nat) : Prop :=
  1 ≤ y ∧ y ≤ 9999 ∧ 1 ≤ m ∧ m ≤ 12 ∧ 1 ≤ d ∧ d ≤ monthLength y m

/-- The number of days since the first day of year 1: the lengths of the years before, the months before and the days
before. -/
def daysSince (y m d : Nat) : Nat :=
  ((List.range (y - 1)).map fun i => yearLength (i + 1)).sum +
    ((List.range (m - 1)).map fun i => monthLength y (i + 1)).sum + (d - 1)

/-- A wall clock: microseconds since the beginning of year 1. -/
def clock (y m d h n s : Nat) : Int := ((daysSince y m d * 86400 + h * 3600 + n * 60 + s : Nat) : Int) * 1000000

/-- `DateTimeText s y m d h n sec`: year and month, possibly with the day, possibly with `T` and a time.  The day is 1 and
the time is midnight if not given. -/
inductive DateTimeText : Str → Nat → Nat → Nat → Nat → Nat → Nat → Prop
  | month {y m : Nat} : DayExists y m 1 → DateTimeText (four y ++ two m) y m 1 0 0 0
  | day {y m d : Nat} {ds : Str} : DayExists y m d → DayText ds d → DateTimeText (four y ++ two m ++ ds) y m d 0 0 0
  | time {y m d h n s : Nat} {ds t : Str} {c : Char} : DayExists y m d → DayText ds d → c = 'T' ∨ c = 't' →
      TimeText t h n s → DateTimeText (four y ++ two m ++ ds ++ c :: t) y m d h n s

/-- A text without slashes, hyphens and `Z`s. -/
def stripped (s : Str) : Str := s.filter fun c => c ∉ ['/', '-', 'Z', 'z']

/-- Does a text end in `Z`? -/
def EndsInZ (s : Str) : Prop := s.getLast? = some 'Z' ∨ s.getLast? = some 'z'

instance : DecidablePred EndsInZ :=
  fun s => inferInstanceAs (Decidable (s.getLast? = some 'Z' ∨ s.getLast? = some 'z'))

end Ics
