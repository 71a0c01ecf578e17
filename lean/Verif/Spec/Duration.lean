import Verif.Py.Basic

/-
RFC 5545 section 3.3.6, the grammar of `dur-value`, with the number of seconds it stands for.
-/
namespace Ics

/-- `1*DIGIT` and its value. -/
def Digits (s : Str) (n : Nat) : Prop :=
  s ≠ [] ∧ (∀ c ∈ s, '0' ≤ c ∧ c ≤ '9') ∧ n = s.foldl (fun a c => 10 * a + (c.toNat - 48)) 0

/-- `dur-second = 1*DIGIT "S"` -/
inductive DurSecond : Str → Nat → Prop
  | mk {s n} : Digits s n → DurSecond (s ++ ['S']) n

/-- `dur-minute = 1*DIGIT "M" [dur-second]` -/
inductive DurMinute : Str → Nat → Prop
  | alone {s n} : Digits s n → DurMinute (s ++ ['M']) (60 * n)
  | second {s n t k} : Digits s n → DurSecond t k → DurMinute (s ++ 'M' :: t) (60 * n + k)

/-- `dur-hour = 1*DIGIT "H" [dur-minute]` -/
inductive DurHour : Str → Nat → Prop
  | alone {s n} : Digits s n → DurHour (s ++ ['H']) (3600 * n)
  | minute {s n t k} : Digits s n → DurMinute t k → DurHour (s ++ 'H' :: t) (3600 * n + k)

/-- `dur-time = "T" (dur-hour / dur-minute / dur-second)` -/
inductive DurTime : Str → Nat → Prop
  | hour {t k} : DurHour t k → DurTime ('T' :: t) k
  | minute {t k} : DurMinute t k → DurTime ('T' :: t) k
  | second {t k} : DurSecond t k → DurTime ('T' :: t) k

/-- `dur-date / dur-time / dur-week`, where `dur-date = dur-day [dur-time]`,
`dur-day = 1*DIGIT "D"` and `dur-week = 1*DIGIT "W"` -/
inductive DurBody : Str → Nat → Prop
  | day {s n} : Digits s n → DurBody (s ++ ['D']) (86400 * n)
  | dayTime {s n t k} : Digits s n → DurTime t k → DurBody (s ++ 'D' :: t) (86400 * n + k)
  | time {t k} : DurTime t k → DurBody t k
  | week {s n} : Digits s n → DurBody (s ++ ['W']) (604800 * n)

/-- `dur-value = (["+"] / "-") "P" (dur-date / dur-time / dur-week)`, with its value in seconds. -/
inductive DurValue : Str → Int → Prop
  | pos {t k} : DurBody t k → DurValue ('P' :: t) k
  | plus {t k} : DurBody t k → DurValue ('+' :: 'P' :: t) k
  | neg {t k} : DurBody t k → DurValue ('-' :: 'P' :: t) (-(k : Int))

end Ics
