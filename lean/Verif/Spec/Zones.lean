import Verif.Spec.Timespan

/-
Time zones: what a consistent zone is, and a small environment with a DST zone for examples and
counterexamples.
-/
namespace Ics

/-- `fromutc` and `utcoffset` of a zone fit together. -/
def Env.Lawful (e : Env) (z : Tz) : Prop :=
  ∀ u : Int, (e.tzFromUtc z u).1 - e.tzOff z (e.tzFromUtc z u).1 (e.tzFromUtc z u).2 = u

/-- A zone with a constant offset. -/
def Env.Constant (e : Env) (z : Tz) (o : Int) : Prop :=
  (∀ w f, e.tzOff z w f = o) ∧ ∀ u, (e.tzFromUtc z u).1 = u + o

/-- `n` hours in microseconds. -/
def hours (n : Int) : Int := n * 3600000000

/-- Midnight of day `n` (0 is 0001-01-01; 737512 is 2020-03-29, 737722 is 2020-10-25). -/
def dayNo (n : Int) : Int := n * 86400000000

/-- Offset of a zone like Europe/Berlin in 2020: one hour, and two hours from 2020-03-29 01:00 UTC to
2020-10-25 01:00 UTC. -/
def berlinOff (w : Int) (f : Bool) : Int :=
  if w < dayNo 737512 + hours 2 then hours 1
  else if w < dayNo 737512 + hours 3 then (if f then hours 2 else hours 1)
  else if w < dayNo 737722 + hours 2 then hours 2
  else if w < dayNo 737722 + hours 3 then (if f then hours 1 else hours 2)
  else hours 1

/-- The wall clock in that zone. -/
def berlinFromUtc (u : Int) : Int × Bool :=
  if u < dayNo 737512 + hours 1 then (u + hours 1, false)
  else if u < dayNo 737722 + hours 1 then (u + hours 2, false)
  else if u < dayNo 737722 + hours 2 then (u + hours 1, true)
  else (u + hours 1, false)

/-- Zone 0 is UTC, all other zones behave like Europe/Berlin in 2020; local time is UTC. -/
def dstEnv : Env where
  off n w f := if n = 0 then 0 else berlinOff w f
  fromUtc n u := if n = 0 then (u, false) else berlinFromUtc u
  locOff _ _ := 0
  locFromUtc u := (u, false)
  sysOff _ _ := 0
  sysUtcOff _ := 0
  isUtc n := n = 0

theorem berlin_lawful (u : Int) :
    (berlinFromUtc u).1 - berlinOff (berlinFromUtc u).1 (berlinFromUtc u).2 = u := by
  have h : ∀ x : Int × Bool, berlinFromUtc u = x → x.1 - berlinOff x.1 x.2 = u := by
    intro x hx
    unfold berlinFromUtc dayNo hours at hx
    unfold berlinOff dayNo hours
    split at hx
    · subst hx; dsimp only; repeat' split
      all_goals first | omega | simp_all
    · split at hx
      · subst hx; dsimp only; repeat' split
        all_goals first | omega | simp_all
      · split at hx
        · subst hx; dsimp only; repeat' split
          all_goals first | omega | simp_all
        · subst hx; dsimp only; repeat' split
          all_goals first | omega | simp_all
  exact h _ rfl

theorem dstEnv_lawful (z : Tz) : dstEnv.Lawful z := by
  intro u
  cases z with
  | loc k => simp [Env.tzFromUtc, Env.tzOff, dstEnv]
  | fixed o => simp only [Env.tzFromUtc, Env.tzOff]; omega
  | zone n =>
    by_cases h : n = 0
    · subst h; simp [Env.tzFromUtc, Env.tzOff, dstEnv]
    · simp only [Env.tzFromUtc, Env.tzOff, dstEnv, h, if_false]
      exact berlin_lawful u

/-- A wall clock at midnight. -/
def Midnight (w : Int) : Prop := ∃ q : Int, w = q * (24 * 60 * 60 * 1000000)

/-- The latest midnight not after `w`. -/
def LatestMidnight (w m : Int) : Prop := Midnight m ∧ m ≤ w ∧ ∀ m', Midnight m' → m' ≤ w → m' ≤ m

/-- The earliest midnight not before `w`. -/
def EarliestMidnight (w m : Int) : Prop := Midnight m ∧ w ≤ m ∧ ∀ m', Midnight m' → w ≤ m' → m ≤ m'

end Ics
