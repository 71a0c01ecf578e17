import Verif.Py.Datetime
import Verif.Model.Timespan

/-
What a well-formed time span is, written down without the code of `validate`.
-/
namespace Ics

/-- The wall clock lies between 0001-01-01 and 9999-12-31, as for every `datetime` object. -/
def DT.InRange (d : DT) : Prop := 0 ≤ d.wall ∧ d.wall < maxWall

/-- All `datetime`s of a span are possible `datetime` objects. -/
def Span.InRange (s : Span) : Prop :=
  (∀ b, s.begin? = some b → b.InRange) ∧ ∀ en, s.end? = some en → en.InRange

/-- The instant a `datetime` denotes, in microseconds UTC; a naive one is local time. -/
def Env.instant (e : Env) (d : DT) : Int :=
  match d.tz with
  | some t => d.wall - e.tzOff t d.wall d.fold
  | none => d.wall - e.sysOff d.wall d.fold

/-- The offset of local time at the instant of a `datetime`: a naive one is local time itself. -/
def Env.LocalOffset (e : Env) (d : DT) (o : Int) : Prop :=
  (d.tz = none ∧ o = e.sysOff d.wall d.fold) ∨ ((∃ z, d.tz = some z) ∧ o = e.sysUtcOff (e.instant d))

/-- How much later `b` is than `a` in Python's view: by the wall clock for two naive values and for
two values with the same zone object, by the instants otherwise. -/
def Env.extent (e : Env) (a b : DT) : Int :=
  if a.tz = b.tz then b.wall - a.wall else e.instant b - e.instant a

/-- The unit of a known precision, in microseconds. -/
def Precision.Unit (p : Precision) (u : Int) : Prop :=
  (p = .day ∧ u = 24 * 60 * 60 * 1000000) ∨ (p = .second ∧ u = 1000000)

/-- `x` exceeds a multiple of the precision's unit by at most half a second. -/
def PreciseTo (p : Precision) (x : Int) : Prop :=
  ∃ u q r, p.Unit u ∧ x = q * u + r ∧ 0 ≤ r ∧ r ≤ 500000

/-- The conditions under which a span can be constructed. -/
structure WellFormed (e : Env) (s : Span) : Prop where
  /-- begin and end are both naive or both aware -/
  kinds : ∀ b en, s.begin? = some b → s.end? = some en → (b.tz = none ↔ en.tz = none)
  /-- begin is not after end -/
  order : ∀ b en, s.begin? = some b → s.end? = some en → 0 ≤ e.extent b en
  /-- end and duration are not both given -/
  notBoth : s.end? = none ∨ s.dur? = none
  /-- a duration needs a begin -/
  durBegin : s.dur? ≠ none → s.begin? ≠ none
  /-- an event's end needs a begin -/
  eventEnd : s.cls = .event → s.end? ≠ none → s.begin? ≠ none
  /-- a duration is not negative -/
  durNonneg : ∀ d, s.dur? = some d → 0 ≤ d
  /-- the times of an all-day span are naive midnights -/
  midnights : s.prec = .day → ∀ d, s.begin? = some d ∨ s.end? = some d →
    d.tz = none ∧ ∃ q : Int, d.wall = q * (24 * 60 * 60 * 1000000)
  /-- an all-day span takes at least one day -/
  oneDay : s.prec = .day → ∀ b en, s.begin? = some b → s.end? = some en →
    24 * 60 * 60 * 1000000 ≤ e.extent b en
  /-- an all-day span takes at least one day -/
  oneDayDur : s.prec = .day → ∀ d, s.dur? = some d → 24 * 60 * 60 * 1000000 ≤ d
  /-- the distance from begin to end is precise -/
  precise : ∀ b en, s.begin? = some b → s.end? = some en → e.extent b en ≠ 0 →
    PreciseTo s.prec (e.extent b en)
  /-- the duration is precise -/
  preciseDur : ∀ d, s.dur? = some d → PreciseTo s.prec d

end Ics
