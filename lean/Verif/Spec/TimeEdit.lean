import Verif.Spec.Represent
import Verif.Spec.Zones
import Verif.Model.Entry

/-
Events and todos whose times are changed after they were read.
-/
namespace Ics

/-- A whole second in a zone that the reader knows. -/
def WholeTime (L : Lib) (zones : List (Str × Nat)) (d : DT) : Prop :=
  d.wall % 1000000 = 0 ∧ 0 ≤ d.wall ∧ d.wall < maxWall ∧ RepZone L zones d.tz

/-- A span of whole seconds or whole days. -/
structure WholeTimes (L : Lib) (zones : List (Str × Nat)) (s : Span) : Prop where
  prec : s.prec = .day ∨ s.prec = .second
  begin : ∀ d, s.begin? = some d → WholeTime L zones d
  end_ : ∀ d, s.end? = some d → WholeTime L zones d
  dur : ∀ d, s.dur? = some d → RepDur d

/-- Operations with values that can be written: whole seconds, and zones that are lawful and known.  `unset_all_day` is
not among them. -/
def LastingTime (L : Lib) (zones : List (Str × Nat)) : Edit → Prop
  | .timespan v => WholeTimes L zones v
  | .begin v => ∀ d, v = some d → WholeTime L zones d
  | .end_ v => ∀ d, v = some d → WholeTime L zones d
  | .duration v => ∀ d, v = some d → RepDur d
  | .convertEnd _ => True
  | .makeAllDay => True
  | .unsetAllDay => False
  | .replaceTimezone tz => RepZone L zones tz
  | .convertTimezone tz => ∃ z, tz = some (.zone z) ∧ L.Lawful (.zone z) ∧ RepZone L zones tz

/-- A span that has a begin or an end. -/
def Span.Dated (s : Span) : Prop := s.begin?.isSome ∨ s.end?.isSome

/-- No time is in the second half of an overlap, or in a year that is not written with four digits. -/
def Span.Settled (L : Lib) (s : Span) : Prop :=
  ∀ d, s.begin? = some d ∨ s.end? = some d → d.fold = false ∧ (L.padYear = true ∨ 364877 * 86400000000 ≤ d.wall)

/-- No parameters are kept for what the span does not have. -/
def Span.NoStale (s : Span) (m : Obj σ) : Prop :=
  (s.begin? = none → dictGet? m.extraParams "BEGIN".toList = none) ∧
  (s.end? = none → dictGet? m.extraParams "DUE".toList = none) ∧
  (s.dur? = none → dictGet? m.extraParams "DURATION".toList = none)

/-- Every offset is less than a day, as Python demands. -/
def BoundedOffsets (L : Lib) : Prop :=
  ∀ n w f, -(24 * 60 * 60 * 1000000) < L.off n w f ∧ L.off n w f < 24 * 60 * 60 * 1000000

end Ics
