import Verif.Spec.CalNormalize
import Verif.Spec.Zones
import Verif.Model.Entry

/-
What the operations on the times of an event or todo are for.
-/
namespace Ics

/-- How a span has its end when it was asked to have it as a duration, as an end or not at all; what has no begin can have
neither. -/
def EndEffect (t : Span) : EndTarget → Prop
  | .duration => t.dur?.isSome ∨ t.end? = none ∧ t.begin? = none
  | .end_ => t.end?.isSome ∨ t.dur? = none ∧ t.begin? = none
  | .due => t.end?.isSome ∨ t.dur? = none ∧ t.begin? = none
  | .none => t.end? = none ∧ t.dur? = none
  | .other => False

/-- What an operation makes of the time span `s` of an event or todo. -/
def TimeEffect (L : Lib) : Edit → Span → Span → Prop
  | .timespan v, _, t => t = v
  | .begin v, s, t => t.begin? = v ∧ t.end? = s.end? ∧ t.dur? = s.dur? ∧ t.prec = s.prec
  | .end_ v, s, t => t.begin? = s.begin? ∧ t.end? = v ∧ t.dur? = none ∧ t.prec = s.prec
  | .duration v, s, t => t.begin? = s.begin? ∧ t.end? = none ∧ t.dur? = v ∧ t.prec = s.prec
  | .convertEnd target, s, t => t.begin? = s.begin? ∧ t.prec = s.prec ∧ EndEffect t target
  | .makeAllDay, s, t => t.prec = .day ∧ (s.prec = .day → t = s) ∧
    (s.prec ≠ .day → t.begin? = s.begin?.map fun d => ⟨d.wall - d.wall % 86400000000, false, none⟩)
  | .unsetAllDay, s, t => t.begin? = s.begin? ∧ t.end? = s.end? ∧ t.dur? = s.dur? ∧ t.prec ≠ .day
  | .replaceTimezone tz, s, t => t.begin? = s.begin?.map (fun d => ⟨d.wall, d.fold, tz⟩) ∧
    t.end? = s.end?.map (fun d => ⟨d.wall, d.fold, tz⟩) ∧ t.dur? = s.dur? ∧ t.prec = s.prec
  | .convertTimezone tz, s, t => t.dur? = s.dur? ∧ t.prec = s.prec ∧
    ∀ z, tz = some z → L.Lawful z → SameMoment L z s.begin? t.begin? ∧ SameMoment L z s.end? t.end?

end Ics
