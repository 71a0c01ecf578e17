import Verif.Model.PutExtra
import Verif.Spec.Component

/-
Where unknown properties can be.
-/
namespace Ics

/-- The class of the component: the calendar itself, or an event or todo in one of its lists. -/
def placeCls : Option (CalList × Nat) → Cls
  | none => .calendar
  | some (.events, _) => .event
  | some (.todos, _) => .todo

end Ics
