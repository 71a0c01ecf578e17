import Verif.Spec.Component
import Verif.Spec.Write

/-
When a calendar that was read cannot be written.
-/
namespace Ics

/-- An ATTENDEE line with several addresses, of which the first gets all the parameters.  The other ones get the parameter
`__merge_next=TRUE`, which is meant to be internal. -/
def CrowdedLine (cl : ContentLine) : Prop :=
  cl.name = "ATTENDEE".toList ∧ ',' ∈ cl.value ∧
    ¬ SameDict (dictErase cl.params "VALUE".toList) [("__merge_next".toList, [⟨false, "TRUE".toList⟩])]

/-- The alarm has such a line, and is an alarm with attendees. -/
def CrowdedAlarm (items : List Item) : Prop :=
  (∃ cl, .line cl ∈ items ∧ cl.name = "ACTION".toList ∧ cl.value = "EMAIL".toList) ∧
    ∃ cl, .line cl ∈ items ∧ CrowdedLine cl

/-- An event, or an alarm of an event or a todo, has such a line. -/
inductive CrowdedCalendar (items : List Item) : Prop
  | event {is : List Item} {cl : ContentLine} : .cont "VEVENT".toList is ∈ items → .line cl ∈ is → CrowdedLine cl →
      CrowdedCalendar items
  | alarm {n : Str} {is as : List Item} : n = "VEVENT".toList ∨ n = "VTODO".toList → .cont n is ∈ items →
      .cont "VALARM".toList as ∈ is → CrowdedAlarm as → CrowdedCalendar items

end Ics
