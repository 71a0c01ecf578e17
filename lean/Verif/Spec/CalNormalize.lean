import Verif.Spec.Represent
import Verif.Spec.Timespan
import Verif.Spec.Zones
import Verif.Model.CalEdit

/-
Calendars whose times were moved to one zone.
-/
namespace Ics

/-- The same instant in zone `z`, or nothing in both cases. -/
def SameMoment (L : Lib) (z : Tz) : Option DT → Option DT → Prop
  | none, none => True
  | some d, some d' => L.instant d' = L.instant d ∧ d'.tz = some z
  | _, _ => False

/-- The same event or todo with its times moved to zone `z`; one with dates only is as before. -/
def MovedTo (L : Lib) (z : Tz) (v v1 : Val EntryObj) : Prop :=
  ∃ m m1 s t, v = .comp m ∧ v1 = .comp m1 ∧ m.get "timespan".toList = .one (.span s) ∧
    m1.get "timespan".toList = .one (.span t) ∧ m1.cls = m.cls ∧ m1.extraName = m.extraName ∧ m1.extra = m.extra ∧
    m1.extraParams = m.extraParams ∧ (∀ a, a ≠ "timespan".toList → m1.get a = m.get a) ∧
    (s.prec = .day → m1 = m) ∧
    (s.prec ≠ .day → SameMoment L z s.begin? t.begin? ∧ SameMoment L z s.end? t.end? ∧ t.dur? = s.dur? ∧ t.prec = s.prec ∧
      t.cls = s.cls)

/-- No begin or end of an event or todo is in the second half of an overlap, or in a year that is not written with four
digits. -/
def Settled (L : Lib) (o : CalObj) : Prop :=
  ∀ (list : CalList) (l : List (Val EntryObj)) (m : EntryObj) (s : Span) (d : DT), o.get list.attr = .many l → .comp m ∈ l →
    m.get "timespan".toList = .one (.span s) → s.begin? = some d ∨ s.end? = some d →
    d.fold = false ∧ (L.padYear = true ∨ 364877 * 86400000000 ≤ d.wall)

end Ics
