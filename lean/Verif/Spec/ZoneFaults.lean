import Verif.Spec.Faults
import Verif.Model.Vtimezone

/-
What can go wrong while a VTIMEZONE is read.
-/
namespace Ics

/-- The names of the lines that say when an observance begins. -/
def recurrenceNames : List Str := ["RRULE", "RDATE", "EXRULE", "EXDATE", "DTSTART"].map String.toList

/-- All properties that an observance knows. -/
def observanceNames : List Str :=
  ["TZOFFSETFROM", "TZOFFSETTO", "TZNAME", "COMMENT", "RRULE", "RDATE", "EXRULE", "EXDATE", "DTSTART"].map String.toList

/-- The lines that say when an observance begins. -/
def recurrenceLines (items : List Item) : List ContentLine :=
  items.filterMap fun
    | .line cl => if cl.name ∈ recurrenceNames then some cl else none
    | .cont _ _ => none

/-- Are there values with and without a zone among these? -/
def MixedZones (l : List DT) : Prop := (∃ a ∈ l, a.tz.isSome) ∧ ∃ b ∈ l, b.tz = none

/-- The reasons why an observance is not accepted, and what is raised then. -/
inductive ObsFault (w : Wrap) (R : RRuleStr) (items : List Item) : PyErr → Prop
  /-- A component with the name of a property. -/
  | kind {n : Str} {is : List Item} : .cont n is ∈ items → n ∈ observanceNames → ObsFault w R items .assertionError
  /-- No line says when the observance begins. -/
  | noRules : recurrenceLines items = [] → ObsFault w R items .keyError
  /-- `rrulestr` raises. -/
  | rules {text : Str} {zones : List (Str × Nat)} {e : PyErr} : recurText w (recurrenceLines items) = .ok text →
      R text zones = .error e → ObsFault w R items e
  /-- Some dates have a zone and some have not. -/
  | mixed {text : Str} {zones : List (Str × Nat)} {rs : RuleSet} : recurText w (recurrenceLines items) = .ok text →
      R text zones = .ok rs → MixedZones rs.rdate ∨ MixedZones rs.exdate → ObsFault w R items .typeError
  | value : ObsFault w R items .valueError

/-- The reasons why a VTIMEZONE is not accepted. -/
inductive ZoneFault (L : Lib) (w : Wrap) (R : RRuleStr) (items : List Item) : PyErr → Prop
  /-- A line with the name of an observance. -/
  | kindLine {cl : ContentLine} : .line cl ∈ items → cl.name = "STANDARD".toList ∨ cl.name = "DAYLIGHT".toList →
      ZoneFault L w R items .assertionError
  /-- A component with the name of a property. -/
  | kind {n : Str} {is : List Item} : .cont n is ∈ items → n ∈ ["TZID", "TZURL", "LAST-MODIFIED"].map String.toList →
      ZoneFault L w R items .assertionError
  /-- An empty LAST-MODIFIED. -/
  | empty {cl : ContentLine} : .line cl ∈ items → cl.name = "LAST-MODIFIED".toList → cl.value = [] →
      ZoneFault L w R items .indexError
  /-- A LAST-MODIFIED that is outside of the years 1 to 9999 in UTC. -/
  | stamp {cl : ContentLine} {y m d h n s : Nat} {tz : Option Tz} : .line cl ∈ items → cl.name = "LAST-MODIFIED".toList →
      DateTimeText (stripped cl.value) y m d h n s → (tz.isSome ↔ Zoned cl) →
      (let w := clock y m d h n s
       let u := w - (match tz with | some t => L.tzOff t w false | none => L.sysOff w false)
       OutOfYears u ∨ OutOfYears (L.tzFromUtc (.zone L.icsUtc) u).1) →
      ZoneFault L w R items .overflowError
  /-- An observance that is not accepted. -/
  | observance {n : Str} {is : List Item} {e : PyErr} : .cont n is ∈ items → n = "STANDARD".toList ∨ n = "DAYLIGHT".toList →
      ObsFault w R is e → ZoneFault L w R items e
  | value : ZoneFault L w R items .valueError

/-- The lines of a name. -/
def linesOf (name : Str) (items : List Item) : List ContentLine :=
  items.filterMap fun
    | .line cl => if cl.name = name then some cl else none
    | .cont _ _ => none

/-- What an observance that is accepted has: lines that say when it begins, and each offset once. -/
structure FineObservance (items : List Item) : Prop where
  kind : ∀ n is, .cont n is ∈ items → n ∉ observanceNames
  rules : recurrenceLines items ≠ []
  «from» : ∃ cl v, linesOf "TZOFFSETFROM".toList items = [cl] ∧ OffsetText cl.value v
  to : ∃ cl v, linesOf "TZOFFSETTO".toList items = [cl] ∧ OffsetText cl.value v
  tzname : (linesOf "TZNAME".toList items).length ≤ 1
  comment : (linesOf "COMMENT".toList items).length ≤ 1

/-- What a VTIMEZONE that is accepted has: a name, at most one URL and time of change, and fine observances. -/
structure FineZone (items : List Item) : Prop where
  kindLine : ∀ cl, .line cl ∈ items → cl.name ≠ "STANDARD".toList ∧ cl.name ≠ "DAYLIGHT".toList
  kind : ∀ n is, .cont n is ∈ items → n ∉ ["TZID", "TZURL", "LAST-MODIFIED"].map String.toList
  tzid : ∃ cl, linesOf "TZID".toList items = [cl]
  tzurl : (linesOf "TZURL".toList items).length ≤ 1
  modified : (linesOf "LAST-MODIFIED".toList items).length ≤ 1 ∧
    ∀ cl ∈ linesOf "LAST-MODIFIED".toList items, ∃ y m d h n s, DateTimeText (stripped cl.value) y m d h n s
  observances : ∀ n is, .cont n is ∈ items → n = "STANDARD".toList ∨ n = "DAYLIGHT".toList → FineObservance is

end Ics
