import Verif.Spec.Grammar
import Verif.Spec.ZoneFaults

/-
When a time zone cannot be written.
-/
namespace Ics

/-- The time is in a time zone without a name. -/
def InNamelessZone (L : Lib) (d : DT) : Prop := L.dtIsUtc d = false ∧ ∃ t, d.tz = some t ∧ L.conv t = .unserializable

/-- The time is in a time zone with a name that is not UTC. -/
def InNamedZone (L : Lib) (d : DT) : Prop := L.dtIsUtc d = false ∧ ∃ t z, d.tz = some t ∧ L.conv t = .timezone z

/-- All rules of a set. -/
def RuleSet.rules (rs : RuleSet) : List RRule := rs.rrule ++ rs.exrule

/-- The times at which the rules start. -/
def RuleSet.starts (rs : RuleSet) : List DT := rs.rules.filterMap RRule.dtstart

/-- The line begins with DTSTART. -/
def StartLine (l : Str) : Prop := ∃ r, l = "DTSTART".toList ++ r

/-- The reasons why the rules of an observance cannot be written, and what is raised then. -/
inductive RulesWriteFault (L : Lib) (rs : RuleSet) : PyErr → Prop
  /-- Two rules start at different times. -/
  | starts {d d' : DT} {ds : List DT} : rs.starts = d :: ds → d' ∈ ds → L.eq d d' = false → RulesWriteFault L rs .valueError
  /-- The rules start at a time in a zone without a name. -/
  | startZone {d : DT} {ds : List DT} : rs.starts = d :: ds → InNamelessZone L d → RulesWriteFault L rs .valueError
  /-- The text of a rule is only DTSTART lines. -/
  | noLine {r : RRule} : r ∈ rs.rules → (∀ l ∈ pySplitlines r.text, StartLine l) → RulesWriteFault L rs .indexError
  /-- The text of a rule has several lines after those. -/
  | lines {r : RRule} {a b : List Str} {l l' : Str} : r ∈ rs.rules → pySplitlines r.text = a ++ l :: l' :: b →
      (∀ x ∈ a, StartLine x) → ¬ StartLine l → RulesWriteFault L rs .assertionError
  /-- The line after those is no content line. -/
  | line {r : RRule} {a : List Str} {l : Str} : r ∈ rs.rules → pySplitlines r.text = a ++ [l] →
      (∀ x ∈ a, StartLine x) → ¬ StartLine l → (¬ ∃ name ps value, LineText l name ps value) → RulesWriteFault L rs .parseError
  /-- Some dates have a zone and some have not. -/
  | mixed : MixedZones rs.rdate ∨ MixedZones rs.exdate → RulesWriteFault L rs .typeError
  /-- A date is in a zone without a name. -/
  | dateZone {d : DT} : d ∈ rs.rdate ++ rs.exdate → InNamelessZone L d → RulesWriteFault L rs .valueError
  /-- A date is in a zone with a name. -/
  | dateNamed {d : DT} : d ∈ rs.rdate ++ rs.exdate → InNamedZone L d → RulesWriteFault L rs .attributeError

/-- The parameters of this name are a list that is not empty. -/
def ListedIn (d : List (Str × ExtraVal)) (key : String) : Prop := ∃ p ps, dictGet? d key.toList = some (.many (p :: ps))

/-- The reasons why an observance cannot be written. -/
inductive ObsWriteFault (L : Lib) (o : ObsObj) : PyErr → Prop
  /-- A list of parameters for an attribute with one value. -/
  | params {k : String} : k = "TZOFFSETFROM" ∨ k = "TZOFFSETTO" ∨ (k = "TZNAME" ∧ o.tzname ≠ none) ∨
      (k = "COMMENT" ∧ o.comment ≠ none) → ListedIn o.extraParams k → ObsWriteFault L o .attributeError
  | rules {e : PyErr} : RulesWriteFault L o.rules e → ObsWriteFault L o e

/-- The reasons why a time zone cannot be written. -/
inductive ZoneWriteFault (L : Lib) (z : TzObj) : PyErr → Prop
  /-- A list of parameters for an attribute with one value. -/
  | params {k : String} : k = "TZID" ∨ (k = "TZURL" ∧ z.tzurl ≠ none) ∨ (k = "LAST_MODIFIED" ∧ z.lastModified ≠ none) →
      ListedIn z.extraParams k → ZoneWriteFault L z .attributeError
  /-- Parameters for the observances. -/
  | observanceParams : (∃ p ps, dictGet? z.extraParams "OBSERVANCES".toList = some (.one (p :: ps))) ∨
      ListedIn z.extraParams "OBSERVANCES" → ZoneWriteFault L z .valueError
  /-- The time of the last change is in a zone without a name. -/
  | modified {d : DT} : z.lastModified = some d → InNamelessZone L d → ZoneWriteFault L z .valueError
  | observance {o : ObsObj} {e : PyErr} : o ∈ z.observances → ObsWriteFault L o e → ZoneWriteFault L z e

/-- Dates that are equal in Python are the same. -/
def OnceEach (L : Lib) (l : List DT) : Prop := ∀ a ∈ l, ∀ b ∈ l, L.eq a b = true → a = b

end Ics
