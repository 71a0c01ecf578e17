import Mathlib.Data.List.Forall2
import Verif.Model.Component

/-
What loading and writing components is about, independent of the converters.
-/
namespace Ics

/-- The names of the lines and components that each class understands. -/
def handledNames : Cls → List String
  | .calendar => ["VERSION", "PRODID", "SCALE", "METHOD", "VTIMEZONE", "VEVENT", "VTODO"]
  | .event =>
    ["DTSTART", "DTEND", "DUE", "DURATION", "SUMMARY", "UID", "DESCRIPTION", "LOCATION", "URL", "STATUS",
      "CREATED", "LAST-MODIFIED", "DTSTAMP", "VALARM", "ATTACH", "CLASSIFICATION", "TRANSPARENT",
      "ORGANIZER", "GEO", "ATTENDEE", "CATEGORIES"]
  | .todo =>
    ["DTSTART", "DTEND", "DUE", "DURATION", "SUMMARY", "UID", "DESCRIPTION", "LOCATION", "URL", "STATUS",
      "CREATED", "LAST-MODIFIED", "DTSTAMP", "VALARM", "ATTACH", "PERCENT", "PRIORITY", "COMPLETED"]
  | .audioAlarm => ["ACTION", "TRIGGER", "REPEAT", "DURATION", "ATTACH"]
  | .customAlarm => ["ACTION", "TRIGGER", "REPEAT", "DURATION"]
  | .displayAlarm => ["ACTION", "TRIGGER", "REPEAT", "DURATION", "DESCRIPTION"]
  | .emailAlarm => ["ACTION", "TRIGGER", "REPEAT", "DURATION", "SUMMARY", "DESCRIPTION", "ATTENDEE", "ATTACH"]
  | .noneAlarm => ["ACTION", "TRIGGER", "REPEAT", "DURATION"]

/-- An item that a class does not understand: its name is unknown, or it is a *line* called VTIMEZONE in
a calendar. -/
def unhandled (c : Cls) (i : Item) : Bool :=
  match i with
  | .line cl => !(handledNames c).contains (String.ofList cl.name) ||
      (c == .calendar && cl.name == "VTIMEZONE".toList)
  | .cont name _ => !(handledNames c).contains (String.ofList name)

/-- The properties that may occur only once in each class (the ACTION of an alarm is special). -/
def singleNames : Cls → List String
  | .calendar => ["VERSION", "PRODID", "SCALE", "METHOD"]
  | .event =>
    ["DTSTART", "DTEND", "DUE", "DURATION", "SUMMARY", "UID", "DESCRIPTION", "LOCATION", "URL", "STATUS",
      "CREATED", "LAST-MODIFIED", "DTSTAMP", "CLASSIFICATION", "TRANSPARENT", "ORGANIZER", "GEO"]
  | .todo =>
    ["DTSTART", "DTEND", "DUE", "DURATION", "SUMMARY", "UID", "DESCRIPTION", "LOCATION", "URL", "STATUS",
      "CREATED", "LAST-MODIFIED", "DTSTAMP", "PERCENT", "PRIORITY", "COMPLETED"]
  | .audioAlarm => ["TRIGGER", "REPEAT", "DURATION", "ATTACH"]
  | .customAlarm => ["TRIGGER", "REPEAT", "DURATION"]
  | .displayAlarm => ["TRIGGER", "REPEAT", "DURATION", "DESCRIPTION"]
  | .emailAlarm => ["TRIGGER", "REPEAT", "DURATION", "SUMMARY", "DESCRIPTION"]
  | .noneAlarm => ["TRIGGER", "REPEAT", "DURATION"]

/-- The items with a given name. -/
def named (n : String) (items : List Item) : List Item := items.filter fun i => i.name = n.toList

/-- Two texts of a component of class `c` have the same unhandled items in the same order. -/
def SameExtra (c : Cls) (xs ys : List Item) : Prop := ys.filter (unhandled c) = xs.filter (unhandled c)

/-- The same items in another order, in which items with the same name keep their order. -/
def Reordered (xs ys : List Item) : Prop :=
  ∀ n : Str, (xs.filter fun i => i.name = n) = ys.filter fun i => i.name = n

/-- Two components that differ at most in `extra`: the same attributes and parameters. -/
structure SameAttrs {σ : Type} (o o' : Obj σ) : Prop where
  cls : o.cls = o'.cls
  attrs : ∀ attr, dictGet? o.attrs attr = dictGet? o'.attrs attr
  params : ∀ key, dictGet? o.extraParams key = dictGet? o'.extraParams key
  extraName : o.extraName = o'.extraName

/-- At most one of DTEND and DUE occurs. -/
def OneEnd (items : List Item) : Prop :=
  ¬((∃ i ∈ items, i.name = "DTEND".toList) ∧ ∃ i ∈ items, i.name = "DUE".toList)

/-- Parameters as the parser makes them: every name occurs once, and the name that the library uses for
its own purposes (it is not a parameter name of iCalendar) does not occur. -/
def GoodParams (p : Params) : Prop := (p.map Prod.fst).Nodup ∧ "__merge_next".toList ∉ p.map Prod.fst

/-- A line of a multi-valued property as the library itself writes it, with the values on it: texts,
URLs, binary data, or one attendee. -/
inductive ListLine {σ : Type} (L : Lib) : String → Item → List (Val σ) → Prop
  | texts (p : Params) (vs : List Str) : GoodParams p → "VALUE".toList ∉ p.map Prod.fst → vs ≠ [] →
      ListLine L "CATEGORIES" (.line ⟨"CATEGORIES".toList, p, joinComma (vs.map escapeText)⟩) (vs.map .text)
  | urls (p : Params) (us : List Url) : GoodParams p → "VALUE".toList ∉ p.map Prod.fst → us ≠ [] →
      (∀ u ∈ us, ',' ∉ u.geturl ∧ urlparse L.urlChecks u.geturl = .ok u) →
      ListLine L "ATTACH" (.line ⟨"ATTACH".toList, p, joinComma (us.map Url.geturl)⟩) (us.map .url)
  | binary (p : Params) (bs : List (List (Fin 256))) : GoodParams p → "VALUE".toList ∉ p.map Prod.fst → bs ≠ [] →
      ListLine L "ATTACH" (.line ⟨"ATTACH".toList, p ++ [("VALUE".toList, [⟨false, "BINARY".toList⟩])],
        joinComma (bs.map b64encode)⟩) (bs.map .bytes)
  | attendee (p : Params) (u : Url) : GoodParams p → "VALUE".toList ∉ p.map Prod.fst → ',' ∉ u.geturl →
      urlparse L.urlChecks u.geturl = .ok u →
      ListLine L "ATTENDEE" (.line ⟨"ATTENDEE".toList, p, u.geturl⟩) [.person true (.url u) p]

/-- A text between two commas denotes a value: an escaped text, a URL, or base64. -/
inductive Denotes {σ : Type} (L : Lib) : Str → Val σ → Prop
  | text (t s : Str) : unescapeText t = .ok s → Denotes L t (.text s)
  | url (t : Str) (u : Url) : ',' ∉ t → urlparse L.urlChecks t = .ok u → Denotes L t (.url u)
  | bytes (t : Str) (b : List (Fin 256)) : ',' ∉ t → b64decode t = .ok b → Denotes L t (.bytes b)

/-- The text that is written for such a value. -/
def canonText {σ : Type} : Val σ → Str
  | .text s => escapeText s
  | .url u => u.geturl
  | .bytes b => b64encode b
  | _ => []

/-- The attribute of a multi-valued property. -/
def listAttr : String → Str
  | "CATEGORIES" => "categories".toList
  | "ATTENDEE" => "attendees".toList
  | _ => "attach".toList

/-- The multi-valued properties of each class. -/
def listNames : Cls → List String
  | .event => ["CATEGORIES", "ATTENDEE", "ATTACH"]
  | .todo => ["ATTACH"]
  | .emailAlarm => ["ATTENDEE", "ATTACH"]
  | _ => []

/-- The properties with a date or date-time value. -/
def dateNames : List String :=
  ["DTSTART", "DTEND", "DUE", "CREATED", "LAST-MODIFIED", "DTSTAMP", "COMPLETED", "TRIGGER"]

/-- The parameters that encode the value itself: VALUE, and TZID where there is a time. -/
def EncodesValue (n : String) (k : Str) : Prop := k = "VALUE".toList ∨ (k = "TZID".toList ∧ n ∈ dateNames)

/-- Two lines have the same parameters, apart from those that encode the value. -/
def ParamsKept (n : String) (x y : Item) : Prop :=
  ∃ cl cl', x = .line cl ∧ y = .line cl' ∧
    ∀ k, ¬EncodesValue n k → dictGet? cl'.params k = dictGet? cl.params k

/-- The lines of each property are written back one by one with their parameters; DTEND is an exception, and
so is DUE in an event, where it does not belong. -/
def LinesKept (c : Cls) (xs ys : List Item) : Prop :=
  ∀ n ∈ handledNames c, n ∉ ["VALARM", "VEVENT", "VTODO", "VTIMEZONE"] → n ≠ "DTEND" → (n = "DUE" → c = .todo) →
    named n xs ≠ [] → List.Forall₂ (ParamsKept n) (named n xs) (named n ys)

/-- A line somewhere in a text, however deep. -/
inductive LineIn (cl : ContentLine) : List Item → Prop
  | here {items : List Item} : .line cl ∈ items → LineIn cl items
  | inside {n : Str} {is items : List Item} : .cont n is ∈ items → LineIn cl is → LineIn cl items

end Ics
