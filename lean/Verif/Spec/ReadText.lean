import Mathlib.Data.List.Forall2
import Verif.Spec.ReadTime
import Verif.Spec.Represent
import Verif.Spec.Unquote

/-
What the lines of a calendar say about the other values of its events and todos.
-/
namespace Ics

/-- The text that a TEXT value of a line stands for (RFC 5545 section 3.3.11, extended by `\r`). -/
inductive TextSays : Str → Str → Prop
  | nil : TextSays [] []
  | plain {c : Char} {v t : Str} : c ∉ ['\\', ';', ',', '\n', '\r'] → TextSays v t → TextSays (c :: v) (c :: t)
  | escaped {c : Char} {v t : Str} : c ∈ ['\\', ';', ','] → TextSays v t → TextSays ('\\' :: c :: v) (c :: t)
  | newline {c : Char} {v t : Str} : c = 'n' ∨ c = 'N' → TextSays v t → TextSays ('\\' :: c :: v) ('\n' :: t)
  | return {c : Char} {v t : Str} : c = 'r' ∨ c = 'R' → TextSays v t → TextSays ('\\' :: c :: v) ('\r' :: t)

/-- Texts with commas between them. -/
inductive ListSays : Str → List Str → Prop
  | one {v t : Str} : TextSays v t → ListSays v [t]
  | more {v t : Str} {w : Str} {ts : List Str} : TextSays v t → ListSays w ts → ListSays (v ++ ',' :: w) (t :: ts)

/-- A decimal number, with single underscores between digits if one likes. -/
inductive NumberSays : Str → Nat → Prop
  | digit {c : Char} : '0' ≤ c ∧ c ≤ '9' → NumberSays [c] (c.toNat - 48)
  | next {v : Str} {n : Nat} {c : Char} : NumberSays v n → '0' ≤ c ∧ c ≤ '9' → NumberSays (v ++ [c]) (10 * n + (c.toNat - 48))
  | underscore {v : Str} {n : Nat} {c : Char} : NumberSays v n → '0' ≤ c ∧ c ≤ '9' →
      NumberSays (v ++ ['_', c]) (10 * n + (c.toNat - 48))

/-- White space. -/
def Blank (s : Str) : Prop := ∀ c ∈ s, c ∈ [' ', '\t', '\n', '\x0b', '\x0c', '\r']

/-- An integer, with white space around it if one likes. -/
inductive IntSays : Str → Int → Prop
  | unsigned {a v b : Str} {n : Nat} : Blank a → Blank b → NumberSays v n → IntSays (a ++ v ++ b) n
  | plus {a v b : Str} {n : Nat} : Blank a → Blank b → NumberSays v n → IntSays (a ++ '+' :: v ++ b) n
  | minus {a v b : Str} {n : Nat} : Blank a → Blank b → NumberSays v n → IntSays (a ++ '-' :: v ++ b) (-(n : Int))

/-- A truth value, in small or capital letters. -/
def BoolSays (v : Str) (b : Bool) : Prop :=
  upper v ∈ (if b then ["TRUE", "T", "Y", "YES", "ON", "1"] else ["FALSE", "F", "N", "NO", "OFF", "0"]).map String.toList

/-- The value `v` is what the one line `name` of a component says, or `missing` if there is no such line. -/
inductive Given {σ : Type} (items : List Item) (name : String) (P : ContentLine → AttrVal σ → Prop) (missing v : AttrVal σ) :
    Prop
  | missing : (∀ i ∈ items, i.name ≠ name.toList) → v = missing → Given items name P missing v
  | line {before after : List Item} {cl : ContentLine} : items = before ++ .line cl :: after → cl.name = name.toList →
      (∀ i ∈ before ++ after, i.name ≠ name.toList) → P cl v → Given items name P missing v

/-- A text. -/
def SaysText {σ : Type} (cl : ContentLine) (v : AttrVal σ) : Prop := ∃ t, TextSays cl.value t ∧ v = .one (.text t)

/-- A status: one of three words, in small or capital letters. -/
def SaysStatus (cl : ContentLine) (v : AttrVal Alarm) : Prop :=
  ∃ t, TextSays cl.value t ∧ upper t ∈ ["TENTATIVE", "CONFIRMED", "CANCELLED"].map String.toList ∧ v = .one (.text (upper t))

/-- A URL: a text, or with `VALUE=URI` what `urlparse` makes of it. -/
def SaysUrl (L : Lib) (cl : ContentLine) (v : AttrVal Alarm) : Prop :=
  (∃ q, dictGet? cl.params "VALUE".toList = some [⟨q, "URI".toList⟩]) ∧
      (∃ u, urlparse L.urlChecks cl.value = .ok u ∧ v = .one (.url u)) ∨
    (¬ ∃ q, dictGet? cl.params "VALUE".toList = some [⟨q, "URI".toList⟩]) ∧ SaysText cl v

/-- A time. -/
def SaysMoment {σ : Type} (Z : Str → Nat → Prop) (utc : Nat) (cl : ContentLine) (v : AttrVal σ) : Prop :=
  ∃ d, SaysTime Z utc cl d .second ∧ v = .one (.dt d)

/-- A time stamp: the moment, in UTC. -/
def SaysStamp (L : Lib) (Z : Str → Nat → Prop) (cl : ContentLine) (v : AttrVal Alarm) : Prop :=
  ∃ d, SaysTime Z L.utc cl d .second ∧ v = .one (.dt ⟨L.toEnv.instant d, false, some (.zone L.icsUtc)⟩)

/-- A truth value. -/
def SaysBool (cl : ContentLine) (v : AttrVal Alarm) : Prop := ∃ b, BoolSays cl.value b ∧ v = .one (.bool b)

/-- A number between 0 and `max`. -/
def SaysNumber (max : Int) (cl : ContentLine) (v : AttrVal Alarm) : Prop :=
  ∃ n, IntSays cl.value n ∧ 0 ≤ n ∧ n ≤ max ∧ v = .one (.int n)

/-- The values of an event or todo are those that its lines say. -/
structure ValuesSaid (L : Lib) (Z : Str → Nat → Prop) (items : List Item) (o : EntryObj) : Prop where
  summary : Given items "SUMMARY" SaysText .none (o.get "summary".toList)
  description : Given items "DESCRIPTION" SaysText .none (o.get "description".toList)
  location : Given items "LOCATION" SaysText .none (o.get "location".toList)
  uid : Given items "UID" SaysText (.one (.text L.uid)) (o.get "uid".toList)
  status : Given items "STATUS" SaysStatus .none (o.get "status".toList)
  url : Given items "URL" (SaysUrl L) .none (o.get "url".toList)
  created : Given items "CREATED" (SaysStamp L Z) .none (o.get "created".toList)
  modified : Given items "LAST-MODIFIED" (SaysStamp L Z) .none (o.get "last_modified".toList)
  dtstamp : Given items "DTSTAMP" (SaysStamp L Z) (.one (.dt L.now)) (o.get "dtstamp".toList)

/-- Those that only events have. -/
structure EventSaid (items : List Item) (o : EntryObj) : Prop where
  classification : Given items "CLASSIFICATION" SaysText .none (o.get "classification".toList)
  transparent : Given items "TRANSPARENT" SaysBool .none (o.get "transparent".toList)
  /-- The lines CATEGORIES, one after the other. -/
  categories : ∃ (lines : List ContentLine) (groups : List (List Str)),
    (items.filter fun i => i.name = "CATEGORIES".toList) = lines.map .line ∧
    List.Forall₂ (fun cl ts => ListSays cl.value ts) lines groups ∧
    o.get "categories".toList = .many (groups.flatten.map .text)

/-- Those that only todos have. -/
structure TodoSaid (L : Lib) (Z : Str → Nat → Prop) (items : List Item) (o : EntryObj) : Prop where
  percent : Given items "PERCENT" (SaysNumber 100) .none (o.get "percent".toList)
  priority : Given items "PRIORITY" (SaysNumber 9) .none (o.get "priority".toList)
  completed : Given items "COMPLETED" (SaysMoment Z L.utc) .none (o.get "completed".toList)

/-- Time and values of the event `o` are what the component `i` of the calendar `cal` says. -/
def EventFrom (L : Lib) (cal : List Item) (i : Item) (o : EntryObj) : Prop :=
  ReadFrom L cal "VEVENT".toList .event i o ∧
    ∃ is, i = .cont "VEVENT".toList is ∧ ValuesSaid L (TzidMeans L cal) is o ∧ EventSaid is o

/-- Time and values of the todo `o` are what the component `i` of the calendar `cal` says. -/
def TodoFrom (L : Lib) (cal : List Item) (i : Item) (o : EntryObj) : Prop :=
  ReadFrom L cal "VTODO".toList .todo i o ∧
    ∃ is, i = .cont "VTODO".toList is ∧ ValuesSaid L (TzidMeans L cal) is o ∧ TodoSaid L (TzidMeans L cal) is o

/-- The texts of the event or todo `o` are what the lines say. -/
structure TextsSaid (L : Lib) (items : List Item) (o : EntryObj) : Prop where
  summary : Given items "SUMMARY" SaysText .none (o.get "summary".toList)
  description : Given items "DESCRIPTION" SaysText .none (o.get "description".toList)
  location : Given items "LOCATION" SaysText .none (o.get "location".toList)
  uid : Given items "UID" SaysText (.one (.text L.uid)) (o.get "uid".toList)
  status : Given items "STATUS" SaysStatus .none (o.get "status".toList)

/-- The component `i` says the values of the event or todo `o`, where `From` is `EventFrom` or `TodoFrom`: it says those of an
object that is the same except for quotation marks and which zone object for UTC is used, and exactly the texts of `o`. -/
def Says (L : Lib) (From : Item → EntryObj → Prop) (i : Item) (o : EntryObj) : Prop :=
  (∃ o', From i o' ∧ SameEntry L (unquoteEntry o) (unquoteEntry o')) ∧ ∃ name is, i = .cont name is ∧ TextsSaid L is o

end Ics
