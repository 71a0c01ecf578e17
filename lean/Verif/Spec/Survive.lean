import Verif.Spec.Represent
import Verif.Spec.Url

/-
Which values survive being written and read.
-/
namespace Ics

variable {σ : Type}

/-- A value that Python can have: a `datetime` from year 1 to 9999, a `timedelta` in its range, and a dictionary of
parameters without repeated keys. -/
def PyVal : Val σ → Prop
  | .dt d => 0 ≤ d.wall ∧ d.wall < maxWall
  | .span s => ∀ d, s.begin? = some d ∨ s.end? = some d → 0 ≤ d.wall ∧ d.wall < maxWall
  | .dur us => tdMin ≤ us ∧ us ≤ tdMax
  | .person _ _ extra => (extra.map Prod.fst).Nodup
  | _ => True

/-- No zone, UTC, or a zone object for which `Timezone.from_tzinfo` gives a `Timezone` object with a name by which the
reader finds the zone object again. -/
def KeptZone (L : Lib) (zones : List (Str × Nat)) : Option Tz → Prop
  | none => True
  | some (.zone n) =>
    L.isUtc n = true ∨ ∃ z, L.conv (.zone n) = .timezone z ∧ L.tzid z ≠ [] ∧ Knows L zones (L.tzid z) n
  | some _ => False

/-- A whole second, not the second one of two equal wall clocks, of a year with four digits (`364877` days are before
1000-01-01). -/
def KeptTime (L : Lib) (zones : List (Str × Nat)) (d : DT) : Prop :=
  d.wall % 1000000 = 0 ∧ d.fold = false ∧ (L.padYear = true ∨ 364877 * 86400000000 ≤ d.wall) ∧ KeptZone L zones d.tz

/-- What some text is read as, and not one of the URLs that lose their relative path. -/
def KeptUrl (L : Lib) (u : Url) : Prop := (∃ s, urlparse L.urlChecks s = .ok u) ∧ ¬ u.Slashless

/-- The values that survive: for each type of values and each value. -/
inductive Kept (L : Lib) (zones : List (Str × Nat)) : ValConv → Val σ → Prop
  | text (s : Str) : Kept L zones .text (.text s)
  | uri {u : Url} : KeptUrl L u → Kept L zones .uri (.url u)
  | binary (b : List (Fin 256)) : Kept L zones .binary (.bytes b)
  | datetime {d : DT} : KeptTime L zones d → Kept L zones .datetime (.dt d)
  | duration {us : Int} : us % 1000000 = 0 → Kept L zones .duration (.dur us)
  | integer {n : Int} : n.natAbs < 10 ^ 4300 → Kept L zones .integer (.int n)
  | boolean (b : Bool) : Kept L zones .boolean (.bool b)
  | geo {lat lon : Nat} : L.parseFloat (L.formatFloat lat) = some lat → L.parseFloat (L.formatFloat lon) = some lon →
      Kept L zones .geo (.geo lat lon)
  | organizer {u : Url} (extra : Params) : KeptUrl L u → Kept L zones .organizer (.person false (.url u) extra)
  | attendee {u : Url} (extra : Params) : KeptUrl L u → Kept L zones .attendee (.person true (.url u) extra)

/-- The value is written, whatever zones were already used; and what is written is read, by a reader who knows the
given zones, as the same value. -/
def Survives (L : Lib) (zones : List (Str × Nat)) (c : ValConv) (v : Val σ) : Prop :=
  ∀ avail, ∃ text params ctx v' params' ctx',
    c.serialize L v [] (some avail) = .ok (text, params, ctx) ∧
    c.parse L text params (some zones) = .ok (v', params', ctx') ∧ SameVal L Eq v v'

/-- What has to be the case for a single-valued attribute without parameters so that it survives: the UID, the time
stamp, the version and the product id are not missing, a value is one of those that survive being written by the first
converter of the attribute that takes it, and a person has no parameter VALUE. -/
def KeptSingle (L : Lib) (zones : List (Str × Nat)) (o : Obj σ) (s : AttrSpec) : Prop :=
  match o.get s.attr with
  | .none => s.attr ∉ ["uid", "dtstamp", "version", "prodid"].map String.toList
  | .one v => ∃ c, s.convs.find? (fun c => c.accepts v) = some c ∧ Kept L zones c v ∧
      ∀ att e extra, v = .person att e extra → "VALUE".toList ∉ extra.map Prod.fst
  | .many _ => False

/-- What has to be the case for a list without parameters so that it survives: each value is one of those that survive
being written by the first converter that takes it; URLs have no comma; a person has no parameter VALUE. -/
def KeptList (L : Lib) (zones : List (Str × Nat)) (o : Obj σ) (s : AttrSpec) : Prop :=
  ∃ l, o.get s.attr = .many l ∧ ∀ v ∈ l, ∃ c, s.convs.find? (fun c => c.accepts v) = some c ∧ Kept L zones c v ∧
    (∀ u, v = .url u → ',' ∉ u.geturl) ∧
    ∀ att u extra, v = .person att (.url u) extra → ',' ∉ u.geturl ∧ "VALUE".toList ∉ extra.map Prod.fst

/-- The midnight of a day, without a zone, of a year with four digits. -/
def KeptDate (L : Lib) (d : DT) : Prop :=
  d.wall % 86400000000 = 0 ∧ d.fold = false ∧ (L.padYear = true ∨ 364877 * 86400000000 ≤ d.wall) ∧ d.tz = none

/-- What has to be the case for a time span without parameters so that it survives: it is of the class of the component;
it has a begin or an end, and days as precision, and then all are midnights without a zone, or seconds as precision, and
then they are times that survive; or it has none of them and no precision; and the duration is whole seconds. -/
structure KeptSpan (L : Lib) (zones : List (Str × Nat)) (o : Obj σ) (s : Span) : Prop where
  cls : s.cls = o.cls.spanCls
  prec : if s.begin? = none ∧ s.end? = none then s.prec = .other [] else s.prec = .day ∨ s.prec = .second
  times : ∀ d, s.begin? = some d ∨ s.end? = some d → if s.prec = .day then KeptDate L d else KeptTime L zones d
  dur : ∀ us, s.dur? = some us → us % 1000000 = 0 ∧ s.end? = none

end Ics
