import Verif.Model.Component
import Verif.Model.Timezone

/-
VTIMEZONE components: `Timezone` and `TimezoneObservance` as they are read and written
(/repo/src/ics/timezone/__init__.py:101-134, converter/types/timezone.py, converter/types/various.py:27-96,
converter/component.py:185-266, rrule.py:30-35).
-/
namespace Ics

/-- A `dateutil.rrule.rrule` as far as the library looks at it: `_dtstart` and `str(rule)`
(/repo/src/ics/rrule.py:30-35, converter/types/various.py:62-73).  Simplified: rules are compared by these
two, not by `rrule_to_dict` (rrule.py:18-41). -/
structure RRule where
  dtstart : Option DT
  text : Str
deriving DecidableEq, Repr

/-- A `dateutil.rrule.rruleset`: `_rrule`, `_exrule`, `_rdate`, `_exdate` (/repo/src/ics/rrule.py:52-55). -/
structure RuleSet where
  rrule : List RRule
  exrule : List RRule
  rdate : List DT
  exdate : List DT
deriving DecidableEq, Repr

/-- `dateutil.rrule.rrulestr(text, tzinfos=…, compatible=True)`
(/repo/src/ics/converter/types/various.py:53); `compatible` makes it return an `rruleset`.  It is left
open what it does. -/
abbrev RRuleStr := Str → List (Str × Nat) → Except PyErr RuleSet

/-- A `TimezoneStandardObservance` or `TimezoneDaylightObservance` (`isDst`)
(/repo/src/ics/timezone/__init__.py:101-124).  Offsets are microseconds. -/
structure ObsObj where
  isDst : Bool
  offsetFrom : Int
  offsetTo : Int
  rules : RuleSet
  tzname : Option Str
  comment : Option Str
  extra : List Item
  extraParams : List (Str × ExtraVal)
deriving Repr

/-- A `Timezone` (/repo/src/ics/timezone/__init__.py:127-134). -/
structure TzObj where
  tzid : Str
  observances : List ObsObj
  tzurl : Option Url
  lastModified : Option DT
  extra : List Item
  extraParams : List (Str × ExtraVal)
deriving Repr

/-! ### Sorting dates -/

/-- One step of sorting: a value goes after those that are not greater
(`sorted`, /repo/src/ics/converter/types/various.py:54-55, 81, 85). -/
def insertDt (e : Env) (x : DT) : List DT → Except PyErr (List DT)
  | [] => .ok [x]
  | y :: ys => do
    if ← e.lt x y then .ok (x :: y :: ys)
    else
      let l ← insertDt e x ys
      .ok (y :: l)

/-- `sorted(dates)` (/repo/src/ics/converter/types/various.py:54-55, 81, 85), by insertion: the same as
`list.sort` for values whose order is total; mixing naive and aware values is a `TypeError`. -/
def sortDts (e : Env) : List DT → List DT → Except PyErr (List DT)
  | acc, [] => .ok acc
  | acc, x :: xs => do
    let acc ← insertDt e x acc
    sortDts e acc xs

/-- `unique_justseen` after the first value `k` of a group (/repo/src/ics/converter/types/various.py:27-28). -/
def uniqueFrom (e : Env) (k : DT) : List DT → List DT
  | [] => []
  | y :: ys => if e.eq k y then uniqueFrom e k ys else y :: uniqueFrom e y ys

/-- `unique_justseen` (/repo/src/ics/converter/types/various.py:27-28). -/
def uniqueJustseen (e : Env) : List DT → List DT
  | [] => []
  | x :: xs => x :: uniqueFrom e x xs

/-- `list(unique_justseen(sorted(dates)))` (/repo/src/ics/converter/types/various.py:54-55, 81, 85). -/
def normDates (e : Env) (l : List DT) : Except PyErr (List DT) := (sortDts e [] l).map (uniqueJustseen e)

/-! ### Reading -/

/-- `__prepare_params` with a single value converter (/repo/src/ics/converter/value.py:92-105): `ty` is
its `ics_type`. -/
def prepareOne (ty : Str) (params : Params) : Except PyErr Params :=
  let rest := dictErase params "VALUE".toList
  match dictGet? params "VALUE".toList with
  | some [v] => if v.text = ty then .ok rest else .error .valueError
  | some (_ :: _ :: _) => .error .valueError
  | _ => .ok rest

/-- `set_or_append_extra_params` for a single-valued attribute (/repo/src/ics/converter/base.py:173-181). -/
def setExtra (d : List (Str × ExtraVal)) (name : Str) (p : Params) : List (Str × ExtraVal) :=
  if p = [] then d else dictSet d name (.one p)

/-- What populating a single-valued attribute of a `MutablePseudoComponent` changes: the value and the
parameters of all attributes (/repo/src/ics/converter/component.py:209-239). -/
structure Field (α : Type) where
  value : Option α
  params : List (Str × ExtraVal)

/-- `AttributeValueConverter.populate` for a single-valued attribute of a `MutablePseudoComponent`
(/repo/src/ics/converter/value.py:73-87, component.py:237-239): no validator runs.  `cur` is the value so
far; it is set exactly if `current_value_count` is not 0. -/
def populateField {α : Type} (name ty : Str) (parse : Str → Params → Except PyErr (α × Params)) (cl : ContentLine)
    (cur : Option α) (params : List (Str × ExtraVal)) : Except PyErr (Field α) := do
  raiseIf cur.isSome
  let p ← prepareOne ty cl.params
  let (v, p) ← parse cl.value p
  .ok ⟨some v, setExtra params name p⟩

/-- `TextConverter.parse` (/repo/src/ics/valuetype/text.py:50-56). -/
def parseTextField (s : Str) (p : Params) : Except PyErr (Str × Params) := (unescapeText s).map fun t => (t, p)

/-- `UTCOffsetConverter.parse` (/repo/src/ics/valuetype/datetime.py:239-257). -/
def parseOffsetField (s : Str) (p : Params) : Except PyErr (Int × Params) := (utcOffsetParse s).map fun d => (d, p)

/-- `URIConverter.parse` (/repo/src/ics/valuetype/generic.py:167-173). -/
def parseUrlField (L : Lib) (s : Str) (p : Params) : Except PyErr (Url × Params) :=
  (urlparse L.urlChecks s).map fun u => (u, p)

/-- An observance while it is populated: the data of the `MutablePseudoComponent`
(/repo/src/ics/converter/component.py:209-239) and the lines collected by `RecurrenceConverter`
(/repo/src/ics/converter/types/various.py:36-45). -/
structure ObsState where
  offsetFrom : Option Int := none
  offsetTo : Option Int := none
  lines : List ContentLine := []
  tzname : Option Str := none
  comment : Option Str := none
  extra : List Item := []
  extraParams : List (Str × ExtraVal) := []

/-- `filter_ics_names` of `RecurrenceConverter` (/repo/src/ics/converter/types/various.py:33-34). -/
def recurNames : List Str := ["RRULE", "RDATE", "EXRULE", "EXDATE", "DTSTART"].map String.toList

/-- The names of the converters of an observance that take one value (/repo/src/ics/timezone/__init__.py:103-108
with `ics_name`, converter/value.py:37-42). -/
def obsNames : List Str := ["TZOFFSETFROM", "TZOFFSETTO", "TZNAME", "COMMENT"].map String.toList

/-- One line of an observance (/repo/src/ics/converter/component.py:152-158, value.py:73-87,
types/various.py:36-45). -/
def populateObsLine (cl : ContentLine) (st : ObsState) : Except PyErr ObsState :=
  if cl.name = "TZOFFSETFROM".toList then do
    let f ← populateField cl.name "UTC-OFFSET".toList parseOffsetField cl st.offsetFrom st.extraParams
    .ok { st with offsetFrom := f.value, extraParams := f.params }
  else if cl.name = "TZOFFSETTO".toList then do
    let f ← populateField cl.name "UTC-OFFSET".toList parseOffsetField cl st.offsetTo st.extraParams
    .ok { st with offsetTo := f.value, extraParams := f.params }
  else if cl.name ∈ recurNames then .ok { st with lines := st.lines ++ [cl] }
  else if cl.name = "TZNAME".toList then do
    let f ← populateField cl.name "TEXT".toList parseTextField cl st.tzname st.extraParams
    .ok { st with tzname := f.value, extraParams := f.params }
  else if cl.name = "COMMENT".toList then do
    let f ← populateField cl.name "TEXT".toList parseTextField cl st.comment st.extraParams
    .ok { st with comment := f.value, extraParams := f.params }
  else .ok { st with extra := st.extra ++ [.line cl] }

/-- One item of an observance: a container with the name of a property fails an assertion, any other
container is extra (/repo/src/ics/converter/component.py:152-158, value.py:51, types/various.py:39). -/
def populateObsItem (i : Item) (st : ObsState) : Except PyErr ObsState :=
  match i with
  | .line cl => populateObsLine cl st
  | .cont n _ => if n ∈ obsNames ∨ n ∈ recurNames then .error .assertionError else .ok { st with extra := st.extra ++ [i] }

/-- All items of an observance (/repo/src/ics/converter/component.py:152-158). -/
def populateObs : List Item → ObsState → Except PyErr ObsState
  | [], st => .ok st
  | i :: is, st => do
    let st ← populateObsItem i st
    populateObs is st

/-- `"".join(line.serialize(newline=True) for line in lines)` with the line wrapping that is in effect
(/repo/src/ics/converter/types/various.py:48-50). -/
def recurText (w : Wrap) : List ContentLine → Except PyErr Str
  | [] => .ok []
  | cl :: cls => do
    let a ← serText w true cl
    let b ← recurText w cls
    .ok (a ++ b)

/-- `RecurrenceConverter.post_populate` (/repo/src/ics/converter/types/various.py:47-56): without any
line `context.pop` is a `KeyError`. -/
def readRules (w : Wrap) (R : RRuleStr) (e : Env) (avail : List (Str × Nat)) (lines : List ContentLine) :
    Except PyErr RuleSet :=
  if lines = [] then .error .keyError
  else do
    let text ← recurText w lines
    let rs ← R text avail
    let rdate ← normDates e rs.rdate
    let exdate ← normDates e rs.exdate
    .ok { rs with rdate := rdate, exdate := exdate }

/-- The value of a required attribute (`post_populate`, /repo/src/ics/converter/value.py:107-109). -/
def required {α : Type} (v : Option α) : Except PyErr α :=
  match v with
  | some v => .ok v
  | none => .error .valueError

/-- `ImmutableComponentMeta.load_instance` of an observance (/repo/src/ics/converter/component.py:192-206):
the `post_populate` hooks in the order of the attributes, then the constructor
(/repo/src/ics/timezone/__init__.py:103-108). -/
def finishObs (w : Wrap) (R : RRuleStr) (e : Env) (avail : List (Str × Nat)) (isDst : Bool) (st : ObsState) :
    Except PyErr ObsObj := do
  let offsetFrom ← required st.offsetFrom
  let offsetTo ← required st.offsetTo
  let rules ← readRules w R e avail st.lines
  .ok ⟨isDst, offsetFrom, offsetTo, rules, st.tzname, st.comment, st.extra, st.extraParams⟩

/-- `from_container` of an observance (/repo/src/ics/converter/types/timezone.py:45-53,
converter/component.py:192-206). -/
def loadObs (w : Wrap) (R : RRuleStr) (e : Env) (avail : List (Str × Nat)) (isDst : Bool) (items : List Item) :
    Except PyErr ObsObj := do
  let st ← populateObs items {}
  finishObs w R e avail isDst st

/-- A `Timezone` while it is populated (/repo/src/ics/converter/component.py:209-239), and the zones in
the context. -/
structure TzState where
  tzid : Option Str := none
  observances : List ObsObj := []
  tzurl : Option Url := none
  lastModified : Option DT := none
  extra : List Item := []
  extraParams : List (Str × ExtraVal) := []
  avail : List (Str × Nat) := []

/-- `NAME` of the observances (/repo/src/ics/timezone/__init__.py:117-122). -/
def obsName (isDst : Bool) : Str := if isDst then "DAYLIGHT".toList else "STANDARD".toList

/-- The names of the converters of a `Timezone` that take one value (/repo/src/ics/timezone/__init__.py:131-134
with `ics_name`, converter/value.py:37-42). -/
def tzNames : List Str := ["TZID", "TZURL", "LAST-MODIFIED"].map String.toList

/-- One line of a VTIMEZONE (/repo/src/ics/converter/component.py:152-158, value.py:73-87,
types/timezone.py:45: a line with the name of an observance fails an assertion). -/
def populateTzLine (L : Lib) (cl : ContentLine) (st : TzState) : Except PyErr TzState :=
  if cl.name = "TZID".toList then do
    let f ← populateField cl.name "TEXT".toList parseTextField cl st.tzid st.extraParams
    .ok { st with tzid := f.value, extraParams := f.params }
  else if cl.name = obsName false ∨ cl.name = obsName true then .error .assertionError
  else if cl.name = "TZURL".toList then do
    let f ← populateField cl.name "URI".toList (parseUrlField L) cl st.tzurl st.extraParams
    .ok { st with tzurl := f.value, extraParams := f.params }
  else if cl.name = "LAST-MODIFIED".toList then do
    raiseIf st.lastModified.isSome
    let p ← prepareOne "DATE-TIME".toList cl.params
    let (d, p, ctx) ← parseDt L.toWorld datetimeFormats cl.value p (some st.avail)
    .ok { st with
      lastModified := some d
      extraParams := setExtra st.extraParams "LAST_MODIFIED".toList p
      avail := ctx.getD [] }
  else .ok { st with extra := st.extra ++ [.line cl] }

/-- One item of a VTIMEZONE (/repo/src/ics/converter/component.py:152-158, types/timezone.py:42-60). -/
def populateTzItem (L : Lib) (w : Wrap) (R : RRuleStr) (i : Item) (st : TzState) : Except PyErr TzState :=
  match i with
  | .line cl => populateTzLine L cl st
  | .cont n is =>
    if n = obsName false then do
      let o ← loadObs w R L.toEnv st.avail false is
      .ok { st with observances := st.observances ++ [o] }
    else if n = obsName true then do
      let o ← loadObs w R L.toEnv st.avail true is
      .ok { st with observances := st.observances ++ [o] }
    else if n ∈ tzNames then .error .assertionError
    else .ok { st with extra := st.extra ++ [i] }

/-- All items of a VTIMEZONE (/repo/src/ics/converter/component.py:152-158). -/
def populateTz (L : Lib) (w : Wrap) (R : RRuleStr) : List Item → TzState → Except PyErr TzState
  | [], st => .ok st
  | i :: is, st => do
    let st ← populateTzItem L w R i st
    populateTz L w R is st

/-- The converter `ensure_utc` of `last_modified`, run by the constructor
(/repo/src/ics/timezone/__init__.py:41-45, 134). -/
def ensureUtc? (L : Lib) : Option DT → Except PyErr (Option DT)
  | none => .ok none
  | some d => (L.astimezone d (.zone L.icsUtc)).map some

/-- `Timezone.from_container(container)` (/repo/src/ics/converter/types/timezone.py:19-35,
converter/component.py:192-206, types/calendar.py:34) for the items of a container of the name
VTIMEZONE, without a context. -/
def loadTimezone (L : Lib) (w : Wrap) (R : RRuleStr) (items : List Item) : Except PyErr TzObj := do
  let st ← populateTz L w R items {}
  let tzid ← required st.tzid
  let lastModified ← ensureUtc? L st.lastModified
  .ok ⟨tzid, st.observances, st.tzurl, lastModified, st.extra, st.extraParams⟩

/-! ### Writing -/

/-- `copy_extra_params(self.get_extra_params(component))` (/repo/src/ics/converter/value.py:119-121,
base.py:183-193, types.py:171-186). -/
def extraOf (d : List (Str × ExtraVal)) (name : Str) : Except PyErr Params :=
  match dictGet? d name with
  | none => .ok []
  | some (.one p) => .ok p
  | some (.many []) => .ok []
  | some (.many (_ :: _)) => .error .attributeError

/-- `AttributeValueConverter.serialize` for a single-valued attribute with one value converter
(/repo/src/ics/converter/value.py:117-126): `text` is the value as text. -/
def dumpField (d : List (Str × ExtraVal)) (key name : Str) (text : Option Str) : Except PyErr (List Item) :=
  match text with
  | none => .ok []
  | some t => do
    let p ← extraOf d key
    .ok [.line (mkContentLine name p t)]

/-- `str.splitlines()` (/repo/src/ics/rrule.py:31): no empty line at the end.  Simplified: only a line feed,
a carriage return and both together are line breaks. -/
def pySplitlines (s : Str) : List Str :=
  let ls := stringToLines s
  if ls.getLast? = some [] then ls.dropLast else ls

/-- `rrule_to_ContentLine` (/repo/src/ics/rrule.py:30-35). -/
def rruleLine (r : RRule) : Except PyErr ContentLine :=
  match (pySplitlines r.text).dropWhile fun l => "DTSTART".toList.isPrefixOf l with
  | [] => .error .indexError
  | [l] => parseLine l
  | _ :: _ :: _ => .error .assertionError

/-- The DTSTART lines (/repo/src/ics/converter/types/various.py:62-73): `cur` is `context["DTSTART"]`.  The
parameters given to `DatetimeConverter.serialize` are the immutable empty dictionary, so a TZID is dropped. -/
def dumpDtstart (L : Lib) : List RRule → Option DT → Except PyErr (List Item)
  | [], _ => .ok []
  | r :: rs, cur =>
    match r.dtstart, cur with
    | none, cur => dumpDtstart L rs cur
    | some d, some c => if L.eq c d then dumpDtstart L rs cur else .error .valueError
    | some d, none => do
      let (t, _, _) ← serializeDt L.toWorld d [] (some [])
      let is ← dumpDtstart L rs (some d)
      .ok (.line (mkContentLine "DTSTART".toList [] t) :: is)

/-- The RRULE or EXRULE lines (/repo/src/ics/converter/types/various.py:75-80). -/
def dumpRRules (rename : Option Str) : List RRule → Except PyErr (List Item)
  | [] => .ok []
  | r :: rs => do
    let cl ← rruleLine r
    let is ← dumpRRules rename rs
    .ok (.line { cl with name := rename.getD cl.name } :: is)

/-- The RDATE or EXDATE lines (/repo/src/ics/converter/types/various.py:81-88): without a context. -/
def dumpDates (L : Lib) (name : Str) : List DT → Except PyErr (List Item)
  | [] => .ok []
  | d :: ds => do
    let (t, _, _) ← serializeDt L.toWorld d [] none
    let is ← dumpDates L name ds
    .ok (.line (mkContentLine name [] t) :: is)

/-- `RecurrenceConverter.serialize` (/repo/src/ics/converter/types/various.py:58-88) with no DTSTART in the
context. -/
def dumpRules (L : Lib) (rs : RuleSet) : Except PyErr (List Item) := do
  let a ← dumpDtstart L (rs.rrule ++ rs.exrule) none
  let b ← dumpRRules none rs.rrule
  let c ← dumpRRules (some "EXRULE".toList) rs.exrule
  let rdate ← normDates L.toEnv rs.rdate
  let d ← dumpDates L "RDATE".toList rdate
  let exdate ← normDates L.toEnv rs.exdate
  let e ← dumpDates L "EXDATE".toList exdate
  .ok (a ++ b ++ c ++ d ++ e)

/-- `to_container` of an observance (/repo/src/ics/converter/component.py:163-182): the attributes in the
order of the class definition (/repo/src/ics/timezone/__init__.py:103-108), then the extra items. -/
def dumpObs (L : Lib) (o : ObsObj) : Except PyErr Item := do
  let a ← dumpField o.extraParams "TZOFFSETFROM".toList "TZOFFSETFROM".toList (some (utcOffsetSerialize o.offsetFrom))
  let b ← dumpField o.extraParams "TZOFFSETTO".toList "TZOFFSETTO".toList (some (utcOffsetSerialize o.offsetTo))
  let c ← dumpRules L o.rules
  let d ← dumpField o.extraParams "TZNAME".toList "TZNAME".toList (o.tzname.map escapeText)
  let e ← dumpField o.extraParams "COMMENT".toList "COMMENT".toList (o.comment.map escapeText)
  .ok (.cont (obsName o.isDst) (a ++ b ++ c ++ d ++ e ++ o.extra))

/-- `TimezoneObservanceMemberMeta.serialize` after the check (/repo/src/ics/converter/types/timezone.py:68-69). -/
def dumpObservances (L : Lib) : List ObsObj → Except PyErr (List Item)
  | [] => .ok []
  | o :: os => do
    let i ← dumpObs L o
    let is ← dumpObservances L os
    .ok (i :: is)

/-- The LAST-MODIFIED line (/repo/src/ics/converter/value.py:117-126, valuetype/datetime.py:36-53). -/
def dumpLastModified (L : Lib) (o : TzObj) : Except PyErr (List Item) :=
  match o.lastModified with
  | none => .ok []
  | some d => do
    let p ← extraOf o.extraParams "LAST_MODIFIED".toList
    let (t, p, _) ← serializeDt L.toWorld d p (some [])
    .ok [.line (mkContentLine "LAST-MODIFIED".toList p t)]

/-- `Timezone.to_container()` (/repo/src/ics/converter/component.py:163-182, types/timezone.py:62-69,
types/calendar.py:47-50).  Simplified: the name of the container `extra` is not changed; the zones that
values register in the context are not kept, nothing looks at them. -/
def dumpTimezone (L : Lib) (o : TzObj) : Except PyErr Item := do
  let a ← dumpField o.extraParams "TZID".toList "TZID".toList (some (escapeText o.tzid))
  raiseIf (((dictGet? o.extraParams "OBSERVANCES".toList).map ExtraVal.truthy).getD false)
  let b ← dumpObservances L o.observances
  let c ← dumpField o.extraParams "TZURL".toList "TZURL".toList (o.tzurl.map Url.geturl)
  let d ← dumpLastModified L o
  .ok (.cont "VTIMEZONE".toList (a ++ b ++ c ++ d ++ o.extra))

/-! ### What a zone object does -/

/-- The observances of a zone as `_find_observance` uses them (/repo/src/ics/timezone/__init__.py:185-214):
`occ` gives the occurrences of a rule set. -/
def TzObj.zone (occ : RuleSet → Rule) (z : TzObj) : List Observance :=
  z.observances.map fun o => ⟨o.offsetFrom, o.offsetTo, occ o.rules, o.tzname, o.isDst⟩

end Ics
