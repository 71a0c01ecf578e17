import Verif.Model.Vtimezone
import Verif.Spec.Represent
import Verif.Spec.Contentline
import Verif.Spec.Unquote

/-
Which time zones can be written and read back.
-/
namespace Ics

/-- A time without a zone that survives being written: a whole second of a year that is written with four
digits. -/
def PlainTime (L : Lib) (d : DT) : Prop :=
  d.tz = none ∧ d.fold = false ∧ d.wall % 1000000 = 0 ∧ 0 ≤ d.wall ∧ d.wall < maxWall ∧
    (L.padYear = true ∨ 364877 * 86400000000 ≤ d.wall)

/-- A line with a time, such as `RDATE:19700101T000000`. -/
def timeLine (L : Lib) (name : String) (d : DT) : ContentLine :=
  ⟨name.toList, [], datetimeStr L.padYear (fieldsOf d.wall)⟩

/-- A line without parameters. -/
def plainLine (name : String) (v : Str) : ContentLine := ⟨name.toList, [], v⟩

/-- A rule that starts at `start` and whose text is a DTSTART line followed by the line `RRULE:v`; this is
what `str(rule)` of dateutil looks like. -/
def RuleText (start : DT) (r : RRule) (v : Str) : Prop :=
  r.dtstart = some start ∧ NoBreak v ∧ ∃ d, NoBreak d ∧ r.text = "DTSTART:".toList ++ d ++ '\n' :: ("RRULE:".toList ++ v)

/-- The lines for a rule set: the common DTSTART of all rules, the rules, the rules for exceptions, and the
dates. -/
def ruleLines (L : Lib) (start : DT) (vs xs : List Str) (rdate exdate : List DT) : List ContentLine :=
  (if vs ++ xs = [] then [] else [timeLine L "DTSTART" start]) ++ vs.map (plainLine "RRULE") ++
    xs.map (plainLine "EXRULE") ++ rdate.map (timeLine L "RDATE") ++ exdate.map (timeLine L "EXDATE")

/-- Times without zones in increasing order. -/
def PlainDates (L : Lib) (l : List DT) : Prop := (∀ d ∈ l, PlainTime L d) ∧ l.Pairwise fun a b => a.wall < b.wall

/-- The same dates in increasing order, each once. -/
def SortedDates (L : Lib) (l m : List DT) : Prop := PlainDates L m ∧ ∀ d, d ∈ l ↔ d ∈ m

/-- A rule set `rs` that is not empty and can be written, and for which dateutil reads what is written as
`rs₂` (it may find a date more than once, and in any order).  In general `rs₂` is not `rs`: with
`compatible=True` dateutil makes the DTSTART a date of the set. -/
def RepRules (L : Lib) (w : Wrap) (R : RRuleStr) (rs rs₂ : RuleSet) : Prop :=
  ∃ start vs xs rd ed text rs', PlainTime L start ∧ List.Forall₂ (RuleText start) rs.rrule vs ∧
    List.Forall₂ (RuleText start) rs.exrule xs ∧ SortedDates L rs.rdate rd ∧ SortedDates L rs.exdate ed ∧
    ruleLines L start vs xs rd ed ≠ [] ∧ recurText w (ruleLines L start vs xs rd ed) = .ok text ∧
    R text [] = .ok rs' ∧ rs'.rrule = rs₂.rrule ∧ rs'.exrule = rs₂.exrule ∧
    SortedDates L rs'.rdate rs₂.rdate ∧ SortedDates L rs'.exdate rs₂.exdate

/-- Whole seconds, less than a hundred hours. -/
def RepOffset (us : Int) : Prop := us % 1000000 = 0 ∧ -360000000000 < us ∧ us < 360000000000

/-- The parameters of an attribute: those that survive, and none if there is no value. -/
def RepKey (d : List (Str × ExtraVal)) (key : String) (reserved : List String) (present : Bool) : Prop :=
  RepParams reserved (dictGet? d key.toList) ∧ (present = false → dictGet? d key.toList = none)

/-- The names that an observance understands. -/
def obsKnown : List String :=
  ["TZOFFSETFROM", "TZOFFSETTO", "TZNAME", "COMMENT", "RRULE", "RDATE", "EXRULE", "EXDATE", "DTSTART"]

/-- The names that a time zone understands. -/
def tzKnown : List String := ["TZID", "TZURL", "LAST-MODIFIED", "STANDARD", "DAYLIGHT"]

/-- An observance that can be written and read back; `f` tells what dateutil makes of its rules. -/
structure RepObs (L : Lib) (w : Wrap) (R : RRuleStr) (f : RuleSet → RuleSet) (o : ObsObj) : Prop where
  offsetFrom : RepOffset o.offsetFrom
  offsetTo : RepOffset o.offsetTo
  rules : RepRules L w R o.rules (f o.rules)
  extra : ∀ i ∈ o.extra, ∀ k ∈ obsKnown, i.name ≠ k.toList
  keys : ∀ k v, dictGet? o.extraParams k = some v →
    k ∈ ["TZOFFSETFROM", "TZOFFSETTO", "TZNAME", "COMMENT"].map String.toList
  fromParams : RepKey o.extraParams "TZOFFSETFROM" ["VALUE"] true
  toParams : RepKey o.extraParams "TZOFFSETTO" ["VALUE"] true
  nameParams : RepKey o.extraParams "TZNAME" ["VALUE"] o.tzname.isSome
  commentParams : RepKey o.extraParams "COMMENT" ["VALUE"] o.comment.isSome

/-- A time zone that can be written and read back; `f` tells what dateutil makes of its rules. -/
structure RepTz (L : Lib) (w : Wrap) (R : RRuleStr) (f : RuleSet → RuleSet) (z : TzObj) : Prop where
  observances : ∀ o ∈ z.observances, RepObs L w R f o
  url : ∀ u, z.tzurl = some u → RepUrl L u
  modified : ∀ d, z.lastModified = some d → d.tz = some (.zone L.icsUtc) ∧ RepTime L [] d
  extra : ∀ i ∈ z.extra, ∀ k ∈ tzKnown, i.name ≠ k.toList
  keys : ∀ k v, dictGet? z.extraParams k = some v → k ∈ ["TZID", "TZURL", "LAST_MODIFIED"].map String.toList
  idParams : RepKey z.extraParams "TZID" ["VALUE"] true
  urlParams : RepKey z.extraParams "TZURL" ["VALUE"] z.tzurl.isSome
  modifiedParams : RepKey z.extraParams "LAST_MODIFIED" ["VALUE", "TZID"] z.lastModified.isSome

/-- The same observance, with the rules that `f` gives; the order of the dictionary of parameters does not
matter. -/
structure SameObs (f : RuleSet → RuleSet) (a b : ObsObj) : Prop where
  isDst : a.isDst = b.isDst
  offsetFrom : a.offsetFrom = b.offsetFrom
  offsetTo : a.offsetTo = b.offsetTo
  rules : f a.rules = b.rules
  tzname : a.tzname = b.tzname
  comment : a.comment = b.comment
  extra : a.extra = b.extra
  params : ∀ k, dictGet? a.extraParams k = dictGet? b.extraParams k

/-- The same time zone, with the rules that `f` gives: the same name, the same observances in the same order, the same items that were not
understood and the same parameters. -/
structure SameTz (f : RuleSet → RuleSet) (a b : TzObj) : Prop where
  tzid : a.tzid = b.tzid
  observances : List.Forall₂ (SameObs f) a.observances b.observances
  tzurl : a.tzurl = b.tzurl
  lastModified : a.lastModified = b.lastModified
  extra : a.extra = b.extra
  params : ∀ k, dictGet? a.extraParams k = dictGet? b.extraParams k

/-! ### What was read -/

/-- The parameters that are kept for an attribute: those of the line except the reserved ones. -/
def keptParams (reserved : List String) (p : Params) : Option ExtraVal :=
  let q := reserved.foldl (fun p k => dictErase p k.toList) p
  if q = [] then none else some (.one q)

/-- The value of an attribute comes from the only item of that name, which is a line; without such an item
there is no value and there are no parameters. -/
def FromLine {α : Type} (items : List Item) (name : String) (parse : Str → Except PyErr α) (v : Option α)
    (params : Option ExtraVal) : Prop :=
  match v with
  | none => (∀ i ∈ items, i.name ≠ name.toList) ∧ params = none
  | some v => ∃ cl, items.filter (fun i => i.name = name.toList) = [.line cl] ∧ parse cl.value = .ok v ∧
      params = keptParams ["VALUE"] cl.params

/-- The lines that say when an observance begins. -/
def recurLines (items : List Item) : List Item :=
  items.filter fun i => i.name ∈ ["RRULE", "RDATE", "EXRULE", "EXDATE", "DTSTART"].map String.toList

/-- The items that are not understood. -/
def unknownItems (known : List String) (items : List Item) : List Item :=
  items.filter fun i => i.name ∉ known.map String.toList

/-- The dates `l` are those of `m`: all of them are in `m`, and every date of `m` is equal to one of them. -/
def DatesOf (e : Env) (l m : List DT) : Prop :=
  (∀ d ∈ l, d ∈ m) ∧ ∀ d ∈ m, ∃ d' ∈ l, d' = d ∨ e.eq d' d = true

/-- The rules are what dateutil reads from the text of the lines. -/
structure ReadRules (w : Wrap) (R : RRuleStr) (e : Env) (avail : List (Str × Nat)) (items : List Item) (rs : RuleSet) :
    Prop where
  some : items ≠ []
  read : ∃ cls text rs', items = cls.map .line ∧ recurText w cls = .ok text ∧ R text avail = .ok rs' ∧ rs.rrule = rs'.rrule ∧
    rs.exrule = rs'.exrule ∧ DatesOf e rs.rdate rs'.rdate ∧ DatesOf e rs.exdate rs'.exdate

/-- The observance is what the items say. -/
structure ReadObs (w : Wrap) (R : RRuleStr) (e : Env) (avail : List (Str × Nat)) (items : List Item) (o : ObsObj) :
    Prop where
  offsetFrom : FromLine items "TZOFFSETFROM" utcOffsetParse (some o.offsetFrom) (dictGet? o.extraParams "TZOFFSETFROM".toList)
  offsetTo : FromLine items "TZOFFSETTO" utcOffsetParse (some o.offsetTo) (dictGet? o.extraParams "TZOFFSETTO".toList)
  tzname : FromLine items "TZNAME" unescapeText o.tzname (dictGet? o.extraParams "TZNAME".toList)
  comment : FromLine items "COMMENT" unescapeText o.comment (dictGet? o.extraParams "COMMENT".toList)
  rules : ReadRules w R e avail (recurLines items) o.rules
  extra : o.extra = unknownItems obsKnown items

/-- The item is a container of the right name, and the observance is what its items say. -/
def ObsItem (w : Wrap) (R : RRuleStr) (e : Env) (i : Item) (o : ObsObj) : Prop :=
  ∃ is avail, i = .cont (if o.isDst then "DAYLIGHT".toList else "STANDARD".toList) is ∧ ReadObs w R e avail is o

/-- The time zone is what the items say: its name is that of the only TZID line, its observances are the
STANDARD and DAYLIGHT containers in order. -/
structure ReadTz (L : Lib) (w : Wrap) (R : RRuleStr) (items : List Item) (z : TzObj) : Prop where
  tzid : FromLine items "TZID" unescapeText (some z.tzid) (dictGet? z.extraParams "TZID".toList)
  tzurl : FromLine items "TZURL" (urlparse L.urlChecks) z.tzurl (dictGet? z.extraParams "TZURL".toList)
  observances : List.Forall₂ (ObsItem w R L.toEnv)
    (items.filter fun i => i.name ∈ ["STANDARD", "DAYLIGHT"].map String.toList) z.observances
  extra : z.extra = unknownItems tzKnown items

end Ics
