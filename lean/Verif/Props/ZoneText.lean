import Verif.Proofs.ZoneText
import Verif.Props.CalendarText
import Verif.Props.Vtimezone

/-
C61: a calendar with its time zones survives being turned into text and parsed.
-/
namespace Ics

/-- C61: the text of a VTIMEZONE is read as an equal time zone, with every line wrapping.

Missing for the full claim: what dateutil makes of the recurrence lines is an assumption (`RepRules`, with
the function `f`), and the zones for which the claim is false are excluded (see C59). -/
theorem C61_zone_partial {L : Lib} {w : Wrap} {R : RRuleStr} (hU : UtcOk L) {f : RuleSet → RuleSet} {z : TzObj} (h : RepTz L w R f z)
    (hz : WritableTz z) (w' : Wrap) (hw : match w' with | .none => True | .width _ W => 1 ≤ W) :
    ∃ is₀ txt is z', dumpTimezone L z = .ok (.cont "VTIMEZONE".toList is₀) ∧
      serContainer w' false "VTIMEZONE".toList is₀ = .ok txt ∧
      stringToContainers txt = Gen.done [.cont "VTIMEZONE".toList is] ∧ loadTimezone L w R is = .ok z' ∧ EqTz f z z' := by
  obtain ⟨is, h1, h2, h3⟩ := timezone_trip hU h
  obtain ⟨txt, i, h4, h5, h6⟩ := C08_roundtrip w' hw false _ is (h2 hz)
  cases i with
  | line cl =>
    rw [Item.unquote, Item.unquote] at h6
    cases h6
  | cont n is' =>
    rw [Item.unquote, Item.unquote] at h6
    have hn := (Item.cont.inj h6).1
    have hi := (Item.cont.inj h6).2
    subst hn
    obtain ⟨z', h7, h8⟩ := h3 is' hi
    exact ⟨_, txt, is', z', h1, h4, h5, h7, h8⟩

/-- C61: a representable calendar whose time zones are `Timezone` objects that can be written is turned into
text and parsed as the same calendar: its date-times are in the same zones again, which were read from the
VTIMEZONEs in the text.

Missing for the full claim: as for `C61_zone_partial`. -/
theorem C61_calendar_partial {L : Lib} {w : Wrap} {R : RRuleStr} (hU : UtcOk L) {zs : List (Str × Nat)}
    {zone : Nat → TzObj} {f : RuleSet → RuleSet} {intern : TzObj → Nat} (hL : ZoneLib L w R f zs zone intern)
    (hz : ∀ name n, dictGet? zs name = some n → RepTz L w R f (zone n) ∧ WritableTz (zone n))
    (o : CalObj) (h : RepCalendar L zs o) (ho : WritableCalendar L o)
    (w' : Wrap) (hw : match w' with | .none => True | .width _ W => 1 ≤ W) :
    ∃ txt o', serializeCalendar L w' o = .ok txt ∧ calendarOfString L txt = .ok o' ∧
      SameCalendar L (unquoteCalendar o) (unquoteCalendar o') :=
  cal_text hU h (zoneTrip_of hU hL hz) ho w' hw

/-- C61: the same for several calendars in one text, each with its own VTIMEZONEs.

Missing for the full claim: as for `C61_zone_partial`. -/
theorem C61_multiple_partial {L : Lib} {w : Wrap} {R : RRuleStr} (hU : UtcOk L) {zs : List (Str × Nat)}
    {zone : Nat → TzObj} {f : RuleSet → RuleSet} {intern : TzObj → Nat} (hL : ZoneLib L w R f zs zone intern)
    (hz : ∀ name n, dictGet? zs name = some n → RepTz L w R f (zone n) ∧ WritableTz (zone n))
    (os : List CalObj) (h : ∀ o ∈ os, RepCalendar L zs o ∧ WritableCalendar L o)
    (w' : Wrap) (hw : match w' with | .none => True | .width _ W => 1 ≤ W) :
    ∃ ts os', List.Forall₂ (fun o t => serializeCalendar L w' o = .ok t) os ts ∧
      parseMultiple L (ts.flatMap (· ++ crlf)) = .ok os' ∧
      List.Forall₂ (fun o o' => SameCalendar L (unquoteCalendar o) (unquoteCalendar o')) os os' :=
  C58_multiple L hU zs os h (zoneTrip_of hU hL hz) w' hw

/-! ### A calendar that meets the hypotheses -/

section
variable {σ : Type} (L : Lib) (tl : List Item → Except PyErr Nat) (td : Nat → Except PyErr Item)

/-- The environment with other functions for VTIMEZONEs. -/
def withZones : Lib := { L with tzLoad := tl, tzDump := td }

theorem repObj_with {zs : List (Str × Nat)} {M N : Str → σ → Prop} (hM : ∀ a m, M a m → N a m) {o : Obj σ}
    (h : RepObj L zs M o) : RepObj (withZones L tl td) zs N o := by
  refine ⟨h.cls, h.name, h.extra, fun s h1 h2 => ?_, fun s h1 h2 => ?_, fun a n hm => ?_, fun ht => ?_, h.action⟩
  · exact h.single s h1 h2
  · obtain ⟨g, h3, h4⟩ := h.multi s h1 h2
    refine ⟨g, fun x hx => ?_, h4⟩
    have := h3 x hx
    exact ⟨this.nonempty, this.unique, this.params, this.same, this.url, this.attendee⟩
  · obtain ⟨h1, ms, h2, h3⟩ := h.members a n hm
    exact ⟨h1, ms, h2, fun m hm => hM a m (h3 m hm)⟩
  · obtain ⟨s, g⟩ := h.time ht
    exact ⟨s, g.get, g.cls, g.valid, g.timed, g.begin, g.end_, g.dur, g.beginParams, g.endParams, g.dueParams,
      g.durParams⟩

theorem repCalendar_with {zs : List (Str × Nat)} {o : CalObj} (h : RepCalendar L zs o) :
    RepCalendar (withZones L tl td) zs o :=
  ⟨h.1, repObj_with L tl td (fun _ m hm => ⟨⟨hm.1.1, repObj_with L tl td (fun _ _ ha => ⟨ha.1, repObj_with L tl td (fun _ _ h => h) ha.2⟩) hm.1.2⟩, hm.2⟩) h.2⟩

theorem writableObj_with {M N : σ → Prop} (hM : ∀ m, M m → N m) {o : Obj σ} (h : WritableObj L M o) :
    WritableObj (withZones L tl td) N o := by
  have key : ∀ v : Val σ, WritableVal L M v → WritableVal (withZones L tl td) N v := by
    intro v hv
    cases v with
    | comp m => exact hM m hv
    | _ => exact hv
  exact ⟨h.name, h.extra, fun k v e => key v (h.one k v e), fun k l e v hv => key v (h.many k l e v hv), h.params, h.listParams⟩

theorem writableCalendar_with {o : CalObj} (h : WritableCalendar L o) : WritableCalendar (withZones L tl td) o :=
  writableObj_with L tl td (fun _ hm => ⟨hm.1, writableObj_with L tl td (fun _ ha =>
    ⟨writableObj_with L tl td (fun _ h => h) ha.1, ha.2⟩) hm.2⟩) h

theorem repTz_with {w : Wrap} {R : RRuleStr} {f : RuleSet → RuleSet} {z : TzObj} (h : RepTz L w R f z) : RepTz (withZones L tl td) w R f z :=
  ⟨fun o ho => by
    have g := h.observances o ho
    exact ⟨g.offsetFrom, g.offsetTo, g.rules, g.extra, g.keys, g.fromParams, g.toParams, g.nameParams, g.commentParams⟩,
    h.url, h.modified, h.extra, h.keys, h.idParams, h.urlParams, h.modifiedParams⟩

theorem loadTimezone_with (w : Wrap) (R : RRuleStr) (items : List Item) :
    loadTimezone (withZones L tl td) w R items = loadTimezone L w R items := by
  have key : ∀ items st, populateTz (withZones L tl td) w R items st = populateTz L w R items st := by
    intro items
    induction items with
    | nil => intro st; rfl
    | cons i is ih =>
      intro st
      show (populateTzItem L w R i st >>= fun st => populateTz (withZones L tl td) w R is st) = _
      simp only [ih]
      rfl
  show (populateTz (withZones L tl td) w R items {} >>= _) = _
  rw [key]
  rfl

end

/-- The zones of the example. -/
def exZones (n : Nat) : TzObj := { exTz with tzid := if n = 1 then "X/Y".toList else "UTC".toList }

open Classical in
/-- A zone that is equal to the first zone of the example is that zone. -/
noncomputable def exIntern (z : TzObj) : Nat := if EqTz exBack (exZones 1) z then 1 else 0

/-- The environment of the example, with VTIMEZONEs as the library reads and writes them. -/
noncomputable def exZoneLib : Lib :=
  withZones exLib (fun items => (loadTimezone exLib .none exRRuleStr items).map exIntern) fun n => dumpTimezone exLib (exZones n)

theorem exZones_rep : RepTz exLib .none exRRuleStr exBack (exZones 1) :=
  ⟨exTz_rep.observances, exTz_rep.url, exTz_rep.modified, exTz_rep.extra, exTz_rep.keys, exTz_rep.idParams,
    exTz_rep.urlParams, exTz_rep.modifiedParams⟩

theorem exZones_writable : WritableTz (exZones 1) where
  rest := ⟨trees_cons (exLine_writable (by decide +kernel) (by decide +kernel) (by decide +kernel)) writableTrees_nil,
    fun k p h => by cases h⟩
  url := fun u h => by cases h
  observances := by
    intro o ho
    have ho : o ∈ [exSummerObj, exWinterObj] := ho
    simp only [List.mem_cons, List.not_mem_nil, or_false] at ho
    rcases ho with rfl | rfl
    · refine ⟨trees_cons (exLine_writable (by decide +kernel) (by decide +kernel) (by decide +kernel)) writableTrees_nil,
        fun k p h => ?_⟩
      have := mem_of_dictGet h
      rw [show exSummerObj.extraParams = [("TZNAME".toList, .one [("LANGUAGE".toList, [⟨false, "de".toList⟩])])] from rfl,
        List.mem_singleton] at this
      cases this
      refine writableParams_set (p := []) writableParams_nil ⟨noBreak_of (by decide +kernel), ?_⟩
        ⟨[], ⟨false, "de".toList⟩, rfl, .inr (by decide +kernel)⟩ (by decide +kernel)
      simp
    · exact ⟨writableTrees_nil, fun k p h => by cases h⟩

theorem exZoneLib_ok : ZoneLib exZoneLib .none exRRuleStr exBack [("X/Y".toList, 1)] exZones exIntern where
  tzid n := by
    show (if n = 1 then _ else _) = _
    rfl
  dump n := rfl
  load items := by rw [show exZoneLib = withZones exLib _ _ from rfl, loadTimezone_with]; rfl
  same name n h z hz := by
    have := mem_of_dictGet h
    rw [List.mem_singleton] at this
    cases this
    exact if_pos hz

/-- The hypotheses of `C61_zone_partial` are met, by a zone with two observances. -/
example : UtcOk exLib ∧ RepTz exLib .none exRRuleStr exBack (exZones 1) ∧ WritableTz (exZones 1) ∧
    (exZones 1).observances.length = 2 := ⟨exLib_utc, exZones_rep, exZones_writable, rfl⟩

/-- The hypotheses of `C61_calendar_partial` and (for the list of this calendar, twice) of
`C61_multiple_partial` are met. -/
example : UtcOk exZoneLib ∧ ZoneLib exZoneLib .none exRRuleStr exBack [("X/Y".toList, 1)] exZones exIntern ∧
    (∀ name n, dictGet? [("X/Y".toList, 1)] name = some n → RepTz exZoneLib .none exRRuleStr exBack (exZones n) ∧ WritableTz (exZones n)) ∧
    RepCalendar exZoneLib [("X/Y".toList, 1)] exCalRep ∧ WritableCalendar exZoneLib exCalRep := by
  refine ⟨⟨exLib_utc.ics, exLib_utc.utc, exLib_utc.off, exLib_utc.fromUtc⟩, exZoneLib_ok, fun name n h => ?_,
    repCalendar_with _ _ _ exCalRep_rep, writableCalendar_with _ _ _ exCalRep_writable⟩
  have := mem_of_dictGet h
  rw [List.mem_singleton] at this
  cases this
  exact ⟨repTz_with _ _ _ exZones_rep, exZones_writable⟩

end Ics
