import Verif.Proofs.ZoneWrite
import Verif.Props.ReadWrite
import Verif.Props.ZoneFaults

/-
C84: which time zones can be written, and what writing them raises.
-/
namespace Ics

/-- C84: whatever is raised when a time zone is written has one of the listed reasons, and is the listed exception. -/
theorem C84_faults (L : Lib) (z : TzObj) (e : PyErr) (h : dumpTimezone L z = .error e) : ZoneWriteFault L z e :=
  dumpTimezone_raises L z e h

/-- C84: a time zone can be written exactly if none of the listed reasons applies, where dates of one observance that are
equal are the same. -/
theorem C84_exact (L : Lib) (z : TzObj)
    (ho : ∀ o ∈ z.observances, OnceEach L o.rules.rdate ∧ OnceEach L o.rules.exdate) :
    (∃ i, dumpTimezone L z = .ok i) ↔ ∀ e, ¬ ZoneWriteFault L z e := by
  constructor
  · rintro ⟨i, hi⟩ e
    exact dumpTimezone_complete ho hi e
  · intro hn
    cases h : dumpTimezone L z with
    | ok i => exact ⟨i, rfl⟩
    | error e => exact absurd (C84_faults L z e h) (hn e)

/-- C84: of a time zone that was read only the rules of an observance can be the reason. -/
theorem C84_read (L : Lib) (hU : L.isUtc L.icsUtc = true) (w : Wrap) (R : RRuleStr) (items : List Item) (z : TzObj)
    (h : loadTimezone L w R items = .ok z) (e : PyErr) :
    ZoneWriteFault L z e ↔ ∃ o ∈ z.observances, RulesWriteFault L o.rules e := loaded_zoneFault hU h

/-- C84: the exceptions of writing a time zone. -/
theorem C84_errors (L : Lib) (z : TzObj) (e : PyErr) (h : dumpTimezone L z = .error e) :
    e ∈ [PyErr.valueError, .attributeError, .typeError, .indexError, .assertionError, .parseError] := by
  have rules : ∀ rs, RulesWriteFault L rs e →
      e ∈ [PyErr.valueError, .attributeError, .typeError, .indexError, .assertionError, .parseError] := by
    intro rs h
    cases h <;> simp
  cases C84_faults L z e h with
  | params => simp
  | observanceParams => simp
  | modified => simp
  | observance _ h =>
    cases h with
    | params => simp
    | rules h => exact rules _ h

/-- C84 together with C83: if the zones are time zone objects, whatever is raised when a calendar that was read from a text is
written is a `ValueError`, or has one of the listed reasons in a zone that is used. -/
theorem C84_calendar (L : Lib) (w : Wrap) (hw : w.ok) (zone : Nat → TzObj) (hz : ∀ n, L.tzDump n = dumpTimezone L (zone n))
    (text : Str) (o : CalObj) (h : calendarOfString L text = .ok o) (e : PyErr) (he : serializeCalendar L w o = .error e) :
    e = .valueError ∨ ∃ n, UsesZone L o n ∧ ZoneWriteFault L (zone n) e := by
  obtain ⟨is, h1, h2⟩ := C58_one L text o h
  have hi : WritableTree (.cont "VCALENDAR".toList is) :=
    item_good (txt := text) (by rw [h1]; exact List.mem_singleton_self _) fun cl => nofun
  rw [WritableTree] at hi
  rcases C83_raises L w hw is o h2 (fun cl hcl => writable_lineIn hcl hi.2) e he with h | ⟨n, h3, h4⟩
  · exact .inl h
  · rw [hz] at h4
    exact .inr ⟨n, h3, C84_faults L _ e h4⟩

/-! ### Examples -/

/-- A time zone with the rules. -/
def exRuled (rs : RuleSet) : TzObj := { exTz with observances := [{ exWinterObj with rules := rs }] }

/-- A rule with the text. -/
def exTexted (t : String) : RRule := ⟨none, t.toList⟩

/-- The exception of writing it; only zone 1 has a name. -/
def exZoneWrite (z : TzObj) : Option PyErr :=
  match dumpTimezone exNameless z with
  | .ok _ => none
  | .error e => some e

/-- C84: each of the exceptions comes out of writing some time zone. -/
theorem C84_occur :
    exZoneWrite exTz = none ∧
    exZoneWrite (exRuled ⟨[], [], [], []⟩) = none ∧
    exZoneWrite (exRuled ⟨[exRule "FREQ=YEARLY", { exRule "FREQ=YEARLY" with dtstart := some ⟨0, false, none⟩ }], [], [], []⟩) =
      some .valueError ∧
    exZoneWrite (exRuled ⟨[{ exRule "FREQ=YEARLY" with dtstart := some ⟨0, false, some (.zone 7)⟩ }], [], [], []⟩) =
      some .valueError ∧
    exZoneWrite (exRuled ⟨[{ exRule "FREQ=YEARLY" with dtstart := some ⟨0, false, some (.zone 1)⟩ }], [], [], []⟩) = none ∧
    exZoneWrite (exRuled ⟨[exTexted "DTSTART:19700101T000000"], [], [], []⟩) = some .indexError ∧
    exZoneWrite (exRuled ⟨[], [exTexted "RRULE:FREQ=YEARLY\nX"], [], []⟩) = some .assertionError ∧
    exZoneWrite (exRuled ⟨[exTexted "FREQ=YEARLY"], [], [], []⟩) = some .parseError ∧
    exZoneWrite (exRuled ⟨[], [], [exOnset, { exOnset with tz := some (.zone 2) }], []⟩) = some .typeError ∧
    exZoneWrite (exRuled ⟨[], [], [], [{ exOnset with tz := some (.zone 7) }]⟩) = some .valueError ∧
    exZoneWrite (exRuled ⟨[], [], [{ exOnset with tz := some (.zone 1) }], []⟩) = some .attributeError ∧
    exZoneWrite (exRuled ⟨[], [], [{ exOnset with tz := some (.zone 2) }], []⟩) = none ∧
    exZoneWrite { exTz with extraParams := [("TZID".toList, .many [exSome])] } = some .attributeError ∧
    exZoneWrite { exTz with extraParams := [("TZURL".toList, .many [exSome])] } = none ∧
    exZoneWrite { exTz with extraParams := [("OBSERVANCES".toList, .one exSome)] } = some .valueError ∧
    exZoneWrite { exTz with lastModified := some ⟨0, false, some (.zone 7)⟩ } = some .valueError := by
  decide +kernel

/-- Two dates that are equal but not the same: of these only the first is written, so that the zone of the second does no
harm. -/
theorem C84_equal_dates :
    exZoneWrite (exRuled ⟨[], [], [{ exOnset with tz := some (.zone 2) }, ⟨exOnset.wall + exHour, false, some (.zone 1)⟩], []⟩) =
      none ∧
    exNameless.eq { exOnset with tz := some (.zone 2) } ⟨exOnset.wall + exHour, false, some (.zone 1)⟩ = true ∧
    exZoneWrite (exRuled ⟨[], [], [⟨exOnset.wall + exHour, false, some (.zone 1)⟩, { exOnset with tz := some (.zone 2) }], []⟩) =
      some .attributeError := by
  decide +kernel

/-- The zone of the examples meets the condition on dates. -/
example : ∀ o ∈ exTz.observances, OnceEach exLib o.rules.rdate ∧ OnceEach exLib o.rules.exdate := by
  unfold OnceEach
  decide

/-- Its text is read, and the condition on UTC holds. -/
example : exLib.isUtc exLib.icsUtc = true ∧
    (loadTimezone exLib .none exRules (exObserved [("TZOFFSETFROM", "+0100"), ("TZOFFSETTO", "+0200"),
      ("RDATE", "19700101T000000")])).toOption.isSome = true := by
  decide +kernel

end Ics
