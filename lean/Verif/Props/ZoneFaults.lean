import Verif.Proofs.ZoneFaults
import Verif.Props.Faults
import Verif.Props.Vtimezone

/-
C81: which exceptions come out of reading a VTIMEZONE, and what one that is accepted has.
-/
namespace Ics

/-- **C81** Whatever the items of a VTIMEZONE are, whatever the library `rrulestr` does and however lines are wrapped: if
reading it raises an exception, one of the listed faults is the reason. -/
theorem C81_faults (L : Lib) (w : Wrap) (hw : w.ok) (R : RRuleStr) (items : List Item) (e : PyErr)
    (h : loadTimezone L w R items = .error e) : ZoneFault L w R items e := loadTimezone_raises hw L R items e h

/-- C81: a VTIMEZONE that is accepted has exactly one name, no component in place of a property or the reverse, and every
observance of it says when it begins and has each of the two offsets exactly once. -/
theorem C81_accepted (L : Lib) (w : Wrap) (R : RRuleStr) (items : List Item) (z : TzObj)
    (h : loadTimezone L w R items = .ok z) : FineZone items := loadTimezone_fine h

/-- C81: sorting the dates of an observance raises exactly if some have a zone and some have not. -/
theorem C81_dates (e : Env) (l : List DT) :
    (∃ m, normDates e l = .ok m) ∨ (normDates e l = .error .typeError ∧ MixedZones l) := by
  cases h : normDates e l with
  | ok m => exact .inl ⟨m, rfl⟩
  | error x =>
    obtain ⟨rfl, h2⟩ := normDates_raises e l x h
    exact .inr ⟨rfl, h2⟩

/-- C81, the converse of `C81_dates`. -/
theorem C81_dates_mixed (e : Env) (l : List DT) (h : MixedZones l) : normDates e l = .error .typeError := by
  rcases C81_dates e l with h1 | h1
  · exact absurd h ((normDates_iff e l).1 h1)
  · exact h1.1

/-- The exceptions that an observance can raise of its own. -/
theorem ObsFault.errors {w : Wrap} {R : RRuleStr} {items : List Item} {e : PyErr} (h : ObsFault w R items e) :
    e ∈ [PyErr.valueError, .typeError, .assertionError, .keyError] ∨ ∃ text zones, R text zones = .error e := by
  cases h with
  | kind => exact .inl (by simp)
  | noRules => exact .inl (by simp)
  | rules _ h => exact .inr ⟨_, _, h⟩
  | mixed => exact .inl (by simp)
  | value => exact .inl (by simp)

/-- C81 together with C80: the exceptions of reading a text as a calendar if its time zones are read like this: besides those
of C80 only `KeyError`, and what `rrulestr` raises. -/
theorem C81_calendar (L : Lib) (w : Wrap) (hw : w.ok) (R : RRuleStr)
    (hz : ∀ is e, L.tzLoad is = .error e → loadTimezone L w R is = .error e) (txt : Str) (e : PyErr)
    (h : calendarOfString L txt = .error e) :
    e ∈ [PyErr.parseError, .valueError, .indexError, .typeError, .overflowError, .assertionError, .attributeError,
      .keyError] ∨ ∃ text zones, R text zones = .error e := by
  rcases C80_errors L txt e h with h1 | ⟨items, zone, -, -, h1⟩
  · refine .inl ?_
    simp only [List.mem_cons] at h1 ⊢
    tauto
  · have := C81_faults L w hw R zone e (hz zone e h1)
    cases this with
    | kindLine => exact .inl (by simp)
    | kind => exact .inl (by simp)
    | empty => exact .inl (by simp)
    | stamp => exact .inl (by simp)
    | observance _ _ ho =>
      rcases ho.errors with h2 | h2
      · refine .inl ?_
        simp only [List.mem_cons, List.not_mem_nil, or_false] at h2 ⊢
        tauto
      · exact .inr h2
    | value => exact .inl (by simp)

/-! ### Witnesses -/

/-- A VTIMEZONE with an observance of these lines. -/
def exObserved (lines : List (String × String)) : List Item :=
  [exLine "TZID" "X", .cont "STANDARD".toList (lines.map fun p => exLine p.1 p.2)]

/-- What `rrulestr` makes of two texts. -/
def exRules : RRuleStr := fun text _ =>
  if text = "RDATE:19700101T000000\r\n".toList then .ok ⟨[], [], [exOnset], []⟩
  else if text = "RDATE:19700101T000000\r\nRDATE:19700102T000000Z\r\n".toList then
    .ok ⟨[], [], [exOnset, { exOnset with tz := some (.zone 2) }], []⟩
  else .error .valueError

/-- The exception of reading a VTIMEZONE. -/
def exZoneRaised (items : List Item) : Option PyErr :=
  match loadTimezone exLib .none exRules items with
  | .error e => some e
  | .ok _ => none

/-- C81: each of the exceptions comes out of some VTIMEZONE; in particular an observance without any of DTSTART, RRULE, RDATE
is a `KeyError`. -/
theorem C81_occur :
    exZoneRaised (exObserved [("TZOFFSETFROM", "+0100"), ("TZOFFSETTO", "+0200"), ("RDATE", "19700101T000000")]) = none ∧
    exZoneRaised (exObserved [("TZOFFSETFROM", "+0100"), ("TZOFFSETTO", "+0200")]) = some .keyError ∧
    exZoneRaised (exObserved [("TZOFFSETFROM", "+0100"), ("RDATE", "19700101T000000")]) = some .valueError ∧
    exZoneRaised (exObserved [("TZOFFSETFROM", "+0100"), ("TZOFFSETTO", "+0200"), ("RRULE", "x")]) = some .valueError ∧
    exZoneRaised (exObserved [("TZOFFSETFROM", "+0100"), ("TZOFFSETTO", "+0200"), ("RDATE", "19700101T000000"),
      ("RDATE", "19700102T000000Z")]) = some .typeError ∧
    exZoneRaised [exLine "TZID" "X", exLine "LAST-MODIFIED" ""] = some .indexError ∧
    exZoneRaised [exLine "TZID" "X", exLine "STANDARD" "x"] = some .assertionError ∧
    exZoneRaised [.cont "TZID".toList []] = some .assertionError ∧
    exZoneRaised [.cont "STANDARD".toList [.cont "RRULE".toList []]] = some .assertionError ∧
    exZoneRaised [exLine "TZID" "X"] = none := by
  decide +kernel

/-- The example library with these time zones. -/
def exFaultLib : Lib := { exLib with tzLoad := fun is => (loadTimezone exLib .none exRules is).map fun _ => 1 }

theorem exFaultLib_populate (is : List Item) (st : TzState) :
    populateTz exFaultLib .none exRules is st = populateTz exLib .none exRules is st := by
  induction is generalizing st with
  | nil => rfl
  | cons i is ih =>
    unfold populateTz
    have : populateTzItem exFaultLib .none exRules i st = populateTzItem exLib .none exRules i st := by
      cases i <;> rfl
    rw [this]
    exact congrArg _ (funext fun st => ih st)

/-- C81: so a calendar with such a time zone is a `KeyError`. -/
theorem C81_calendar_occur :
    (match calendarOfString exFaultLib ("BEGIN:VCALENDAR\r\nVERSION:2.0\r\nPRODID:x\r\nBEGIN:VTIMEZONE\r\nTZID:X\r\n" ++
      "BEGIN:STANDARD\r\nTZOFFSETFROM:+0100\r\nTZOFFSETTO:+0200\r\nEND:STANDARD\r\nEND:VTIMEZONE\r\nEND:VCALENDAR").toList with
      | .error e => some e
      | .ok _ => none) = some .keyError := by
  decide +kernel

example (is : List Item) (e : PyErr) (h : exFaultLib.tzLoad is = .error e) :
    loadTimezone exFaultLib .none exRules is = .error e := by
  have : loadTimezone exFaultLib .none exRules is = loadTimezone exLib .none exRules is := by
    unfold loadTimezone
    rw [exFaultLib_populate]
    rfl
  rw [this]
  have h' : (loadTimezone exLib .none exRules is).map (fun _ => 1) = .error e := h
  cases hl : loadTimezone exLib .none exRules is with
  | ok z => rw [hl] at h'; cases h'
  | error x => rw [hl] at h'; injection h' with h'; rw [h']

example : Wrap.none.ok ∧ ∀ ch, (Wrap.width ch 75).ok := ⟨trivial, fun _ => by show 1 ≤ 75; decide⟩

example : MixedZones [exOnset, { exOnset with tz := some (.zone 2) }] :=
  ⟨⟨{ exOnset with tz := some (.zone 2) }, by simp, rfl⟩, exOnset, by simp, rfl⟩

end Ics
