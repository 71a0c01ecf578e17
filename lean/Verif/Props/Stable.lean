import Verif.Proofs.StableText
import Verif.Props.Accepted

/-
C66: writing is stable: what was written and read is written as the same text again.
-/
namespace Ics

/-- C66: the round trip theorems say that what is read is the *same* component (`SameEntry`, `SameCalendar`), not
that it is an equal one.  The same components are written as the same items. -/
theorem C66_same (L : Lib) (zs : List (Str × Nat)) :
    (∀ a b, RepEntry L zs a → SameEntry L a b → ∀ st, dumpEntry L b st = dumpEntry L a st) ∧
    (∀ a b, RepCalendar L zs a → SameCalendar L a b → dumpCalendar L b = dumpCalendar L a) :=
  ⟨fun _ _ ha h st => (dumpEntry_same h ha st).symm, fun _ _ ha h => (dumpCalendar_same h ha).symm⟩

/-- C66 for one event or todo: what any reader that knows the zones reads of a representable event or todo is
written as the same items again. -/
theorem C66_entry (L : Lib) (hU : UtcOk L) (zs : List (Str × Nat)) (o : EntryObj) (h : RepEntry L zs o) :
    ∃ items used, dumpEntry L o { ctx := some [] } = .ok (.cont o.cls.icsName items, { ctx := some used }) ∧
      ∀ zones, (∀ n z, dictGet? used n = some z → Knows L zones n z) →
        ∃ o' ctx', loadEntry L o.cls items (some zones) = .ok (o', ctx') ∧
          dumpEntry L o' { ctx := some [] } = .ok (.cont o.cls.icsName items, { ctx := some used }) := by
  obtain ⟨items, used, h1, _, h3⟩ := C41_roundtrip_partial L hU zs o h
  refine ⟨items, used, h1, fun zones hz => ?_⟩
  obtain ⟨o', ctx', h4, h5⟩ := h3 zones hz
  exact ⟨o', ctx', h4, ((C66_same L zs).1 o o' h h5 _).trans h1⟩

/-- C66 for calendars: what is read from the container that was written for a representable calendar is written as
the same container. -/
theorem C66_calendar (L : Lib) (hU : UtcOk L) (zs : List (Str × Nat)) (o : CalObj) (h : RepCalendar L zs o)
    (hz : ∀ n z, dictGet? zs n = some z →
      ∃ is, L.tzDump z = .ok (.cont "VTIMEZONE".toList is) ∧ L.tzLoad is = .ok z) :
    ∃ i o', dumpCalendar L o = .ok i ∧ loadCalendarItem L i = .ok o' ∧ dumpCalendar L o' = .ok i := by
  obtain ⟨i, o', h1, h2, h3⟩ := C56_roundtrip L hU zs o h hz
  exact ⟨i, o', h1, h2, ((C66_same L zs).2 o o' h h3).trans h1⟩

/-- C66 for texts: what `Calendar` reads from the text of a representable calendar is written as the same text,
whatever the line wrapping was and is. -/
theorem C66_text (L : Lib) (hU : UtcOk L) (zs : List (Str × Nat)) (o : CalObj) (h : RepCalendar L zs o)
    (hz : ∀ n z, dictGet? zs n = some z → ZoneTrip L z) (ho : WritableCalendar L o)
    (w : Wrap) (hw : match w with | .none => True | .width _ W => 1 ≤ W) :
    ∃ txt o', serializeCalendar L w o = .ok txt ∧ calendarOfString L txt = .ok o' ∧
      ∀ w', serializeCalendar L w' o' = serializeCalendar L w' o :=
  cal_stable hU h hz ho w hw

/-- C66 for accepted texts: for every text that `Calendar(text)` accepts, if its lines and the values that were read
are safe (as in C65), what is written for it is a fixed point: reading it and writing it again gives exactly the
same text. -/
theorem C66_accepted (L : Lib) (hU : UtcOk L) (hW : WholeOffsets L) (hL : WritableLib L) (txt : Str) (o : CalObj)
    (h : calendarOfString L txt = .ok o)
    (hl : ∀ is, stringToContainers txt = Gen.done [.cont "VCALENDAR".toList is] → SafeCalendarItems is)
    (zs : List (Str × Nat)) (ho : SafeCalendar L zs o) (hz : ∀ n z, dictGet? zs n = some z → ZoneTrip L z)
    (w : Wrap) (hw : match w with | .none => True | .width _ W => 1 ≤ W) :
    ∃ txt' o', serializeCalendar L w o = .ok txt' ∧ calendarOfString L txt' = .ok o' ∧
      serializeCalendar L w o' = .ok txt' := by
  obtain ⟨is, h1, h2⟩ := C58_one L txt o h
  have hi : WritableTree (.cont "VCALENDAR".toList is) :=
    item_good (txt := txt) (by rw [h1]; exact List.mem_singleton_self _) fun cl => nofun
  rw [WritableTree] at hi
  have hs := hl is h1
  obtain ⟨txt', o', k1, k2, k3⟩ := cal_stable hU (calendar_rep hU hW h2 hs ho) hz (calendar_writable hL hi.2 h2 hs) w hw
  exact ⟨txt', o', k1, k2, (k3 w).trans k1⟩

/-! ### Examples -/

/-- `C66_text` and `C66_calendar` apply to the calendar of `Props.CalendarText`, `C66_entry` to the event of
`Props.RoundTrip`. -/
example : RepCalendar exLib [("X/Y".toList, 1)] exCalRep ∧ WritableCalendar exLib exCalRep ∧
    (∀ n z, dictGet? [("X/Y".toList, 1)] n = some z → ZoneTrip exLib z) ∧
    RepEntry exLib [("X/Y".toList, 1)] exEventObj :=
  ⟨exCalRep_rep, exCalRep_writable, exZoneTrip, exEventObj_rep⟩

/-- `C66_accepted` applies to the text of `Props.Accepted`. -/
example : ∃ o txt' o', calendarOfString exLib exText = .ok o ∧ serializeCalendar exLib (.width .chars 75) o = .ok txt' ∧
    calendarOfString exLib txt' = .ok o' ∧ serializeCalendar exLib (.width .chars 75) o' = .ok txt' := by
  obtain ⟨o, h1, h2⟩ := exText_accepted
  have hl : ∀ is, stringToContainers exText = Gen.done [.cont "VCALENDAR".toList is] → SafeCalendarItems is := by
    intro is h
    rw [exText_items] at h
    injection h with h
    injection h with h
    injection h with _ h
    exact h ▸ exTextItems_safe
  obtain ⟨txt', o', h3, h4, h5⟩ := C66_accepted exLib exLib_utc exLib_whole exLib_writable exText o h1 hl _ h2 exZoneTrip
    (.width .chars 75) (by decide)
  exact ⟨o, txt', o', h1, h3, h4, h5⟩

end Ics
