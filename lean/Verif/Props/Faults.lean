import Verif.Proofs.FaultReject
import Verif.Props.Contentline
import Verif.Props.Component
import Verif.Model.CalendarText

/-
C80: which exceptions can come out of reading a text as a calendar, and why.
-/
namespace Ics

/-- The exceptions of the faults of one component. -/
theorem Fault.errors {L : Lib} {c : Cls} {items : List Item} {e : PyErr} (h : Fault L c items e) :
    e ∈ [PyErr.valueError, .indexError, .typeError, .overflowError, .assertionError, .attributeError] := by
  cases h <;> simp

theorem AlarmFault.errors {L : Lib} {items : List Item} {e : PyErr} (h : AlarmFault L items e) :
    e ∈ [PyErr.valueError, .indexError, .typeError, .overflowError, .assertionError, .attributeError] := by
  cases h with
  | action _ => simp
  | own _ _ _ h => exact h.errors
  | value => simp

theorem EntryFault.errors {L : Lib} {c : Cls} {items : List Item} {e : PyErr} (h : EntryFault L c items e) :
    e ∈ [PyErr.valueError, .indexError, .typeError, .overflowError, .assertionError, .attributeError] := by
  cases h with
  | own h => exact h.errors
  | alarm _ h => exact h.errors

/-- **C80** Whatever the text is: if reading it as a calendar raises an exception, then that is the `ParseError` of a line
that is malformed or of nesting that is wrong, a `ValueError`, or one of the listed faults of the items of the one calendar
of the text is the reason for it. -/
theorem C80_faults (L : Lib) (txt : Str) (e : PyErr) (h : calendarOfString L txt = .error e) :
    (e = .parseError ∧ (stringToContainers txt).err = some .parseError) ∨ e = .valueError ∨
      ∃ items rest, (stringToContainers txt).items = .cont "VCALENDAR".toList items :: rest ∧ CalendarFault L items e := by
  have key : ∀ e', (stringToContainers txt).err = some e' → e' = e →
      (e = .parseError ∧ (stringToContainers txt).err = some .parseError) ∨ e = .valueError := by
    intro e' h1 h2
    subst h2
    rcases C03_document txt e' h1 with h3 | ⟨h3, -⟩
    · exact .inl ⟨h3, by rw [h1, h3]⟩
    · exact .inr h3
  unfold calendarOfString calendarOfItems at h
  cases hi : (stringToContainers txt).items with
  | nil =>
    rw [hi] at h
    simp only at h
    cases he : (stringToContainers txt).err with
    | none => rw [he] at h; injection h with h; exact .inr (.inl h.symm)
    | some e' =>
      rw [he] at h; injection h with h
      rcases key e' he h with h | h
      · rw [he] at h; exact .inl h
      · exact .inr (.inl h)
  | cons i rest =>
    rw [hi] at h
    simp only at h
    cases ho : loadCalendarItem L i with
    | error e' =>
      rw [ho] at h
      injection h with h
      subst h
      unfold loadCalendarItem at ho
      cases i with
      | line cl => injection ho with ho; exact .inr (.inl ho.symm)
      | cont name items =>
        simp only at ho
        by_cases hn : name = "VCALENDAR".toList
        · subst hn
          rw [if_pos rfl] at ho
          exact .inr (.inr ⟨items, rest, rfl, loadCalendar_raises L items _ ho⟩)
        · rw [if_neg hn] at ho
          injection ho with ho; exact .inr (.inl ho.symm)
    | ok o =>
      rw [ho] at h
      cases rest with
      | cons j js => injection h with h; exact .inr (.inl h.symm)
      | nil =>
        cases he : (stringToContainers txt).err with
        | none =>
          rw [he] at h
          injection h
        | some e' =>
          rw [he] at h
          injection h with h
          rcases key e' he h with h | h
          · rw [he] at h; exact .inl h
          · exact .inr (.inl h)

/-- C80: the exceptions that are left.  The library's own zones are the parameter `L`. -/
theorem C80_errors (L : Lib) (txt : Str) (e : PyErr) (h : calendarOfString L txt = .error e) :
    e ∈ [PyErr.parseError, .valueError, .indexError, .typeError, .overflowError, .assertionError, .attributeError] ∨
      ∃ items zone, .cont "VCALENDAR".toList items ∈ (stringToContainers txt).items ∧
        .cont "VTIMEZONE".toList zone ∈ items ∧ L.tzLoad zone = .error e := by
  have up : e ∈ [PyErr.valueError, .indexError, .typeError, .overflowError, .assertionError, .attributeError] →
      e ∈ [PyErr.parseError, .valueError, .indexError, .typeError, .overflowError, .assertionError, .attributeError] :=
    fun h => List.mem_cons_of_mem _ h
  rcases C80_faults L txt e h with ⟨rfl, -⟩ | rfl | ⟨items, rest, hi, hf⟩
  · exact .inl (by simp)
  · exact .inl (by simp)
  · cases hf with
    | own hf => exact .inl (up hf.errors)
    | zone h1 h2 => exact .inr ⟨items, _, by rw [hi]; exact List.mem_cons_self .., h1, h2⟩
    | event _ hf => exact .inl (up hf.errors)
    | todo _ hf => exact .inl (up hf.errors)

/-- C80, the converse: a text whose calendar has one of the faults is not read, except perhaps if only a `ValueError` or
an `OverflowError` is in question. -/
theorem C80_rejects (L : Lib) (txt : Str) (items rest : List Item) (e : PyErr)
    (hi : (stringToContainers txt).items = .cont "VCALENDAR".toList items :: rest) (hf : CalendarFault L items e)
    (hv : e ≠ .valueError) (ho : e ≠ .overflowError) : ∃ e', calendarOfString L txt = .error e' := by
  cases h : calendarOfString L txt with
  | error e' => exact ⟨e', rfl⟩
  | ok o =>
    exfalso
    unfold calendarOfString calendarOfItems at h
    rw [hi] at h
    dsimp only at h
    obtain ⟨o', h1, -⟩ := bind_ok_iff.1 h
    unfold loadCalendarItem at h1
    dsimp only at h1
    rw [if_pos rfl] at h1
    rcases loadCalendar_no_fault h1 hf with h | h
    · exact hv h
    · exact ho h

/-- C80, the converse for `OverflowError`: no event or todo is read that has a duration of more than 999999999 days, or that
is all-day, begins on the last day there is and has an end. -/
theorem C80_overflow (L : Lib) (c : Cls) (hc : c = .event ∨ c = .todo) (items : List Item) (zones : List (Str × Nat))
    (r : EntryObj × Ctx) (h : loadEntry L c items (some zones) = .ok r) :
    (∀ cl v, .line cl ∈ items → cl.name = "DURATION".toList → LooseDuration cl.value v →
      -(999999999 * 86400) ≤ v ∧ v < (999999999 + 1) * 86400) ∧
    (∀ b e, .line b ∈ items → b.name = "DTSTART".toList → IsDate b → LastEnd items e →
      stripped b.value ≠ "99991231".toList) := by
  have hna : Conv.alarmAction ∉ c.convs := by rcases hc with rfl | rfl <;> decide
  refine ⟨fun cl v hi hn hd => ?_, fun b e hi hn hd he =>
    loadObj_no_lastDay (entry_membersOk L items) (noAction hna) h hc hi hn he hd⟩
  have := loadObj_no_duration (entry_membersOk L items) (noAction hna) h hi
    (by rw [hn]; rcases hc with rfl | rfl <;> decide) (fun ⟨h1, _⟩ => by rw [hn] at h1; exact absurd h1 (by decide))
  by_cases hr : -(999999999 * 86400) ≤ v ∧ v < (999999999 + 1) * 86400
  · exact hr
  · exact absurd (.inr ⟨v, hd, by omega⟩) this

/-- C80 for `parse_multiple`: besides, a line outside of all components is a `KeyError`. -/
theorem C80_multiple (L : Lib) (txt : Str) (e : PyErr) (h : parseMultiple L txt = .error e) :
    (e = .parseError ∧ (stringToContainers txt).err = some .parseError) ∨ e = .valueError ∨
      (e = .keyError ∧ ∃ cl, .line cl ∈ (stringToContainers txt).items) ∨
      ∃ items, .cont "VCALENDAR".toList items ∈ (stringToContainers txt).items ∧ CalendarFault L items e := by
  have key : ∀ is : List Item, parseMultipleItems L (stringToContainers txt).err is = .error e →
      (e = .parseError ∧ (stringToContainers txt).err = some .parseError) ∨ e = .valueError ∨
      (e = .keyError ∧ ∃ cl, .line cl ∈ is) ∨
      ∃ items, .cont "VCALENDAR".toList items ∈ is ∧ CalendarFault L items e := by
    intro is
    induction is with
    | nil =>
      intro h
      unfold parseMultipleItems at h
      cases he : (stringToContainers txt).err with
      | none => rw [he] at h; exact absurd h (by simp)
      | some e' =>
        rw [he] at h
        injection h with h
        subst h
        rcases C03_document txt e' he with h3 | ⟨h3, -⟩
        · exact .inl ⟨h3, by rw [h3]⟩
        · exact .inr (.inl h3)
    | cons i is ih =>
      intro h
      unfold parseMultipleItems at h
      cases hi : parseMultipleItem L i with
      | error e' =>
        rw [hi] at h
        injection h with h
        subst h
        unfold parseMultipleItem at hi
        cases i with
        | line cl =>
          injection hi with hi
          exact .inr (.inr (.inl ⟨hi.symm, cl, List.mem_cons_self ..⟩))
        | cont name items =>
          dsimp only at hi
          unfold loadCalendarItem at hi
          dsimp only at hi
          by_cases hn : name = "VCALENDAR".toList
          · subst hn
            rw [if_pos rfl] at hi
            exact .inr (.inr (.inr ⟨items, List.mem_cons_self .., loadCalendar_raises L items _ hi⟩))
          · rw [if_neg hn] at hi
            injection hi with hi
            exact .inr (.inl hi.symm)
      | ok o =>
        rw [hi] at h
        cases hr : parseMultipleItems L (stringToContainers txt).err is with
        | ok os => rw [hr] at h; exact absurd h (by simp [bind, Except.bind])
        | error e' =>
          rw [hr] at h
          injection h with h
          subst h
          rcases ih hr with h | h | ⟨h, cl, hc⟩ | ⟨items, hc, hf⟩
          · exact .inl h
          · exact .inr (.inl h)
          · exact .inr (.inr (.inl ⟨h, cl, List.mem_cons_of_mem _ hc⟩))
          · exact .inr (.inr (.inr ⟨items, List.mem_cons_of_mem _ hc, hf⟩))
  exact key _ h

/-- A calendar with an event of these lines. -/
def exFaulty (lines : String) : Str :=
  "BEGIN:VCALENDAR\r\nVERSION:2.0\r\nPRODID:x\r\nBEGIN:VEVENT\r\n".toList ++ lines.toList ++
    "\r\nEND:VEVENT\r\nEND:VCALENDAR\r\n".toList

/-- The exception of reading a calendar with an event of these lines. -/
def exRaised (lines : String) : Option PyErr :=
  match calendarOfString exLib (exFaulty lines) with
  | .error e => some e
  | .ok _ => none

/-- C80: each of the exceptions comes out of reading some text. -/
theorem C80_occur :
    exRaised "DTSTART" = some .parseError ∧
    exRaised "DTSTART:2024" = some .valueError ∧
    exRaised "DTSTART:" = some .indexError ∧
    exRaised "DTSTART:20240101T000000\r\nDURATION:P1" = some .indexError ∧
    exRaised "DTSTART:20240101T000000\r\nDTEND:20240102T000000Z" = some .typeError ∧
    exRaised "DTSTART:20240101T000000\r\nDURATION:P1000000000D" = some .overflowError ∧
    exRaised "DTSTART;VALUE=DATE:99991231\r\nDTEND;VALUE=DATE:99991231" = some .overflowError ∧
    exRaised "BEGIN:SUMMARY\r\nEND:SUMMARY" = some .assertionError ∧
    exRaised "VALARM:x" = some .assertionError ∧
    exRaised "BEGIN:VALARM\r\nBEGIN:ACTION\r\nEND:ACTION\r\nEND:VALARM" = some .attributeError ∧
    exRaised "DTSTART:20240101T000000\r\nDTEND:20240102T000000" = none := by
  decide +kernel

/-- C80: of two ends the last one counts: with a zone in the first one only, the event is read. -/
theorem C80_last_end :
    exRaised "DTSTART:20240101T000000\r\nDUE:20240102T000000Z\r\nDTEND:20240102T000000" = none ∧
    exRaised "DTSTART:20240101T000000\r\nDTEND:20240102T000000\r\nDUE:20240102T000000Z" = some .typeError := by
  decide +kernel

/-- The items of the event of a text of `C80_occur`. -/
def exMixed : List Item := [exLine "DTSTART" "20240101T000000", exLine "DTEND" "20240102T000000Z"]

/-- The items of its calendar. -/
def exMixedCalendar : List Item := [exLine "VERSION" "2.0", exLine "PRODID" "x", .cont "VEVENT".toList exMixed]

example : (stringToContainers (exFaulty "DTSTART:20240101T000000\r\nDTEND:20240102T000000Z")).items =
      [.cont "VCALENDAR".toList exMixedCalendar] ∧ CalendarFault exLib exMixedCalendar .typeError := by
  refine ⟨by decide +kernel, .event (is := exMixed) (by simp [exMixedCalendar]) (.own ?_)⟩
  refine .mixed (b := ⟨"DTSTART".toList, [], "20240101T000000".toList⟩) (e := ⟨"DTEND".toList, [], "20240102T000000Z".toList⟩)
    (.inl rfl) (by simp [exMixed, exLine]) rfl ⟨.inl rfl, [exLine "DTSTART" "20240101T000000"], [], rfl, by simp⟩
    (by simp [IsDate, dictGet?]) (by simp [IsDate, dictGet?]) ?_
  simp [Zoned, EndsInZ, dictGet?]

end Ics
