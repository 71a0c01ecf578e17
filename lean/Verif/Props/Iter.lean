import Verif.Proofs.Iter
import Verif.Props.CalendarText

/-
C69: a calendar line by line.
-/
namespace Ics

/-- C69: the lines put together are the text, for every text. -/
theorem C69_join (txt : Str) : (splitKeep [] txt).flatten = txt := splitKeep_flatten txt []

/-- C69: there are line ends only at the end of lines; only the last line may have none. -/
theorem C69_lines (txt : Str) : ∃ ls last, splitKeep [] txt = ls ++ last ∧
    (∀ l ∈ ls, ∃ t e, l = t ++ e ∧ OneLine t ∧ LineEnd e) ∧ (last = [] ∨ ∃ t, last = [t] ∧ t ≠ [] ∧ OneLine t) :=
  splitKeep_lines txt [] nofun

/-- C69: the lines of a calendar are those of its text; the first is `BEGIN:VCALENDAR` and the last is
`END:VCALENDAR`, which has no line end. -/
theorem C69_calendar (L : Lib) (w : Wrap) (o : CalObj) (ls : List Str) (hn : o.extraName = "VCALENDAR".toList)
    (h : calendarLines L w o = .ok ls) :
    serializeCalendar L w o = .ok ls.flatten ∧
      ∃ mid, ls = "BEGIN:VCALENDAR\r\n".toList :: mid ++ ["END:VCALENDAR".toList] := by
  unfold calendarLines at h
  simp only [bind, Except.bind] at h
  split at h
  · cases h
  · rename_i txt ht
    cases h
    rw [C69_join]
    refine ⟨ht, ?_⟩
    unfold serializeCalendar dumpCalendar at ht
    simp only [bind_ok_iff] at ht
    obtain ⟨i, ⟨⟨a, st⟩, _, ⟨b, st'⟩, _, zones, _, hi⟩, ht⟩ := ht
    cases hi
    rw [hn] at ht
    simp only [serContainer, bind_ok_iff] at ht
    obtain ⟨body, hb, ht⟩ := ht
    cases ht
    have hend : splitKeep [] "END:VCALENDAR".toList = ["END:VCALENDAR".toList] := by decide +kernel
    have e : ∀ rest : Str, splitKeep [] ("BEGIN:".toList ++ "VCALENDAR".toList ++ crlf ++ rest) =
        "BEGIN:VCALENDAR\r\n".toList :: splitKeep [] rest := by
      intro rest
      have := splitKeep_append_lf "BEGIN:VCALENDAR\r".toList [] rest
      rw [show "BEGIN:".toList ++ "VCALENDAR".toList ++ crlf ++ rest = "BEGIN:VCALENDAR\r".toList ++ '\n' :: rest from rfl, this,
        show splitKeep [] ("BEGIN:VCALENDAR\r".toList ++ ['\n']) = ["BEGIN:VCALENDAR\r\n".toList] by decide +kernel]
      rfl
    rw [show "BEGIN:".toList ++ "VCALENDAR".toList ++ crlf ++ body ++ "END:".toList ++ "VCALENDAR".toList ++
        (if false = true then crlf else []) = "BEGIN:".toList ++ "VCALENDAR".toList ++ crlf ++ (body ++ "END:VCALENDAR".toList) by
      simp, e]
    rcases serItems_end w _ body hb with rfl | ⟨s, rfl⟩
    · refine ⟨[], ?_⟩
      rw [List.nil_append, hend]
      rfl
    · refine ⟨splitKeep [] (s ++ ['\n']), ?_⟩
      rw [List.append_assoc, show ['\n'] ++ "END:VCALENDAR".toList = '\n' :: "END:VCALENDAR".toList from rfl,
        splitKeep_append_lf, hend]
      rfl

/-- C69: reading the lines is the same as reading the text, if the text has no characters that end a line for
Python only.

Missing for the full claim: texts with such characters, see `C69_fails`. -/
theorem C69_read_partial (L : Lib) (txt : Str) (h : ∀ c ∈ txt, ¬OtherLineEnd c) :
    linesToContainers (splitKeep [] txt) = stringToContainers txt ∧
      calendarOfLines L (splitKeep [] txt) = calendarOfString L txt := by
  refine ⟨splitKeep_parse txt h, ?_⟩
  unfold calendarOfLines calendarOfString
  rw [splitKeep_parse txt h]

/-- C69: a calendar is read back from its lines as the same calendar.

Missing for the full claim: calendars whose text has characters that end a line for Python only. -/
theorem C69_roundtrip_partial (L : Lib) (hU : UtcOk L) (zs : List (Str × Nat)) (o : CalObj) (h : RepCalendar L zs o)
    (hz : ∀ n z, dictGet? zs n = some z → ZoneTrip L z) (ho : WritableCalendar L o)
    (w : Wrap) (hw : match w with | .none => True | .width _ W => 1 ≤ W)
    (hc : ∀ txt, serializeCalendar L w o = .ok txt → ∀ c ∈ txt, ¬OtherLineEnd c) :
    ∃ ls o', calendarLines L w o = .ok ls ∧ calendarOfLines L ls = .ok o' ∧
      SameCalendar L (unquoteCalendar o) (unquoteCalendar o') := by
  obtain ⟨txt, o', h1, h2, h3⟩ := C57_roundtrip L hU zs o h hz ho w hw
  refine ⟨splitKeep [] txt, o', ?_, ?_, h3⟩
  · unfold calendarLines
    rw [h1]
    rfl
  · rw [(C69_read_partial L txt (hc txt h1)).2, h2]

/-- A calendar whose `PRODID` has the character NEL in it. -/
def exNelCal : CalObj where
  cls := .calendar
  attrs := [("version".toList, .one (.text "2.0".toList)), ("prodid".toList, .one (.text "a\u0085b".toList)),
    ("events".toList, .many []), ("todos".toList, .many [])]
  extraName := "VCALENDAR".toList
  extra := []
  extraParams := []

/-- C69 is false for a calendar with the character NEL in its `PRODID`: it can be read from its text, but not from
its lines. -/
theorem C69_fails : ∃ txt ls o', serializeCalendar exLib .none exNelCal = .ok txt ∧ calendarOfString exLib txt = .ok o' ∧
    calendarLines exLib .none exNelCal = .ok ls ∧ calendarOfLines exLib ls = .error .parseError := by
  have h : (serializeCalendar exLib .none exNelCal).toOption.map (fun txt => ((calendarOfString exLib txt).toOption.isSome,
      (calendarOfLines exLib (splitKeep [] txt)).toOption.isNone,
      match calendarOfLines exLib (splitKeep [] txt) with | .error e => some e | .ok _ => none)) =
      some (true, true, some .parseError) := by decide +kernel
  cases ht : serializeCalendar exLib .none exNelCal with
  | error e =>
    rw [ht] at h
    cases h
  | ok txt =>
    rw [ht] at h
    have h := Option.some.inj h
    dsimp only at h
    cases ho : calendarOfString exLib txt with
    | error e =>
      rw [ho] at h
      cases h
    | ok o' =>
      refine ⟨txt, splitKeep [] txt, o', rfl, ho, ?_, ?_⟩
      · unfold calendarLines
        rw [ht]
        rfl
      · have h := congrArg (fun x => x.2.2) h
        dsimp only at h
        split at h
        · rename_i e he
          rw [he, Option.some.inj h]
        · cases h

/-- `str(calendar)` has the numbers of events and todos, with a plural unless there is exactly one. -/
theorem C69_str (o : CalObj) (es ts : List (Val EntryObj)) (he : o.get "events".toList = .many es) (ht : o.get "todos".toList = .many ts) :
    calendarStr o = "<Calendar with ".toList ++ natStr es.length ++ (if es.length = 1 then " event".toList else " events".toList) ++
      " and ".toList ++ natStr ts.length ++ (if ts.length = 1 then " todo>".toList else " todos>".toList) := by
  unfold calendarStr countOf lenOf
  rw [he, ht]
  dsimp only
  split <;> split <;> simp

/-! ### Examples -/

/-- The lines of a text. -/
example : splitKeep [] "A:1\r\nB:2\n\nC:3\rD:4".toList =
    ["A:1\r\n".toList, "B:2\n".toList, "\n".toList, "C:3\r".toList, "D:4".toList] := by decide +kernel

/-- The hypotheses of `C69_roundtrip_partial` can be met. -/
example : RepCalendar exLib [("X/Y".toList, 1)] exCalRep ∧ WritableCalendar exLib exCalRep ∧
    ∀ txt, serializeCalendar exLib .none exCalRep = .ok txt → ∀ c ∈ txt, ¬OtherLineEnd c := by
  refine ⟨exCalRep_rep, exCalRep_writable, fun txt h => ?_⟩
  have e : (serializeCalendar exLib .none exCalRep).toOption.map (fun txt => txt.all fun c => !decide (OtherLineEnd c)) = some true := by
    decide +kernel
  rw [h] at e
  intro c hc
  have := List.all_eq_true.1 (Option.some.inj e) c hc
  simpa using this

/-- `str` of a calendar. -/
example : String.ofList (calendarStr exCalRep) = "<Calendar with 2 events and 1 todo>" := by decide +kernel

end Ics
