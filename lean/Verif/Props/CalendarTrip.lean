import Verif.Proofs.RtCal
import Verif.Props.RoundTrip

/-
C56: a calendar that is written and read again is the same.
-/
namespace Ics

/-- C56: every calendar with representable events and todos can be written, and reading what was written
gives the same calendar: the same version, product id and method, the same events and todos in the same
order, the same lines that are not understood.  The reader needs to know nothing but what was written: the
time zones are read from the VTIMEZONEs, provided that a VTIMEZONE that is written for a zone is read as
that zone. -/
theorem C56_roundtrip (L : Lib) (hU : UtcOk L) (zs : List (Str × Nat)) (o : CalObj) (h : RepCalendar L zs o)
    (hz : ∀ n z, dictGet? zs n = some z →
      ∃ is, L.tzDump z = .ok (.cont "VTIMEZONE".toList is) ∧ L.tzLoad is = .ok z) :
    ∃ i o', dumpCalendar L o = .ok i ∧ loadCalendarItem L i = .ok o' ∧ SameCalendar L o o' := by
  obtain ⟨items, o', h1, h2, h3, _⟩ := rt_calendar hU h hz
  refine ⟨_, o', h1, ?_, h3⟩
  have : (if "VCALENDAR".toList = "VCALENDAR".toList then loadCalendar L items else .error .valueError) = .ok o' := by
    rw [if_pos rfl]
    exact h2
  exact this

/-! ### A calendar that meets the hypotheses -/

/-- A todo that was completed in the zone `X/Y` and is due at a floating time. -/
def exTodoObj : EntryObj where
  cls := .todo
  attrs :=
    [("timespan".toList, .one (.span { cls := .todo, end? := some ⟨63844810662000000, false, none⟩ })),
      ("uid".toList, .one (.text "t1".toList)),
      ("dtstamp".toList, .one (.dt ⟨63844810662000000, false, some (.zone 2)⟩)),
      ("completed".toList, .one (.dt exStart)), ("priority".toList, .one (.int 9)),
      ("alarms".toList, .many []), ("attach".toList, .many [])]
  extraName := "VTODO".toList
  extra := []
  extraParams := [("DUE".toList, .one [("X-P".toList, [⟨false, "v".toList⟩])])]

theorem exTodoObj_rep : RepEntry exLib [("X/Y".toList, 1)] exTodoObj := by
  refine ⟨by decide, ⟨by decide, rfl, by decide, ?_, ?_, ?_, ?_, ?_⟩⟩
  · intro s hs hm
    have hs : Conv.value s ∈ Cls.todo.convs := hs
    simp only [Cls.convs, entryConvs, attr1, attrN, List.cons_append, List.nil_append, List.mem_cons, List.not_mem_nil,
      or_false, Conv.value.injEq, reduceCtorEq, false_or] at hs
    rcases hs with rfl | rfl | rfl | rfl | rfl | rfl | rfl | rfl | rfl | rfl | rfl | rfl | rfl
    · exact ⟨rfl, by decide⟩
    · exact ⟨.text, rfl, trivial, rfl, trivial, nofun⟩
    · exact ⟨rfl, by decide⟩
    · exact ⟨rfl, by decide⟩
    · exact ⟨rfl, by decide⟩
    · exact ⟨rfl, by decide⟩
    · exact ⟨rfl, by decide⟩
    · exact ⟨rfl, by decide⟩
    · refine ⟨.datetime, rfl, ?_, by rfl, trivial, nofun⟩
      exact ⟨by decide, rfl, by decide, by decide, .inr (by decide), .inl (by decide)⟩
    · cases hm
    · exact ⟨rfl, by decide⟩
    · exact ⟨.integer, rfl, (by decide +kernel : (9 : Int).natAbs < 10 ^ 4300), rfl, trivial, nofun⟩
    · refine ⟨.datetime, rfl, ?_, by rfl, trivial, nofun⟩
      exact ⟨by decide, rfl, by decide, by decide, .inr (by decide), .inr ⟨rfl, by decide, rfl⟩⟩
  · intro s hs hm
    have hs : Conv.value s ∈ Cls.todo.convs := hs
    simp only [Cls.convs, entryConvs, attr1, attrN, List.cons_append, List.nil_append, List.mem_cons, List.not_mem_nil,
      or_false, Conv.value.injEq, reduceCtorEq, false_or] at hs
    rcases hs with rfl | rfl | rfl | rfl | rfl | rfl | rfl | rfl | rfl | rfl | rfl | rfl | rfl <;>
      first | cases hm | skip
    exact ⟨[], by simp, rfl, .inl ⟨rfl, by simp⟩⟩
  · intro a n hs
    have hs : Conv.member a n ∈ Cls.todo.convs := hs
    simp only [Cls.convs, entryConvs, attr1, attrN, List.cons_append, List.nil_append, List.mem_cons, List.not_mem_nil,
      or_false, Conv.member.injEq, reduceCtorEq, false_or] at hs
    obtain ⟨rfl, rfl⟩ := hs
    exact ⟨rfl, [], rfl, nofun⟩
  · intro _
    refine ⟨{ cls := .todo, end? := some ⟨63844810662000000, false, none⟩ }, rfl, rfl, by decide, .inl ⟨.inr rfl, .inr rfl⟩,
      nofun, ?_, nofun, ⟨trivial, fun _ => rfl⟩, ⟨rfl, rfl⟩, ⟨⟨by decide, by decide⟩, ?_⟩, ⟨trivial, fun _ => rfl⟩⟩
    · intro d h
      cases h
      exact ⟨by decide, rfl, by decide, by decide, .inr (by decide), trivial⟩
    · rintro (h | h)
      · cases h
      · exact absurd rfl h
  · intro h
    exact absurd h (by decide)

/-- A calendar with an event and a todo. -/
def exCalRep : CalObj where
  cls := .calendar
  attrs :=
    [("version".toList, .one (.text "2.0".toList)), ("prodid".toList, .one (.text "me".toList)),
      ("events".toList, .many [.comp exEventObj, .comp exEventObj]), ("todos".toList, .many [.comp exTodoObj])]
  extraName := "VCALENDAR".toList
  extra := [exLine "X-D" "1", exLine "VTIMEZONE" "not a container"]
  extraParams := []

theorem exCalRep_rep : RepCalendar exLib [("X/Y".toList, 1)] exCalRep := by
  refine ⟨by decide, ⟨by decide, rfl, by decide, ?_, ?_, ?_, ?_, ?_⟩⟩
  · intro s hs hm
    have hs : Conv.value s ∈ Cls.calendar.convs := hs
    simp only [Cls.convs, attr1, List.mem_cons, List.not_mem_nil, or_false, Conv.value.injEq, reduceCtorEq, false_or] at hs
    rcases hs with rfl | rfl | rfl | rfl
    · exact ⟨.text, rfl, trivial, rfl, trivial, nofun⟩
    · exact ⟨.text, rfl, trivial, rfl, trivial, nofun⟩
    · exact ⟨rfl, by decide⟩
    · exact ⟨rfl, by decide⟩
  · intro s hs hm
    have hs : Conv.value s ∈ Cls.calendar.convs := hs
    simp only [Cls.convs, attr1, List.mem_cons, List.not_mem_nil, or_false, Conv.value.injEq, reduceCtorEq, false_or] at hs
    rcases hs with rfl | rfl | rfl | rfl <;> cases hm
  · intro a n hs
    rcases cal_members _ (show Conv.member a n ∈ Cls.calendar.convs from hs) a n rfl with ⟨rfl, rfl⟩ | ⟨rfl, rfl⟩
    · refine ⟨rfl, [exEventObj, exEventObj], rfl, fun m hm => ?_⟩
      have : m = exEventObj := by
        rcases List.mem_cons.1 hm with h | h
        · exact h
        · exact List.mem_singleton.1 h
      subst this
      exact ⟨exEventObj_rep, rfl⟩
    · refine ⟨rfl, [exTodoObj], rfl, fun m hm => ?_⟩
      obtain rfl := List.mem_singleton.1 hm
      exact ⟨exTodoObj_rep, rfl⟩
  · intro h
    exact absurd h (by decide)
  · intro h
    exact absurd h (by decide)

/-- The hypotheses of `C56_roundtrip` are met by the calendar. -/
example : UtcOk exLib ∧ RepCalendar exLib [("X/Y".toList, 1)] exCalRep ∧
    ∀ n z, dictGet? [("X/Y".toList, 1)] n = some z →
      ∃ is, exLib.tzDump z = .ok (.cont "VTIMEZONE".toList is) ∧ exLib.tzLoad is = .ok z := by
  refine ⟨exLib_utc, exCalRep_rep, fun n z h => ?_⟩
  have := mem_of_dictGet h
  rw [List.mem_singleton] at this
  cases this
  exact ⟨_, rfl, rfl⟩

/-- What is written for it. -/
example : (dumpCalendar exLib exCalRep).map (fun i => match i with | .cont _ is => is.map Item.name | .line _ => []) =
    .ok (["VERSION", "PRODID", "VTIMEZONE", "VEVENT", "VEVENT", "VTODO", "X-D", "VTIMEZONE"].map String.toList) := by
  decide +kernel

end Ics
