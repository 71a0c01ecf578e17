import Verif.Proofs.RtEntry
import Verif.Props.Params

/-
C41: an event or todo that is written and read again is the same.
-/
namespace Ics

theorem exLib_utc : UtcOk exLib where
  ics := by decide
  utc := by decide
  off n w f h := by
    have h : decide (n = 0 ∨ n = 2) = true := h
    have h := of_decide_eq_true h
    show (if n = 1 then _ else _) = (0 : Int)
    rw [if_neg (by omega)]
  fromUtc u := rfl

/-- A whole second of 2024 in the zone `X/Y`. -/
def exStart : DT := ⟨63844810662000000, false, some (.zone 1)⟩

/-- An alarm with a parameter, an unknown line, and characters that need escaping. -/
def exAlarmObj : Alarm where
  cls := .displayAlarm
  attrs := [("trigger".toList, .one (.dur (-300000000))), ("description".toList, .one (.text "Wake; up\n".toList))]
  extraName := "VALARM".toList
  extra := [exLine "X-B" "2"]
  extraParams := [("TRIGGER".toList, .one [("RELATED".toList, [⟨false, "END".toList⟩])])]

/-- The alarm is representable: the hypothesis of `C52_standard` can be met. -/
theorem exAlarmObj_rep (zs : List (Str × Nat)) : RepAlarm exLib zs exAlarmObj := by
  refine ⟨by decide, ⟨by decide, rfl, by decide, ?_, ?_, ?_, ?_, ?_⟩⟩
  · intro s hs hm
    have hs : Conv.value s ∈ Cls.displayAlarm.convs := hs
    simp only [Cls.convs, alarmConvs, attr1, List.cons_append, List.nil_append, List.mem_cons, List.not_mem_nil, or_false,
      Conv.value.injEq, reduceCtorEq, false_or] at hs
    rcases hs with rfl | rfl | rfl | rfl
    · exact ⟨.duration, rfl, ⟨by decide, by decide, by decide⟩, rfl, ⟨by decide, by decide⟩, nofun⟩
    · exact ⟨rfl, by decide⟩
    · exact ⟨rfl, by decide⟩
    · exact ⟨.text, rfl, trivial, rfl, trivial, nofun⟩
  · intro s hs hm
    have hs : Conv.value s ∈ Cls.displayAlarm.convs := hs
    simp only [Cls.convs, alarmConvs, attr1, List.cons_append, List.nil_append, List.mem_cons, List.not_mem_nil, or_false,
      Conv.value.injEq, reduceCtorEq, false_or] at hs
    rcases hs with rfl | rfl | rfl | rfl <;> cases hm
  · intro a n hs
    have hs : Conv.member a n ∈ Cls.displayAlarm.convs := hs
    simp [Cls.convs, alarmConvs, attr1] at hs
  · intro h
    exact absurd h (by decide)
  · intro _
    exact trivial

/-- An event with a start in a named zone, a duration, two attendees, two categories on one line, an
organizer and the alarm. -/
def exEventObj : EntryObj where
  cls := .event
  attrs :=
    [("timespan".toList, .one (.span { cls := .event, begin? := some exStart, dur? := some 3600000000 })),
      ("summary".toList, .one (.text "Party, with cake".toList)), ("uid".toList, .one (.text "u1".toList)),
      ("dtstamp".toList, .one (.dt ⟨63844810662000000, false, some (.zone 2)⟩)),
      ("alarms".toList, .many [.comp exAlarmObj]), ("attach".toList, .many []),
      ("geo".toList, .one (.geo 1 2)),
      ("attendees".toList, .many
        [.person true (.url ⟨"mailto".toList, [], "a@b".toList, [], [], []⟩) [("CN".toList, [⟨true, "A, B".toList⟩])],
          .person true (.url ⟨"mailto".toList, [], "c@d".toList, [], [], []⟩) []]),
      ("categories".toList, .many [.text "x,y".toList, .text "z".toList])]
  extraName := "VEVENT".toList
  extra := [exLine "CLASS" "PRIVATE", .cont "X-C".toList [exLine "SUMMARY" "no"]]
  extraParams :=
    [("SUMMARY".toList, .one [("LANGUAGE".toList, [⟨false, "en".toList⟩])]),
      ("CATEGORIES".toList, .many
        [[(mergeKey, [⟨false, "TRUE".toList⟩])], [(mergeKey, [⟨false, "FALSE".toList⟩])]])]

theorem exEventObj_rep : RepEntry exLib [("X/Y".toList, 1)] exEventObj := by
  refine ⟨by decide, ⟨by decide, rfl, by decide, ?_, ?_, ?_, ?_, ?_⟩⟩
  · intro s hs hm
    have hs : Conv.value s ∈ Cls.event.convs := hs
    simp only [Cls.convs, entryConvs, attr1, attrN, List.cons_append, List.nil_append, List.mem_cons, List.not_mem_nil,
      or_false, Conv.value.injEq, reduceCtorEq, false_or] at hs
    rcases hs with rfl | rfl | rfl | rfl | rfl | rfl | rfl | rfl | rfl | rfl | rfl | rfl | rfl | rfl | rfl | rfl
    · exact ⟨.text, rfl, trivial, rfl, ⟨by decide, by decide⟩, nofun⟩
    · exact ⟨.text, rfl, trivial, rfl, trivial, nofun⟩
    · exact ⟨rfl, by decide⟩
    · exact ⟨rfl, by decide⟩
    · exact ⟨rfl, by decide⟩
    · exact ⟨rfl, by decide⟩
    · exact ⟨rfl, by decide⟩
    · exact ⟨rfl, by decide⟩
    · refine ⟨.datetime, rfl, ?_, by rfl, trivial, nofun⟩
      exact ⟨by decide, rfl, by decide, by decide, .inr (by decide), .inl (by decide)⟩
    · cases hm
    · exact ⟨rfl, by decide⟩
    · exact ⟨rfl, by decide⟩
    · exact ⟨rfl, by decide⟩
    · exact ⟨.geo, rfl, ⟨by decide, by decide, by decide⟩, rfl, trivial, nofun⟩
    · cases hm
    · cases hm
  · intro s hs hm
    have hs : Conv.value s ∈ Cls.event.convs := hs
    simp only [Cls.convs, entryConvs, attr1, attrN, List.cons_append, List.nil_append, List.mem_cons, List.not_mem_nil,
      or_false, Conv.value.injEq, reduceCtorEq, false_or] at hs
    rcases hs with rfl | rfl | rfl | rfl | rfl | rfl | rfl | rfl | rfl | rfl | rfl | rfl | rfl | rfl | rfl | rfl <;>
      first | cases hm | skip
    · exact ⟨[], by simp, rfl, .inl ⟨rfl, by simp⟩⟩
    · refine ⟨[([], [.person true (.url ⟨"mailto".toList, [], "a@b".toList, [], [], []⟩) [("CN".toList, [⟨true, "A, B".toList⟩])]]),
        ([], [.person true (.url ⟨"mailto".toList, [], "c@d".toList, [], [], []⟩) []])], ?_, rfl, .inl ⟨rfl, by simp⟩⟩
      intro g hg
      simp only [List.mem_cons, List.not_mem_nil, or_false] at hg
      rcases hg with rfl | rfl
      · refine ⟨by simp, by simp, by simp, ⟨.attendee, ?_⟩, by simp, ?_⟩
        · intro v hv
          rw [List.mem_singleton] at hv
          subst hv
          exact ⟨rfl, (by decide +kernel : urlparse _ _ = _), by decide, by decide⟩
        · intro a u x hv
          rw [List.mem_singleton] at hv
          cases hv
          exact ⟨by decide, by decide, rfl, rfl⟩
      · refine ⟨by simp, by simp, by simp, ⟨.attendee, ?_⟩, by simp, ?_⟩
        · intro v hv
          rw [List.mem_singleton] at hv
          subst hv
          exact ⟨rfl, (by decide +kernel : urlparse _ _ = _), by decide, by decide⟩
        · intro a u x hv
          rw [List.mem_singleton] at hv
          cases hv
          exact ⟨by decide, by decide, rfl, rfl⟩
    · refine ⟨[([], [.text "x,y".toList, .text "z".toList])], ?_, rfl, .inr ⟨by simp, rfl⟩⟩
      intro g hg
      rw [List.mem_singleton] at hg
      subst hg
      refine ⟨by simp, by simp, by simp, ⟨.text, ?_⟩, by simp, by simp⟩
      intro v hv
      simp only [List.mem_cons, List.not_mem_nil, or_false] at hv
      rcases hv with rfl | rfl
      · exact ⟨rfl, trivial⟩
      · exact ⟨rfl, trivial⟩
  · intro a n hs
    have hs : Conv.member a n ∈ Cls.event.convs := hs
    simp only [Cls.convs, entryConvs, attr1, attrN, List.cons_append, List.nil_append, List.mem_cons, List.not_mem_nil,
      or_false, Conv.member.injEq, reduceCtorEq, false_or] at hs
    obtain ⟨rfl, rfl⟩ := hs
    refine ⟨rfl, [exAlarmObj], rfl, ?_⟩
    intro m hm
    rw [List.mem_singleton] at hm
    subst hm
    exact exAlarmObj_rep _
  · intro _
    refine ⟨{ cls := .event, begin? := some exStart, dur? := some 3600000000 }, rfl, rfl, by decide, .inl ⟨.inl rfl, .inr rfl⟩, ?_,
      nofun, ?_, ⟨trivial, nofun⟩, ⟨rfl, rfl⟩, ⟨trivial, fun _ => rfl⟩, ⟨trivial, nofun⟩⟩
    · intro d h
      cases h
      exact ⟨by decide, rfl, by decide, by decide, .inr (by decide), .inr ⟨rfl, by decide, rfl⟩⟩
    · intro d h
      cases h
      exact ⟨by decide, by decide, by decide⟩
  · intro h
    exact absurd h (by decide)

/-- C41: every representable event (and todo) can be written, and a reader that knows the zones which were
used while writing it, from VTIMEZONEs or by name, reads the same event: the same time span, the same
attributes, the same lists in the same order, the same lines that are not understood, the same parameters,
and the same alarms.

Not covered (`RepEntry`): new events without any time (unlike those that were read), parameters of the end of
an event, lists of mixed parameters that could not have been read; the first three theorems below show that
equality fails for them. -/
theorem C41_roundtrip_partial (L : Lib) (hU : UtcOk L) (zs : List (Str × Nat)) (o : EntryObj) (h : RepEntry L zs o) :
    ∃ items used, dumpEntry L o { ctx := some [] } = .ok (.cont o.cls.icsName items, { ctx := some used }) ∧
      (∀ n z, dictGet? used n = some z → dictGet? zs n = some z) ∧
      ∀ zones, (∀ n z, dictGet? used n = some z → Knows L zones n z) →
        ∃ o' ctx', loadEntry L o.cls items (some zones) = .ok (o', ctx') ∧ SameEntry L o o' := by
  obtain ⟨items, used, h1, _, h2, h3⟩ := rt_entry hU h (avail := []) (fun _ _ e => nomatch e) rfl
  refine ⟨items, used, h1, h2, fun zones hz => ?_⟩
  exact load_known hz (h3 _ (resolve_known hz).1)

/-- The event above can be written and read. -/
example : ∃ items used, dumpEntry exLib exEventObj { ctx := some [] } =
      .ok (.cont "VEVENT".toList items, { ctx := some used }) ∧
    ∃ o' ctx', loadEntry exLib .event items (some used) = .ok (o', ctx') ∧ SameEntry exLib exEventObj o' := by
  obtain ⟨items, used, h1, _, h3⟩ := C41_roundtrip_partial exLib exLib_utc _ _ exEventObj_rep
  exact ⟨items, used, h1, h3 used fun n z h => .inl h⟩

/-- What is written for it. -/
example : (dumpEntry exLib exEventObj { ctx := some [] }).toOption.map (fun r => (r.1, r.2.ctx)) =
    some (.cont "VEVENT".toList
      [exLine "DTSTART" "20240229T133742" [("TZID".toList, [⟨false, "X/Y".toList⟩])], exLine "DURATION" "PT1H",
        exLine "SUMMARY" "Party\\, with cake" [("LANGUAGE".toList, [⟨false, "en".toList⟩])], exLine "UID" "u1",
        exLine "DTSTAMP" "20240229T133742Z",
        .cont "VALARM".toList
          [exLine "ACTION" "DISPLAY", exLine "TRIGGER" "-PT5M" [("RELATED".toList, [⟨false, "END".toList⟩])],
            exLine "DESCRIPTION" "Wake\\; up\\n", exLine "X-B" "2"],
        exLine "GEO" "1.500000;2.000000",
        exLine "ATTENDEE" "mailto:a@b" [("CN".toList, [⟨true, "A, B".toList⟩])], exLine "ATTENDEE" "mailto:c@d",
        exLine "CATEGORIES" "x\\,y,z",
        exLine "CLASS" "PRIVATE", .cont "X-C".toList [exLine "SUMMARY" "no"]], some [("X/Y".toList, 1)]) := by
  decide +kernel

/-! ### Where it fails -/

/-- The component that is read after writing one. -/
def reread (L : Lib) (o : EntryObj) : Except PyErr EntryObj := do
  let (i, _) ← dumpEntry L o { ctx := some [] }
  match i with
  | .cont _ items => (loadEntry L o.cls items (some [])).map Prod.fst
  | .line _ => .error .typeError

/-- The time span of a component. -/
def Obj.span? {σ : Type} (o : Obj σ) : Option Span :=
  match o.get "timespan".toList with
  | .one (.span s) => some s
  | _ => none

/-- C41 fails for an event without a time: the precision of its time span becomes
`None` (represented by `.other []`, see `postSpan`). -/
theorem C41_timeless_fails : ∃ o', reread exLib (newObj exLib .event) = .ok o' ∧
    (newObj (σ := Alarm) exLib .event).span? = some { cls := .event, prec := .second } ∧
    o'.span? = some { cls := .event, prec := .other [] } ∧ ¬SameEntry exLib (newObj exLib .event) o' := by
  obtain ⟨o', h⟩ : ∃ o', reread exLib (newObj exLib .event) = .ok o' := by
    cases h : reread exLib (newObj exLib .event) with
    | ok o' => exact ⟨o', rfl⟩
    | error e =>
      have : (reread exLib (newObj exLib .event)).toOption.isSome = true := by decide +kernel
      rw [h] at this
      cases this
  have hs : (reread exLib (newObj exLib .event)).toOption.map Obj.span? =
      some (some { cls := .event, prec := .other [] }) := by decide +kernel
  rw [h] at hs
  have hs : o'.span? = some { cls := .event, prec := .other [] } := Option.some.inj hs
  refine ⟨o', h, by decide +kernel, hs, fun hne => ?_⟩
  have := hne.attrs "timespan" (by decide)
  have h0 : (newObj (σ := Alarm) exLib .event).get "timespan".toList = .one (.span { cls := .event }) := rfl
  rw [h0] at this
  unfold Obj.span? at hs
  generalize o'.get "timespan".toList = x at this hs
  cases this with
  | one hv =>
    cases hv with
    | same => cases hs
    | span hv =>
      cases hs
      exact absurd hv.prec (by decide)

/-- A new event that starts at `exStart` and has the given attribute. -/
def exNew (attr : String) (v : AttrVal Alarm) : EntryObj :=
  { newObj (σ := Alarm) exLib .event with
    attrs := dictUpdate (newObj exLib .event).attrs
      [("timespan".toList, .one (.span { cls := .event, begin? := some exStart })), (attr.toList, v)] }

/-- C41 fails for the parameters of the end of an event: they are not written (see C42). -/
theorem C41_end_params_fails :
    (dumpEntry exLib
      { exNew "timespan" (.one (.span { cls := .event, begin? := some exStart, end? := some exStart })) with
        extraParams := [("END".toList, .one [("X-A".toList, [⟨false, "1".toList⟩])])] }
      { ctx := some [] }).toOption.map (fun r => r.1) =
      some (.cont "VEVENT".toList
        [exLine "DTSTART" "20240229T133742" [("TZID".toList, [⟨false, "X/Y".toList⟩])],
          exLine "DTEND" "20240229T133742" [("TZID".toList, [⟨false, "X/Y".toList⟩])],
          exLine "UID" "fresh", exLine "DTSTAMP" "20240229T133742Z"]) := by
  decide +kernel

/-- C41 fails for `extra_params` of a fresh list: reading leaves marks there that were not there before. -/
theorem C41_list_params_fails :
    (exNew "categories" (.many [.text "x".toList])).extraParams = [] ∧
    (reread { exLib with fromTzid := fun _ => some 1 } (exNew "categories" (.many [.text "x".toList]))).toOption.map
        (fun o' => o'.extraParams) =
      some [("CATEGORIES".toList, .many [[(mergeKey, [⟨false, "FALSE".toList⟩])]])] := by
  decide +kernel

end Ics
