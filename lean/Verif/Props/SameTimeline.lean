import Verif.Proofs.SameTimeline
import Verif.Props.ReadTime
import Verif.Props.Stable

/-
C91: the timeline of a calendar survives being written and parsed.
-/
namespace Ics

/-- Which of the zone objects for UTC the events have does not matter for any query. -/
theorem C91_queries (L : Lib) (hU : UtcOk L) (k : Nat) (evs evs' : List TEvent) (h : List.Forall₂ (SameEvent L) evs evs') :
    SameTimeline L k evs evs' := timeline_same hU k h

theorem sameSpan_refl {L : Lib} (s : Span) : SameSpan L s s := ⟨rfl, sameTime?_refl _, sameTime?_refl _, rfl, rfl⟩

theorem sameObj_refl {L : Lib} {σ : Type} {R : σ → σ → Prop} (o : Obj σ) : SameObj L R o o where
  cls := rfl
  extraName := rfl
  extra := rfl
  attrs k _ := by
    cases o.get k.toList with
    | none => exact .none
    | one v => exact .one (.same v)
    | many l => exact .many (List.forall₂_same.2 fun v _ => .same v)
  params _ _ := rfl
  listParams _ _ _ h := h
  newParams _ _ h := .inl h

/-- The same events or todos have the same time, also if quotation marks differ. -/
theorem same_timespan {L : Lib} {a b : EntryObj} {s : Span} (hc : a.cls = .event ∨ a.cls = .todo)
    (hs : a.get "timespan".toList = .one (.span s)) (h : SameEntry L (unquoteEntry a) (unquoteEntry b)) :
    ∃ s', b.get "timespan".toList = .one (.span s') ∧ SameSpan L s s' := by
  have h1 := h.attrs "timespan" (by
    show "timespan" ∈ allAttrs a.cls
    rcases hc with hc | hc <;> rw [hc] <;> decide)
  unfold unquoteEntry at h1
  rw [get_unquote, get_unquote, hs] at h1
  generalize b.get "timespan".toList = x at h1
  cases x with
  | none => cases h1
  | many l => cases h1
  | one v =>
    cases h1 with
    | one h1 =>
      cases v with
      | span s' =>
        cases h1 with
        | same => exact ⟨_, rfl, sameSpan_refl _⟩
        | span h1 => exact ⟨_, rfl, h1⟩
      | _ => cases h1

/-- They also have the same summary. -/
theorem same_summary {L : Lib} {a b : EntryObj} (hc : a.cls = .event ∨ a.cls = .todo)
    (h : SameEntry L (unquoteEntry a) (unquoteEntry b)) : a.summaryOf = b.summaryOf := by
  have h1 := h.attrs "summary" (by
    show "summary" ∈ allAttrs a.cls
    rcases hc with hc | hc <;> rw [hc] <;> decide)
  unfold unquoteEntry at h1
  rw [get_unquote, get_unquote] at h1
  unfold Obj.summaryOf
  generalize a.get "summary".toList = x at h1
  generalize b.get "summary".toList = y at h1
  cases x with
  | none => cases y <;> first | rfl | cases h1
  | many l => cases y <;> first | rfl | cases h1
  | one v =>
    cases y with
    | none => cases h1
    | many l => cases h1
    | one w =>
      cases h1 with
      | one h1 =>
        cases v <;> cases w <;> first | rfl | cases h1
        rfl

/-- The events or todos of the same calendars. -/
theorem same_members {L : Lib} {zs : List (Str × Nat)} {o o' : CalObj} (h : RepCalendar L zs o)
    (hs : SameCalendar L (unquoteCalendar o) (unquoteCalendar o')) {at_ name : String} {c : Cls}
    (hk : at_ = "events" ∧ name = "VEVENT" ∧ c = .event ∨ at_ = "todos" ∧ name = "VTODO" ∧ c = .todo) :
    ∃ evs evs' : List EntryObj, o.get at_.toList = .many (evs.map .comp) ∧ o'.get at_.toList = .many (evs'.map .comp) ∧
      List.Forall₂ (fun a b => a.cls = c ∧ (∃ s, a.get "timespan".toList = .one (.span s)) ∧
        SameEntry L (unquoteEntry a) (unquoteEntry b)) evs evs' := by
  obtain ⟨hc, h⟩ := h
  obtain ⟨-, evs, h1, h2⟩ := h.members at_.toList name.toList (by
    rw [hc]; rcases hk with ⟨rfl, rfl, rfl⟩ | ⟨rfl, rfl, rfl⟩ <;> decide)
  have h3 := hs.attrs at_ (by
    show at_ ∈ allAttrs o.cls
    rw [hc]
    rcases hk with ⟨rfl, rfl, rfl⟩ | ⟨rfl, rfl, rfl⟩ <;> decide)
  unfold unquoteCalendar at h3
  rw [get_unquote, get_unquote, h1] at h3
  generalize hx : o'.get at_.toList = x at h3
  cases x with
  | none => cases h3
  | one v => cases h3
  | many l =>
    cases h3 with
    | many h3 =>
      refine ⟨evs, ?_⟩
      clear hx
      have key : ∃ evs' : List EntryObj, l = evs'.map .comp ∧ List.Forall₂ (fun a b => a.cls = c ∧
          (∃ s, a.get "timespan".toList = .one (.span s)) ∧
          SameEntry L (unquoteEntry a) (unquoteEntry b)) evs evs' := by
        clear h1
        induction evs generalizing l with
        | nil =>
          cases l with
          | nil => exact ⟨[], rfl, .nil⟩
          | cons v l => cases h3
        | cons a evs ih =>
          cases l with
          | nil => cases h3
          | cons v l =>
            rw [List.map_cons, List.map_cons, List.map_cons, List.forall₂_cons] at h3
            obtain ⟨evs', rfl, h4⟩ := ih (fun m hm => h2 m (List.mem_cons_of_mem _ hm)) l h3.2
            have ha := h2 a List.mem_cons_self
            have hcls : a.cls = c := by
              rw [ha.2]
              rcases hk with ⟨rfl, rfl, rfl⟩ | ⟨rfl, rfl, rfl⟩ <;> decide
            obtain ⟨s, hs⟩ := ha.1.2.time (by
              rw [hcls]; rcases hk with ⟨rfl, rfl, rfl⟩ | ⟨rfl, rfl, rfl⟩ <;> decide)
            have hv := h3.1
            cases v with
            | comp b =>
              refine ⟨b :: evs', rfl, .cons ⟨hcls, ⟨s, hs.get⟩, ?_⟩ h4⟩
              generalize hp : Val.unquote unquoteEntry (Val.comp a) = p at hv
              generalize hq : Val.unquote unquoteEntry (Val.comp b) = q at hv
              cases hv with
              | same =>
                have : Val.comp (unquoteEntry a) = Val.comp (unquoteEntry b) := hp.trans hq.symm
                rw [Val.comp.inj this]
                exact sameObj_refl _
              | comp hr =>
                cases hp
                cases hq
                exact hr
              | dt hr => cases hp
              | span hr => cases hp
            | _ => cases hv
      obtain ⟨evs', rfl, h4⟩ := key
      exact ⟨evs', h1, rfl, h4⟩

/-- The events of the same calendars. -/
theorem same_events {L : Lib} {zs : List (Str × Nat)} {o o' : CalObj} (h : RepCalendar L zs o)
    (hs : SameCalendar L (unquoteCalendar o) (unquoteCalendar o')) :
    ∃ evs evs' : List EntryObj, o.get "events".toList = .many (evs.map .comp) ∧ o'.get "events".toList = .many (evs'.map .comp) ∧
      List.Forall₂ (fun a b => a.cls = .event ∧ (∃ s, a.get "timespan".toList = .one (.span s)) ∧
        SameEntry L (unquoteEntry a) (unquoteEntry b)) evs evs' := same_members h hs (.inl ⟨rfl, rfl, rfl⟩)

/-- The events of the same calendars are the same for the timeline, if the other attributes, as the numbers stand for
them, are. -/
theorem same_timelineEvents {L : Lib} {zs : List (Str × Nat)} {o o' : CalObj} (h : RepCalendar L zs o)
    (hs : SameCalendar L (unquoteCalendar o) (unquoteCalendar o')) (num num' : EntryObj → Nat)
    (hn : (o.timelineEvents num).map TEvent.rest = (o'.timelineEvents num').map TEvent.rest) :
    List.Forall₂ (SameEvent L) (o.timelineEvents num) (o'.timelineEvents num') := by
  obtain ⟨evs, evs', h1, h2, h3⟩ := same_events h hs
  rw [timelineEvents_eq h1, timelineEvents_eq h2] at *
  clear h1 h2 hs
  induction h3 with
  | nil => exact .nil
  | @cons a b evs evs' hab _ ih =>
    obtain ⟨hc, ⟨s, hs⟩, hab⟩ := hab
    simp only [List.map_cons, List.cons.injEq] at hn
    refine .cons ?_ (ih hn.2)
    obtain ⟨s', hs', hss⟩ := same_timespan (.inl hc) hs hab
    have hcls : b.cls = a.cls := (hab.cls : a.cls = b.cls).symm
    refine ⟨?_, ?_, same_summary (.inl hc) hab, hn.1⟩
    · show a.cls.spanCls = b.cls.spanCls
      rw [hcls]
    · rw [asEvent_span hs, asEvent_span hs']
      exact hss

/-- C91: if a calendar is turned into text and the text is parsed, the timeline of the result gives the same answers as
that of the calendar: to iterating, `included`, `overlapping`, `start_after`, `at`, `on`, `today` and `now`. -/
theorem C91_roundtrip (L : Lib) (hU : UtcOk L) (zs : List (Str × Nat)) (o : CalObj) (h : RepCalendar L zs o)
    (hz : ∀ n z, dictGet? zs n = some z → ZoneTrip L z) (ho : WritableCalendar L o)
    (w : Wrap) (hw : match w with | .none => True | .width _ W => 1 ≤ W) :
    ∃ txt o', serializeCalendar L w o = .ok txt ∧ calendarOfString L txt = .ok o' ∧
      ∀ num num', (o.timelineEvents num).map TEvent.rest = (o'.timelineEvents num').map TEvent.rest →
        ∀ k, SameTimeline L k (o.timelineEvents num) (o'.timelineEvents num') := by
  obtain ⟨txt, o', h1, h2, h3⟩ := C57_roundtrip L hU zs o h hz ho w hw
  exact ⟨txt, o', h1, h2, fun num num' hn k => C91_queries L hU k _ _ (same_timelineEvents h h3 num num' hn)⟩

/-- C91 for accepted texts: reading a text, writing the calendar and reading that gives a calendar whose timeline gives
the same answers. -/
theorem C91_accepted (L : Lib) (hU : UtcOk L) (hW : WholeOffsets L) (hL : WritableLib L) (txt : Str) (o : CalObj)
    (h : calendarOfString L txt = .ok o)
    (hl : ∀ is, stringToContainers txt = Gen.done [.cont "VCALENDAR".toList is] → SafeCalendarItems is)
    (zs : List (Str × Nat)) (ho : SafeCalendar L zs o) (hz : ∀ n z, dictGet? zs n = some z → ZoneTrip L z)
    (w : Wrap) (hw : match w with | .none => True | .width _ W => 1 ≤ W) :
    ∃ txt' o', serializeCalendar L w o = .ok txt' ∧ calendarOfString L txt' = .ok o' ∧
      ∀ num num', (o.timelineEvents num).map TEvent.rest = (o'.timelineEvents num').map TEvent.rest →
        ∀ k, SameTimeline L k (o.timelineEvents num) (o'.timelineEvents num') := by
  obtain ⟨is, h1, h2⟩ := C58_one L txt o h
  have hi : WritableTree (.cont "VCALENDAR".toList is) :=
    item_good (txt := txt) (by rw [h1]; exact List.mem_singleton_self _) fun cl => nofun
  rw [WritableTree] at hi
  have hs := hl is h1
  exact C91_roundtrip L hU zs o (calendar_rep hU hW h2 hs ho) hz (calendar_writable hL hi.2 h2 hs) w hw

/-! ### Examples -/

/-- The calendar of `Props.CalendarText` has two events, meets the hypotheses of `C91_roundtrip`, and has a timeline. -/
example : RepCalendar exLib [("X/Y".toList, 1)] exCalRep ∧ WritableCalendar exLib exCalRep ∧
    (∀ n z, dictGet? [("X/Y".toList, 1)] n = some z → ZoneTrip exLib z) ∧
    ((exLib.toEnv.timeline 0 none (exCalRep.timelineEvents fun _ => 0)).map List.length) = .ok 2 :=
  ⟨exCalRep_rep, exCalRep_writable, exZoneTrip, by decide +kernel⟩

/-- Two zone objects for UTC: the events are the same, but not equal. -/
example : ∃ a b : TEvent, SameEvent exLib a b ∧ a ≠ b := by
  refine ⟨⟨⟨.event, ⟨.event, some ⟨0, false, some (.zone exLib.utc)⟩, none, none, .second⟩, none⟩, 0⟩,
    ⟨⟨.event, ⟨.event, some ⟨0, false, some (.zone exLib.icsUtc)⟩, none, none, .second⟩, none⟩, 0⟩, ?_, by decide +kernel⟩
  exact ⟨rfl, ⟨rfl, ⟨rfl, rfl, .inr ⟨_, _, rfl, rfl, by decide +kernel, by decide +kernel⟩⟩, trivial, rfl, rfl⟩, rfl, rfl⟩

end Ics
