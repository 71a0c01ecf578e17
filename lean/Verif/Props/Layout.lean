import Verif.Proofs.Layout
import Verif.Props.CalendarTrip

/-
C88: which lines and components a written component has, in which order and how often.
-/
namespace Ics

/-- A written alarm has the layout of its class. -/
theorem C88_alarm (L : Lib) (o : Alarm) (st st' : DState) (i : Item) (h : dumpAlarm L o st = .ok (i, st')) : AlarmLaid o i :=
  obj_laid (fun m => nomatch m) _ h

/-- A written event or todo has the layout of its class, and so have its alarms. -/
theorem C88_entry (L : Lib) (o : EntryObj) (st st' : DState) (i : Item) (h : dumpEntry L o st = .ok (i, st')) :
    EntryLaid o i :=
  obj_laid (fun m st i st' => C88_alarm L m st st' i) _ h

/-- A written calendar has the layout of calendars, and the events and todos have theirs. -/
theorem C88_calendar (L : Lib) (o : CalObj) (hc : o.cls = .calendar) (i : Item) (h : dumpCalendar L o = .ok i) :
    CalendarLaid L o i := by
  simp only [dumpCalendar, bind_ok_iff] at h
  obtain ⟨⟨a, st1⟩, h1, ⟨b, st2⟩, h2, z, h3, h⟩ := h
  cases h
  obtain ⟨pa, rfl, hfa⟩ := dumpConvs_parts h1
  obtain ⟨pb, rfl, hfb⟩ := dumpConvs_parts h2
  have hm : ∀ m st i st', dumpEntry L m st = .ok (i, st') → EntryLaid m i := fun m st i st' => C88_entry L m st st' i
  have happ : calConvsBefore ++ calConvsAfter = Cls.calendar.convs := List.takeWhile_append_dropWhile ..
  have fits1 : List.Forall₂ (fun s cv => fits s cv = true) ((layout .calendar).take 4) calConvsBefore :=
    List.forall₂_take 4 (fits_all .calendar)
  have fits2 : List.Forall₂ (fun s cv => fits s cv = true) ((layout .calendar).drop 4) calConvsAfter :=
    List.forall₂_drop 4 (fits_all .calendar)
  have k1 := holds_parts (Z := fun i => ∃ z, L.tzDump z = .ok i) hm (c := .calendar)
    (fun cv hcv => happ ▸ List.mem_append_left _ hcv) fits1 hfa
  have k2 := holds_parts (Z := fun i => ∃ z, L.tzDump z = .ok i) hm (c := .calendar)
    (fun cv hcv => happ ▸ List.mem_append_right _ hcv) fits2 hfb
  cases hfb with
  | @cons _ p0 _ rest h0 _ =>
    obtain ⟨_, _, h0⟩ := h0
    have h0 : (.ok ([], _) : Except PyErr (List Item × DState)) = .ok (p0, _) := h0
    cases h0
    refine ⟨pa ++ z :: rest, ?_, ?_⟩
    · simp [List.append_assoc]
    · rw [hc, ← List.take_append_drop 4 (layout .calendar)]
      refine List.rel_append k1 ?_
      cases k2 with
      | cons _ k2 => exact .cons (.zones (dumpZones_each h3)) k2

/-- VERSION and PRODID come first in a calendar. -/
theorem C88_first (L : Lib) (o : CalObj) (hc : o.cls = .calendar) (name : Str) (items : List Item)
    (h : dumpCalendar L o = .ok (.cont name items)) (hv : o.get "version".toList ≠ .none) (hp : o.get "prodid".toList ≠ .none) :
    ∃ v p rest, items = v :: p :: rest ∧ LineOf "VERSION" v ∧ LineOf "PRODID" p := by
  obtain ⟨parts, e, hf⟩ := C88_calendar L o hc _ h
  cases e
  rw [hc] at hf
  cases hf with
  | cons h1 hf => cases hf with
    | cons h2 _ => cases h1 with
      | absent hg => exact absurd hg hv
      | present _ h1 => cases h2 with
        | absent hg => exact absurd hg hp
        | present _ h2 => exact ⟨_, _, _, rfl, h1, h2⟩

theorem alarmLaid_cont (m : Alarm) (i : Item) (h : AlarmLaid m i) : ∃ n is, i = .cont n is := by
  obtain ⟨parts, rfl, _⟩ := h
  exact ⟨_, _, rfl⟩

/-- A written event is as RFC 5545 demands exactly if it has a UID and a DTSTAMP. -/
theorem C88_event (L : Lib) (o : EntryObj) (st st' : DState) (name : Str) (items : List Item)
    (h : dumpEntry L o st = .ok (.cont name items, st')) (hc : o.cls = .event)
    (hx : ∀ i ∈ o.extra, unhandled .event i = true) (s : Span) (hs : o.get "timespan".toList = .one (.span s))
    (hcls : s.cls = .event) :
    RfcEvent items ↔ o.get "uid".toList ≠ .none ∧ o.get "dtstamp".toList ≠ .none := by
  have hl := C88_entry L o st st' _ h
  have hne : o.cls ≠ .customAlarm := by rw [hc]; nofun
  have hx' : ∀ i ∈ o.extra, unhandled o.cls i = true := by rw [hc]; exact hx
  have one : ∀ a l, Slot.one a l ∈ layout .event →
      (lineCount l items = 1 ∧ o.get a.toList ≠ .none) ∨ (lineCount l items = 0 ∧ o.get a.toList = .none) :=
    fun a l hm => laid_one (fun _ h => h.elim) alarmLaid_cont hne hx' hl (hc ▸ hm)
  have ht := laid_time (fun _ h => h.elim) alarmLaid_cont hne hx' hl (by rw [hc]; decide) hs
  have hu := one "uid" "UID" (by decide)
  have hd := one "dtstamp" "DTSTAMP" (by decide)
  constructor
  · intro hr
    have h1 := hr.once "UID" (by decide)
    have h2 := hr.once "DTSTAMP" (by decide)
    exact ⟨(hu.resolve_right fun h => by omega).2, (hd.resolve_right fun h => by omega).2⟩
  · rintro ⟨h1, h2⟩
    have most : ∀ a l, Slot.one a l ∈ layout .event → lineCount l items ≤ 1 := fun a l hm => by
      rcases one a l hm with h | h <;> omega
    refine ⟨?_, ?_, ?_, ?_⟩
    · simp only [List.forall_mem_cons]
      exact ⟨(hu.resolve_right fun h => h1 h.2).1, (hd.resolve_right fun h => h2 h.2).1, nofun⟩
    · simp only [List.forall_mem_cons]
      refine ⟨?_, most "created" _ (by decide), most "description" _ (by decide), most "geo" _ (by decide),
        most "last_modified" _ (by decide), most "location" _ (by decide), most "organizer" _ (by decide),
        most "status" _ (by decide), most "summary" _ (by decide), most "url" _ (by decide), nofun⟩
      rw [ht.1]
      split <;> decide
    · rw [ht.2.1, ht.2.2.2]
      split <;> split <;> simp_all
    · rw [ht.2.2.1, if_neg (by rw [hcls]; nofun)]

/-- A written todo is as RFC 5545 demands exactly if it has a UID and a DTSTAMP. -/
theorem C88_todo (L : Lib) (o : EntryObj) (st st' : DState) (name : Str) (items : List Item)
    (h : dumpEntry L o st = .ok (.cont name items, st')) (hc : o.cls = .todo)
    (hx : ∀ i ∈ o.extra, unhandled .todo i = true) (s : Span) (hs : o.get "timespan".toList = .one (.span s))
    (hw : WellFormed L.toEnv s) (hcls : s.cls = .todo) :
    RfcTodo items ↔ o.get "uid".toList ≠ .none ∧ o.get "dtstamp".toList ≠ .none := by
  have hl := C88_entry L o st st' _ h
  have hne : o.cls ≠ .customAlarm := by rw [hc]; nofun
  have hx' : ∀ i ∈ o.extra, unhandled o.cls i = true := by rw [hc]; exact hx
  have one : ∀ a l, Slot.one a l ∈ layout .todo →
      (lineCount l items = 1 ∧ o.get a.toList ≠ .none) ∨ (lineCount l items = 0 ∧ o.get a.toList = .none) :=
    fun a l hm => laid_one (fun _ h => h.elim) alarmLaid_cont hne hx' hl (hc ▸ hm)
  have ht := laid_time (fun _ h => h.elim) alarmLaid_cont hne hx' hl (by rw [hc]; decide) hs
  have hu := one "uid" "UID" (by decide)
  have hd := one "dtstamp" "DTSTAMP" (by decide)
  constructor
  · intro hr
    have h1 := hr.once "UID" (by decide)
    have h2 := hr.once "DTSTAMP" (by decide)
    exact ⟨(hu.resolve_right fun h => by omega).2, (hd.resolve_right fun h => by omega).2⟩
  · rintro ⟨h1, h2⟩
    have most : ∀ a l, Slot.one a l ∈ layout .todo → lineCount l items ≤ 1 := fun a l hm => by
      rcases one a l hm with h | h <;> omega
    refine ⟨?_, ?_, ?_, ?_, ?_⟩
    · simp only [List.forall_mem_cons]
      exact ⟨(hu.resolve_right fun h => h1 h.2).1, (hd.resolve_right fun h => h2 h.2).1, nofun⟩
    · simp only [List.forall_mem_cons]
      refine ⟨?_, most "completed" _ (by decide), most "created" _ (by decide), most "description" _ (by decide),
        most "last_modified" _ (by decide), most "location" _ (by decide), most "priority" _ (by decide),
        most "status" _ (by decide), most "summary" _ (by decide), most "url" _ (by decide), nofun⟩
      rw [ht.1]
      split <;> decide
    · rw [ht.2.2.1, ht.2.2.2]
      split <;> split <;> simp_all
    · rw [ht.1, ht.2.2.2]
      intro h
      have hd : s.dur? ≠ none := fun e => by rw [if_pos e] at h; cases h
      rw [if_neg (hw.durBegin hd)]
    · rw [ht.2.1, if_neg fun h => h.1 hcls]

/-- A written alarm is as RFC 5545 demands exactly if what it demands is there. -/
theorem C88_alarm_rfc (L : Lib) (o : Alarm) (st st' : DState) (name : Str) (items : List Item)
    (h : dumpAlarm L o st = .ok (.cont name items, st'))
    (hc : o.cls ∈ [Cls.audioAlarm, .displayAlarm, .emailAlarm, .noneAlarm]) (hx : ∀ i ∈ o.extra, unhandled o.cls i = true) :
    RfcAlarm o.cls items ↔ o.get "trigger".toList ≠ .none ∧
      (o.get "duration".toList = .none ↔ o.get "repeat".toList = .none) ∧
      (o.cls = .displayAlarm ∨ o.cls = .emailAlarm → o.get "description".toList ≠ .none) ∧
      (o.cls = .emailAlarm → o.get "summary".toList ≠ .none ∧ o.get "attendees".toList ≠ .many []) := by
  have hl := C88_alarm L o st st' _ h
  have hne : o.cls ≠ .customAlarm := fun e => by rw [e] at hc; revert hc; decide
  have hP : ∀ (m : Empty) (i : Item), (nomatch m : Prop) → ∃ n is, i = .cont n is := fun m => nomatch m
  have one : ∀ a l, Slot.one a l ∈ layout o.cls →
      (lineCount l items = 1 ∧ o.get a.toList ≠ .none) ∨ (lineCount l items = 0 ∧ o.get a.toList = .none) :=
    fun a l hm => laid_one (fun _ h => h.elim) hP hne hx hl hm
  have sub : ∀ c : Cls, c ∈ [Cls.audioAlarm, .displayAlarm, .emailAlarm, .noneAlarm] →
      Slot.one "trigger" "TRIGGER" ∈ layout c ∧ Slot.one "duration" "DURATION" ∈ layout c ∧
      Slot.one "repeat" "REPEAT" ∈ layout c ∧ Slot.action ∈ layout c ∧
      (c = .displayAlarm ∨ c = .emailAlarm → Slot.one "description" "DESCRIPTION" ∈ layout c) ∧
      (c = .emailAlarm → Slot.one "summary" "SUMMARY" ∈ layout c ∧ Slot.list "attendees" "ATTENDEE" ∈ layout c) ∧
      (c = .audioAlarm → Slot.one "attach" "ATTACH" ∈ layout c) := by decide +kernel
  obtain ⟨mt, md, mr, ma, mdesc, mmail, matt⟩ := sub _ hc
  have t := one _ _ mt
  have d := one _ _ md
  have r := one _ _ mr
  have act : lineCount "ACTION" items = 1 := by
    obtain ⟨part, hp, hn⟩ := laid_count (fun _ h => h.elim) hP hne hx hl ma
    rw [hn "ACTION" (by decide)]
    cases hp with
    | action _ => exact lineCount_all fun i hi => by rw [List.mem_singleton.1 hi]; exact ⟨_, _, rfl⟩
  constructor
  · intro hr
    refine ⟨(t.resolve_right fun h => by have := hr.trigger; omega).2, ?_, fun hcl => ?_, fun hcl => ⟨?_, ?_⟩⟩
    · have := hr.together
      rcases d with d | d <;> rcases r with r | r
      · exact ⟨fun h => absurd h d.2, fun h => absurd h r.2⟩
      · omega
      · omega
      · exact ⟨fun _ => r.2, fun _ => d.2⟩
    · exact ((one _ _ (mdesc hcl)).resolve_right fun h => by have := hr.description hcl; omega).2
    · exact ((one _ _ (mmail hcl).1).resolve_right fun h => by have := hr.summary hcl; omega).2
    · obtain ⟨vs, hg, hk⟩ := laid_list (fun _ h => h.elim) hP hne hx hl (mmail hcl).2
      rw [hg]
      exact fun e => hk.1 (hr.attendee hcl) (by cases e; rfl)
  · rintro ⟨ht, hdr, hdesc, hmail⟩
    refine ⟨act, (t.resolve_right fun h => ht h.2).1, ?_, fun hcl => ?_, fun hcl => ?_, fun hcl => ?_, fun hcl => ?_⟩
    · rcases d with d | d <;> rcases r with r | r
      · omega
      · exact absurd (hdr.2 r.2) d.2
      · exact absurd (hdr.1 d.2) r.2
      · omega
    · exact ((one _ _ (mdesc hcl)).resolve_right fun h => hdesc hcl h.2).1
    · exact ((one _ _ (mmail hcl).1).resolve_right fun h => (hmail hcl).1 h.2).1
    · obtain ⟨vs, hg, hk⟩ := laid_list (fun _ h => h.elim) hP hne hx hl (mmail hcl).2
      exact hk.2 fun e => (hmail hcl).2 (by rw [hg, e])
    · rcases one _ _ (matt hcl) with h | h <;> omega

/-- An event whose `uid` was set to `None`. -/
def exNoUid : EntryObj :=
  { (newObj exLib .event : EntryObj) with attrs := dictSet (newObj exLib .event : EntryObj).attrs "uid".toList .none }

/-- An alarm without anything is written, although RFC 5545 demands a TRIGGER and a DESCRIPTION; so is an event whose UID is
`None`, and a calendar without any component in it. -/
theorem C88_fails :
    (∃ name items st', dumpAlarm exLib (newObj exLib .displayAlarm) { ctx := some [] } = .ok (.cont name items, st') ∧
      ¬ RfcAlarm .displayAlarm items) ∧
    (∃ name items st', dumpEntry exLib exNoUid { ctx := some [] } = .ok (.cont name items, st') ∧ ¬ RfcEvent items) ∧
    (∃ name items, dumpCalendar exLib (newObj exLib .calendar) = .ok (.cont name items) ∧
      ∀ i ∈ items, ∃ cl, i = .line cl) := by
  refine ⟨?_, ?_, ?_⟩
  · refine ⟨_, _, _, rfl, fun h => ?_⟩
    have := h.trigger
    revert this
    decide +kernel
  · refine ⟨_, _, _, rfl, fun h => ?_⟩
    have := h.once "UID" (by decide)
    revert this
    decide +kernel
  · refine ⟨_, _, rfl, ?_⟩
    intro i hi
    rcases List.mem_cons.1 hi with rfl | hi
    · exact ⟨_, rfl⟩
    · rcases List.mem_cons.1 hi with rfl | hi
      · exact ⟨_, rfl⟩
      · exact absurd hi List.not_mem_nil

/-- The hypotheses of the theorems are met by an event with an alarm, a todo, and a calendar with them. -/
example : (match dumpAlarm exLib exAlarmObj { ctx := some [] } with
      | .ok (.cont _ items, _) => [lineCount "TRIGGER" items, lineCount "DESCRIPTION" items, items.length]
      | _ => []) = [1, 1, 4] ∧
    (match dumpEntry exLib exEventObj { ctx := some [] } with
      | .ok (.cont _ items, _) => ["UID", "DURATION", "ATTENDEE", "CATEGORIES"].map (lineCount · items)
      | _ => []) = [1, 1, 2, 1] ∧
    (match dumpEntry exLib exTodoObj { ctx := some [] } with
      | .ok (.cont _ items, _) => ["DUE", "DTSTART"].map (lineCount · items)
      | _ => []) = [1, 0] ∧
    (match dumpCalendar exLib exCalRep with | .ok (.cont _ items) => lineCount "VERSION" items | _ => 0) = 1 := by
  decide +kernel

example : exEventObj.cls = .event ∧ (∀ i ∈ exEventObj.extra, unhandled .event i = true) ∧
    (∀ i ∈ exTodoObj.extra, unhandled .todo i = true) ∧ (∀ i ∈ exAlarmObj.extra, unhandled exAlarmObj.cls i = true) ∧
    exAlarmObj.cls ∈ [Cls.audioAlarm, .displayAlarm, .emailAlarm, .noneAlarm] := by
  refine ⟨rfl, ?_, ?_, ?_, by decide⟩ <;> decide +kernel

end Ics
