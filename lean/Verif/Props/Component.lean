import Verif.Proofs.Members
import Verif.Proofs.ItemEq
import Verif.Props.Datetime

/-
C38: unknown properties are kept.
-/
namespace Ics

/-- An alarm keeps what it does not handle. -/
theorem C38_alarm (L : Lib) (items : List Item) (ctx ctx' : Ctx) (a : Alarm)
    (h : loadAlarm L items ctx = .ok (a, ctx')) :
    a.extraName = "VALARM".toList ∧ a.extra = items.filter (unhandled a.cls) := by
  simp only [loadAlarm, bind_ok_iff] at h
  obtain ⟨i, _, h⟩ := h
  cases i with
  | cont n is => cases h
  | line cl =>
    have k := loadObj_frame h
    refine ⟨?_, by rw [k.2.2, k.1]⟩
    rw [k.2.1]
    unfold alarmCls
    split
    · rfl
    · split
      · rfl
      · split
        · rfl
        · split <;> rfl

/-- An event or todo keeps what it does not handle, and so do its alarms, which correspond one to one to
the VALARM containers. -/
theorem C38_entry (L : Lib) (c : Cls) (hc : c = .event ∨ c = .todo) (items : List Item) (zones : List (Str × Nat))
    (o : EntryObj) (ctx' : Ctx) (h : loadEntry L c items (some zones) = .ok (o, ctx')) :
    o.extraName = c.icsName ∧ o.extra = items.filter (unhandled c) ∧
      ∃ as : List Alarm, o.get "alarms".toList = .many (as.map .comp) ∧
        List.Forall₂ (fun i a => ∃ is, i = .cont "VALARM".toList is ∧ a.extraName = "VALARM".toList ∧
          a.extra = is.filter (unhandled a.cls)) (named "VALARM" items) as := by
  have k := loadObj_frame h
  refine ⟨k.2.1, k.2.2, ?_⟩
  have hm : Conv.member "alarms".toList "VALARM".toList ∈ c.convs := by
    rcases hc with rfl | rfl <;> decide
  obtain ⟨ms, hg, hf⟩ := load_member (fun _ items => loadAlarm_stable L items) rfl h hm
  refine ⟨ms, hg, hf.imp ?_⟩
  rintro i a ⟨is, ctx2, rfl, ha⟩
  exact ⟨is, rfl, C38_alarm L is _ _ a ha⟩

/-- A calendar keeps what it does not handle, and so do its events and todos, which correspond one to one
to the containers of the calendar. -/
theorem C38_calendar (L : Lib) (items : List Item) (o : CalObj) (h : loadCalendar L items = .ok o) :
    o.extraName = "VCALENDAR".toList ∧ o.extra = items.filter (unhandled .calendar) ∧
      (∃ es : List EntryObj, o.get "events".toList = .many (es.map .comp) ∧
        List.Forall₂ (fun i e => ∃ is, i = .cont "VEVENT".toList is ∧ e.extraName = "VEVENT".toList ∧
          e.extra = is.filter (unhandled .event)) (named "VEVENT" items) es) ∧
      ∃ ts : List EntryObj, o.get "todos".toList = .many (ts.map .comp) ∧
        List.Forall₂ (fun i t => ∃ is, i = .cont "VTODO".toList is ∧ t.extraName = "VTODO".toList ∧
          t.extra = is.filter (unhandled .todo)) (named "VTODO" items) ts := by
  simp only [loadCalendar, bind_ok_iff] at h
  obtain ⟨avail, _, ⟨o', ctx'⟩, h, e⟩ := h
  cases e
  have k := loadObj_frame h
  refine ⟨k.2.1, k.2.2, ?_, ?_⟩
  · obtain ⟨ms, hg, hf⟩ := load_member (loadCalMember_stable L) rfl h
      (show Conv.member "events".toList "VEVENT".toList ∈ Cls.calendar.convs by decide)
    refine ⟨ms, hg, hf.imp ?_⟩
    rintro i e ⟨is, ctx2, rfl, he⟩
    rw [loadCalMember, if_neg (by decide)] at he
    have q := C38_entry L .event (Or.inl rfl) is _ e ctx2 he
    exact ⟨is, rfl, q.1, q.2.1⟩
  · obtain ⟨ms, hg, hf⟩ := load_member (loadCalMember_stable L) rfl h
      (show Conv.member "todos".toList "VTODO".toList ∈ Cls.calendar.convs by decide)
    refine ⟨ms, hg, hf.imp ?_⟩
    rintro i e ⟨is, ctx2, rfl, he⟩
    rw [loadCalMember, if_pos rfl] at he
    have q := C38_entry L .todo (Or.inr rfl) is _ e ctx2 he
    exact ⟨is, rfl, q.1, q.2.1⟩

/-- An alarm is written as lines that it handles followed by `extra`. -/
theorem C38_write_alarm (L : Lib) (a : Alarm) (st st' : DState) (i : Item) (h : dumpAlarm L a st = .ok (i, st')) :
    ∃ known, i = .cont a.extraName (known ++ a.extra) ∧ ∀ k ∈ known, unhandled a.cls k = false := by
  obtain ⟨known, h1, h2, _⟩ := dumpObj_parts (nameOf := fun _ => []) (fun m => nomatch m)
    (fun _ _ _ ms _ m => nomatch m) h
  exact ⟨known, h1, h2⟩

/-- Writing any component puts `extra` at the end, in order and unchanged. -/
theorem C38_write {σ : Type} (L : Lib) (mem : MemberDump σ) (o : Obj σ) (st st' : DState) (i : Item)
    (h : dumpObj L mem o st = .ok (i, st')) : ∃ known, i = .cont o.extraName (known ++ o.extra) := by
  simp only [dumpObj, bind_ok_iff] at h
  obtain ⟨⟨is, st1⟩, _, h⟩ := h
  cases h
  exact ⟨is, rfl⟩

/-- A calendar is written with `extra` at the end, in order and unchanged. -/
theorem C38_write_calendar (L : Lib) (o : CalObj) (i : Item) (h : dumpCalendar L o = .ok i) :
    ∃ known, i = .cont o.extraName (known ++ o.extra) := by
  simp only [dumpCalendar, bind_ok_iff] at h
  obtain ⟨⟨a, st1⟩, _, ⟨b, st2⟩, _, z, _, h⟩ := h
  cases h
  exact ⟨a ++ z ++ b, by simp [List.append_assoc]⟩

/-- Reading and writing an alarm gives the same unhandled items in the same order. -/
theorem C38_alarm_roundtrip (L : Lib) (items : List Item) (ctx ctx' : Ctx) (a : Alarm)
    (h : loadAlarm L items ctx = .ok (a, ctx')) (st st' : DState) (i : Item)
    (hd : dumpAlarm L a st = .ok (i, st')) :
    ∃ items', i = .cont "VALARM".toList items' ∧ SameExtra a.cls items items' := by
  obtain ⟨known, rfl, hk⟩ := C38_write_alarm L a st st' i hd
  obtain ⟨h1, h2⟩ := C38_alarm L items ctx ctx' a h
  refine ⟨known ++ a.extra, by rw [h1], ?_⟩
  unfold SameExtra
  rw [List.filter_append, h2, List.filter_filter]
  have : known.filter (unhandled a.cls) = [] := by
    rw [List.filter_eq_nil_iff]
    intro k hk'
    simp [hk k hk']
  simp [this]

/-- An alarm text `y` that keeps the unhandled items of `x`. -/
def AlarmKept (L : Lib) (zones : List (Str × Nat)) (x y : Item) : Prop :=
  ∃ xs ys a ctx', x = .cont "VALARM".toList xs ∧ y = .cont "VALARM".toList ys ∧
    loadAlarm L xs (some zones) = .ok (a, ctx') ∧ SameExtra a.cls xs ys

/-- Reading and writing an event or todo gives the same unhandled items in the same order, in the
component and in each of its alarms. -/
theorem C38_entry_roundtrip (L : Lib) (c : Cls) (hc : c = .event ∨ c = .todo) (items : List Item)
    (zones : List (Str × Nat)) (o : EntryObj) (ctx' : Ctx) (h : loadEntry L c items (some zones) = .ok (o, ctx'))
    (st st' : DState) (i : Item) (hd : dumpEntry L o st = .ok (i, st')) :
    ∃ items', i = .cont c.icsName items' ∧ SameExtra c items items' ∧
      List.Forall₂ (AlarmKept L zones) (named "VALARM" items) (named "VALARM" items') := by
  have k := loadObj_frame h
  have hms : MemStable L fun _ items ctx => loadAlarm L items ctx := fun _ items => loadAlarm_stable L items
  have hm : Conv.member "alarms".toList "VALARM".toList ∈ c.convs := by
    rcases hc with rfl | rfl <;> decide
  have hdn : DumpNamed (σ := Alarm) Obj.extraName (dumpAlarm L) := by
    intro m st i st' hmi
    obtain ⟨known, e, _⟩ := C38_write_alarm L m st st' i hmi
    exact ⟨_, e⟩
  have hmn : MembersNamed Obj.extraName o := by
    refine load_membersNamed hms rfl h ?_
    intro a n hcv is m ctx2 ha
    have e : n = "VALARM".toList := by
      have : ∀ cv ∈ c.convs, ∀ a n, cv = .member a n → n = "VALARM".toList := by
        rcases hc with rfl | rfl <;> simp [Cls.convs, entryConvs, attr1, attrN]
      exact this _ hcv a n rfl
    rw [e]
    exact (C38_alarm L is _ _ m ha).1
  obtain ⟨known, rfl, hk, hown⟩ := dumpObj_parts hdn hmn hd
  have e1 : o.cls = c := k.1
  rw [e1] at hk hown
  have q := known_roundtrip (memd := dumpAlarm L) hms rfl h hk
  refine ⟨known ++ o.extra, by rw [k.2.1], q.1, ?_⟩
  refine (q.2 _ _ hm (hown (by rcases hc with rfl | rfl <;> decide) _ hm)).imp ?_
  rintro x y ⟨is, m, ctx2, s1, s2, rfl, hl, hw⟩
  obtain ⟨ys, rfl, hs⟩ := C38_alarm_roundtrip L is _ _ _ hl _ _ _ hw
  exact ⟨is, ys, _, ctx2, rfl, rfl, hl, hs⟩

/-- The text `y` of an event or todo keeps the unhandled items of `x`, also in its alarms. -/
def EntryKept (L : Lib) (zones : List (Str × Nat)) (c : Cls) (x y : Item) : Prop :=
  ∃ xs ys, x = .cont c.icsName xs ∧ y = .cont c.icsName ys ∧ SameExtra c xs ys ∧
    List.Forall₂ (AlarmKept L zones) (named "VALARM" xs) (named "VALARM" ys)

/-- Reading and writing a calendar gives the same unhandled items in the same order, in the calendar, in
each event and todo, and in each of their alarms.  It is assumed that a time zone is written as a
container called VTIMEZONE. -/
theorem C38_calendar_roundtrip (L : Lib) (hz : ∀ z i, L.tzDump z = .ok i → ∃ is, i = .cont "VTIMEZONE".toList is)
    (items : List Item) (o : CalObj) (h : loadCalendar L items = .ok o) (i : Item) (hd : dumpCalendar L o = .ok i) :
    ∃ items' zones, i = .cont "VCALENDAR".toList items' ∧ loadZones L items [] = .ok zones ∧
      SameExtra .calendar items items' ∧
      List.Forall₂ (EntryKept L zones .event) (named "VEVENT" items) (named "VEVENT" items') ∧
      List.Forall₂ (EntryKept L zones .todo) (named "VTODO" items) (named "VTODO" items') := by
  simp only [loadCalendar, bind_ok_iff] at h
  obtain ⟨zones, hzones, ⟨o', ctx'⟩, h, e⟩ := h
  obtain rfl : o' = o := by cases e; rfl
  have k := loadObj_frame h
  have hcls : o'.cls = .calendar := k.1
  have hmem : ∀ n is m ctx2, loadCalMember L n is (some zones) = .ok (m, ctx2) →
      m.extraName = (if n = "VTODO".toList then "VTODO".toList else "VEVENT".toList) := by
    intro n is m ctx2 hm
    unfold loadCalMember at hm
    split at hm
    · rename_i e
      rw [if_pos e]
      exact (C38_entry L .todo (Or.inr rfl) is _ m ctx2 hm).1
    · rename_i e
      rw [if_neg e]
      exact (C38_entry L .event (Or.inl rfl) is _ m ctx2 hm).1
  have hdn : DumpNamed (σ := EntryObj) Obj.extraName (dumpEntry L) := by
    intro m st i st' hmi
    obtain ⟨known, e⟩ := C38_write L (dumpAlarm L) m st st' i hmi
    exact ⟨_, e⟩
  have hmn : MembersNamed Obj.extraName o' := by
    refine load_membersNamed (loadCalMember_stable L) rfl h ?_
    intro a n hcv is m ctx2 ha
    rw [hmem n is m ctx2 ha]
    have : ∀ cv ∈ Cls.calendar.convs, ∀ a n, cv = .member a n → n = "VEVENT".toList ∨ n = "VTODO".toList := by
      simp [Cls.convs, attr1]
    rcases this _ hcv a n rfl with rfl | rfl <;> decide
  obtain ⟨known, rfl, hk, hown⟩ := dumpCalendar_parts hz hdn hcls hmn hd
  have q := known_roundtrip (memd := dumpEntry L) (loadCalMember_stable L) rfl h hk
  refine ⟨known ++ o'.extra, zones, by rw [k.2.1]; rfl, hzones, q.1, ?_, ?_⟩
  · have hm : Conv.member "events".toList "VEVENT".toList ∈ Cls.calendar.convs := by decide
    refine (q.2 _ _ hm (hown _ hm (by simp))).imp ?_
    rintro x y ⟨is, m, ctx2, s1, s2, rfl, hl, hw⟩
    rw [loadCalMember, if_neg (by decide)] at hl
    obtain ⟨ys, rfl, h1, h2⟩ := C38_entry_roundtrip L .event (Or.inl rfl) is zones m ctx2 hl s1 s2 _ hw
    exact ⟨is, ys, rfl, rfl, h1, h2⟩
  · have hm : Conv.member "todos".toList "VTODO".toList ∈ Cls.calendar.convs := by decide
    refine (q.2 _ _ hm (hown _ hm (by simp))).imp ?_
    rintro x y ⟨is, m, ctx2, s1, s2, rfl, hl, hw⟩
    rw [loadCalMember, if_pos rfl] at hl
    obtain ⟨ys, rfl, h1, h2⟩ := C38_entry_roundtrip L .todo (Or.inr rfl) is zones m ctx2 hl s1 s2 _ hw
    exact ⟨is, ys, rfl, rfl, h1, h2⟩

/-! ### Examples -/

/-- A small library for the examples: zone 0 is the UTC of dateutil, zone 2 the UTC of ics, and zone 1
is called `X/Y`, one hour ahead. -/
def exLib : Lib where
  toWorld := { exWorld with isUtc := fun n => n = 0 ∨ n = 2, tzid := fun n => if n = 1 then "X/Y".toList else "UTC".toList }
  icsUtc := 2
  urlChecks := ⟨fun _ => true, fun _ => true⟩
  parseFloat s := if s = "1.500000".toList then some 1 else if s = "2.000000".toList then some 2 else none
  formatFloat n := if n = 1 then "1.500000".toList else "2.000000".toList
  uid := "fresh".toList
  now := ⟨63844810662000000, false, some (.zone 2)⟩
  tzLoad _ := .ok 1
  tzDump n :=
    if n = 1 then .ok (.cont "VTIMEZONE".toList [.line ⟨"TZID".toList, [], "X/Y".toList⟩]) else .error .valueError

/-- A line for the examples. -/
def exLine (name value : String) (params : Params := []) : Item := .line ⟨name.toList, params, value.toList⟩

/-- An event text with unknown lines, an unknown component and an alarm with an unknown line. -/
def exEvent : List Item :=
  [exLine "X-A" "1", exLine "SUMMARY" "Party", exLine "CLASS" "PRIVATE",
    .cont "VALARM".toList [exLine "X-B" "2", exLine "ACTION" "DISPLAY", exLine "X-B" "1"],
    .cont "X-C".toList [exLine "SUMMARY" "no"], exLine "DTSTART" "20240229T133742", exLine "X-A" "0"]

/-- A calendar text with that event. -/
def exCalendar : List Item :=
  [exLine "X-D" "1", exLine "VERSION" "2.0", .cont "VEVENT".toList exEvent, exLine "PRODID" "me", exLine "VTIMEZONE" "?"]

example : ((loadEntry exLib .event exEvent (some [])).toOption.map fun r => r.1.extra) =
    some [exLine "X-A" "1", exLine "CLASS" "PRIVATE", .cont "X-C".toList [exLine "SUMMARY" "no"],
      exLine "X-A" "0"] := by
  decide +kernel

example : ((loadEntry exLib .event exEvent (some [])).toOption.map fun r => match r.1.get "alarms".toList with
    | .many [.comp a] => a.extra
    | _ => []) = some [exLine "X-B" "2", exLine "X-B" "1"] := by
  decide +kernel

example : (loadCalendar exLib exCalendar >>= dumpCalendar exLib) =
    .ok (.cont "VCALENDAR".toList
      [exLine "VERSION" "2.0", exLine "PRODID" "me",
        .cont "VEVENT".toList
          [exLine "DTSTART" "20240229T133742", exLine "SUMMARY" "Party", exLine "UID" "fresh",
            exLine "DTSTAMP" "20240229T133742Z",
            .cont "VALARM".toList [exLine "ACTION" "DISPLAY", exLine "X-B" "2", exLine "X-B" "1"],
            exLine "X-A" "1", exLine "CLASS" "PRIVATE", .cont "X-C".toList [exLine "SUMMARY" "no"],
            exLine "X-A" "0"],
        exLine "X-D" "1", exLine "VTIMEZONE" "?"]) := by
  decide +kernel

end Ics
