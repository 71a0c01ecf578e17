import Verif.Proofs.AcceptedText
import Verif.Props.CalendarText
import Verif.Props.RoundTrip

/-
C65: what is accepted is written, and read as the same.
-/
namespace Ics

/-- C65 for one event or todo: whatever is read from safe items (see `SafeEntryItems`) as an event or todo with
safe values can be written; every reader that knows the zones that are used reads the same event or todo. -/
theorem C65_entry (L : Lib) (hU : UtcOk L) (hW : WholeOffsets L) (c : Cls) (hc : c = .event ∨ c = .todo)
    (items : List Item) (zones zs : List (Str × Nat)) (o : EntryObj) (ctx : Ctx)
    (h : loadEntry L c items (some zones) = .ok (o, ctx)) (hl : SafeEntryItems c items) (ho : SafeEntry L zs o) :
    ∃ items' used, dumpEntry L o { ctx := some [] } = .ok (.cont c.icsName items', { ctx := some used }) ∧
      (∀ n z, dictGet? used n = some z → dictGet? zs n = some z) ∧
      ∀ zones', (∀ n z, dictGet? used n = some z → Knows L zones' n z) →
        ∃ o' ctx', loadEntry L c items' (some zones') = .ok (o', ctx') ∧ SameEntry L o o' := by
  obtain ⟨items', used, h1, h2, h3⟩ := C41_roundtrip_partial L hU zs o (entry_rep hU hW hc h hl ho)
  rw [show o.cls = c from (loadObj_frame h).1] at h1 h3
  exact ⟨items', used, h1, h2, h3⟩

/-- C65 for the items of a calendar: whatever is read from safe items as a calendar with safe values can be
written, and what is written is read as the same calendar. -/
theorem C65_calendar (L : Lib) (hU : UtcOk L) (hW : WholeOffsets L) (items : List Item) (zs : List (Str × Nat))
    (o : CalObj) (h : loadCalendar L items = .ok o) (hl : SafeCalendarItems items) (ho : SafeCalendar L zs o)
    (hz : ∀ n z, dictGet? zs n = some z →
      ∃ is, L.tzDump z = .ok (.cont "VTIMEZONE".toList is) ∧ L.tzLoad is = .ok z) :
    ∃ i o', dumpCalendar L o = .ok i ∧ loadCalendarItem L i = .ok o' ∧ SameCalendar L o o' :=
  C56_roundtrip L hU zs o (calendar_rep hU hW h hl ho) hz

/-- C65 for texts: for every text that `Calendar(text)` accepts, if its lines and the values that were read
are safe, `serialize` succeeds with every line wrapping, and `Calendar` of what was written is the same
calendar, up to quotation marks around parameter values. -/
theorem C65_text (L : Lib) (hU : UtcOk L) (hW : WholeOffsets L) (hL : WritableLib L) (txt : Str) (o : CalObj)
    (h : calendarOfString L txt = .ok o)
    (hl : ∀ is, stringToContainers txt = Gen.done [.cont "VCALENDAR".toList is] → SafeCalendarItems is)
    (zs : List (Str × Nat)) (ho : SafeCalendar L zs o) (hz : ∀ n z, dictGet? zs n = some z → ZoneTrip L z)
    (w : Wrap) (hw : match w with | .none => True | .width _ W => 1 ≤ W) :
    ∃ txt' o', serializeCalendar L w o = .ok txt' ∧ calendarOfString L txt' = .ok o' ∧
      SameCalendar L (unquoteCalendar o) (unquoteCalendar o') := by
  obtain ⟨is, h1, h2⟩ := C58_one L txt o h
  have hi : WritableTree (.cont "VCALENDAR".toList is) :=
    item_good (txt := txt) (by rw [h1]; exact List.mem_singleton_self _) fun cl => nofun
  rw [WritableTree] at hi
  have hs := hl is h1
  exact cal_text hU (calendar_rep hU hW h2 hs ho) hz (calendar_writable hL hi.2 h2 hs) w hw

/-! ### A text that meets the hypotheses -/

/-- `SafeTime` as a program. -/
def safeTimeB (L : Lib) (zs : List (Str × Nat)) (d : DT) : Bool :=
  (L.padYear || decide (364877 * 86400000000 ≤ d.wall)) && match d.tz with
    | none => true
    | some (.zone n) => L.isUtc n || (decide (L.conv (.zone n) = .timezone n) && decide (L.tzid n ≠ []) &&
        decide (dictGet? zs (L.tzid n) = some n))
    | _ => false

theorem safeTime_of {L : Lib} {zs : List (Str × Nat)} {d : DT} (h : safeTimeB L zs d = true) : SafeTime L zs d := by
  unfold safeTimeB at h
  unfold SafeTime
  cases ht : d.tz with
  | none => simpa [ht, RepZone] using h
  | some t =>
    cases t with
    | zone n => simpa [ht, RepZone, and_assoc] using h
    | _ => simp [ht] at h

/-- `SafeVal` as a program, without numbers. -/
def safeValB {σ : Type} (L : Lib) (zs : List (Str × Nat)) (f : σ → Bool) : Val σ → Bool
  | .dt d => safeTimeB L zs d
  | .span s => s.begin?.all (safeTimeB L zs) && s.end?.all (safeTimeB L zs)
  | .url u => !decide u.Slashless
  | .person _ (.url u) _ => !decide u.Slashless
  | .geo _ _ => false
  | .comp m => f m
  | _ => true

/-- `SafeObj` as a program. -/
def safeObjB {σ : Type} (L : Lib) (zs : List (Str × Nat)) (f : σ → Bool) (o : Obj σ) : Bool :=
  o.attrs.all fun kv => kv.2.toList.all (safeValB L zs f)

theorem safeVal_of {σ : Type} {L : Lib} {zs : List (Str × Nat)} {f : σ → Bool} {N : σ → Prop} (hf : ∀ m, f m = true → N m)
    {v : Val σ} (h : safeValB L zs f v = true) : SafeVal L zs N v := by
  unfold safeValB at h
  split at h
  · exact safeTime_of h
  · rw [Bool.and_eq_true] at h
    refine ⟨fun d hd => safeTime_of ?_, fun d hd => safeTime_of ?_⟩
    · have := h.1
      rw [hd] at this
      exact this
    · have := h.2
      rw [hd] at this
      exact this
  · exact of_decide_eq_false (by simpa using h)
  · exact of_decide_eq_false (by simpa using h)
  · cases h
  · exact hf _ h
  · rename_i v' h1 h2 h3 h4 h5 h6
    cases v with
    | person b e x =>
      cases e with
      | str s => trivial
      | url u => exact absurd rfl (h4 b u x)
    | dt d => exact absurd rfl (h1 d)
    | span s => exact absurd rfl (h2 s)
    | url u => exact absurd rfl (h3 u)
    | geo a b => exact absurd rfl (h5 a b)
    | comp m => exact absurd rfl (h6 m)
    | _ => trivial

theorem safeObj_of {σ : Type} {L : Lib} {zs : List (Str × Nat)} {f : σ → Bool} {N : σ → Prop} (hf : ∀ m, f m = true → N m)
    {o : Obj σ} (h : safeObjB L zs f o = true) : SafeObj L zs N o := by
  simp only [safeObjB, List.all_eq_true] at h
  have hget : ∀ (k : Str) (v : AttrVal σ), o.get k = v → v ≠ .none → (k, v) ∈ o.attrs := by
    intro k v h hv
    unfold Obj.get at h
    cases e : dictGet? o.attrs k with
    | none =>
      rw [e] at h
      exact absurd h.symm hv
    | some x =>
      rw [e] at h
      obtain rfl : x = v := h
      exact mem_of_dictGet e
  exact ⟨fun k v hk => safeVal_of hf (h _ (hget k _ hk nofun) v List.mem_cons_self),
    fun k l hk v hv => safeVal_of hf (h _ (hget k _ hk nofun) v hv)⟩

/-- `SafeCalendar` as a program. -/
def safeCalB (L : Lib) (zs : List (Str × Nat)) : CalObj → Bool :=
  safeObjB L zs (safeObjB L zs (safeObjB L zs fun _ => true))

theorem safeCal_of {L : Lib} {zs : List (Str × Nat)} {o : CalObj} (h : safeCalB L zs o = true) : SafeCalendar L zs o :=
  safeObj_of (fun _ h => safeObj_of (fun _ h => safeObj_of (fun _ _ => trivial) h) h) h

/-- A text with folded lines, a time zone, an event at a time in this zone with an alarm, a todo, and lines
that are not understood. -/
def exText : Str := String.toList ("BEGIN:VCALENDAR\r\nVERSION:2.0\r\nPRODID:x\r\nX-CAL:1\r\n" ++
  "BEGIN:VTIMEZONE\r\nTZID:X/Y\r\nEND:VTIMEZONE\r\n" ++
  "BEGIN:VEVENT\r\nUID:1\r\nSUMMARY;language=\"en\":Pa\r\n rty\\, again\r\nDTSTAMP:20240229T133742Z\r\n" ++
  "DTSTART;TZID=X/Y:20240301T180000\r\nDTEND;TZID=X/Y:20240301T200000\r\nURL:http://a.b/c\r\n" ++
  "CATEGORIES:a,b\r\nATTENDEE;CN=\"C, D\":mailto:c@d\r\nX-EV:2\r\n" ++
  "BEGIN:VALARM\r\nACTION:DISPLAY\r\nTRIGGER:-PT15M\r\nDESCRIPTION:go\r\nEND:VALARM\r\nEND:VEVENT\r\n" ++
  "BEGIN:VTODO\r\nUID:2\r\nDTSTAMP:20240229T133742Z\r\nDUE;VALUE=DATE:20240301\r\nEND:VTODO\r\nEND:VCALENDAR\r\n")

/-- The items of its alarm. -/
def exAlarmItems : List Item := [exLine "ACTION" "DISPLAY", exLine "TRIGGER" "-PT15M", exLine "DESCRIPTION" "go"]

/-- The items of its event. -/
def exEventItems : List Item :=
  [exLine "UID" "1", exLine "SUMMARY" "Party\\, again" [("language".toList, [⟨true, "en".toList⟩])],
    exLine "DTSTAMP" "20240229T133742Z", exLine "DTSTART" "20240301T180000" [("TZID".toList, [⟨false, "X/Y".toList⟩])],
    exLine "DTEND" "20240301T200000" [("TZID".toList, [⟨false, "X/Y".toList⟩])], exLine "URL" "http://a.b/c",
    exLine "CATEGORIES" "a,b", exLine "ATTENDEE" "mailto:c@d" [("CN".toList, [⟨true, "C, D".toList⟩])],
    exLine "X-EV" "2", .cont "VALARM".toList exAlarmItems]

/-- The items of its todo. -/
def exTodoItems : List Item :=
  [exLine "UID" "2", exLine "DTSTAMP" "20240229T133742Z",
    exLine "DUE" "20240301" [("VALUE".toList, [⟨false, "DATE".toList⟩])]]

/-- All its items. -/
def exTextItems : List Item :=
  [exLine "VERSION" "2.0", exLine "PRODID" "x", exLine "X-CAL" "1",
    .cont "VTIMEZONE".toList [exLine "TZID" "X/Y"], .cont "VEVENT".toList exEventItems,
    .cont "VTODO".toList exTodoItems]

theorem exText_items : stringToContainers exText = Gen.done [.cont "VCALENDAR".toList exTextItems] := by
  decide +kernel

/-- `SafeLines` as a program. -/
def safeLinesB (items : List Item) : Bool :=
  items.all fun i => match i with
    | .line cl => decide (cl.params.map Prod.fst).Nodup && decide ("__merge_next".toList ∉ cl.params.map Prod.fst) &&
        (!decide (cl.name = "ATTENDEE".toList) || decide (',' ∉ cl.value))
    | .cont _ _ => true

theorem safeLines_of {items : List Item} (h : safeLinesB items = true) : SafeLines items := by
  simp only [safeLinesB, List.all_eq_true] at h
  constructor
  · intro cl hcl
    have := h _ hcl
    simp only [Bool.and_eq_true, decide_eq_true_eq] at this
    exact this.1
  · intro cl hcl hn
    have := h _ hcl
    simp only [Bool.and_eq_true, Bool.or_eq_true, Bool.not_eq_true', decide_eq_true_eq, decide_eq_false_iff_not] at this
    exact this.2.resolve_left (fun e => e hn)

theorem exAlarmItems_safe : SafeAlarmItems exAlarmItems := by
  refine ⟨safeLines_of (by decide +kernel), fun cl hcl hn => ?_⟩
  simp only [exAlarmItems, exLine, List.mem_cons, List.not_mem_nil, or_false, Item.line.injEq] at hcl
  rcases hcl with rfl | rfl | rfl
  · decide
  · exact absurd hn (by decide)
  · exact absurd hn (by decide)

theorem exEventItems_safe : SafeEntryItems .event exEventItems := by
  refine ⟨safeLines_of (by decide +kernel), ⟨_, List.mem_cons_of_mem _ (List.mem_cons_of_mem _ List.mem_cons_self), rfl⟩,
    fun cl hcl hn => ?_, fun is his => ?_⟩
  · have key : (exEventItems.all fun i => match i with
      | .line cl => !(cl.name = "DTEND".toList || cl.name = "DUE".toList) ||
          (cl.params.map Prod.fst).all fun k => k = "VALUE".toList || k = "TZID".toList
      | .cont _ _ => true) = true := by decide +kernel
    have := List.all_eq_true.1 key _ hcl
    simp only [Bool.or_eq_true, Bool.not_eq_true', Bool.or_eq_false_iff, decide_eq_false_iff_not, List.all_eq_true,
      decide_eq_true_eq] at this
    refine this.resolve_left fun e => ?_
    rcases hn with hn | hn
    · exact e.1 hn
    · exact e.2 hn.1
  · simp only [exEventItems, exLine, List.mem_cons, List.not_mem_nil, or_false, reduceCtorEq, false_or,
      Item.cont.injEq] at his
    rw [his.2]
    exact exAlarmItems_safe

theorem exTodoItems_safe : SafeEntryItems .todo exTodoItems := by
  refine ⟨safeLines_of (by decide +kernel), ⟨_, List.mem_cons_of_mem _ List.mem_cons_self, rfl⟩,
    fun cl hcl hn => ?_, fun is his => ?_⟩
  · rcases hn with hn | hn
    · simp only [exTodoItems, exLine, List.mem_cons, List.not_mem_nil, or_false, Item.line.injEq] at hcl
      rcases hcl with rfl | rfl | rfl <;> exact absurd hn (by decide)
    · cases hn.2
  · simp only [exTodoItems, exLine, List.mem_cons, List.not_mem_nil, or_false, reduceCtorEq] at his

theorem exTextItems_safe : SafeCalendarItems exTextItems := by
  refine ⟨safeLines_of (by decide +kernel), fun is his => ?_, fun is his => ?_⟩
  · simp only [exTextItems, exLine, List.mem_cons, List.not_mem_nil, or_false, reduceCtorEq, false_or,
      Item.cont.injEq] at his
    rcases his with ⟨e, _⟩ | ⟨_, rfl⟩ | ⟨e, _⟩
    · exact absurd e (by decide)
    · exact exEventItems_safe
    · exact absurd e (by decide)
  · simp only [exTextItems, exLine, List.mem_cons, List.not_mem_nil, or_false, reduceCtorEq, false_or,
      Item.cont.injEq] at his
    rcases his with ⟨e, _⟩ | ⟨e, _⟩ | ⟨_, rfl⟩
    · exact absurd e (by decide)
    · exact absurd e (by decide)
    · exact exTodoItems_safe

theorem exLib_whole : WholeOffsets exLib := by
  refine ⟨fun n w f => ?_, fun w f => rfl⟩
  show (if n = 1 then (3600000000 : Int) else 0) % 1000000 = 0
  split <;> rfl

theorem exLib_writable : WritableLib exLib := by
  constructor
  · intro t z h
    show (if z = 1 then "X/Y".toList else "UTC".toList) ≠ [] ∧ '\r' ∉ (if z = 1 then "X/Y".toList else "UTC".toList)
    split <;> decide
  · intro n
    show NoBreak (if n = 1 then "1.500000".toList else "2.000000".toList)
    split <;> exact ⟨by decide, by decide⟩

theorem exZoneTrip : ∀ n z, dictGet? [("X/Y".toList, 1)] n = some z → ZoneTrip exLib z := by
  intro n z h
  have := mem_of_dictGet h
  rw [List.mem_singleton] at this
  cases this
  refine ⟨_, rfl, ?_, fun _ _ => rfl⟩
  rw [WritableTree]
  exact ⟨exName (by decide +kernel), trees_cons (i := exLine "TZID" "X/Y")
    (exLine_writable (by decide +kernel) (by decide +kernel) (by decide +kernel)) writableTrees_nil⟩

/-- The text is accepted, and its values are safe. -/
theorem exText_accepted : ∃ o, calendarOfString exLib exText = .ok o ∧ SafeCalendar exLib [("X/Y".toList, 1)] o := by
  have key : ((calendarOfString exLib exText).toOption.map (safeCalB exLib [("X/Y".toList, 1)])) = some true := by
    unfold calendarOfString
    rw [exText_items]
    decide +kernel
  cases h : calendarOfString exLib exText with
  | error e =>
    rw [h] at key
    cases key
  | ok o =>
    rw [h] at key
    exact ⟨o, rfl, safeCal_of (Option.some.inj key)⟩

/-- `C65_text` applies to the text. -/
example : ∃ o txt' o', calendarOfString exLib exText = .ok o ∧ serializeCalendar exLib (.width .chars 75) o = .ok txt' ∧
    calendarOfString exLib txt' = .ok o' ∧ SameCalendar exLib (unquoteCalendar o) (unquoteCalendar o') := by
  obtain ⟨o, h1, h2⟩ := exText_accepted
  have hl : ∀ is, stringToContainers exText = Gen.done [.cont "VCALENDAR".toList is] → SafeCalendarItems is := by
    intro is h
    rw [exText_items] at h
    injection h with h
    injection h with h
    injection h with _ h
    exact h ▸ exTextItems_safe
  obtain ⟨txt', o', h3, h4, h5⟩ := C65_text exLib exLib_utc exLib_whole exLib_writable exText o h1 hl _ h2 exZoneTrip
    (.width .chars 75) (by decide)
  exact ⟨o, txt', o', h1, h3, h4, h5⟩

/-- `C65_calendar` applies to its items, and `C65_entry` to its event. -/
example : (∃ o i o', loadCalendar exLib exTextItems = .ok o ∧ dumpCalendar exLib o = .ok i ∧
      loadCalendarItem exLib i = .ok o' ∧ SameCalendar exLib o o') ∧
    ∃ o ctx, loadEntry exLib .event exEventItems (some [("X/Y".toList, 1)]) = .ok (o, ctx) ∧
      SafeEntry exLib [("X/Y".toList, 1)] o := by
  constructor
  · obtain ⟨o, h1, h2⟩ := exText_accepted
    obtain ⟨is, h3, h4⟩ := C58_one _ _ _ h1
    rw [exText_items] at h3
    injection h3 with h3
    injection h3 with h3
    injection h3 with _ h3
    subst h3
    obtain ⟨i, o', h5, h6, h7⟩ := C65_calendar exLib exLib_utc exLib_whole exTextItems _ o h4 exTextItems_safe h2
      fun n z hz => by
        have := mem_of_dictGet hz
        rw [List.mem_singleton] at this
        cases this
        exact ⟨_, rfl, rfl⟩
    exact ⟨o, i, o', h4, h5, h6, h7⟩
  · have key : ((loadEntry exLib .event exEventItems (some [("X/Y".toList, 1)])).toOption.map fun r =>
        safeObjB exLib [("X/Y".toList, 1)] (safeObjB exLib [("X/Y".toList, 1)] fun _ => true) r.1) = some true := by
      decide +kernel
    cases h : loadEntry exLib .event exEventItems (some [("X/Y".toList, 1)]) with
    | error e =>
      rw [h] at key
      cases key
    | ok r =>
      rw [h] at key
      obtain ⟨o, ctx⟩ := r
      exact ⟨o, ctx, rfl, safeObj_of (fun _ h => safeObj_of (fun _ _ => trivial) h) (Option.some.inj key)⟩

end Ics
