import Verif.Proofs.ReadWrite
import Verif.Proofs.AcceptedText
import Verif.Props.Write
import Verif.Props.CalendarText

/-
C83: which calendars that were read can be written.
-/
namespace Ics

/-- C83: the attributes of a calendar that was read, and of everything in it, are of the right types. -/
theorem C83_typed (L : Lib) (items : List Item) (o : CalObj) (h : loadCalendar L items = .ok o) : TypedCalendar o :=
  calendar_typed h

/-- C83: a calendar that was read can be written exactly if no line lists several attendees, where the zones of its times
have names and can be written.  The parameters of a line are a dictionary, so their names are distinct. -/
theorem C83_written (L : Lib) (w : Wrap) (hw : w.ok) (items : List Item) (o : CalObj) (h : loadCalendar L items = .ok o)
    (hu : ∀ cl, LineIn cl items → (cl.params.map Prod.fst).Nodup)
    (hc : ∀ d t, CalendarWritten o d → L.dtIsUtc d = false → d.tz = some t → L.conv t ≠ .unserializable)
    (hz : ∀ z, UsesZone L o z → ∃ i, L.tzDump z = .ok i) :
    (∃ txt, serializeCalendar L w o = .ok txt) ↔ ¬ CrowdedCalendar items := by
  have ht := calendar_typed h
  have hn : ¬ NamelessTime L (CalendarWritten o) := fun ⟨d, t, h1, h2, h3, h4⟩ => hc d t h1 h2 h3 h4
  have hcl : CalendarClasses o := ⟨ht.1, fun m hm => by
    have key : ∀ {τ : Type} {T : τ → Prop} {x : Obj τ} {m : τ}, Typed T x → MemberOf x m → T m := by
      rintro τ T x m hx ⟨a, ha, l, hl, hm⟩
      obtain ⟨l', hl', hall⟩ := hx.members a ha
      rw [hl] at hl'
      cases hl'
      obtain ⟨m', e, hm'⟩ := hall _ hm
      cases e
      exact hm'
    exact ⟨(key ht.2 hm).1, fun n hn => (key (key ht.2 hm).2 hn).1⟩⟩
  rw [C82_exact L w hw o hcl hz]
  constructor
  · exact fun ⟨_, hf⟩ hcr => hf .valueError ((calendar_fault h hu).2 ⟨rfl, .inr hcr⟩)
  · intro hcr
    refine ⟨ht, fun e hf => ?_⟩
    rcases (calendar_fault h hu).1 hf with ⟨-, hk | hk⟩
    · exact hn hk
    · exact hcr hk

/-- C83, without conditions on the zones: whatever is raised when a calendar that was read is written is a `ValueError`, or
what a zone that is used raises. -/
theorem C83_raises (L : Lib) (w : Wrap) (hw : w.ok) (items : List Item) (o : CalObj) (h : loadCalendar L items = .ok o)
    (hu : ∀ cl, LineIn cl items → (cl.params.map Prod.fst).Nodup) (e : PyErr) (he : serializeCalendar L w o = .error e) :
    e = .valueError ∨ ∃ z, UsesZone L o z ∧ L.tzDump z = .error e := by
  cases C82_faults L w hw o (calendar_typed h) e he with
  | own hf => exact .inl ((calendar_fault h hu).1 hf).1
  | zone h1 h2 => exact .inr ⟨_, h1, h2⟩

theorem writable_lineIn {cl : ContentLine} {items : List Item} (h : LineIn cl items) (hi : WritableTrees items) :
    (cl.params.map Prod.fst).Nodup := by
  induction h with
  | here h =>
    have := writableTrees_mem hi _ h
    rw [WritableTree] at this
    exact this.1.distinct
  | inside h _ ih =>
    have := writableTrees_mem hi _ h
    rw [WritableTree] at this
    exact ih this.2

/-- C83 for texts: a calendar that was read from a text can be written exactly if no line of the text lists several
attendees, where the zones of its times have names and can be written. -/
theorem C83_text (L : Lib) (w : Wrap) (hw : w.ok) (text : Str) (o : CalObj) (h : calendarOfString L text = .ok o)
    (hc : ∀ d t, CalendarWritten o d → L.dtIsUtc d = false → d.tz = some t → L.conv t ≠ .unserializable)
    (hz : ∀ z, UsesZone L o z → ∃ i, L.tzDump z = .ok i) :
    (∃ txt, serializeCalendar L w o = .ok txt) ↔
      ¬ ∃ items, (stringToContainers text).items = [.cont "VCALENDAR".toList items] ∧ CrowdedCalendar items := by
  obtain ⟨is, h1, h2⟩ := C58_one L text o h
  have hi : WritableTree (.cont "VCALENDAR".toList is) :=
    item_good (txt := text) (by rw [h1]; exact List.mem_singleton_self _) fun cl => nofun
  rw [WritableTree] at hi
  rw [C83_written L w hw is o h2 (fun cl hcl => writable_lineIn hcl hi.2) hc hz, h1]
  constructor
  · rintro hn ⟨items, e, hcr⟩
    cases e
    exact hn hcr
  · exact fun hn hcr => hn ⟨is, rfl, hcr⟩

/-! ### Examples -/

/-- The text of a calendar whose event has the line. -/
def exAttended (l : String) : Str :=
  ("BEGIN:VCALENDAR\r\nVERSION:2.0\r\nPRODID:x\r\nBEGIN:VTIMEZONE\r\nTZID:X/Y\r\nEND:VTIMEZONE\r\n" ++
    "BEGIN:VEVENT\r\nUID:1\r\nDTSTART;TZID=X/Y:20240229T101500\r\n" ++ l ++ "\r\nEND:VEVENT\r\nEND:VCALENDAR\r\n").toList

/-- Whether the text is read; and then the exception of writing what was read. -/
def exReadWrite (t : Str) : Option (Option PyErr) :=
  match calendarOfString exLib t with
  | .error _ => none
  | .ok o => match serializeCalendar exLib .none o with
    | .ok _ => some none
    | .error e => some (some e)

/-- C83: a line with one attendee can be read and written, two such lines too; one line with two attendees is read but not
written, be it in an event or an alarm; that the first of them has the parameters that the second gets helps. -/
theorem C83_occur :
    exReadWrite (exAttended "ATTENDEE;CN=A:mailto:a@x.org") = some none ∧
    exReadWrite (exAttended "ATTENDEE;CN=A:mailto:a@x.org\r\nATTENDEE:mailto:b@x.org") = some none ∧
    exReadWrite (exAttended "ATTENDEE:mailto:a@x.org,mailto:b@x.org") = some (some .valueError) ∧
    exReadWrite (exAttended "ATTENDEE;__merge_next=TRUE:mailto:a@x.org,mailto:b@x.org") = some none ∧
    exReadWrite (exAttended "CATEGORIES;X=1:a,b") = some none ∧
    exReadWrite (exAttended ("BEGIN:VALARM\r\nACTION:EMAIL\r\nTRIGGER:-PT5M\r\nSUMMARY:s\r\nDESCRIPTION:d\r\n" ++
      "ATTENDEE:mailto:a@x.org,mailto:b@x.org\r\nEND:VALARM")) = some (some .valueError) ∧
    exReadWrite (exAttended ("BEGIN:VALARM\r\nACTION:DISPLAY\r\nTRIGGER:-PT5M\r\nDESCRIPTION:d\r\n" ++
      "ATTENDEE:mailto:a@x.org,mailto:b@x.org\r\nEND:VALARM")) = some none := by
  refine ⟨?_, ?_, ?_, ?_, ?_, ?_, ?_⟩ <;> decide +kernel

/-- The hypotheses on zones hold of every calendar in the world of the examples. -/
example (o : CalObj) :
    (∀ d t, CalendarWritten o d → exLib.dtIsUtc d = false → d.tz = some t → exLib.conv t ≠ .unserializable) ∧
    ∀ z, UsesZone exLib o z → ∃ i, exLib.tzDump z = .ok i := by
  have hc : ∀ t, exLib.conv t = .timezone 1 ∨ exLib.conv t = .localTime := by
    intro t
    show (match t with | .zone 1 => TzConv.timezone 1 | _ => .localTime) = _ ∨
      (match t with | .zone 1 => TzConv.timezone 1 | _ => .localTime) = _
    split
    · exact .inl rfl
    · exact .inr rfl
  refine ⟨fun d t _ _ _ h => ?_, ?_⟩
  · rcases hc t with h' | h' <;> (rw [h] at h'; cases h')
  · rintro z ⟨d, t, _, _, _, h⟩
    rcases hc t with h' | h' <;> (rw [h] at h'; cases h')
    exact ⟨_, rfl⟩

/-- A line with two attendees, and one of these lines that can be written. -/
example : CrowdedLine ⟨"ATTENDEE".toList, [("CN".toList, [⟨false, "A".toList⟩])], "mailto:a@x.org,mailto:b@x.org".toList⟩ ∧
    ¬ CrowdedLine ⟨"ATTENDEE".toList, [("__merge_next".toList, [⟨false, "TRUE".toList⟩])],
      "mailto:a@x.org,mailto:b@x.org".toList⟩ := by
  refine ⟨⟨rfl, by decide, fun h => ?_⟩, fun h => h.2.2 ?_⟩
  · exact absurd ((paramsEq_iff _ _).2 h) (by decide)
  · exact (paramsEq_iff _ _).1 (by decide)

end Ics
