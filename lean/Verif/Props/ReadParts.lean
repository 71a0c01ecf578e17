import Verif.Proofs.ReadParts
import Verif.Props.ReadText

/-
C95: people, places, attachments and alarms of a calendar that was read are those that the lines say, and so are the values
of the calendar itself; the lines of a calendar that was written say them.
-/
namespace Ics

/-- C95: the values of a calendar that was read, the attachments and alarms of its events and todos, and the organizers,
places and attendees of its events are those that the lines say; each alarm is that of one VALARM, in the same order. -/
theorem C95_read (L : Lib) (items : List Item) (o : CalObj) (h : loadCalendar L items = .ok o) :
    CalendarSaid items o ∧
    (∃ evs : List EntryObj, o.get "events".toList = .many (evs.map .comp) ∧
      List.Forall₂ (fun i ev => ∃ is, i = .cont "VEVENT".toList is ∧ PartsSaid L (TzidMeans L items) is ev ∧ PeopleSaid L is ev)
        (named "VEVENT" items) evs) ∧
    (∃ tds : List EntryObj, o.get "todos".toList = .many (tds.map .comp) ∧
      List.Forall₂ (fun i td => ∃ is, i = .cont "VTODO".toList is ∧ PartsSaid L (TzidMeans L items) is td)
        (named "VTODO" items) tds) := by
  simp only [loadCalendar, bind_ok_iff] at h
  obtain ⟨zones, hz, ⟨o', ctx'⟩, h, e⟩ := h
  obtain rfl : o' = o := by cases e; rfl
  refine ⟨calendar_said h, ?_, ?_⟩
  · obtain ⟨ms, h1, h2⟩ := load_member (loadCalMember_stable L) rfl h
      (a := "events".toList) (n := "VEVENT".toList) (by decide)
    refine ⟨ms, h1, h2.imp ?_⟩
    rintro i m ⟨is, ctx2, rfl, hm⟩
    exact ⟨is, rfl, entry_parts hz (.inl rfl) hm, event_people hm⟩
  · obtain ⟨ms, h1, h2⟩ := load_member (loadCalMember_stable L) rfl h
      (a := "todos".toList) (n := "VTODO".toList) (by decide)
    refine ⟨ms, h1, h2.imp ?_⟩
    rintro i m ⟨is, ctx2, rfl, hm⟩
    exact ⟨is, rfl, entry_parts hz (.inr rfl) hm⟩

/-! ### Written calendars -/

/-- The values that are the same only if they are equal. -/
def Val.Exact {σ : Type} : Val σ → Prop
  | .text _ | .url _ | .bytes _ | .geo _ _ => True
  | _ => False

/-- No value, or only such values. -/
def AttrVal.Exact {σ : Type} : AttrVal σ → Prop
  | .none => True
  | .one v => v.Exact
  | .many l => ∀ v ∈ l, v.Exact

theorem same_exact {σ : Type} {L : Lib} {R : σ → σ → Prop} {f : σ → σ} {x y : Val σ}
    (h : SameVal L R (x.unquote f) (y.unquote f)) (hy : y.Exact) : x = y := by
  cases y <;> first | cases hy | skip
  all_goals (cases x <;> first | cases h; rfl | cases h)

theorem sameAttr_exact {σ : Type} {L : Lib} {R : σ → σ → Prop} {f : σ → σ} {x y : AttrVal σ}
    (h : SameAttr L R (x.unquote f) (y.unquote f))
    (hy : y.Exact) : x = y := by
  cases y with
  | none => cases x <;> first | rfl | cases h
  | one w =>
    cases x with
    | one v => cases h with | one h => rw [same_exact h hy]
    | none => cases h
    | many l => cases h
  | many m =>
    cases x with
    | one v => cases h
    | none => cases h
    | many l =>
      cases h with
      | many h =>
        congr 1
        replace hy : ∀ v ∈ m, v.Exact := hy
        rw [List.forall₂_map_left_iff, List.forall₂_map_right_iff] at h
        induction h with
        | nil => rfl
        | cons h _ ih =>
          rw [same_exact h (hy _ List.mem_cons_self), ih fun v hv => hy v (List.mem_cons_of_mem _ hv)]

theorem Given.exact {σ : Type} {items : List Item} {name : String} {v : AttrVal σ} {P : ContentLine → AttrVal σ → Prop}
    (hP : ∀ cl v, P cl v → ∃ x : Val σ, x.Exact ∧ v = .one x) (h : Given items name P .none v) :
    v.Exact := by
  cases h with
  | missing _ h => rw [h]; trivial
  | line _ _ _ h =>
    obtain ⟨x, hx, rfl⟩ := hP _ _ h
    exact hx

theorem SaysFile.exact {σ : Type} {L : Lib} {cl : ContentLine} {t : Str} {v : Val σ} (h : SaysFile L cl t v) : v.Exact := by
  rcases h with ⟨-, b, -, rfl⟩ | ⟨-, u, -, rfl⟩ <;> trivial

theorem GivenAll.exact {σ : Type} {L : Lib} {items : List Item} {name : String} {v : AttrVal σ}
    (h : GivenAll items name (SaysFiles L) v) :
    v.Exact := by
  obtain ⟨lines, groups, -, h, rfl⟩ := h
  intro v hv
  obtain ⟨g, hg, hv⟩ := List.mem_flatten.1 hv
  obtain ⟨cl, -, l, -, hl⟩ := forall₂_mem h g hg
  obtain ⟨t, -, ht⟩ := forall₂_mem hl v hv
  exact ht.exact

/-- C95: the text of a calendar is one VCALENDAR that says the values of the calendar, exactly the attachments of its events
and todos and the places of its events, and their people and alarms except for quotation marks and which zone object for UTC
is used. -/
theorem C95_written (L : Lib) (hU : UtcOk L) (zs : List (Str × Nat)) (o : CalObj) (h : RepCalendar L zs o)
    (hz : ∀ n z, dictGet? zs n = some z → ZoneTrip L z) (ho : WritableCalendar L o)
    (w : Wrap) (hw : match w with | .none => True | .width _ W => 1 ≤ W) :
    ∃ txt items, serializeCalendar L w o = .ok txt ∧ stringToContainers txt = Gen.done [.cont "VCALENDAR".toList items] ∧
      CalendarSaid items o ∧
      (∃ evs : List EntryObj, o.get "events".toList = .many (evs.map .comp) ∧
        List.Forall₂ (fun i ev => ∃ is, i = .cont "VEVENT".toList is ∧
          GivenAll is "ATTACH" (SaysFiles L) (ev.get "attach".toList) ∧
          Given is "GEO" (SaysGeo L) .none (ev.get "geo".toList) ∧
          ∃ ev', SameEntry L (unquoteEntry ev) (unquoteEntry ev') ∧ PartsSaid L (TzidMeans L items) is ev' ∧
            PeopleSaid L is ev') (named "VEVENT" items) evs) ∧
      ∃ tds : List EntryObj, o.get "todos".toList = .many (tds.map .comp) ∧
        List.Forall₂ (fun i td => ∃ is, i = .cont "VTODO".toList is ∧
          GivenAll is "ATTACH" (SaysFiles L) (td.get "attach".toList) ∧
          ∃ td', SameEntry L (unquoteEntry td) (unquoteEntry td') ∧ PartsSaid L (TzidMeans L items) is td')
          (named "VTODO" items) tds := by
  obtain ⟨txt, o', h1, h2, h3⟩ := C57_roundtrip L hU zs o h hz ho w hw
  obtain ⟨items, h4, h5⟩ := C58_one L txt o' h2
  obtain ⟨hc, ⟨evs', e1, e2⟩, tds', t1, t2⟩ := C95_read L items o' h5
  have hs : ∀ cl (v : AttrVal EntryObj), SaysText cl v → ∃ x : Val EntryObj, x.Exact ∧ v = .one x :=
    fun cl v ⟨t, _, h⟩ => ⟨.text t, trivial, h⟩
  have hg : ∀ cl (v : AttrVal Alarm), SaysGeo L cl v → ∃ x : Val Alarm, x.Exact ∧ v = .one x :=
    fun cl v ⟨_, _, x, y, _, _, _, _, h⟩ => ⟨.geo x y, trivial, h⟩
  have hcal : ∀ k ∈ allAttrs .calendar, SameAttr L (fun a b => SameEntry L a b) ((o.get k.toList).unquote unquoteEntry)
      ((o'.get k.toList).unquote unquoteEntry) := by
    intro k hk
    have := h3.attrs k (by show k ∈ allAttrs o.cls; rw [h.1]; exact hk)
    unfold unquoteCalendar at this
    rwa [get_unquote, get_unquote] at this
  have hent : ∀ {a b : EntryObj} (k : String), k ∈ allAttrs a.cls → SameEntry L (unquoteEntry a) (unquoteEntry b) →
      ∃ (R : Alarm → Alarm → Prop) (f : Alarm → Alarm), SameAttr L R ((a.get k.toList).unquote f) ((b.get k.toList).unquote f) := by
    intro a b k hk hs
    have := hs.attrs k hk
    unfold unquoteEntry at this
    rw [get_unquote, get_unquote] at this
    exact ⟨_, _, this⟩
  refine ⟨txt, items, h1, h4, ⟨?_, ?_, ?_, ?_⟩, ?_, ?_⟩
  · obtain ⟨cl, q1, q2, q3⟩ := hc.version
    obtain ⟨x, hx, q⟩ := hs cl _ q3
    refine ⟨cl, q1, q2, ?_⟩
    rwa [sameAttr_exact (hcal "version" (by decide)) (by rw [q]; exact hx)]
  · obtain ⟨cl, q1, q2, q3⟩ := hc.prodid
    obtain ⟨x, hx, q⟩ := hs cl _ q3
    refine ⟨cl, q1, q2, ?_⟩
    rwa [sameAttr_exact (hcal "prodid" (by decide)) (by rw [q]; exact hx)]
  · rw [sameAttr_exact (hcal "scale" (by decide)) (hc.scale.exact hs)]; exact hc.scale
  · rw [sameAttr_exact (hcal "method" (by decide)) (hc.method.exact hs)]; exact hc.method
  · obtain ⟨evs, evs2, g1, g2, g3⟩ := same_members h h3 (.inl ⟨rfl, rfl, rfl⟩)
    rw [e1] at g2
    obtain rfl : evs' = evs2 := comp_injective g2
    refine ⟨evs, g1, forall₂_both ?_ e2 g3⟩
    rintro i b a ⟨is, rfl, hp, hq⟩ ⟨hc, -, hs⟩
    refine ⟨is, rfl, ?_, ?_, b, hs, hp, hq⟩
    · obtain ⟨R, f, k⟩ := hent "attach" (by rw [hc]; decide) hs
      rw [sameAttr_exact k hp.attach.exact]; exact hp.attach
    · obtain ⟨R, f, k⟩ := hent "geo" (by rw [hc]; decide) hs
      rw [sameAttr_exact k (hq.geo.exact hg)]; exact hq.geo
  · obtain ⟨tds, tds2, g1, g2, g3⟩ := same_members h h3 (.inr ⟨rfl, rfl, rfl⟩)
    rw [t1] at g2
    obtain rfl : tds' = tds2 := comp_injective g2
    refine ⟨tds, g1, forall₂_both ?_ t2 g3⟩
    rintro i b a ⟨is, rfl, hp⟩ ⟨hc, -, hs⟩
    refine ⟨is, rfl, ?_, b, hs, hp⟩
    obtain ⟨R, f, k⟩ := hent "attach" (by rw [hc]; decide) hs
    rw [sameAttr_exact k hp.attach.exact]; exact hp.attach

/-! ### Disagreements with RFC 5545 -/

theorem pieces_count {v : Str} {l : List Str} (h : Pieces v l) : l.length = v.count ',' + 1 := by
  induction h with
  | one h => rw [List.count_eq_zero_of_not_mem h]; rfl
  | more h _ ih =>
    rw [List.count_append, List.count_cons_self, List.count_eq_zero_of_not_mem h, List.length_cons, ih]
    omega

/-- A line ATTACH is one attachment (RFC 5545 section 3.8.1.1), but as many are read as there are pieces between commas: a
URL with a comma becomes several. -/
theorem C95_attach_fails (L : Lib) (items is : List Item) (o : CalObj) (h : loadCalendar L items = .ok o)
    (hi : .cont "VEVENT".toList is ∈ items) (cl : ContentLine)
    (hl : (is.filter fun i => i.name = "ATTACH".toList) = [.line cl]) :
    ∃ (evs : List EntryObj) (ev : EntryObj) (files : List (Val Alarm)), o.get "events".toList = .many (evs.map .comp) ∧
      ev ∈ evs ∧ ev.get "attach".toList = .many files ∧ files.length = cl.value.count ',' + 1 := by
  obtain ⟨-, ⟨evs, h1, h2⟩, -⟩ := C95_read L items o h
  obtain ⟨ev, hev, is', e, h3, -⟩ := forall₂_mem h2.flip (.cont "VEVENT".toList is) (mem_named hi)
  injection e with _ e
  subst e
  obtain ⟨lines, groups, g1, g2, g3⟩ := h3.attach
  rw [hl] at g1
  cases lines with
  | nil => cases g1
  | cons cl' lines =>
    rw [List.map_cons] at g1
    obtain ⟨e1, e2⟩ := List.cons.inj g1
    obtain rfl : cl = cl' := Item.line.inj e1
    cases lines with
    | cons _ _ => cases e2
    | nil =>
      cases g2 with
      | cons k1 k2 =>
        cases k2
        obtain ⟨l, j1, j2⟩ := k1
        refine ⟨evs, ev, _, h1, hev, g3, ?_⟩
        rw [List.flatten_cons, List.flatten_nil, List.append_nil, ← j2.length_eq, pieces_count j1]

/-- A line with the type that RFC 5545 sections 3.8.4.1 and 3.8.4.3 give attendees and organizers is not accepted. -/
theorem C95_address_fails (L : Lib) (items is : List Item) (hi : .cont "VEVENT".toList is ∈ items) (n : String)
    (hn : n = "ATTENDEE" ∨ n = "ORGANIZER") (p : Params) (hp : ∃ q, dictGet? p "VALUE".toList = some [⟨q, "CAL-ADDRESS".toList⟩])
    (v : Str) (hl : .line ⟨n.toList, p, v⟩ ∈ is) (o : CalObj) : loadCalendar L items ≠ .ok o := by
  intro h
  obtain ⟨q, hp⟩ := hp
  obtain ⟨-, ⟨evs, -, h2⟩, -⟩ := C95_read L items o h
  obtain ⟨ev, -, is', e, -, h3⟩ := forall₂_mem h2.flip (.cont "VEVENT".toList is) (mem_named hi)
  injection e with _ e
  subst e
  rcases hn with rfl | rfl
  · obtain ⟨lines, groups, g1, g2, -⟩ := h3.attendees
    have hm : .line ⟨"ATTENDEE".toList, p, v⟩ ∈ lines.map Item.line := by
      rw [← g1, List.mem_filter]
      exact ⟨hl, by simp [Item.name]⟩
    obtain ⟨cl, hcl, e⟩ := List.mem_map.1 hm
    obtain rfl := Item.line.inj e
    obtain ⟨g, -, ht, -⟩ := forall₂_mem g2.flip _ hcl
    have e : "CAL-ADDRESS".toList = "ATTENDEE".toList := ht _ hp
    exact absurd e (by decide)
  · have e : "CAL-ADDRESS".toList = "ORGANIZER".toList := (given_line h3.organizer hl rfl).1 _ hp
    exact absurd e (by decide)

/-! ### Examples -/

/-- The calendar of `Props.Accepted`, whose event has an attendee and an alarm, is read. -/
example : ∃ o, loadCalendar exLib exTextItems = .ok o ∧ .cont "VEVENT".toList exEventItems ∈ exTextItems ∧
    (named "VALARM" exEventItems).length = 1 := by
  obtain ⟨o, h, -⟩ := exText_accepted
  obtain ⟨is, h1, h2⟩ := C58_one exLib exText o h
  rw [exText_items] at h1
  injection h1 with h1
  injection h1 with h1
  injection h1 with h1 h3
  rw [← h3] at h2
  exact ⟨o, h2, by simp [exTextItems], by decide +kernel⟩

/-- The calendar of `Props.CalendarTrip`, which has an event with an attendee and an alarm, can be written. -/
example : UtcOk exLib ∧ RepCalendar exLib [("X/Y".toList, 1)] exCalRep ∧ WritableCalendar exLib exCalRep ∧
    ∀ n z, dictGet? [("X/Y".toList, 1)] n = some z → ZoneTrip exLib z :=
  ⟨exLib_utc, exCalRep_rep, exCalRep_writable, exZoneTrip⟩

/-- The items of a calendar with the line in its event. -/
def exPart (l : Item) : List Item := [exLine "VERSION" "2.0", exLine "PRODID" "x", .cont "VEVENT".toList [l]]

/-- The number of attachments of the first event, if the items are read. -/
def exAttachments (items : List Item) : Option Nat :=
  match loadCalendar exLib items with
  | .error _ => none
  | .ok o => match o.get "events".toList with
    | .many (.comp ev :: _) => match ev.get "attach".toList with
      | .many l => some l.length
      | _ => none
    | _ => none

/-- One URL is read as two attachments. -/
example : exAttachments (exPart (exLine "ATTACH" "http://a/b,c")) = some 2 ∧ exAttachments (exPart (exLine "ATTACH" "http://a/bc")) = some 1 := by
  decide +kernel

/-- An attendee is accepted without but not with its type. -/
example : exAttachments (exPart (exLine "ATTENDEE" "mailto:a@b")) = some 0 ∧
    exAttachments (exPart (exLine "ATTENDEE" "mailto:a@b" [("VALUE".toList, [⟨false, "CAL-ADDRESS".toList⟩])])) = none := by
  decide +kernel

/-- Two attendees in a line: the second one has no name. -/
example (L : Lib) (u w : Url) (h1 : urlparse L.urlChecks "mailto:a".toList = .ok u) (h2 : urlparse L.urlChecks "mailto:b".toList = .ok w) :
    SaysAttendees (σ := Alarm) L ⟨"ATTENDEE".toList, [("CN".toList, [⟨false, "A".toList⟩])], "mailto:a,mailto:b".toList⟩
      [.person true (.url u) [("CN".toList, [⟨false, "A".toList⟩])],
        .person true (.url w) [("__merge_next".toList, [⟨false, "TRUE".toList⟩])]] :=
  ⟨fun v hv => (by cases hv), ["mailto:a".toList, "mailto:b".toList], u, [w],
    .more (v := "mailto:a".toList) (w := "mailto:b".toList) (by decide) (.one (by decide)), .cons h1 (.cons h2 .nil), rfl⟩

end Ics
