import Verif.Proofs.Tzid
import Verif.Props.RoundTrip

/-
C43: every TZID that is written has one definition, before its use.
-/
namespace Ics

theorem definesZone_inj {m n : Str} {i : Item} (h : DefinesZone m i) (k : DefinesZone n i) : m = n := by
  obtain ⟨is, p, rfl, h⟩ := h
  obtain ⟨js, q, e, k⟩ := k
  cases e
  rw [h] at k
  injection k with k
  injection k with k
  injection k with _ _ k
  exact C10_injective _ _ k

theorem dumpZones_forall {L : Lib} {used : List (Str × Nat)} {zs : List Item} (h : dumpZones L used = .ok zs) :
    List.Forall₂ (fun p i => L.tzDump p.2 = .ok i) used zs := by
  induction used generalizing zs with
  | nil => cases h; exact .nil
  | cons x used ih =>
    obtain ⟨n, z⟩ := x
    simp only [dumpZones, bind_ok_iff] at h
    obtain ⟨i, hi, is, his, h⟩ := h
    cases h
    exact .cons hi (ih his)

/-- The one definition among those of the zones. -/
theorem zones_split {L : Lib} (hL : ZonesDefine L) {used : List (Str × Nat)} {zs : List Item} (hu : UniqueKeys used)
    (hn : ∀ n z, (n, z) ∈ used → n = L.tzid z) (hf : List.Forall₂ (fun p i => L.tzDump p.2 = .ok i) used zs) {n : Str}
    {z : Nat} (hz : (n, z) ∈ used) :
    ∃ pre x post, zs = pre ++ x :: post ∧ DefinesZone n x ∧ L.tzDump z = .ok x ∧ ∀ y ∈ pre ++ post, ¬DefinesZone n y := by
  have hother : ∀ used zs, (∀ n z, (n, z) ∈ used → n = L.tzid z) → List.Forall₂ (fun p i => L.tzDump p.2 = .ok i) used zs →
      n ∉ used.map Prod.fst → ∀ y ∈ zs, ¬DefinesZone n y := by
    intro used zs hn hf hnot y hy hd
    obtain ⟨⟨m, w⟩, hm, hw⟩ := forall₂_mem hf y hy
    have e := definesZone_inj hd (hL _ _ hw)
    rw [← hn m w hm] at e
    subst e
    exact hnot (List.mem_map.2 ⟨_, hm, rfl⟩)
  induction hf with
  | nil => cases hz
  | @cons p i used zs h1 hf ih =>
    obtain ⟨m, w⟩ := p
    unfold UniqueKeys at hu
    rw [List.map_cons, List.nodup_cons] at hu
    rcases List.mem_cons.1 hz with e | hzm
    · cases e
      refine ⟨[], i, zs, rfl, ?_, h1, ?_⟩
      · have := hL _ _ h1
        rw [← hn n z (List.mem_cons_self ..)] at this
        exact this
      · exact hother used zs (fun n z h => hn n z (List.mem_cons_of_mem _ h)) hf hu.1
    · obtain ⟨pre, x, post, rfl, h2, h3, h4⟩ := ih hu.2 (fun n z h => hn n z (List.mem_cons_of_mem _ h)) hzm
      refine ⟨i :: pre, x, post, rfl, h2, h3, ?_⟩
      intro y hy
      rcases List.mem_cons.1 hy with rfl | hy
      · intro hd
        have e := definesZone_inj hd (hL _ _ h1)
        rw [← hn m w (List.mem_cons_self ..)] at e
        subst e
        exact hu.1 (List.mem_map.2 ⟨_, hzm, rfl⟩)
      · exact h4 y hy

/-- The items of a calendar: lines, zones, the rest; and the zones that were collected. -/
theorem calendar_zones {L : Lib} (hL : ZonesDefine L) {o : CalObj} (hc : o.cls = .calendar) (ho : CalendarTzid o)
    (hn : UsualNames o) {n : Str} {items : List Item} (h : dumpCalendar L o = .ok (.cont n items)) :
    ∃ (used : List (Str × Nat)) (a zs b : List Item), items = a ++ zs ++ b ∧ TzItems used (a ++ b) ∧
      ZonesOf L (CalendarTime o) used ∧ (∀ i ∈ zs, i.name = "VTIMEZONE".toList) ∧
      (∀ n z, (n, z) ∈ used → DefinedOnce n (fun x => L.tzDump z = .ok x) items) ∧
      ∀ m, ∀ i ∈ items, DefinesZone m i → ∃ z, (m, z) ∈ used := by
  obtain ⟨a, zs, b, used, st, st', hi, ha, hb, _, hz, hU, hT⟩ := dumpCalendar_step hc ho h
  cases hi
  have hdn : DumpNamed (σ := EntryObj) Obj.extraName (dumpEntry L) := by
    intro m st i st' h
    obtain ⟨known, e⟩ := C38_write L _ m st st' i h
    exact ⟨_, e⟩
  have hmn : MembersNamed Obj.extraName o := by
    intro k n hm ms hg m hmem
    rw [hc] at hm
    simp only [Cls.convs, attr1, List.mem_cons, List.not_mem_nil, or_false, reduceCtorEq, false_or,
      Conv.member.injEq] at hm
    rcases hm with ⟨rfl, rfl⟩ | ⟨rfl, rfl⟩
    · exact hn.events _ hg m (List.mem_map.2 ⟨m, hmem, rfl⟩)
    · exact hn.todos _ hg m (List.mem_map.2 ⟨m, hmem, rfl⟩)
  have names : ∀ cvs : List Conv, (∀ cv ∈ cvs, cv ∈ o.cls.convs) → ∀ st st' is,
      dumpConvs L (dumpEntry L) cvs o st = .ok (is, st') → ∀ i ∈ is, ∃ cv ∈ cvs, i.name ∈ cv.names ∧ cv ≠ .calendarTimezone := by
    intro cvs hsub st st' is hd i hi
    obtain ⟨parts, rfl, hf⟩ := dumpConvs_parts hd
    obtain ⟨part, hp, hi⟩ := List.mem_flatten.1 hi
    have hf' : List.Forall₂ (fun cv part => cv ∈ cvs ∧ ∃ st1 st2, cv.dump L (dumpEntry L) o st1 = .ok (part, st2)) cvs parts :=
      (List.forall₂_and_left _ _).2 ⟨fun _ h => h, hf⟩
    obtain ⟨cv, -, hcv, st1, st2, hd'⟩ := forall₂_mem hf' part hp
    refine ⟨cv, hcv, (dump_names hdn hmn (hsub cv hcv) hd' i hi).1, ?_⟩
    rintro rfl
    cases hd'
    cases hi
  have sub1 : ∀ cv ∈ calConvsBefore, cv ∈ o.cls.convs := by
    rw [hc]
    exact fun cv h => (List.takeWhile_sublist _).subset h
  have sub2 : ∀ cv ∈ calConvsAfter, cv ∈ o.cls.convs := by
    rw [hc]
    exact fun cv h => (List.dropWhile_sublist _).subset h
  have n1 : ∀ cv ∈ calConvsBefore, ∀ x ∈ cv.names, x ≠ "VTIMEZONE".toList ∧ x ≠ "VEVENT".toList ∧ x ≠ "VTODO".toList := by
    decide +kernel
  have n2 : ∀ cv ∈ calConvsAfter, cv ≠ .calendarTimezone → ∀ x ∈ cv.names, x ≠ "VTIMEZONE".toList := by
    decide +kernel
  have hna : ∀ i ∈ a, i.name ≠ "VTIMEZONE".toList ∧ i.name ≠ "VEVENT".toList ∧ i.name ≠ "VTODO".toList := by
    intro i hi
    obtain ⟨cv, hcv, hx, _⟩ := names _ sub1 _ _ _ ha i hi
    exact n1 cv hcv _ hx
  have hnb : ∀ i ∈ b ++ o.extra, ∀ n, ¬DefinesZone n i := by
    rintro i hi n ⟨is, p, rfl, -⟩
    rcases List.mem_append.1 hi with hi | hi
    · obtain ⟨cv, hcv, hx, hne⟩ := names _ sub2 _ _ _ hb _ hi
      exact n2 cv hcv hne _ hx rfl
    · exact unhandled_cont (hn.extra _ hi) (show Conv.calendarTimezone ∈ Cls.calendar.convs by decide)
        (List.mem_singleton_self _)
  have hf := dumpZones_forall hz
  have hzn : ∀ i ∈ zs, i.name = "VTIMEZONE".toList := by
    intro i hi
    obtain ⟨⟨m, w⟩, -, hw⟩ := forall₂_mem hf i hi
    obtain ⟨is, p, rfl, -⟩ := hL _ _ hw
    rfl
  refine ⟨used, a, zs, b ++ o.extra, rfl, hT, hU, hzn, fun n z hz => ?_, fun m i hi hd => ?_⟩
  rotate_left
  · rw [List.mem_append, List.mem_append] at hi
    rcases hi with (hi | hi) | hi
    · obtain ⟨is, p, rfl, -⟩ := hd
      exact ((hna _ hi).1 rfl).elim
    · obtain ⟨⟨k, w⟩, hk, hw⟩ := forall₂_mem hf i hi
      rw [definesZone_inj hd (hL _ _ hw), ← (hU.name k w hk).1]
      exact ⟨w, hk⟩
    · exact (hnb i hi m hd).elim
  obtain ⟨pre, x, post, rfl, h2, h3, h4⟩ := zones_split hL hU.uniq (fun n z h => (hU.name n z h).1) hf hz
  refine ⟨a ++ pre, x, post ++ (b ++ o.extra), by simp [List.append_assoc], h2, h3, ?_, ?_⟩
  · intro y hy
    rw [List.append_assoc, List.mem_append] at hy
    rcases hy with hy | hy
    · rintro ⟨is, p, rfl, -⟩
      exact (hna _ hy).1 rfl
    · rw [← List.append_assoc, List.mem_append] at hy
      rcases hy with hy | hy
      · exact h4 y hy
      · exact hnb y hy n
  · intro y hy
    rcases List.mem_append.1 hy with hy | hy
    · exact (hna y hy).2
    · have := hzn y (List.mem_append_left _ hy)
      rw [this]
      exact ⟨by decide, by decide⟩

/-- C43: in the text of a calendar in which only date-times are written with a TZID, every TZID parameter
(outside of the VTIMEZONEs themselves) has one value, and there is exactly one VTIMEZONE with that TZID,
before all events and todos. -/
theorem C43_defined_once (L : Lib) (hL : ZonesDefine L) (o : CalObj) (hc : o.cls = .calendar) (ho : CalendarTzid o)
    (hn : UsualNames o) (n : Str) (items : List Item) (h : dumpCalendar L o = .ok (.cont n items)) (cl : ContentLine)
    (hcl : LineIn cl (items.filter fun i => i.name ≠ "VTIMEZONE".toList)) (v : List PVal)
    (hv : ("TZID".toList, v) ∈ cl.params) : ∃ x, v = [x] ∧ DefinedOnce x.text (fun _ => True) items := by
  obtain ⟨used, a, zs, b, rfl, hT, hU, hz, hd, -⟩ := calendar_zones hL hc ho hn h
  have hcl : LineIn cl (a ++ b) := by
    have e : zs.filter (fun i => i.name ≠ "VTIMEZONE".toList) = [] := by
      rw [List.filter_eq_nil_iff]
      intro i hi hne
      exact of_decide_eq_true hne (hz i hi)
    rw [List.filter_append, List.filter_append, e, List.append_nil] at hcl
    have hmono : ∀ l : List Item, LineIn cl (l.filter fun i => i.name ≠ "VTIMEZONE".toList) → LineIn cl l := by
      intro l hl
      cases hl with
      | here h => exact .here (List.mem_filter.1 h).1
      | inside h k => exact .inside (List.mem_filter.1 h).1 k
    exact lineIn_append.2 ((lineIn_append.1 hcl).imp (hmono a) (hmono b))
  obtain ⟨x, z, rfl, hx⟩ := hT cl hcl v hv
  obtain ⟨pre, y, post, h1, h2, _, h3⟩ := hd _ _ (mem_of_dictGet hx)
  exact ⟨x, rfl, pre, y, post, h1, h2, trivial, h3⟩

/-- C43: for every date-time in a zone other than UTC there is exactly one VTIMEZONE with the name of that
zone, and it is written from a zone of that name that is in use in the calendar; if no other zone in use
has the same name, it describes the zone of the date-time.

Missing: two different zones with the same name; `C43_same_name_fails` shows that the VTIMEZONE then is
wrong for one of them. -/
theorem C43_describes_partial (L : Lib) (hL : ZonesDefine L) (o : CalObj) (hc : o.cls = .calendar)
    (ho : CalendarTzid o) (hn : UsualNames o) (n : Str) (items : List Item)
    (h : dumpCalendar L o = .ok (.cont n items)) (d : DT) (z : Nat) (hd : CalendarTime o d) (hz : InZone L z d) :
    (∃ z' d', CalendarTime o d' ∧ InZone L z' d' ∧ L.tzid z' = L.tzid z ∧
      DefinedOnce (L.tzid z) (fun x => L.tzDump z' = .ok x) items) ∧
    ((∀ z' d', CalendarTime o d' → InZone L z' d' → L.tzid z' = L.tzid z → z' = z) →
      DefinedOnce (L.tzid z) (fun x => L.tzDump z = .ok x) items) := by
  obtain ⟨used, a, zs, b, rfl, hT, hU, _, hdef, -⟩ := calendar_zones hL hc ho hn h
  obtain ⟨z', hm⟩ := hU.used d z hd hz
  obtain ⟨e, d', hd', hz'⟩ := hU.name _ _ hm
  have k := hdef _ _ hm
  refine ⟨⟨z', d', hd', hz', e.symm, k⟩, fun hu => ?_⟩
  rw [hu z' d' hd' hz' e.symm] at k
  exact k

/-- C43: there are no other VTIMEZONEs: each one is written from a zone that is in use. -/
theorem C43_only_used (L : Lib) (hL : ZonesDefine L) (o : CalObj) (hc : o.cls = .calendar) (ho : CalendarTzid o)
    (hn : UsualNames o) (n : Str) (items : List Item) (h : dumpCalendar L o = .ok (.cont n items)) (m : Str)
    (i : Item) (hi : i ∈ items) (hd : DefinesZone m i) :
    ∃ z d, CalendarTime o d ∧ InZone L z d ∧ L.tzid z = m := by
  obtain ⟨used, a, zs, b, rfl, _, hU, _, _, ho⟩ := calendar_zones hL hc ho hn h
  obtain ⟨z, hz⟩ := ho m i hi hd
  obtain ⟨rfl, d, h1, h2⟩ := hU.name _ _ hz
  exact ⟨z, d, h1, h2, rfl⟩

/-! ### An example -/

/-- A calendar with the event above and a todo that was completed at a time in the same zone. -/
def exCalObj : CalObj where
  cls := .calendar
  attrs :=
    [("version".toList, .one (.text "2.0".toList)), ("prodid".toList, .one (.text "me".toList)),
      ("events".toList, .many [.comp exEventObj]),
      ("todos".toList, .many [.comp
        { newObj (σ := Alarm) exLib .todo with
          attrs := dictUpdate (newObj exLib .todo).attrs
            [("completed".toList, .one (.dt exStart))] }])]
  extraName := "VCALENDAR".toList
  extra := [exLine "X-D" "1"]
  extraParams := []

theorem exLib_zones : ZonesDefine exLib := by
  intro z i h
  have h : (if z = 1 then Except.ok (.cont "VTIMEZONE".toList [.line ⟨"TZID".toList, [], "X/Y".toList⟩])
    else .error PyErr.valueError) = .ok i := h
  split at h
  · rename_i hz
    subst hz
    cases h
    exact ⟨_, [], rfl, by decide +kernel⟩
  · cases h

/-- A line of a list of lines and containers, for concrete lists. -/
theorem lineIn_cons {cl : ContentLine} {i : Item} {is : List Item} (h : LineIn cl (i :: is)) :
    LineIn cl [i] ∨ LineIn cl is := lineIn_append.1 (show LineIn cl ([i] ++ is) from h)

theorem exAlarmObj_tzid : AlarmTzid exAlarmObj := by
  refine ⟨?_, ?_, ?_, ?_, ?_, ?_⟩
  · intro cl h
    rw [lineIn_line.1 h]
    exact List.not_mem_nil
  · intro k p h
    simp only [exAlarmObj, dictGet?] at h
    split at h
    · cases h
      unfold NoTzid
      decide
    · cases h
  · intro k p h
    simp only [exAlarmObj, dictGet?] at h
    split at h
    · cases h
    · cases h
  · intro k hk a e x h
    have hk : k ∈ ["trigger", "repeat", "duration", "description"] := hk
    simp only [List.mem_cons, List.not_mem_nil, or_false] at hk
    rcases hk with rfl | rfl | rfl | rfl <;> cases h
  · intro k hk
    cases hk
  · intro k hk
    cases hk

theorem exEventObj_tzid : EntryTzid exEventObj := by
  have hmem : ∀ {k v}, dictGet? exEventObj.extraParams k = some v →
      v = .one [("LANGUAGE".toList, [⟨false, "en".toList⟩])] ∨ v = .many
        [[(mergeKey, [⟨false, "TRUE".toList⟩])], [(mergeKey, [⟨false, "FALSE".toList⟩])]] := by
    intro k v h
    rcases List.mem_cons.1 (mem_of_dictGet h) with h | h
    · exact .inl (congrArg Prod.snd h)
    · exact .inr (congrArg Prod.snd (List.mem_singleton.1 h))
  refine ⟨?_, ?_, ?_, ?_, ?_, ?_⟩
  · intro cl h
    rcases lineIn_cons h with h | h
    · rw [lineIn_line.1 h]
      exact List.not_mem_nil
    · rw [lineIn_line.1 (lineIn_cont.1 h)]
      exact List.not_mem_nil
  · intro k p h
    rcases hmem h with e | e
    · injection e with e
      subst e
      unfold NoTzid
      decide
    · exact ExtraVal.noConfusion e
  · intro k p h
    rcases hmem h with e | e
    · exact ExtraVal.noConfusion e
    · injection e with e
      subst e
      unfold NoTzid
      decide
  · intro k hk a e x h
    have hk : k ∈ ["summary", "uid", "description", "location", "url", "status", "created", "last_modified", "dtstamp",
      "classification", "transparent", "organizer", "geo"] := hk
    simp only [List.mem_cons, List.not_mem_nil, or_false] at hk
    rcases hk with rfl | rfl | rfl | rfl | rfl | rfl | rfl | rfl | rfl | rfl | rfl | rfl | rfl <;> cases h
  · intro k hk l hl a e x h
    have hk : k ∈ ["attach", "attendees", "categories"] := hk
    simp only [List.mem_cons, List.not_mem_nil, or_false] at hk
    rcases hk with rfl | rfl | rfl
    · cases hl
      cases h
    · cases hl
      simp only [List.mem_cons, List.not_mem_nil, or_false, Val.person.injEq] at h
      rcases h with ⟨-, -, rfl⟩ | ⟨-, -, rfl⟩
      · unfold NoTzid
        decide
      · exact List.not_mem_nil
    · cases hl
      simp at h
  · intro k hk l hl m hm
    have hk : k ∈ ["alarms"] := hk
    rw [List.mem_singleton] at hk
    subst hk
    cases hl
    rw [List.mem_singleton] at hm
    cases hm
    exact exAlarmObj_tzid

theorem exCalObj_tzid : CalendarTzid exCalObj := by
  refine ⟨?_, ?_, ?_, ?_, ?_, ?_⟩
  · intro cl h
    rw [lineIn_line.1 h]
    exact List.not_mem_nil
  · intro k p h
    cases h
  · intro k p h
    cases h
  · intro k hk a e x h
    have hk : k ∈ ["version", "prodid", "scale", "method"] := hk
    simp only [List.mem_cons, List.not_mem_nil, or_false] at hk
    rcases hk with rfl | rfl | rfl | rfl <;> cases h
  · intro k hk
    cases hk
  · intro k hk l hl m hm
    have hk : k ∈ ["events", "todos"] := hk
    simp only [List.mem_cons, List.not_mem_nil, or_false] at hk
    rcases hk with rfl | rfl
    · cases hl
      rw [List.mem_singleton] at hm
      cases hm
      exact exEventObj_tzid
    · cases hl
      rw [List.mem_singleton] at hm
      cases hm
      refine ⟨fun cl h => (lineIn_nil h).elim, nofun, nofun, ?_, ?_, ?_⟩
      · intro k hk a e x h
        have hk : k ∈ ["summary", "uid", "description", "location", "url", "status", "created", "last_modified",
          "dtstamp", "percent", "priority", "completed"] := hk
        simp only [List.mem_cons, List.not_mem_nil, or_false] at hk
        rcases hk with rfl | rfl | rfl | rfl | rfl | rfl | rfl | rfl | rfl | rfl | rfl | rfl <;> cases h
      · intro k hk l hl a e x h
        have hk : k ∈ ["attach"] := hk
        rw [List.mem_singleton] at hk
        subst hk
        cases hl
        cases h
      · intro k hk l hl m hm
        have hk : k ∈ ["alarms"] := hk
        rw [List.mem_singleton] at hk
        subst hk
        cases hl
        cases hm

theorem exCalObj_names : UsualNames exCalObj := by
  refine ⟨by decide, ?_, ?_⟩
  · intro l hl m hm
    cases hl
    rw [List.mem_singleton] at hm
    cases hm
    rfl
  · intro l hl m hm
    cases hl
    rw [List.mem_singleton] at hm
    cases hm
    rfl

/-- The hypotheses are met by the calendar, and its event starts in the zone 1. -/
example : exCalObj.cls = .calendar ∧ CalendarTzid exCalObj ∧ UsualNames exCalObj ∧ ZonesDefine exLib ∧
    CalendarTime exCalObj exStart ∧ InZone exLib 1 exStart :=
  ⟨rfl, exCalObj_tzid, exCalObj_names, exLib_zones,
    .member "events" _ exEventObj (by decide) rfl (List.mem_cons_self ..)
      (.begin _ (.inl rfl) rfl (by decide) rfl),
    fun n h => by cases h; decide, _, rfl, rfl⟩

/-- What is written for it: one VTIMEZONE, after the lines and before the event. -/
example : (dumpCalendar exLib exCalObj).toOption.map (fun i => match i with
      | .cont _ items => items.map Item.name
      | .line _ => []) =
    some (["VERSION", "PRODID", "VTIMEZONE", "VEVENT", "VTODO", "X-D"].map String.toList) := by
  decide +kernel

/-! ### Where it fails -/

/-- A library with another zone 3 that is called `X/Y`, too. -/
def exLibTwo : Lib :=
  { exLib with
    conv := fun t => match t with
      | .zone 1 => .timezone 1
      | .zone 3 => .timezone 3
      | _ => .localTime
    tzid := fun n => if n = 1 ∨ n = 3 then "X/Y".toList else "UTC".toList
    tzDump := fun n => .ok (.cont "VTIMEZONE".toList
      [exLine "TZID" "X/Y", exLine "COMMENT" (if n = 1 then "one" else "three")]) }

/-- C43 fails for two zones with the same name: only the first one in use is written, and the second
date-time refers to it. -/
theorem C43_same_name_fails :
    dumpCalendar exLibTwo
      { newObj (σ := EntryObj) exLib .calendar with
        attrs := dictUpdate (newObj exLib .calendar).attrs
          [("events".toList, .many [.comp (exNew "timespan" (.one (.span
            { cls := .event, begin? := some exStart, end? := some { exStart with tz := some (.zone 3) } })))])] } =
      .ok (.cont "VCALENDAR".toList
        [exLine "VERSION" "2.0", .line ⟨"PRODID".toList, [], escapeText defaultProdid⟩,
          .cont "VTIMEZONE".toList [exLine "TZID" "X/Y", exLine "COMMENT" "one"],
          .cont "VEVENT".toList
            [exLine "DTSTART" "20240229T133742" [("TZID".toList, [⟨false, "X/Y".toList⟩])],
              exLine "DTEND" "20240229T133742" [("TZID".toList, [⟨false, "X/Y".toList⟩])],
              exLine "UID" "fresh", exLine "DTSTAMP" "20240229T133742Z"]]) := by
  decide +kernel

/-- C43 fails for lines that are not understood, such as EXDATE: when a calendar is read and written, its
VTIMEZONE disappears although the TZID of the line refers to it. -/
theorem C43_extra_fails :
    (loadCalendar exLib
      [exLine "VERSION" "2.0", exLine "PRODID" "me", .cont "VTIMEZONE".toList [exLine "TZID" "X/Y"],
        .cont "VEVENT".toList
          [exLine "UID" "u", exLine "DTSTAMP" "20240229T133742Z",
            exLine "EXDATE" "20240229T133742" [("TZID".toList, [⟨false, "X/Y".toList⟩])]]] >>= dumpCalendar exLib) =
      .ok (.cont "VCALENDAR".toList
        [exLine "VERSION" "2.0", exLine "PRODID" "me",
          .cont "VEVENT".toList
            [exLine "UID" "u", exLine "DTSTAMP" "20240229T133742Z",
              exLine "EXDATE" "20240229T133742" [("TZID".toList, [⟨false, "X/Y".toList⟩])]]]) := by
  decide +kernel

end Ics
