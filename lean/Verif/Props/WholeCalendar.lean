import Verif.Props.Whole
import Verif.Proofs.RtCal

/-
C100: exactly which calendars survive being written and read.
-/
namespace Ics

theorem wrote_calendar {L : Lib} {o : CalObj} {n : Str} {items : List Item} (hc : o.cls = .calendar)
    (h : dumpCalendar L o = .ok (.cont n items)) : Wrote L (dumpEntry L) o items := by
  simp only [dumpCalendar, bind_ok_iff] at h
  obtain ⟨⟨a, st1⟩, h1, ⟨b, st2⟩, h2, z, h3, h⟩ := h
  cases h
  obtain ⟨pa, rfl, hfa⟩ := dumpConvs_parts h1
  obtain ⟨pb, rfl, hfb⟩ := dumpConvs_parts h2
  have happ : calConvsBefore ++ calConvsAfter = o.cls.convs := by
    rw [hc]
    exact List.takeWhile_append_dropWhile
  intro cv hcv
  rw [← happ] at hcv
  rcases List.mem_append.1 hcv with hcv | hcv
  · obtain ⟨part, hpart, st3, st4, hd⟩ := forall₂_mem hfa.flip _ hcv
    refine ⟨part, st3, st4, hd, (List.sublist_flatten_of_mem hpart).trans ?_⟩
    rw [List.append_assoc]
    exact List.sublist_append_left _ _
  · obtain ⟨part, hpart, st3, st4, hd⟩ := forall₂_mem hfb.flip _ hcv
    refine ⟨part, st3, st4, hd, (List.sublist_flatten_of_mem hpart).trans ?_⟩
    exact (List.sublist_append_left _ _).trans (List.sublist_append_right _ _)

/-- The zones of a member. -/
def memNums : Val EntryObj → List Nat
  | .comp m => entryNums m
  | _ => []

def listNums : AttrVal EntryObj → List Nat
  | .many l => l.flatMap memNums
  | _ => []

def calNums (o : CalObj) : List Nat :=
  objNums o ++ (listNums (o.get "events".toList) ++ listNums (o.get "todos".toList))

theorem mem_listNums {o : CalObj} {a : Str} {ms : List EntryObj} (e : o.get a = .many (ms.map .comp)) {m : EntryObj}
    (hm : m ∈ ms) {n : Nat} (h : n ∈ entryNums m) : n ∈ listNums (o.get a) := by
  rw [e]
  exact List.mem_flatMap.2 ⟨_, List.mem_map.2 ⟨m, hm, rfl⟩, h⟩

theorem plainCal_convs : .timespan ∉ Cls.calendar.convs ∧ ∀ s, .value s ∈ Cls.calendar.convs → s.multi = false := by
  refine ⟨by decide, fun s hs => ?_⟩
  revert hs
  simp only [Cls.convs, attr1, List.mem_cons, List.not_mem_nil, or_false, Conv.value.injEq, reduceCtorEq, false_or]
  rintro (rfl | rfl | rfl | rfl) <;> rfl

/-- C100: a calendar without extra parameters survives being written and read exactly if all of its parts do, as
`KeptCalendar` says.  (`hT`: a zone object that is written as a VTIMEZONE is a `Timezone` object, and its VTIMEZONE is
read as it, see C61.) -/
theorem C100_iff (L : Lib) (hU : UtcOk L) (hF : ∀ x, ';' ∉ L.formatFloat x)
    (hT : ∀ n z, L.conv (.zone n) = .timezone z → z = n ∧
      ∃ is, L.tzDump z = .ok (.cont "VTIMEZONE".toList is) ∧ L.tzLoad is = .ok z)
    (o : CalObj) (ho : MadeCalendar L o) : SurvivedCalendar L o ↔ KeptCalendar L o := by
  obtain ⟨hc, hm, hent⟩ := ho
  have hp : ∀ k, dictGet? o.extraParams k = none := fun k => by rw [hm.params]; rfl
  constructor
  · rintro ⟨n, items, o', h1, h2, h3⟩
    have hw := wrote_calendar hc h1
    simp only [loadCalendar, bind_ok_iff] at h2
    obtain ⟨zones, hz, ⟨o1, ctx⟩, h2, e⟩ := h2
    cases e
    obtain ⟨-, k2, k3⟩ := loadObj_frame h2
    have hmem := loadCalMember_stable L
    rw [← hc] at h2 k2 k3
    refine ⟨zones, h3.extraName.trans k2, fun i hi => ?_, ?_, ?_, ?_, fun h => ?_⟩
    · rw [h3.extra, k3] at hi
      exact (List.mem_filter.1 hi).2
    · intro s hs hmu
      refine single_wrote (R := SameEntry L) hU hF hmem hw h2 hs hmu (hp _) (fun v e => (hm.one s v hs e).1) ?_
      obtain ⟨k, hk, e⟩ := single_listed o.cls s hs
      rw [← e]
      exact h3.attrs k hk
    · intro s hs hmu
      rw [hc] at hs
      rw [plainCal_convs.2 s hs] at hmu
      cases hmu
    · intro a nm hcv
      have hcv' := hcv
      rw [hc] at hcv'
      have key : ∀ (a' : String) (c : Cls), a = a'.toList → (a', c) ∈ [("events", Cls.event), ("todos", Cls.todo)] →
          a' ∈ allAttrs .calendar → nm = c.icsName → (if nm = "VTODO".toList then Cls.todo else .event) = c →
          ∃ ms : List EntryObj, o.get a = .many (ms.map .comp) ∧ ∀ m ∈ ms, KeptEntry L zones m := by
        intro a' c ea hin hall en ec
        obtain ⟨ms, e, hms⟩ := members_wrote (R := SameEntry L) hmem hw h2 hcv (fun m => sameObj_refl m) (by
          intro m m' st st' i is c1 c2 hd hl hR
          simp only [dumpEntry, dumpObj, bind_ok_iff] at hd
          obtain ⟨r, _, e⟩ := hd
          cases e
          show m.extraName = _
          unfold loadCalMember at hl
          rw [ec] at hl
          rw [hR.extraName, (loadObj_frame hl).2.1, en]) (by
          rw [ea]
          exact h3.attrs a' (by rw [hc]; exact hall))
        refine ⟨ms, e, fun m hmm => ?_⟩
        obtain ⟨k1, k2⟩ := hent a' c hin ms (ea ▸ e) m hmm
        obtain ⟨st1, st2, is, m', ctx', d1, d2, d3⟩ := hms m hmm
        unfold loadCalMember at d2
        rw [ec, ← k1] at d2
        exact C99_needed L hU hF zones m m' k2 _ is st1 st2 ctx' d1 d2 d3
      rcases cal_members _ hcv' a nm rfl with ⟨rfl, rfl⟩ | ⟨rfl, rfl⟩
      · exact key "events" .event rfl (by decide) (by decide) rfl (by decide)
      · exact key "todos" .todo rfl (by decide) (by decide) rfl (by decide)
    · rw [hc] at h
      exact absurd h plainCal_convs.1
  · rintro ⟨zones, h⟩
    have hZ : ∀ n z, L.conv (.zone n) = .timezone z → Knows L zones (L.tzid z) n → z = n := fun n z h _ => (hT n z h).1
    have hrep : RepCalendar L (knownZones L zones (calNums o)) o := by
      refine ⟨hc, rep_obj hF hZ (by rw [hc]; decide) hm (fun n h => List.mem_append_left _ h) h ?_⟩
      intro a nm hcv ms e m hmm hk
      rw [hc] at hcv
      rcases cal_members _ hcv a nm rfl with ⟨rfl, rfl⟩ | ⟨rfl, rfl⟩
      · obtain ⟨k1, k2⟩ := hent "events" .event (by decide) ms e m hmm
        refine ⟨rep_entry hF hZ k2 (fun n hn => ?_) hk, k1⟩
        exact List.mem_append_right _ (List.mem_append_left _ (mem_listNums e hmm hn))
      · obtain ⟨k1, k2⟩ := hent "todos" .todo (by decide) ms e m hmm
        refine ⟨rep_entry hF hZ k2 (fun n hn => ?_) hk, k1⟩
        exact List.mem_append_right _ (List.mem_append_right _ (mem_listNums e hmm hn))
    obtain ⟨items, o', h1, h2, h3, _⟩ := rt_calendar hU hrep fun n z hz => (hT z z (known_knows hz).1).2
    exact ⟨_, items, o', h1, h2, h3⟩

theorem exLib_zoneTrip (n z : Nat) (h : exLib.conv (.zone n) = .timezone z) : z = n ∧
    ∃ is, exLib.tzDump z = .ok (.cont "VTIMEZONE".toList is) ∧ exLib.tzLoad is = .ok z := by
  by_cases e : n = 1
  · subst e
    cases h
    exact ⟨rfl, _, rfl, rfl⟩
  · have : exLib.conv (.zone n) = .localTime := by
      show (match Tz.zone n with | .zone 1 => TzConv.timezone 1 | _ => .localTime) = _
      split
      · rename_i e'
        cases e'
        exact absurd rfl e
      · rfl
    rw [this] at h
    cases h

/-- A calendar with the event of the examples and this version. -/
def exPlainCal (version : AttrVal EntryObj) : CalObj where
  cls := .calendar
  attrs :=
    [("version".toList, version), ("prodid".toList, .one (.text "me; too".toList)), ("events".toList, .many [.comp exPlain]),
      ("todos".toList, .many [])]
  extraName := "VCALENDAR".toList
  extra := [exLine "X-D" "1"]
  extraParams := []

theorem exPlainCal_made (version : AttrVal EntryObj) (h : version = .none ∨ version = .one (.text "2.0".toList)) :
    MadeCalendar exLib (exPlainCal version) := by
  refine ⟨rfl, ⟨rfl, ?_, ?_, ?_⟩, ?_⟩
  · intro s v hs e
    have hs : Conv.value s ∈ Cls.calendar.convs := hs
    simp only [Cls.convs, attr1, List.mem_cons, List.not_mem_nil, or_false, Conv.value.injEq, reduceCtorEq, false_or] at hs
    rcases hs with rfl | rfl | rfl | rfl
    · have e : version = .one v := e
      rcases h with rfl | rfl <;> cases e
      exact ⟨trivial, rfl⟩
    · cases e
      exact ⟨trivial, rfl⟩
    · cases e
    · cases e
  · intro s l hs e
    have hs : Conv.value s ∈ Cls.calendar.convs := hs
    simp only [Cls.convs, attr1, List.mem_cons, List.not_mem_nil, or_false, Conv.value.injEq, reduceCtorEq, false_or] at hs
    rcases hs with rfl | rfl | rfl | rfl
    · have e : version = .many l := e
      rcases h with rfl | rfl <;> cases e
    · cases e
    · cases e
    · cases e
  · intro s e
    cases e
  · intro a c hac ms e m hm
    simp only [List.mem_cons, Prod.mk.injEq, List.not_mem_nil, or_false] at hac
    rcases hac with ⟨rfl, rfl⟩ | ⟨rfl, rfl⟩
    · have e : AttrVal.many [Val.comp exPlain] = .many (ms.map Val.comp) := e
      injection e with e
      cases ms with
      | nil => cases hm
      | cons m0 ms =>
      cases ms with
      | cons _ _ => cases e
      | nil =>
      obtain rfl := List.mem_singleton.1 hm
      injection e with e _
      injection e with e
      subst e
      exact ⟨rfl, exPlain_made⟩
    · have e : AttrVal.many [] = .many (ms.map Val.comp) := e
      injection e with e
      cases ms with
      | nil => cases hm
      | cons m0 ms => cases e

/-- With a version it survives, without a version it does not. -/
example : SurvivedCalendar exLib (exPlainCal (.one (.text "2.0".toList))) ∧ ¬ SurvivedCalendar exLib (exPlainCal .none) := by
  refine ⟨(C100_iff exLib exLib_utc exLib_float exLib_zoneTrip _ (exPlainCal_made _ (.inr rfl))).2 ?_, fun h => ?_⟩
  · refine ⟨[("X/Y".toList, 1)], rfl, by decide, ?_, ?_, ?_, fun h => absurd h (by decide)⟩
    · intro s hs hm
      have hs : Conv.value s ∈ Cls.calendar.convs := hs
      simp only [Cls.convs, attr1, List.mem_cons, List.not_mem_nil, or_false, Conv.value.injEq, reduceCtorEq, false_or] at hs
      rcases hs with rfl | rfl | rfl | rfl
      · exact ⟨.text, rfl, .text _, nofun⟩
      · exact ⟨.text, rfl, .text _, nofun⟩
      · exact (show _ ∉ ["uid", "dtstamp", "version", "prodid"].map String.toList by decide)
      · exact (show _ ∉ ["uid", "dtstamp", "version", "prodid"].map String.toList by decide)
    · intro s hs hm
      rw [plainCal_convs.2 s hs] at hm
      cases hm
    · intro a n hcv
      rcases cal_members _ hcv a n rfl with ⟨rfl, rfl⟩ | ⟨rfl, rfl⟩
      · refine ⟨[exPlain], rfl, fun m hm => ?_⟩
        obtain rfl := List.mem_singleton.1 hm
        exact exPlain_kept
      · exact ⟨[], rfl, fun _ h => absurd h List.not_mem_nil⟩
  · obtain ⟨zones, h⟩ := (C100_iff exLib exLib_utc exLib_float exLib_zoneTrip _ (exPlainCal_made _ (.inl rfl))).1 h
    have h := h.single _ (List.mem_cons_self : _ ∈ Cls.calendar.convs) rfl
    exact absurd (by decide) (show _ ∉ ["uid", "dtstamp", "version", "prodid"].map String.toList from h)

/-- C100: a calendar with events that begin in two different zones of the same name does not survive. -/
theorem C100_same_name (L : Lib) (hU : UtcOk L) (hF : ∀ x, ';' ∉ L.formatFloat x)
    (hT : ∀ n z, L.conv (.zone n) = .timezone z → z = n ∧
      ∃ is, L.tzDump z = .ok (.cont "VTIMEZONE".toList is) ∧ L.tzLoad is = .ok z)
    (o : CalObj) (ho : MadeCalendar L o) (ms : List EntryObj) (he : o.get "events".toList = .many (ms.map .comp))
    (a b : EntryObj) (ha : a ∈ ms) (hb : b ∈ ms) (s t : Span) (hs : a.get "timespan".toList = .one (.span s))
    (ht : b.get "timespan".toList = .one (.span t)) (v w : Int) (f g : Bool) (m n : Nat)
    (hv : s.begin? = some ⟨v, f, some (.zone m)⟩) (hw : t.begin? = some ⟨w, g, some (.zone n)⟩)
    (hm : L.isUtc m = false) (hn : L.isUtc n = false) (hmn : m ≠ n) (hname : L.tzid m = L.tzid n) :
    ¬ SurvivedCalendar L o := by
  intro h
  obtain ⟨zones, h⟩ := (C100_iff L hU hF hT o ho).1 h
  have known : ∀ e ∈ ms, ∀ s, e.get "timespan".toList = .one (.span s) → ∀ v f m,
      s.begin? = some ⟨v, f, some (.zone m)⟩ → L.isUtc m = false → Knows L zones (L.tzid m) m := by
    intro e hems s hs v f m hv hm
    obtain ⟨ms', e', hk⟩ := h.members "events".toList "VEVENT".toList (by rw [ho.1]; decide)
    rw [he] at e'
    injection e' with e'
    have hin : e ∈ ms' := by
      have : (.comp e : Val EntryObj) ∈ ms'.map Val.comp := by
        rw [← e']
        exact List.mem_map_of_mem hems
      obtain ⟨x, hx, ex⟩ := List.mem_map.1 this
      injection ex with ex
      rwa [← ex]
    have hcls := (ho.2.2 "events" .event (by decide) ms he e hems).1
    obtain ⟨s', es, hs'⟩ := (hk e hin).time (by rw [hcls]; decide)
    rw [hs] at es
    cases es
    have h := hs'.times _ (.inl hv)
    split at h
    · exact absurd h.2.2.2 (by simp)
    · rcases h.2.2.2 with h | ⟨z, h1, _, h2⟩
      · rw [hm] at h
        cases h
      · obtain rfl := (hT m z h1).1
        exact h2
  have k1 := knows_iff.1 (known a ha s hs v f m hv hm)
  have k2 := knows_iff.1 (known b hb t ht w g n hw hn)
  rw [hname, k2] at k1
  exact hmn (Option.some.inj k1).symm

/-! ### Two zones with the same name -/

/-- Zones 1 and 3 have the same name and different VTIMEZONEs. -/
def exTwo : Lib :=
  { exLib with
    conv := fun t => if t = .zone 1 then .timezone 1 else if t = .zone 3 then .timezone 3 else .localTime
    tzid := fun n => if n = 1 ∨ n = 3 then "X/Y".toList else "UTC".toList
    tzLoad := fun is => .ok (if is.length = 1 then 1 else 3)
    tzDump := fun n => .ok (.cont "VTIMEZONE".toList
      (if n = 1 then [exLine "TZID" "X/Y"] else [exLine "TZID" "X/Y", exLine "X-LIC-LOCATION" "X/Z"])) }

/-- An event that begins in this zone. -/
def exIn (n : Nat) : EntryObj where
  cls := .event
  attrs :=
    [("timespan".toList, .one (.span { cls := .event, begin? := some ⟨63844810662000000, false, some (.zone n)⟩ })),
      ("uid".toList, .one (.text "u1".toList)), ("dtstamp".toList, .one (.dt ⟨63844810662000000, false, some (.zone 2)⟩)),
      ("alarms".toList, .many []), ("attach".toList, .many []), ("attendees".toList, .many []),
      ("categories".toList, .many [])]
  extraName := "VEVENT".toList
  extra := []
  extraParams := []

theorem exIn_made (n : Nat) : MadeEntry exTwo (exIn n) := by
  refine ⟨.inl rfl, ⟨rfl, ?_, ?_, ?_⟩, ?_⟩
  · intro s v hs e
    have hs : Conv.value s ∈ Cls.event.convs := hs
    simp only [Cls.convs, entryConvs, attr1, attrN, List.cons_append, List.nil_append, List.mem_cons, List.not_mem_nil,
      or_false, Conv.value.injEq, reduceCtorEq, false_or] at hs
    rcases hs with rfl | rfl | rfl | rfl | rfl | rfl | rfl | rfl | rfl | rfl | rfl | rfl | rfl | rfl | rfl | rfl <;> cases e
    · exact ⟨trivial, rfl⟩
    · exact ⟨show _ ∧ _ by decide, by rfl⟩
  · intro s l hs e
    have hs : Conv.value s ∈ Cls.event.convs := hs
    simp only [Cls.convs, entryConvs, attr1, attrN, List.cons_append, List.nil_append, List.mem_cons, List.not_mem_nil,
      or_false, Conv.value.injEq, reduceCtorEq, false_or] at hs
    rcases hs with rfl | rfl | rfl | rfl | rfl | rfl | rfl | rfl | rfl | rfl | rfl | rfl | rfl | rfl | rfl | rfl <;> cases e <;>
      exact fun _ h => absurd h List.not_mem_nil
  · intro s e
    cases e
    refine ⟨?_, rfl, nofun⟩
    rintro d (h | h)
    · cases h
      show (0 : Int) ≤ 63844810662000000 ∧ (63844810662000000 : Int) < maxWall
      decide
    · cases h
  · intro ms e m hm
    have e : AttrVal.many [] = .many (ms.map Val.comp) := e
    injection e with e
    cases ms with
    | nil => cases hm
    | cons m0 ms => cases e

/-- A calendar with events in both. -/
def exBothCal : CalObj :=
  { exPlainCal (.one (.text "2.0".toList)) with
    attrs := dictSet (exPlainCal (.one (.text "2.0".toList))).attrs "events".toList (.many [.comp (exIn 1), .comp (exIn 3)]) }

theorem exBothCal_made : MadeCalendar exTwo exBothCal := by
  refine ⟨rfl, ⟨rfl, ?_, ?_, ?_⟩, ?_⟩
  · intro s v hs e
    have hs : Conv.value s ∈ Cls.calendar.convs := hs
    simp only [Cls.convs, attr1, List.mem_cons, List.not_mem_nil, or_false, Conv.value.injEq, reduceCtorEq, false_or] at hs
    rcases hs with rfl | rfl | rfl | rfl <;> cases e <;> exact ⟨trivial, rfl⟩
  · intro s l hs e
    have hs : Conv.value s ∈ Cls.calendar.convs := hs
    simp only [Cls.convs, attr1, List.mem_cons, List.not_mem_nil, or_false, Conv.value.injEq, reduceCtorEq, false_or] at hs
    rcases hs with rfl | rfl | rfl | rfl <;> cases e
  · intro s e
    cases e
  · intro a c hac ms e m hm
    have hm : (.comp m : Val EntryObj) ∈ ms.map Val.comp := List.mem_map_of_mem hm
    simp only [List.mem_cons, Prod.mk.injEq, List.not_mem_nil, or_false] at hac
    rcases hac with ⟨rfl, rfl⟩ | ⟨rfl, rfl⟩
    · have e : AttrVal.many [Val.comp (exIn 1), .comp (exIn 3)] = .many (ms.map Val.comp) := e
      injection e with e
      rw [← e, List.mem_cons, List.mem_singleton] at hm
      rcases hm with hm | hm
      · injection hm with hm
        rw [hm]
        exact ⟨rfl, exIn_made 1⟩
      · injection hm with hm
        rw [hm]
        exact ⟨rfl, exIn_made 3⟩
    · have e : AttrVal.many [] = .many (ms.map Val.comp) := e
      injection e with e
      rw [← e] at hm
      cases hm

/-- It does not survive. -/
example : ¬ SurvivedCalendar exTwo exBothCal := by
  refine C100_same_name exTwo ⟨by decide, by decide, ?_, ?_⟩ exLib_float ?_ exBothCal exBothCal_made [exIn 1, exIn 3] rfl
    (exIn 1) (exIn 3) List.mem_cons_self (List.mem_cons_of_mem _ List.mem_cons_self) _ _ rfl rfl _ _ _ _ 1 3 rfl rfl
    (by decide) (by decide) (by decide) (by decide)
  · exact exLib_utc.off
  · exact exLib_utc.fromUtc
  · intro n z h
    have h : (if Tz.zone n = .zone 1 then TzConv.timezone 1 else if Tz.zone n = .zone 3 then .timezone 3 else .localTime) =
      .timezone z := h
    split at h
    · rename_i e
      cases e
      cases h
      exact ⟨rfl, _, rfl, rfl⟩
    · split at h
      · rename_i e
        cases e
        cases h
        exact ⟨rfl, _, rfl, rfl⟩
      · cases h

end Ics
