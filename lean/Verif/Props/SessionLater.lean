import Verif.Props.Session
import Verif.Props.Stable

/-
C107: what comes after a session.
-/
namespace Ics

/-- C107: after a session as in `C107_text_partial`, what is written and read is written as the same text again, with every line
wrapping, however often that is repeated (see C66), and the timeline of what was read gives the same answers as that of the
calendar at the end of the session (see C91).

Missing for the full claim: as for `C107_text_partial`. -/
theorem C107_later_partial (L : Lib) (hU : UtcOk L) (hW : WholeOffsets L) (hB : BoundedOffsets L) (hL : WritableLib L) (txt : Str)
    (o : CalObj) (h : calendarOfString L txt = .ok o)
    (hl : ∀ is, stringToContainers txt = Gen.done [.cont "VCALENDAR".toList is] → SafeCalendarItems is)
    (zs : List (Str × Nat)) (ho : SafeCalendar L zs o) (hz : ∀ n z, dictGet? zs n = some z → ZoneTrip L z)
    (ps : List CalOp) (hps : LastingOps L zs o ps) (w : Wrap) (hw : match w with | .none => True | .width _ W => 1 ≤ W) :
    ∃ o1 txt' o2, o.calOps L ps = .ok o1 ∧ serializeCalendar L w o1 = .ok txt' ∧ calendarOfString L txt' = .ok o2 ∧
      (∀ w', serializeCalendar L w' o2 = serializeCalendar L w' o1) ∧
      ∀ num num', (o1.timelineEvents num).map TEvent.rest = (o2.timelineEvents num').map TEvent.rest →
        ∀ k, SameTimeline L k (o1.timelineEvents num) (o2.timelineEvents num') := by
  obtain ⟨o1, k1, k2, k3⟩ := fine_ops hW hB hL (fine_read hU hW hL h hl ho) hps
  obtain ⟨txt', o2, k4, k5, k6⟩ := C66_text L hU zs o1 k2 hz k3 w hw
  obtain ⟨txt'', o2', k7, k8, k9⟩ := C91_roundtrip L hU zs o1 k2 hz k3 w hw
  rw [k4] at k7
  cases k7
  rw [k5] at k8
  cases k8
  exact ⟨o1, txt', o2, k1, k4, k5, k6, k9⟩

/-- `C107_later_partial` applies to the example text. -/
example : ∃ o o1 txt' o2, calendarOfString exLib exText = .ok o ∧ o.calOps exLib exSession = .ok o1 ∧
    serializeCalendar exLib (.width .chars 75) o1 = .ok txt' ∧ calendarOfString exLib txt' = .ok o2 ∧
    serializeCalendar exLib (.width .chars 75) o2 = .ok txt' := by
  obtain ⟨o, h1, h2⟩ := exText_accepted
  obtain ⟨o1, txt', o2, h3, h4, h5, h6, _⟩ := C107_later_partial exLib exLib_utc exLib_whole exLib_bounded exLib_writable exText o h1
    (fun is h => by
      rw [exText_items] at h
      injection h with h
      injection h with h
      injection h with _ h
      exact h ▸ exTextItems_safe) _ h2 exZoneTrip exSession (exSession_lasting h1) (.width .chars 75) (by decide)
  exact ⟨o, o1, txt', o2, h1, h3, h4, h5, (h6 _).trans h4⟩

theorem strip_leaves {σ : Type} {a : StripArgs} {o o1 : Obj σ} (h : stripExtras a o = .ok o1) : Stripped a o o1 := by
  unfold stripExtras at h
  simp only at h
  split at h
  · cases h
  · cases h
    unfold Stripped stripParams
    cases a.extraProperties.getD a.allExtras <;>
      exact ⟨rfl, rfl, fun _ => rfl, rfl, fun e => by rw [e]; rfl, fun e e' => by rw [e, e']; rfl⟩

/-- C107: `strip_extras` removes what was asked for from the component at that place and leaves everything else alone. -/
theorem C107_stripped (L : Lib) (o o1 : CalObj) (a : StripArgs) :
    (o.calOp L (.strip none a) = .ok o1 → Stripped a o o1) ∧
    ∀ list i, o.calOp L (.strip (some (list, i)) a) = .ok o1 →
      ∃ l l1 m m1, o.get (CalList.attr list) = .many l ∧ o1.get (CalList.attr list) = .many l1 ∧ l1.length = l.length ∧
        (∀ j, j ≠ i → l1[j]? = l[j]?) ∧ l[i]? = some (.comp m) ∧ l1[i]? = some (.comp m1) ∧ Stripped a m m1 ∧
        (∀ k, k ≠ CalList.attr list → o1.get k = o.get k) ∧ o1.cls = o.cls ∧ o1.extraName = o.extraName ∧ o1.extra = o.extra ∧
        o1.extraParams = o.extraParams := by
  refine ⟨fun h => strip_leaves h, fun list i h => ?_⟩
  obtain ⟨l, m, m1, hg, hm, hs, rfl⟩ := stripAt_parts h
  obtain ⟨hi, _⟩ := List.getElem?_eq_some_iff.1 hm
  refine ⟨l, _, m, m1, hg, calList_got, by simp, fun j hj => List.getElem?_set_ne (fun e => hj e.symm), hm,
    List.getElem?_set_self hi, strip_leaves hs, fun k hk => ?_, rfl, rfl, rfl, rfl⟩
  unfold Obj.get
  dsimp only
  rw [dictGet_set_ne _ _ hk]

/-- `C107_stripped` applies to the calendar of the examples and its first event. -/
example : (exCalRep.calOp exLib (.strip none { allExtras := true })).isOk = true ∧
    (exCalRep.calOp exLib (.strip (some (.events, 0)) { extraParams := some true })).isOk = true := by
  decide +kernel

/-- C107: the way around `C103_attendee_fails`: after `strip_extras(extra_params=True)` for an event of the calendar that was
read, an attendee can be added to it, whether it had attendees before or not; the calendar can be written and survives. -/
theorem C107_attendee (L : Lib) (hU : UtcOk L) (hW : WholeOffsets L) (hB : BoundedOffsets L) (hL : WritableLib L) (txt : Str)
    (o : CalObj) (h : calendarOfString L txt = .ok o)
    (hl : ∀ is, stringToContainers txt = Gen.done [.cont "VCALENDAR".toList is] → SafeCalendarItems is)
    (zs : List (Str × Nat)) (ho : SafeCalendar L zs o) (hz : ∀ n z, dictGet? zs n = some z → ZoneTrip L z)
    (i : Nat) (l : List (Val EntryObj)) (hg : o.get "events".toList = .many l) (hi : i < l.length)
    (u : Url) (x : Params) (hu : RepUrl L u ∧ ',' ∉ u.geturl ∧ NoBreak u.geturl)
    (hx : RepPerson x ∧ "__merge_next".toList ∉ x.map Prod.fst ∧ WritableParams x)
    (w : Wrap) (hw : match w with | .none => True | .width _ W => 1 ≤ W) :
    ∃ o1 txt' o2, o.calOps L [.strip (some (.events, i)) { extraParams := some true },
        .edit (.change .events i [.addAttendee (.person true (.url u) x)])] = .ok o1 ∧
      serializeCalendar L w o1 = .ok txt' ∧ calendarOfString L txt' = .ok o2 ∧
      SameCalendar L (unquoteCalendar o1) (unquoteCalendar o2) := by
  have hf := fine_read hU hW hL h hl ho
  obtain ⟨ms, hg', hms⟩ := fine_members hf .events
  rw [show o.get (CalList.attr .events) = .many l from hg] at hg'
  cases hg'
  have hi' : i < ms.length := by simpa using hi
  have hm : (ms.map Val.comp)[i]? = some (.comp ms[i]) := by
    rw [List.getElem?_map, List.getElem?_eq_getElem hi']
    rfl
  obtain ⟨⟨k1, k2⟩, k3, k4⟩ := hms ms[i] (List.getElem_mem hi')
  generalize ms[i] = m at hm k1 k2 k3 k4
  have k3 : m.cls = .event := k3
  have spec : Conv.value ⟨"attendees".toList, "ATTENDEE".toList, true, false, [.attendee], .list⟩ ∈ m.cls.convs := by
    rw [k3]; decide
  obtain ⟨groups, g1, g2, g3⟩ := (repObj_noParams k2).multi _ spec rfl
  have g3 : ∀ g ∈ groups, g.1 = [] ∧ g.2.length = 1 := by
    rcases g3 with ⟨_, g3⟩ | ⟨_, g3⟩
    · exact g3
    · cases g3
  have hget : m.get "attendees".toList = .many (groups.map Prod.snd).flatten := g2
  have hsing : ∀ v ∈ (groups.map Prod.snd).flatten,
      RepGroup L zs ⟨"attendees".toList, "ATTENDEE".toList, true, false, [.attendee], .list⟩ [] [v] := by
    intro v hv
    obtain ⟨vs, hvs, hv⟩ := List.mem_flatten.1 hv
    obtain ⟨g, hgm, rfl⟩ := List.mem_map.1 hvs
    obtain ⟨e1, e2⟩ := g3 g hgm
    obtain ⟨y, e2⟩ := List.length_eq_one_iff.1 e2
    rw [e2, List.mem_singleton] at hv
    subst hv
    have := g1 g hgm
    rw [e1, e2] at this
    exact this
  generalize (groups.map Prod.snd).flatten = as at hget hsing
  have hops : LastingOps L zs o [.strip (some (.events, i)) { extraParams := some true },
      .edit (.change .events i [.addAttendee (.person true (.url u) x)])] := by
    let l1 := (ms.map Val.comp).set i (.comp { m with extraParams := [] })
    refine ⟨{ o with attrs := dictSet o.attrs (CalList.attr .events) (.many l1) }, ?_, .inl rfl, ?_⟩
    · simp only [Obj.calOp, Obj.stripAt, show o.get (CalList.attr .events) = _ from hg, hm]
      rfl
    · have hi2 : l1[i]? =
          some (.comp { m with extraParams := [] }) := List.getElem?_set_self (by simpa using hi')
      have hch : Obj.changes L { m with extraParams := [] } [.addAttendee (.person true (.url u) x)] =
          .ok { m with attrs := dictSet m.attrs "attendees".toList (.many (as ++ [.person true (.url u) x])), extraParams := [] } := by
        simp only [Obj.changes, Obj.change, Obj.addAttendee,
          show Obj.get { m with extraParams := [] } "attendees".toList = _ from hget]
        rfl
      let o' : CalObj := { o with attrs := dictSet o.attrs (CalList.attr .events) (.many l1) }
      let m2 : EntryObj :=
        { m with attrs := dictSet m.attrs "attendees".toList (.many (as ++ [.person true (.url u) x])), extraParams := [] }
      refine ⟨{ o' with attrs := dictSet o'.attrs (CalList.attr .events) (.many (l1.set i (.comp m2))) }, ?_, ?_, trivial⟩
      · simp only [Obj.calOp, Obj.calEdit, calList_got, hi2, hch]
        rfl
      · intro l2 m3 e1 e2
        have e1 : AttrVal.many (l1.set i (.comp m2)) = .many l2 := (calList_got (o := o')).symm.trans e1
        cases e1
        rw [List.getElem?_set_self (by simpa [l1] using hi')] at e2
        cases e2
        have got : Obj.get { m with attrs := dictSet m.attrs "attendees".toList (.many (as ++ [.person true (.url u) x])), extraParams := [] }
            "attendees".toList = .many (as ++ [.person true (.url u) x]) := by
          unfold Obj.get
          dsimp only
          rw [dictGet_set]
          rfl
        constructor
        · intro a ha cv hcv hof
          have ha : a = "attendees".toList := List.mem_singleton.1 ha
          subst ha
          have hcv : cv ∈ m.cls.convs := hcv
          rw [k3] at hcv
          obtain rfl := attendees_conv hcv hof
          refine ⟨rfl, _, got, fun v hv => ?_⟩
          rcases List.mem_append.1 hv with hv | hv
          · exact hsing v hv
          · rw [List.mem_singleton.1 hv]
            refine ⟨by simp, List.nodup_nil, ⟨List.not_mem_nil, List.not_mem_nil⟩, ⟨.attendee, fun w hw => ?_⟩, fun u' hu' => ?_,
              fun a u' x' hu' => ?_⟩
            · rw [List.mem_singleton.1 hw]
              exact ⟨rfl, hu.1, hx.1⟩
            · cases List.mem_singleton.1 hu'
            · cases List.mem_singleton.1 hu'
              exact ⟨hu.2.1, hx.2.1, rfl, rfl⟩
        · intro ch hchm
          rw [List.mem_singleton.1 hchm]
          show WritableAttr _ _ (Obj.get _ "attendees".toList)
          rw [got]
          intro v hv
          rcases List.mem_append.1 hv with hv | hv
          · exact k4.2.many _ _ hget v hv
          · rw [List.mem_singleton.1 hv]
            exact ⟨hu.2.2, hx.2.2⟩
  exact C107_text_partial L hU hW hB hL txt o h hl zs ho hz _ hops w hw

/-- The event of the example text has an attendee and gets another one. -/
example : ∃ o l o1 txt' o2, calendarOfString exLib exText = .ok o ∧ o.get "events".toList = .many l ∧ 0 < l.length ∧
    o.calOps exLib [.strip (some (.events, 0)) { extraParams := some true },
      .edit (.change .events 0 [.addAttendee (.person true (.url ⟨"mailto".toList, [], "e@f".toList, [], [], []⟩) [])])] = .ok o1 ∧
    serializeCalendar exLib (.width .chars 75) o1 = .ok txt' ∧ calendarOfString exLib txt' = .ok o2 ∧
    SameCalendar exLib (unquoteCalendar o1) (unquoteCalendar o2) := by
  obtain ⟨o, h1, h2⟩ := exText_accepted
  have key : ((calendarOfString exLib exText).toOption.map fun o => match o.get "events".toList with
      | .many l => decide (0 < l.length)
      | _ => false) = some true := by
    unfold calendarOfString
    rw [exText_items]
    decide +kernel
  rw [h1] at key
  have key := Option.some.inj key
  dsimp only at key
  cases hg : o.get "events".toList with
  | none => rw [hg] at key; cases key
  | one v => rw [hg] at key; cases key
  | many l =>
    rw [hg] at key
    have hi : 0 < l.length := of_decide_eq_true key
    obtain ⟨o1, txt', o2, h3, h4, h5, h6⟩ := C107_attendee exLib exLib_utc exLib_whole exLib_bounded exLib_writable exText o h1
      (fun is h => by
        rw [exText_items] at h
        injection h with h
        injection h with h
        injection h with _ h
        exact h ▸ exTextItems_safe) _ h2 exZoneTrip 0 l hg hi ⟨"mailto".toList, [], "e@f".toList, [], [], []⟩ []
      ⟨by unfold RepUrl; decide +kernel, by decide +kernel, by unfold NoBreak; decide +kernel⟩
      ⟨⟨List.nodup_nil, List.not_mem_nil⟩, List.not_mem_nil,
        ⟨fun _ h => absurd h List.not_mem_nil, List.nodup_nil, fun _ h => absurd h List.not_mem_nil,
          fun _ h => absurd h List.not_mem_nil⟩⟩
      (.width .chars 75) (by decide)
    exact ⟨o, l, o1, txt', o2, h1, hg, hi, h3, h4, h5, h6⟩

end Ics
