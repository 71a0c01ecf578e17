import Verif.Props.Session

/-
C109: which unknown properties can be added to a calendar that was read.
-/
namespace Ics

theorem unhandled_unquote (c : Cls) (i : Item) : unhandled c i.unquote = unhandled c i := by
  cases i <;> simp only [Item.unquote, unhandled, ContentLine.unquote]

theorem unhandled_same {c : Cls} {is js : List Item} (h : Item.unquotes is = Item.unquotes js)
    (hj : ∀ j ∈ js, unhandled c j = true) : ∀ i ∈ is, unhandled c i = true := by
  intro i hi
  rw [Item.unquotes_eq, Item.unquotes_eq] at h
  have hm : i.unquote ∈ js.map Item.unquote := h ▸ List.mem_map_of_mem hi
  obtain ⟨j, h1, h2⟩ := List.mem_map.1 hm
  rw [← unhandled_unquote, ← h2, unhandled_unquote]
  exact hj j h1

/-- The unknown properties of a calendar that was read are unknown. -/
theorem read_extra {L : Lib} {txt : Str} {o : CalObj} (h : calendarOfString L txt = .ok o) :
    ∀ i ∈ o.extra, unhandled .calendar i = true := by
  obtain ⟨is, _, h2⟩ := C58_one L txt o h
  simp only [loadCalendar, bind_ok_iff] at h2
  obtain ⟨avail, _, ⟨o', ctx1⟩, h2, e⟩ := h2
  cases e
  intro i hi
  have := (loadObj_frame h2).2.2
  dsimp only at this
  rw [this] at hi
  exact (List.mem_filter.1 hi).2

/-- C109, one half: if there is any text at all that is read as the calendar with `items` as unknown properties at `place`,
then the reader does not understand any of `items`. -/
theorem C109_needed (L : Lib) (o o1 : CalObj) (hc : o.cls = .calendar) (place : Option (CalList × Nat)) (items : List Item)
    (h1 : o.putExtra place items = .ok o1) (txt : Str) (o2 : CalObj) (h2 : calendarOfString L txt = .ok o2)
    (hsame : SameCalendar L (unquoteCalendar o1) (unquoteCalendar o2)) : ∀ i ∈ items, unhandled (placeCls place) i = true := by
  match place with
  | none =>
    cases h1
    exact unhandled_same hsame.extra (read_extra h2)
  | some (list, i) =>
    obtain ⟨l, m, hg, hm, rfl⟩ := putExtra_parts h1
    obtain ⟨hi, _⟩ := List.getElem?_eq_some_iff.1 hm
    obtain ⟨ms2, hg2, hms2⟩ := read_members h2 list
    obtain ⟨k, hk, hk'⟩ : ∃ k : String, k.toList = list.attr ∧ k ∈ allAttrs .calendar := by
      cases list
      · exact ⟨"events", rfl, by decide⟩
      · exact ⟨"todos", rfl, by decide⟩
    have h3 := hsame.attrs k (by
      show k ∈ allAttrs o.cls
      rw [hc]
      exact hk')
    unfold unquoteCalendar at h3
    rw [get_unquote, get_unquote, hk, calList_got, hg2] at h3
    cases h3 with
    | many h3 =>
      have h4 := (List.forall₂_iff_get.1 h3)
      have hl : i < ((l.set i (.comp { m with extra := items })).map (Val.unquote unquoteEntry)).length := by simpa using hi
      have hl2 : i < ((ms2.map Val.comp).map (Val.unquote unquoteEntry)).length := h4.1 ▸ hl
      have h5 := h4.2 i hl hl2
      have hi2 : i < ms2.length := by simpa using hl2
      simp only [List.get_eq_getElem, List.getElem_map, List.getElem_set_self, Val.unquote] at h5
      have h6 : (unquoteEntry { m with extra := items }).extra = (unquoteEntry ms2[i]).extra := by
        generalize unquoteEntry { m with extra := items } = x at h5
        generalize unquoteEntry ms2[i] = y at h5
        cases h5 with
        | same => rfl
        | comp h => exact h.extra
      obtain ⟨_, _, _, hload⟩ := hms2 ms2[i] (List.getElem_mem hi2)
      refine unhandled_same h6 fun j hj => ?_
      have := (loadObj_frame hload).2.2
      dsimp only at this
      rw [this] at hj
      cases list <;> exact (List.mem_filter.1 hj).2

/-- C109: a file is read (as in C65) and the unknown properties of the calendar, or of one of its events and todos, are
replaced by others that can be written as text.  Then the calendar survives being written and read exactly if the reader does
not understand any of them. -/
theorem C109_iff (L : Lib) (hU : UtcOk L) (hW : WholeOffsets L) (hL : WritableLib L) (txt : Str)
    (o : CalObj) (h : calendarOfString L txt = .ok o)
    (hl : ∀ is, stringToContainers txt = Gen.done [.cont "VCALENDAR".toList is] → SafeCalendarItems is)
    (zs : List (Str × Nat)) (ho : SafeCalendar L zs o) (hz : ∀ n z, dictGet? zs n = some z → ZoneTrip L z)
    (place : Option (CalList × Nat)) (items : List Item) (hi : WritableTrees items) (o1 : CalObj)
    (h1 : o.putExtra place items = .ok o1) (w : Wrap) (hw : match w with | .none => True | .width _ W => 1 ≤ W) :
    (∃ txt' o2, serializeCalendar L w o1 = .ok txt' ∧ calendarOfString L txt' = .ok o2 ∧
      SameCalendar L (unquoteCalendar o1) (unquoteCalendar o2)) ↔ ∀ i ∈ items, unhandled (placeCls place) i = true := by
  constructor
  · rintro ⟨txt', o2, _, h2, h3⟩
    exact C109_needed L o o1 (read_cls h) place items h1 txt' o2 h2 h3
  · intro hu
    obtain ⟨k2, k3⟩ := fine_putExtra (fine_read hU hW hL h hl ho) h1 hi hu
    exact cal_text hU k2 hz k3 w hw

/-- C109: nothing else is changed. -/
theorem C109_others (o o1 : CalObj) (list : CalList) (i : Nat) (items : List Item)
    (h : o.putExtra (some (list, i)) items = .ok o1) :
    ∃ l l1 m m1, o.get list.attr = .many l ∧ o1.get list.attr = .many l1 ∧ l1.length = l.length ∧
      (∀ j, j ≠ i → l1[j]? = l[j]?) ∧ l[i]? = some (.comp m) ∧ l1[i]? = some (.comp m1) ∧
      m1.cls = m.cls ∧ m1.extraName = m.extraName ∧ m1.extra = items ∧ m1.extraParams = m.extraParams ∧
      (∀ a, m1.get a = m.get a) ∧
      (∀ a, a ≠ list.attr → o1.get a = o.get a) ∧ o1.cls = o.cls ∧ o1.extraName = o.extraName ∧ o1.extra = o.extra ∧
      o1.extraParams = o.extraParams := by
  obtain ⟨l, m, hg, hm, rfl⟩ := putExtra_parts h
  obtain ⟨hi, _⟩ := List.getElem?_eq_some_iff.1 hm
  refine ⟨l, _, m, _, hg, calList_got, by simp, fun j hj => List.getElem?_set_ne (fun e => hj e.symm), hm,
    List.getElem?_set_self hi, rfl, rfl, rfl, rfl, fun _ => rfl, fun a ha => ?_, rfl, rfl, rfl, rfl⟩
  unfold Obj.get
  dsimp only
  rw [dictGet_set_ne _ _ ha]

/-- C109: the same for the calendar itself, where this never fails; for an event or todo it fails with an `IndexError` exactly
if there is none at that place. -/
theorem C109_done (o : CalObj) (items : List Item) :
    (∃ o1, o.putExtra none items = .ok o1 ∧ o1.extra = items ∧ o1.cls = o.cls ∧ o1.extraName = o.extraName ∧
      o1.extraParams = o.extraParams ∧ ∀ a, o1.get a = o.get a) ∧
    ∀ list (ms : List EntryObj), o.get (CalList.attr list) = .many (ms.map .comp) → ∀ i,
      (o.putExtra (some (list, i)) items = .error .indexError ↔ ms.length ≤ i) ∧
      (i < ms.length → ∃ o1, o.putExtra (some (list, i)) items = .ok o1) := by
  refine ⟨⟨_, rfl, rfl, rfl, rfl, rfl, fun _ => rfl⟩, fun list ms hg i => ?_⟩
  simp only [Obj.putExtra, hg, List.getElem?_map]
  by_cases hi : i < ms.length
  · rw [List.getElem?_eq_getElem hi]
    exact ⟨⟨nofun, fun h => absurd hi (Nat.not_lt.2 h)⟩, fun _ => ⟨_, rfl⟩⟩
  · rw [List.getElem?_eq_none (Nat.not_lt.1 hi)]
    exact ⟨⟨fun _ => Nat.not_lt.1 hi, fun _ => rfl⟩, fun h => absurd h hi⟩

/-- `C109_done` applies to the calendar of the examples. -/
example : ∃ ms : List EntryObj, exCalRep.get (CalList.attr .events) = .many (ms.map .comp) ∧ 1 < ms.length :=
  ⟨[exEventObj, exEventObj], rfl, by decide⟩

/-- Unknown properties for the example: a line and a component. -/
def exUnknown : List Item := [exLine "X-ROOM" "12", .cont "X-BOX".toList [exLine "SUMMARY" "inside"]]

theorem exUnknown_writable : WritableTrees exUnknown := by
  refine trees_cons (exLine_writable (by decide +kernel) (by decide +kernel) (by decide +kernel)) (trees_cons ?_ writableTrees_nil)
  rw [WritableTree]
  exact ⟨exName (by decide +kernel), trees_cons (exLine_writable (by decide +kernel) (by decide +kernel) (by decide +kernel)) writableTrees_nil⟩

/-- `C109_iff` applies to the event of the example text: unknown properties survive, another SUMMARY does not. -/
example : ∃ o, calendarOfString exLib exText = .ok o ∧
    (∃ o1 txt' o2, o.putExtra (some (.events, 0)) exUnknown = .ok o1 ∧ serializeCalendar exLib (.width .chars 75) o1 = .ok txt' ∧
      calendarOfString exLib txt' = .ok o2 ∧ SameCalendar exLib (unquoteCalendar o1) (unquoteCalendar o2)) ∧
    ∃ o1, o.putExtra (some (.events, 0)) [exLine "SUMMARY" "again"] = .ok o1 ∧ ∀ txt' o2, calendarOfString exLib txt' = .ok o2 →
      ¬ SameCalendar exLib (unquoteCalendar o1) (unquoteCalendar o2) := by
  obtain ⟨o, h1, h2⟩ := exText_accepted
  have key : ((calendarOfString exLib exText).toOption.map fun o => ((o.putExtra (some (.events, 0)) exUnknown).isOk,
      (o.putExtra (some (.events, 0)) [exLine "SUMMARY" "again"]).isOk)) = some (true, true) := by
    unfold calendarOfString
    rw [exText_items]
    decide +kernel
  rw [h1] at key
  have key := Prod.mk.inj (Option.some.inj key)
  refine ⟨o, h1, ?_, ?_⟩
  · cases e : o.putExtra (some (.events, 0)) exUnknown with
    | error _ => rw [e] at key; cases key.1
    | ok o1 =>
      obtain ⟨txt', o2, h3, h4, h5⟩ := (C109_iff exLib exLib_utc exLib_whole exLib_writable exText o h1
        (fun is h => by
          rw [exText_items] at h
          injection h with h
          injection h with h
          injection h with _ h
          exact h ▸ exTextItems_safe) _ h2 exZoneTrip _ _ exUnknown_writable o1 e (.width .chars 75) (by decide)).2
        (by decide)
      exact ⟨o1, txt', o2, rfl, h3, h4, h5⟩
  · cases e : o.putExtra (some (.events, 0)) [exLine "SUMMARY" "again"] with
    | error _ => rw [e] at key; cases key.2
    | ok o1 =>
      refine ⟨o1, rfl, fun txt' o2 h3 h4 => ?_⟩
      have := C109_needed exLib o o1 (read_cls h1) _ _ e txt' o2 h3 h4 _ List.mem_cons_self
      exact absurd this (by decide)

end Ics
