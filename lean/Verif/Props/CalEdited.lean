import Mathlib.Data.List.InsertIdx
import Verif.Spec.CalEdited
import Verif.Props.Edited

/-
C103: calendars that are changed after they were read.
-/
namespace Ics

/-- A step is about one attribute of the calendar only. -/
theorem calEdit_frame {L : Lib} {o o1 : CalObj} {e : CalEdit} (h : o.calEdit L e = .ok o1) :
    o1.cls = o.cls ∧ o1.extraName = o.extraName ∧ o1.extra = o.extra ∧ o1.extraParams = o.extraParams := by
  cases e with
  | assign a v =>
    obtain ⟨h1, h2, h3, h4, _⟩ := change_frame (ch := .assign a v) h
    exact ⟨h1, h2, h3, h4⟩
  | change list i chs =>
    simp only [Obj.calEdit] at h
    split at h
    · split at h
      · obtain ⟨m, _, e⟩ := bind_ok_iff.1 h
        cases e
        exact ⟨rfl, rfl, rfl, rfl⟩
      · cases h
      · cases h
    · cases h
  | append list m =>
    simp only [Obj.calEdit] at h
    split at h
    · cases h
      exact ⟨rfl, rfl, rfl, rfl⟩
    · cases h
  | delete list i =>
    simp only [Obj.calEdit] at h
    split at h
    · split at h
      · cases h
        exact ⟨rfl, rfl, rfl, rfl⟩
      · cases h
    · cases h

/-- The lists of a calendar have converters of their own. -/
theorem calList_conv (list : CalList) : ∃ n, Conv.member list.attr n ∈ Cls.calendar.convs := by
  cases list
  · exact ⟨"VEVENT".toList, by decide⟩
  · exact ⟨"VTODO".toList, by decide⟩

theorem calList_cls (list : CalList) : (if list.attr = "events".toList then Cls.event else .todo) = list.cls := by
  cases list <;> decide

theorem cal_only : ∀ s, .value s ∈ Cls.calendar.convs → s.multi = false →
    ∀ x ∈ s.convs, x = .datetime ∨ x = .organizer → s.convs = [x] := by
  have : (Cls.calendar.convs.all fun cv => match cv with
      | .value s => s.convs.all fun x => !decide (x = .datetime ∨ x = .organizer)
      | _ => true) = true := by
    decide +kernel
  intro s hs hm x hx hd
  have h := List.all_eq_true.1 this _ hs
  dsimp only at h
  have h := List.all_eq_true.1 h x hx
  rw [decide_eq_true hd] at h
  cases h

/-- Both properties of a calendar that a reader and a writer need. -/
def Fine (L : Lib) (zs : List (Str × Nat)) (o : CalObj) : Prop := RepCalendar L zs o ∧ WritableCalendar L o

/-- A new list of events or todos. -/
theorem fine_list {L : Lib} {zs : List (Str × Nat)} {o : CalObj} (h : Fine L zs o) (list : CalList)
    {l' : List (Val EntryObj)} (ms : List EntryObj) (e : l' = ms.map .comp)
    (hm : ∀ m ∈ ms, RepEntry L zs m ∧ m.cls = list.cls ∧ WritableEntry L m) :
    Fine L zs { o with attrs := dictSet o.attrs list.attr (.many l') } := by
  obtain ⟨⟨hc, ho⟩, hw⟩ := h
  have g1 : Obj.get { o with attrs := dictSet o.attrs list.attr (.many l') } list.attr = .many l' := by
    unfold Obj.get
    dsimp only
    rw [dictGet_set]
    rfl
  have g2 : ∀ a, a ≠ list.attr → Obj.get { o with attrs := dictSet o.attrs list.attr (.many l') } a = o.get a := by
    intro a ha
    unfold Obj.get
    dsimp only
    rw [dictGet_set_ne _ _ ha]
  refine ⟨⟨hc, rep_changed ho (hc ▸ cal_only) rfl rfl rfl rfl fun cv hcv a ha => ?_⟩,
    ⟨hw.name, hw.extra, fun k v hv => ?_, fun k l hv v hvl => ?_, hw.params, hw.listParams⟩⟩
  · by_cases hin : a = list.attr
    · subst hin
      right
      rw [hc] at hcv
      have : ∃ n, cv = .member list.attr n := by
        cases list <;> revert ha <;> revert cv <;> simp [Cls.convs, attr1, Conv.Of, CalList.attr]
      obtain ⟨n, rfl⟩ := this
      refine ⟨ms, g1.trans (by rw [e]), fun m hmem => ?_⟩
      obtain ⟨k1, k2, _⟩ := hm m hmem
      exact ⟨k1, k2.trans (calList_cls list).symm⟩
    · exact .inl (g2 a hin)
  · by_cases hk : k = list.attr
    · rw [hk, g1] at hv
      cases hv
    · rw [g2 k hk] at hv
      exact hw.one k v hv
  · by_cases hk : k = list.attr
    · rw [hk, g1] at hv
      cases hv
      rw [e] at hvl
      obtain ⟨m, hmem, rfl⟩ := List.mem_map.1 hvl
      exact (hm m hmem).2.2
    · rw [g2 k hk] at hv
      exact hw.many k l hv v hvl

/-- The list of a calendar that survives. -/
theorem fine_members {L : Lib} {zs : List (Str × Nat)} {o : CalObj} (h : Fine L zs o) (list : CalList) :
    ∃ ms : List EntryObj, o.get list.attr = .many (ms.map .comp) ∧
      ∀ m ∈ ms, RepEntry L zs m ∧ m.cls = list.cls ∧ WritableEntry L m := by
  obtain ⟨⟨hc, ho⟩, hw⟩ := h
  obtain ⟨n, hn⟩ := calList_conv list
  obtain ⟨_, ms, hg, hm⟩ := ho.members _ n (hc ▸ hn)
  refine ⟨ms, hg, fun m hmem => ?_⟩
  obtain ⟨k1, k2⟩ := hm m hmem
  exact ⟨k1, k2.trans (calList_cls list), hw.many _ _ hg _ (List.mem_map_of_mem hmem)⟩

/-- The last change of an attribute decides what can be written. -/
theorem writable_changed {L : Lib} {o o1 : EntryObj} (h : WritableEntry L o) {chs : List (Change Alarm)}
    (hch : o.changes L chs = .ok o1) (hw : ∀ ch ∈ chs, WritableAttr L (WritableAlarm L) (o1.get ch.attr)) :
    WritableEntry L o1 := by
  obtain ⟨hc, ho⟩ := h
  obtain ⟨f1, f2, f3, f4, f5⟩ := changes_frame hch
  refine ⟨f1 ▸ hc, ⟨f2 ▸ ho.name, f3 ▸ ho.extra, fun k v hv => ?_, fun k l hv v hvl => ?_, f4 ▸ ho.params, f4 ▸ ho.listParams⟩⟩
  · by_cases hin : k ∈ chs.map Change.attr
    · obtain ⟨ch, hm, rfl⟩ := List.mem_map.1 hin
      have := hw ch hm
      rw [hv] at this
      exact this
    · rw [f5 k hin] at hv
      exact ho.one k v hv
  · by_cases hin : k ∈ chs.map Change.attr
    · obtain ⟨ch, hm, rfl⟩ := List.mem_map.1 hin
      have := hw ch hm
      rw [hv] at this
      exact this v hvl
    · rw [f5 k hin] at hv
      exact ho.many k l hv v hvl

theorem fine_edit {L : Lib} {zs : List (Str × Nat)} {o o1 : CalObj} (h : Fine L zs o) {e : CalEdit}
    (he : o.calEdit L e = .ok o1) (hl : LastingEdit L zs o1 e) : Fine L zs o1 := by
  cases e with
  | assign a v =>
    obtain ⟨f1, f2, f3, f4, f5⟩ := change_frame (ch := .assign a v) he
    obtain ⟨⟨hc, ho⟩, hw⟩ := h
    obtain ⟨l1, l2⟩ := hl
    have f5 : ∀ b, b ≠ a → o1.get b = o.get b := f5
    refine ⟨⟨f1.trans hc, rep_changed ho (hc ▸ cal_only) f1 f2 f3 f4 fun cv hcv b hb => ?_⟩,
      ⟨f2 ▸ hw.name, f3 ▸ hw.extra, fun k w hv => ?_, fun k l hv w hvl => ?_, f4 ▸ hw.params, f4 ▸ hw.listParams⟩⟩
    · by_cases hin : b = a
      · subst hin
        exact .inr (l1 cv (hc ▸ hcv) hb)
      · exact .inl (f5 b hin)
    · by_cases hk : k = a
      · subst hk
        rw [hv] at l2
        exact l2
      · rw [f5 k hk] at hv
        exact hw.one k w hv
    · by_cases hk : k = a
      · subst hk
        rw [hv] at l2
        exact l2 w hvl
      · rw [f5 k hk] at hv
        exact hw.many k l hv w hvl
  | change list i chs =>
    obtain ⟨ms, hg, hms⟩ := fine_members h list
    simp only [Obj.calEdit, hg] at he
    split at he
    · rename_i m hm
      obtain ⟨m1, h1, e⟩ := bind_ok_iff.1 he
      cases e
      have hm' : ms[i]? = some m := by
        rw [List.getElem?_map] at hm
        obtain ⟨m', hm', e⟩ := Option.map_eq_some_iff.1 hm
        cases e
        exact hm'
      obtain ⟨hi, hmi⟩ := List.getElem?_eq_some_iff.1 hm'
      have g1 : Obj.get { o with attrs := dictSet o.attrs list.attr (.many ((ms.map Val.comp).set i (.comp m1))) } list.attr =
          .many ((ms.map .comp).set i (.comp m1)) := by
        unfold Obj.get
        dsimp only
        rw [dictGet_set]
        rfl
      obtain ⟨l1, l2⟩ := hl _ m1 g1 (by rw [List.getElem?_set_self (by simpa using hi)])
      obtain ⟨k1, k2, k3⟩ := hms m (List.mem_of_getElem? hm')
      refine fine_list h list (ms.set i m1) (List.map_set).symm fun m hmem => ?_
      rcases List.mem_or_eq_of_mem_set hmem with hmem | rfl
      · exact hms m hmem
      · exact ⟨entry_changed k1 h1 l1, (changes_frame h1).1.trans k2, writable_changed k3 h1 l2⟩
    · cases he
    · cases he
  | append list m =>
    obtain ⟨ms, hg, hms⟩ := fine_members h list
    simp only [Obj.calEdit, hg] at he
    cases he
    refine fine_list h list (ms ++ [m]) (by simp) fun m' hmem => ?_
    rcases List.mem_append.1 hmem with hmem | hmem
    · exact hms m' hmem
    · rw [List.mem_singleton.1 hmem]
      exact hl
  | delete list i =>
    obtain ⟨ms, hg, hms⟩ := fine_members h list
    simp only [Obj.calEdit, hg] at he
    split at he
    · cases he
      exact fine_list h list (ms.eraseIdx i) (List.eraseIdx_map _ _ _) fun m' hmem => hms m' (List.mem_of_mem_eraseIdx hmem)
    · cases he

theorem fine_edits {L : Lib} {zs : List (Str × Nat)} {es : List CalEdit} {o : CalObj} (h : Fine L zs o)
    (hl : LastingEdits L zs o es) : ∃ o1, o.calEdits L es = .ok o1 ∧ Fine L zs o1 := by
  induction es generalizing o with
  | nil => exact ⟨o, rfl, h⟩
  | cons e es ih =>
    obtain ⟨o1, h1, h2, h3⟩ := hl
    obtain ⟨o2, k1, k2⟩ := ih (fine_edit h h1 h2) h3
    refine ⟨o2, ?_, k2⟩
    rw [Obj.calEdits, h1]
    exact k1

/-- C103: a file is read (as in C65), its calendar is changed, any number of times: attributes of the calendar are
assigned, events and todos are changed, appended and deleted, in a way that lasts.  Then the calendar can be written with
every line wrapping, and what is written is read as the changed calendar, up to quotation marks around parameter values.

Missing for the full claim: lists for which parameters are known, see `C103_attendee_fails`. -/
theorem C103_text_partial (L : Lib) (hU : UtcOk L) (hW : WholeOffsets L) (hL : WritableLib L) (txt : Str) (o : CalObj)
    (h : calendarOfString L txt = .ok o)
    (hl : ∀ is, stringToContainers txt = Gen.done [.cont "VCALENDAR".toList is] → SafeCalendarItems is)
    (zs : List (Str × Nat)) (ho : SafeCalendar L zs o) (hz : ∀ n z, dictGet? zs n = some z → ZoneTrip L z)
    (es : List CalEdit) (hes : LastingEdits L zs o es) (w : Wrap) (hw : match w with | .none => True | .width _ W => 1 ≤ W) :
    ∃ o1 txt' o2, o.calEdits L es = .ok o1 ∧ serializeCalendar L w o1 = .ok txt' ∧ calendarOfString L txt' = .ok o2 ∧
      SameCalendar L (unquoteCalendar o1) (unquoteCalendar o2) := by
  obtain ⟨is, h1, h2⟩ := C58_one L txt o h
  have hi : WritableTree (.cont "VCALENDAR".toList is) :=
    item_good (txt := txt) (by rw [h1]; exact List.mem_singleton_self _) fun cl => nofun
  rw [WritableTree] at hi
  have hs := hl is h1
  obtain ⟨o1, k1, k2, k3⟩ := fine_edits ⟨calendar_rep hU hW h2 hs ho, calendar_writable hL hi.2 h2 hs⟩ hes
  obtain ⟨txt', o2, k4, k5, k6⟩ := cal_text hU k2 hz k3 w hw
  exact ⟨o1, txt', o2, k1, k4, k5, k6⟩

/-- C103: changing an event or todo leaves the others, and everything else in the calendar, as it was. -/
theorem C103_others (L : Lib) (o o1 : CalObj) (list : CalList) (i : Nat) (chs : List (Change Alarm))
    (h : o.calEdit L (.change list i chs) = .ok o1) :
    ∃ l l1, o.get list.attr = .many l ∧ o1.get list.attr = .many l1 ∧ l1.length = l.length ∧ (∀ j, j ≠ i → l1[j]? = l[j]?) ∧
      (∃ m m1, l[i]? = some (.comp m) ∧ l1[i]? = some (.comp m1) ∧ m.changes L chs = .ok m1) ∧
      (∀ a, a ≠ list.attr → o1.get a = o.get a) ∧ o1.extra = o.extra ∧ o1.extraParams = o.extraParams := by
  have hf := calEdit_frame h
  simp only [Obj.calEdit] at h
  split at h
  · rename_i l hg
    split at h
    · rename_i m hm
      obtain ⟨m1, h1, e⟩ := bind_ok_iff.1 h
      cases e
      obtain ⟨hi, _⟩ := List.getElem?_eq_some_iff.1 hm
      refine ⟨l, l.set i (.comp m1), hg, ?_, by simp, fun j hj => List.getElem?_set_ne (fun e => hj e.symm),
        ⟨m, m1, hm, List.getElem?_set_self hi, h1⟩, fun a ha => ?_, rfl, rfl⟩
      · unfold Obj.get
        dsimp only
        rw [dictGet_set]
        rfl
      · unfold Obj.get
        dsimp only
        rw [dictGet_set_ne _ _ ha]
    · cases h
    · cases h
  · cases h

/-- C103: `append` puts the new event or todo after the others, and `del` deletes the one at the index and keeps the
others in their order; an index that is too large gives `IndexError`. -/
theorem C103_lists (L : Lib) (o : CalObj) (list : CalList) (l : List (Val EntryObj)) (hg : o.get list.attr = .many l) :
    (∀ m, ∃ o1, o.calEdit L (.append list m) = .ok o1 ∧ o1.get list.attr = .many (l ++ [.comp m]) ∧
      ∀ a, a ≠ list.attr → o1.get a = o.get a) ∧
    (∀ pre x post, l = pre ++ x :: post → ∃ o1, o.calEdit L (.delete list pre.length) = .ok o1 ∧
      o1.get list.attr = .many (pre ++ post) ∧ ∀ a, a ≠ list.attr → o1.get a = o.get a) ∧
    ∀ i, l.length ≤ i → o.calEdit L (.delete list i) = .error .indexError ∧
      ∀ chs, o.calEdit L (.change list i chs) = .error .indexError := by
  have get : ∀ v : AttrVal EntryObj, Obj.get { o with attrs := dictSet o.attrs list.attr v } list.attr = v := by
    intro v
    unfold Obj.get
    dsimp only
    rw [dictGet_set]
    rfl
  have get' : ∀ (v : AttrVal EntryObj) (a : Str), a ≠ list.attr →
      Obj.get { o with attrs := dictSet o.attrs list.attr v } a = o.get a := by
    intro v a h
    unfold Obj.get
    dsimp only
    rw [dictGet_set_ne _ _ h]
  refine ⟨fun m => ⟨_, by simp only [Obj.calEdit, hg], get _, get' _⟩, ?_, fun i hi => ⟨?_, fun chs => ?_⟩⟩
  · rintro pre x post rfl
    refine ⟨_, ?_, get (.many (pre ++ post)), get' _⟩
    simp only [Obj.calEdit, hg]
    rw [if_pos (by simp), List.eraseIdx_append_of_length_le (Nat.le_refl _)]
    simp
  · simp only [Obj.calEdit, hg]
    rw [if_neg (by omega)]
  · simp only [Obj.calEdit, hg, List.getElem?_eq_none hi]

/-- A calendar with two events: one is appended, the first is deleted. -/
example : ((Obj.calEdits exLib ⟨.calendar, [("events".toList, .many [.comp exEventObj, .comp exTodoObj])],
      "VCALENDAR".toList, [], []⟩ [.append .events exEventObj, .delete .events 0]).toOption.map
    fun o => match o.get "events".toList with
      | .many l => l.map fun v => match v with | .comp m => m.cls | _ => .calendar
      | _ => []) = some [.todo, .event] := by
  decide +kernel

theorem dumpMembers_each {σ : Type} {memd : MemberDump σ} {l : List (Val σ)} {st : DState} {r : List Item × DState}
    (h : dumpMembers memd l st = .ok r) {m : σ} (hm : .comp m ∈ l) : ∃ st1 r1, memd m st1 = .ok r1 := by
  induction l generalizing st r with
  | nil => cases hm
  | cons v l ih =>
    cases v with
    | comp m' =>
      simp only [dumpMembers, bind_ok_iff] at h
      obtain ⟨r1, h1, r2, h2, _⟩ := h
      rcases List.mem_cons.1 hm with e | hm
      · cases e
        exact ⟨_, _, h1⟩
      · exact ih h2 hm
    | _ => cases h

/-- A calendar cannot be written if one of its events or todos cannot. -/
theorem cal_unwritten {L : Lib} {o : CalObj} {list : CalList} {l : List (Val EntryObj)} (hg : o.get list.attr = .many l)
    {m : EntryObj} (hm : .comp m ∈ l) (hf : ∀ st, (dumpEntry L m st).isOk = false) : (dumpCalendar L o).isOk = false := by
  cases hd : dumpCalendar L o with
  | error e => rfl
  | ok r =>
    exfalso
    simp only [dumpCalendar, bind_ok_iff] at hd
    obtain ⟨⟨a, st⟩, h1, ⟨b, st'⟩, h2, _⟩ := hd
    obtain ⟨n, hn⟩ := calList_conv list
    have hmem : Conv.member list.attr n ∈ calConvsBefore ++ calConvsAfter := by
      unfold calConvsBefore calConvsAfter
      rw [List.takeWhile_append_dropWhile]
      exact hn
    obtain ⟨st1, r1, hd⟩ : ∃ st1 r1, (Conv.member list.attr n).dump L (dumpEntry L) o st1 = .ok r1 := by
      rcases List.mem_append.1 hmem with hmem | hmem
      · obtain ⟨parts, _, hp⟩ := dumpConvs_parts h1
        obtain ⟨part, _, st1, st2, hd⟩ := forall₂_mem hp.flip _ hmem
        exact ⟨_, _, hd⟩
      · obtain ⟨parts, _, hp⟩ := dumpConvs_parts h2
        obtain ⟨part, _, st1, st2, hd⟩ := forall₂_mem hp.flip _ hmem
        exact ⟨_, _, hd⟩
    simp only [Conv.dump, dumpMember, hg, bind_ok_iff] at hd
    obtain ⟨_, _, hd⟩ := hd
    obtain ⟨st2, r2, h3⟩ := dumpMembers_each hd hm
    have := hf st2
    rw [h3] at this
    cases this

/-- C103 fails for `add_attendee`: if a file is read in which an event has an attendee, and another attendee is added to
this event, the calendar cannot be written any more. -/
theorem C103_attendee_fails (L : Lib) (txt : Str) (o : CalObj) (h : calendarOfString L txt = .ok o) (i : Nat)
    (l : List (Val EntryObj)) (hg : o.get "events".toList = .many l) (m : EntryObj) (hm : l[i]? = some (.comp m))
    (as : List (Val Alarm)) (ha : m.get "attendees".toList = .many as) (hne : as ≠ []) (email : Email) (extra : Params) :
    ∃ o1, o.calEdits L [.change .events i [.addAttendee (.person true email extra)]] = .ok o1 ∧
      ∀ w, (serializeCalendar L w o1).isOk = false := by
  obtain ⟨is, _, h2⟩ := C58_one L txt o h
  simp only [loadCalendar, bind_ok_iff] at h2
  obtain ⟨avail, _, ⟨o', ctx1⟩, h2, e⟩ := h2
  obtain rfl : o' = o := by cases e; rfl
  obtain ⟨ms, hg', hread⟩ := load_member (loadCalMember_stable L) rfl h2
    (show Conv.member "events".toList "VEVENT".toList ∈ Cls.calendar.convs by decide)
  have hg' : o'.get "events".toList = .many (ms.map .comp) := hg'
  rw [hg] at hg'
  cases hg'
  have hmem : m ∈ ms := by
    rw [List.getElem?_map] at hm
    obtain ⟨m', hm', e⟩ := Option.map_eq_some_iff.1 hm
    cases e
    exact List.mem_of_getElem? hm'
  obtain ⟨_, _, mis, mctx, _, hload⟩ := forall₂_mem hread m hmem
  have hload : loadEntry L .event mis (some avail) = .ok (m, mctx) := hload
  obtain ⟨m1, k1, _, k3⟩ := C102_attendee_fails L mis avail m mctx hload as ha hne email extra
  have hi : i < (ms.map Val.comp).length := (List.getElem?_eq_some_iff.1 hm).1
  refine ⟨{ o' with attrs := dictSet o'.attrs "events".toList (.many ((ms.map .comp).set i (.comp m1))) }, ?_, fun w => ?_⟩
  · simp only [Obj.calEdits, Obj.calEdit, CalList.attr, hg, hm, k1]
    rfl
  · have := cal_unwritten (o := { o' with attrs := dictSet o'.attrs "events".toList (.many ((ms.map .comp).set i (.comp m1))) })
      (list := .events) (l := (ms.map .comp).set i (.comp m1)) (by
        unfold Obj.get CalList.attr
        dsimp only
        rw [dictGet_set]
        rfl) (m := m1) (List.mem_of_getElem? (List.getElem?_set_self hi)) k3
    unfold serializeCalendar
    cases hd : dumpCalendar L { o' with attrs := dictSet o'.attrs "events".toList (.many ((ms.map .comp).set i (.comp m1))) } with
    | error e => rfl
    | ok r =>
      rw [hd] at this
      cases this

/-- The event of the example text gets another summary, the todo is deleted, an event is appended, and the calendar gets a
method. -/
def exEdits : List CalEdit :=
  [.change .events 0 [.assign "summary".toList (.one (.text "Party; no cake".toList))], .delete .todos 0,
    .append .events exEventObj, .assign "method".toList (.one (.text "PUBLISH".toList))]

theorem exEdits_lasting {o : CalObj} (h : calendarOfString exLib exText = .ok o) (hf : Fine exLib [("X/Y".toList, 1)] o) :
    LastingEdits exLib [("X/Y".toList, 1)] o exEdits := by
  have key : ((calendarOfString exLib exText).toOption.map fun o =>
      (match o.get "events".toList with | .many l => l.length | _ => 0,
        match o.get "todos".toList with | .many l => l.length | _ => 0)) = some (1, 1) := by
    unfold calendarOfString
    rw [exText_items]
    decide +kernel
  rw [h] at key
  have key := Option.some.inj key
  obtain ⟨es, he, hes⟩ := fine_members hf .events
  obtain ⟨ts, ht, hts⟩ := fine_members hf .todos
  have he' : o.get "events".toList = .many (es.map .comp) := he
  have ht' : o.get "todos".toList = .many (ts.map .comp) := ht
  dsimp only at key
  rw [he', ht'] at key
  simp only [List.length_map, Prod.mk.injEq] at key
  obtain ⟨m, rfl⟩ := List.length_eq_one_iff.1 key.1
  obtain ⟨t, rfl⟩ := List.length_eq_one_iff.1 key.2
  have hm : m.cls = .event := (hes m List.mem_cons_self).2.1
  have h1 : m.cls.attrChecks.find? (fun x => x.1 = "summary".toList) = some ("summary".toList, .any) := by
    rw [hm]
    decide
  obtain ⟨m1, hm1⟩ : ∃ m1 : EntryObj,
      m1 = { m with attrs := dictSet m.attrs "summary".toList (.one (.text "Party; no cake".toList)) } := ⟨_, rfl⟩
  have hch : m.changes exLib [.assign "summary".toList (.one (.text "Party; no cake".toList))] = .ok m1 := by
    rw [hm1]
    simp only [Obj.changes, Obj.change, h1]
    rfl
  have e1 : m1.get "summary".toList = .one (.text "Party; no cake".toList) := by
    rw [hm1]
    unfold Obj.get
    dsimp only
    rw [dictGet_set]
    rfl
  have hc1 : m1.cls = .event := by rw [hm1]; exact hm
  have hlast : LastingEntry exLib [("X/Y".toList, 1)] m1 ["summary".toList] := by
    intro a ha cv hcv hof
    rw [List.mem_singleton.1 ha] at hof
    rw [hc1] at hcv
    have : cv ∈ Cls.event.convs.filter fun cv => (Conv.attrChecks .event cv).any fun x => x.1 = "summary".toList := by
      rw [List.mem_filter]
      refine ⟨hcv, ?_⟩
      cases cv <;> simp_all [Conv.Of, Conv.attrChecks]
    rw [show (Cls.event.convs.filter fun cv => (Conv.attrChecks .event cv).any fun x => x.1 = "summary".toList) =
      [.value ⟨"summary".toList, "SUMMARY".toList, false, false, [.text], .any⟩] by decide] at this
    rw [List.mem_singleton.1 this]
    unfold Lasting
    dsimp only
    rw [if_neg (by decide), e1]
    exact ⟨.text, rfl, trivial, rfl⟩
  have get : ∀ (p : CalObj) (a : String) (v : AttrVal EntryObj), Obj.get { p with attrs := dictSet p.attrs a.toList v } a.toList = v := by
    intro p a v
    unfold Obj.get
    dsimp only
    rw [dictGet_set]
    rfl
  have get' : ∀ (p : CalObj) (a b : String) (v : AttrVal EntryObj), b.toList ≠ a.toList →
      Obj.get { p with attrs := dictSet p.attrs a.toList v } b.toList = p.get b.toList := by
    intro p a b v h
    unfold Obj.get
    dsimp only
    rw [dictGet_set_ne _ _ h]
  obtain ⟨o1, ho1⟩ : ∃ o1 : CalObj, o1 = { o with attrs := dictSet o.attrs "events".toList (.many [.comp m1]) } := ⟨_, rfl⟩
  have s1 : o.calEdit exLib (.change .events 0 [.assign "summary".toList (.one (.text "Party; no cake".toList))]) = .ok o1 := by
    rw [ho1]
    simp only [Obj.calEdit, CalList.attr, he', List.map_cons, List.map_nil, List.getElem?_cons_zero, hch]
    rfl
  have g1 : o1.get "events".toList = .many [.comp m1] := by rw [ho1]; exact get _ _ _
  have g2 : o1.get "todos".toList = .many [.comp t] := by rw [ho1, get' _ _ _ _ (by decide)]; exact ht'
  obtain ⟨o2, ho2⟩ : ∃ o2 : CalObj, o2 = { o1 with attrs := dictSet o1.attrs "todos".toList (.many []) } := ⟨_, rfl⟩
  have s2 : o1.calEdit exLib (.delete .todos 0) = .ok o2 := by
    rw [ho2]
    simp only [Obj.calEdit, CalList.attr, g2]
    rfl
  have g3 : o2.get "events".toList = .many [.comp m1] := by rw [ho2, get' _ _ _ _ (by decide)]; exact g1
  obtain ⟨o3, ho3⟩ : ∃ o3 : CalObj,
      o3 = { o2 with attrs := dictSet o2.attrs "events".toList (.many [.comp m1, .comp exEventObj]) } := ⟨_, rfl⟩
  have s3 : o2.calEdit exLib (.append .events exEventObj) = .ok o3 := by
    rw [ho3]
    simp only [Obj.calEdit, CalList.attr, g3]
    rfl
  have hc3 : o3.cls = .calendar := by
    rw [(calEdit_frame s3).1, (calEdit_frame s2).1, (calEdit_frame s1).1]
    exact hf.1.1
  obtain ⟨o4, ho4⟩ : ∃ o4 : CalObj,
      o4 = { o3 with attrs := dictSet o3.attrs "method".toList (.one (.text "PUBLISH".toList)) } := ⟨_, rfl⟩
  have s4 : o3.calEdit exLib (.assign "method".toList (.one (.text "PUBLISH".toList))) = .ok o4 := by
    have h1 : o3.cls.attrChecks.find? (fun x => x.1 = "method".toList) = some ("method".toList, .any) := by
      rw [hc3]
      decide
    rw [ho4]
    simp only [Obj.calEdit, Obj.change, h1]
    rfl
  have g4 : o4.get "method".toList = .one (.text "PUBLISH".toList) := by rw [ho4]; exact get _ _ _
  refine ⟨o1, s1, fun l m' hl hm' => ?_, o2, s2, trivial, o3, s3, ⟨exEventObj_rep, rfl, exEventObj_writable⟩, o4, s4,
    ⟨fun cv hcv hof => ?_, ?_⟩, trivial⟩
  · have hl : o1.get "events".toList = .many l := hl
    rw [g1] at hl
    cases hl
    cases hm'
    refine ⟨hlast, fun ch hch => ?_⟩
    rw [List.mem_singleton.1 hch]
    show WritableAttr _ _ (m1.get "summary".toList)
    rw [e1]
    trivial
  · have : cv ∈ Cls.calendar.convs.filter fun cv => (Conv.attrChecks .calendar cv).any fun x => x.1 = "method".toList := by
      rw [List.mem_filter]
      refine ⟨hcv, ?_⟩
      cases cv <;> simp_all [Conv.Of, Conv.attrChecks]
    rw [show (Cls.calendar.convs.filter fun cv => (Conv.attrChecks .calendar cv).any fun x => x.1 = "method".toList) =
      [.value ⟨"method".toList, "METHOD".toList, false, false, [.text], .any⟩] by decide] at this
    rw [List.mem_singleton.1 this]
    unfold Lasting
    dsimp only
    rw [if_neg (by decide), g4]
    exact ⟨.text, rfl, trivial, rfl⟩
  · rw [g4]
    trivial

/-- `C103_text_partial` applies to the text and these changes. -/
example : ∃ o o1 txt' o2, calendarOfString exLib exText = .ok o ∧ o.calEdits exLib exEdits = .ok o1 ∧
    serializeCalendar exLib (.width .chars 75) o1 = .ok txt' ∧ calendarOfString exLib txt' = .ok o2 ∧
    SameCalendar exLib (unquoteCalendar o1) (unquoteCalendar o2) := by
  obtain ⟨o, h1, h2⟩ := exText_accepted
  have hl : ∀ is, stringToContainers exText = Gen.done [.cont "VCALENDAR".toList is] → SafeCalendarItems is := by
    intro is h
    rw [exText_items] at h
    injection h with h
    injection h with h
    injection h with _ h
    exact h ▸ exTextItems_safe
  obtain ⟨is, k1, k2⟩ := C58_one exLib exText o h1
  have hi : WritableTree (.cont "VCALENDAR".toList is) :=
    item_good (txt := exText) (by rw [k1]; exact List.mem_singleton_self _) fun cl => nofun
  rw [WritableTree] at hi
  have hf : Fine exLib [("X/Y".toList, 1)] o := ⟨calendar_rep exLib_utc exLib_whole k2 (hl is k1) h2,
    calendar_writable exLib_writable hi.2 k2 (hl is k1)⟩
  obtain ⟨o1, txt', o2, h3, h4, h5, h6⟩ := C103_text_partial exLib exLib_utc exLib_whole exLib_writable exText o h1 hl _ h2
    exZoneTrip exEdits (exEdits_lasting h1 hf) (.width .chars 75) (by decide)
  exact ⟨o, o1, txt', o2, h1, h3, h4, h5, h6⟩

/-- `C103_attendee_fails` applies to the text, whose event has an attendee. -/
example : ∃ o o1, calendarOfString exLib exText = .ok o ∧
    o.calEdits exLib [.change .events 0 [.addAttendee (.person true (.str "mailto:e@f".toList) [])]] = .ok o1 ∧
    ∀ w, (serializeCalendar exLib w o1).isOk = false := by
  have key : ((calendarOfString exLib exText).toOption.map fun o =>
      (match o.get "events".toList with
        | .many (.comp m :: _) => match m.get "attendees".toList with | .many (_ :: _) => true | _ => false
        | _ => false)) = some true := by
    unfold calendarOfString
    rw [exText_items]
    decide +kernel
  obtain ⟨o, h1, _⟩ := exText_accepted
  rw [h1] at key
  have key := Option.some.inj key
  dsimp only at key
  split at key
  · rename_i m l hg
    split at key
    · rename_i a as ha
      obtain ⟨o1, k1, k2⟩ := C103_attendee_fails exLib exText o h1 0 _ hg m rfl _ ha (by simp) (.str "mailto:e@f".toList) []
      exact ⟨o, o1, h1, k1, k2⟩
    · cases key
  · cases key

end Ics
