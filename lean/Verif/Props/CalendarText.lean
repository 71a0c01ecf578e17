import Verif.Proofs.CalText
import Verif.Props.CalendarTrip

/-
C57: a calendar survives being turned into text and parsed.
C58: several calendars in one text.
-/
namespace Ics

/-- C57: for every representable calendar all of whose parts can be written as text, `serialize` succeeds
with every line wrapping, and `Calendar(text)` is the same calendar, up to quotation marks around parameter
values (which Python's `==` does not see). -/
theorem C57_roundtrip (L : Lib) (hU : UtcOk L) (zs : List (Str × Nat)) (o : CalObj) (h : RepCalendar L zs o)
    (hz : ∀ n z, dictGet? zs n = some z → ZoneTrip L z) (ho : WritableCalendar L o)
    (w : Wrap) (hw : match w with | .none => True | .width _ W => 1 ≤ W) :
    ∃ txt o', serializeCalendar L w o = .ok txt ∧ calendarOfString L txt = .ok o' ∧
      SameCalendar L (unquoteCalendar o) (unquoteCalendar o') :=
  cal_text hU h hz ho w hw

/-- C58: `Calendar(text)` only accepts a text that is exactly one VCALENDAR. -/
theorem C58_one (L : Lib) (txt : Str) (o : CalObj) (h : calendarOfString L txt = .ok o) :
    ∃ is, stringToContainers txt = ⟨[.cont "VCALENDAR".toList is], none⟩ ∧ loadCalendar L is = .ok o := by
  unfold calendarOfString calendarOfItems at h
  obtain ⟨⟨items, err⟩, hg⟩ : ∃ g, stringToContainers txt = g := ⟨_, rfl⟩
  rw [hg] at h
  cases items with
  | nil => cases err <;> cases h
  | cons i rest =>
    simp only [bind_ok_iff] at h
    obtain ⟨o', h1, h⟩ := h
    cases rest with
    | cons j rest => cases h
    | nil =>
      cases err with
      | some e => cases h
      | none =>
        cases h
        cases i with
        | line cl => cases h1
        | cont n is =>
          unfold loadCalendarItem at h1
          dsimp only at h1
          split at h1
          · rename_i hn
            subst hn
            exact ⟨is, hg, h1⟩
          · cases h1

/-- C58: a text without any content line is a `ValueError`. -/
theorem C58_empty (L : Lib) (txt : Str) (h : stringToContainers txt = ⟨[], none⟩) :
    calendarOfString L txt = .error .valueError := by
  unfold calendarOfString calendarOfItems
  rw [h]

/-- C58: anything after the first calendar is a `ValueError`. -/
theorem C58_several (L : Lib) (txt : Str) (i j : Item) (rest : List Item) (err : Option PyErr) (o : CalObj)
    (h : stringToContainers txt = ⟨i :: j :: rest, err⟩) (ho : loadCalendarItem L i = .ok o) :
    calendarOfString L txt = .error .valueError := by
  unfold calendarOfString calendarOfItems
  rw [h]
  dsimp only
  rw [ho]
  rfl

/-- C58: `parse_multiple` on the texts of any number of calendars, each followed by a line break, gives the
same calendars in the same order. -/
theorem C58_multiple (L : Lib) (hU : UtcOk L) (zs : List (Str × Nat)) (os : List CalObj)
    (h : ∀ o ∈ os, RepCalendar L zs o ∧ WritableCalendar L o)
    (hz : ∀ n z, dictGet? zs n = some z → ZoneTrip L z)
    (w : Wrap) (hw : match w with | .none => True | .width _ W => 1 ≤ W) :
    ∃ ts os', List.Forall₂ (fun o t => serializeCalendar L w o = .ok t) os ts ∧
      parseMultiple L (ts.flatMap (· ++ crlf)) = .ok os' ∧
      List.Forall₂ (fun o o' => SameCalendar L (unquoteCalendar o) (unquoteCalendar o')) os os' := by
  have hw' : w.ok := by cases w <;> exact hw
  obtain ⟨is, his⟩ : ∃ is : List Item, List.Forall₂ (fun o i => dumpCalendar L o = .ok i ∧
      (∃ js, i = .cont "VCALENDAR".toList js) ∧ WritableTree i ∧
      ∀ i', i'.unquote = i.unquote → ∃ o', parseMultipleItem L i' = .ok o' ∧
        SameCalendar L (unquoteCalendar o) (unquoteCalendar o')) os is := by
    clear hw' hw w
    induction os with
    | nil => exact ⟨[], .nil⟩
    | cons o os ih =>
      obtain ⟨is, his⟩ := ih fun o ho => h o (List.mem_cons_of_mem _ ho)
      obtain ⟨h1, h2⟩ := h o List.mem_cons_self
      obtain ⟨items, h3, hwr, h4⟩ := cal_load hU h1 hz
      refine ⟨_ :: is, .cons ⟨h3, ⟨items, rfl⟩, hwr h2, fun i' hi' => ?_⟩ his⟩
      obtain ⟨js, o', rfl, h5, h6⟩ := h4 i' hi'
      exact ⟨o', h5, h6⟩
  have hwt : WritableTrees is := by
    clear h
    induction his with
    | nil => exact writableTrees_nil
    | cons h _ ih =>
      rw [WritableTrees]
      exact ⟨h.2.2.1, ih⟩
  obtain ⟨txt, h1, h2⟩ := trees_roundtrip w hw' is hwt
  have hc : ∀ i ∈ is, ∃ n js, i = .cont n js := by
    clear h h1 h2 hwt
    intro i hi
    induction his with
    | nil => cases hi
    | cons h _ ih =>
      rcases List.mem_cons.1 hi with rfl | hi
      · exact ⟨_, h.2.1⟩
      · exact ih hi
  obtain ⟨ts, h3, rfl⟩ := serItems_texts w is txt h1 hc
  have h4 : ∃ os', parseMultipleItems L none (normItems is) = .ok os' ∧
      List.Forall₂ (fun o o' => SameCalendar L (unquoteCalendar o) (unquoteCalendar o')) os os' := by
    clear h h1 h2 h3 hc
    induction his with
    | nil => exact ⟨[], rfl, .nil⟩
    | @cons o i os is h _ ih =>
      rw [WritableTrees] at hwt
      obtain ⟨os', h5, h6⟩ := ih hwt.2
      obtain ⟨o', h7, h8⟩ := h.2.2.2 (normItem i) (unquote_normItem i hwt.1)
      refine ⟨o' :: os', ?_, .cons h8 h6⟩
      rw [normItems, parseMultipleItems, h7, h5]
      rfl
  obtain ⟨os', h5, h6⟩ := h4
  refine ⟨ts, os', ?_, ?_, h6⟩
  · clear h h1 h2 hc hwt h5 h6
    induction his generalizing ts with
    | nil =>
      cases h3
      exact .nil
    | @cons o i os is h _ ih =>
      cases h3 with
      | @cons _ t _ ts ht h3 =>
        obtain ⟨n, js, rfl, ht⟩ := ht
        refine .cons ?_ (ih ts h3)
        unfold serializeCalendar
        rw [h.1]
        exact ht
  · unfold parseMultiple
    rw [h2]
    exact h5

/-! ### A calendar that meets the hypotheses -/

/-- `WritableParams` as a program. -/
def writableParamsB (p : Params) : Bool :=
  p.all (fun kv => kv.1.all (fun c => c != '\r' && c != '\n' && c != '=' && c != ':' && c != ';') &&
    !kv.2.isEmpty && kv.2.all (fun v => !v.text.isEmpty && v.text.all (· != '\r'))) && decide (p.map Prod.fst).Nodup

theorem writableParams_of {p : Params} (h : writableParamsB p = true) : WritableParams p := by
  simp only [writableParamsB, Bool.and_eq_true, List.all_eq_true, bne_iff_ne, Bool.not_eq_true', List.isEmpty_eq_false_iff,
    decide_eq_true_eq] at h
  obtain ⟨h1, h2⟩ := h
  refine ⟨fun kv hk => ⟨⟨fun hc => ?_, fun hc => ?_⟩, fun c hc => ?_⟩, h2, fun kv hk => ?_, fun kv hk v hv hc => ?_⟩
  · exact ((h1 kv hk).1.1 _ hc).1.1.1.1 rfl
  · exact ((h1 kv hk).1.1 _ hc).1.1.1.2 rfl
  · have := (h1 kv hk).1.1 c hc
    exact ⟨this.1.1.2, this.1.2, this.2⟩
  · have h5 := (h1 kv hk).1.2
    exact ⟨kv.2.dropLast, kv.2.getLast h5, (List.dropLast_append_getLast h5).symm,
      .inr ((h1 kv hk).2 _ (List.getLast_mem h5)).1⟩
  · exact ((h1 kv hk).2 v hv).2 _ hc rfl

/-- `NoBreak` as a program. -/
def plainB (s : Str) : Bool := s.all fun c => c != '\r' && c != '\n'

theorem noBreak_of {s : Str} (h : plainB s = true) : NoBreak s := by
  rw [noBreak_all]
  intro c hc
  simpa using List.all_eq_true.1 h c hc

/-- `WritableTime` as a program. -/
def writableTimeB (L : Lib) (d : DT) : Bool :=
  match d.tz with
  | none => true
  | some t =>
    match L.conv t with
    | .timezone z => !(L.tzid z).isEmpty && plainB (L.tzid z)
    | _ => true

theorem writableTime_of {L : Lib} {d : DT} (h : writableTimeB L d = true) : WritableTime L d := by
  intro t z ht hz
  unfold writableTimeB at h
  rw [ht] at h
  dsimp only at h
  rw [hz] at h
  simp only [Bool.and_eq_true, Bool.not_eq_true', List.isEmpty_eq_false_iff] at h
  exact ⟨h.1, (noBreak_of h.2).1⟩

/-- `WritableVal` as a program. -/
def writableValB {σ : Type} (L : Lib) : Val σ → Bool
  | .url u => plainB u.geturl
  | .person _ e x => plainB (match e with | .str s => s | .url u => u.geturl) && writableParamsB x
  | .geo a b => plainB (L.formatFloat a) && plainB (L.formatFloat b)
  | .dt d => writableTimeB L d
  | .span s => (s.begin?.all (writableTimeB L)) && s.end?.all (writableTimeB L)
  | _ => true

theorem writableVal_of {σ : Type} {L : Lib} {N : σ → Prop} {v : Val σ} (hM : ∀ m, v = .comp m → N m)
    (h : writableValB L v = true) : WritableVal L N v := by
  cases v with
  | url u => exact noBreak_of h
  | person a e x =>
    simp only [writableValB, Bool.and_eq_true] at h
    exact ⟨noBreak_of h.1, writableParams_of h.2⟩
  | geo a b =>
    simp only [writableValB, Bool.and_eq_true] at h
    exact ⟨noBreak_of h.1, noBreak_of h.2⟩
  | dt d => exact writableTime_of h
  | span s =>
    simp only [writableValB, Bool.and_eq_true, Option.all_eq_true_iff_get] at h
    refine ⟨fun d hd => ?_, fun d hd => ?_⟩
    · have := h.1 (by rw [hd]; rfl)
      simp only [hd, Option.get_some] at this
      exact writableTime_of this
    · have := h.2 (by rw [hd]; rfl)
      simp only [hd, Option.get_some] at this
      exact writableTime_of this
  | comp m => exact hM m rfl
  | _ => trivial

/-- The values of an attribute. -/
def AttrVal.toList {σ : Type} : AttrVal σ → List (Val σ)
  | .none => []
  | .one v => [v]
  | .many l => l

/-- The parameters of an attribute. -/
def ExtraVal.toList : ExtraVal → List Params
  | .one p => [p]
  | .many ps => ps

theorem exName {n : Str} (h : decide (n ≠ [] ∧ upper n = n ∧ '\r' ∉ n ∧ '\n' ∉ n) = true) : WritableName n := by
  obtain ⟨h1, h2, h3, h4⟩ := of_decide_eq_true h
  exact ⟨h1, h2, h3, h4⟩

theorem exLine_writable {n v : String} (hn : nameOk n.toList = true) (hu : upper n.toList = n.toList)
    (hv : plainB v.toList = true) : WritableTree (exLine n v) := by
  have := writable_line hn writableParams_nil (t := v.toList) (noBreak_of hv)
  unfold mkContentLine at this
  rw [hu] at this
  rw [exLine, WritableTree]
  exact this

/-- The member in a value. -/
def Val.comp? {σ : Type} : Val σ → Option σ
  | .comp m => some m
  | _ => none

/-- The members of a component. -/
def Obj.comps {σ : Type} (o : Obj σ) : List σ := o.attrs.flatMap fun kv => kv.2.toList.filterMap Val.comp?

/-- `WritableObj` without the members and the unknown items, as a program. -/
def writableObjB {σ : Type} (L : Lib) (o : Obj σ) : Bool :=
  decide (o.extraName ≠ [] ∧ upper o.extraName = o.extraName) && plainB o.extraName &&
    (o.attrs.all fun kv => kv.2.toList.all (writableValB L)) &&
    o.extraParams.all fun kv => kv.2.toList.all writableParamsB

theorem writableObj_of {σ : Type} {L : Lib} {N : σ → Prop} {o : Obj σ} (hM : ∀ m ∈ o.comps, N m)
    (hx : WritableTrees o.extra) (h : writableObjB L o = true) : WritableObj L N o := by
  simp only [writableObjB, Bool.and_eq_true, List.all_eq_true, decide_eq_true_eq] at h
  obtain ⟨⟨⟨h1, h2⟩, h3⟩, h4⟩ := h
  have hget : ∀ (k : Str) (v : AttrVal σ), o.get k = v → v ≠ .none → (k, v) ∈ o.attrs := by
    intro k v h hv
    unfold Obj.get at h
    cases e : dictGet? o.attrs k with
    | none =>
      rw [e] at h
      exact absurd h.symm hv
    | some x =>
      rw [e] at h
      obtain rfl : x = v := h
      exact mem_of_dictGet e
  refine ⟨⟨h1.1, h1.2, noBreak_of h2⟩, hx, fun k v h => ?_, fun k l h v hv => ?_, fun k p h => ?_, fun k ps h p hp => ?_⟩
  · refine writableVal_of (fun m hm => hM m ?_) (h3 _ (hget k _ h nofun) v List.mem_cons_self)
    exact List.mem_flatMap.2 ⟨_, hget k _ h nofun, List.mem_filterMap.2 ⟨v, List.mem_cons_self, by rw [hm]; rfl⟩⟩
  · refine writableVal_of (fun m hm => hM m ?_) (h3 _ (hget k _ h nofun) v hv)
    exact List.mem_flatMap.2 ⟨_, hget k _ h nofun, List.mem_filterMap.2 ⟨v, hv, by rw [hm]; rfl⟩⟩
  · exact writableParams_of (h4 _ (mem_of_dictGet h) p List.mem_cons_self)
  · exact writableParams_of (h4 _ (mem_of_dictGet h) p hp)

theorem trees_cons {i : Item} {is : List Item} (h : WritableTree i) (hs : WritableTrees is) : WritableTrees (i :: is) := by
  rw [WritableTrees]
  exact ⟨h, hs⟩

theorem exAlarmObj_writable : WritableAlarm exLib exAlarmObj := by
  refine ⟨writableObj_of (fun m => nomatch m) ?_ (by decide +kernel), ?_⟩
  · exact trees_cons (exLine_writable (by decide +kernel) (by decide +kernel) (by decide +kernel)) writableTrees_nil
  · intro a h
    cases h

theorem exEventObj_writable : WritableEntry exLib exEventObj := by
  refine ⟨.inl rfl, writableObj_of ?_ ?_ (by decide +kernel)⟩
  · intro m hm
    rw [show exEventObj.comps = [exAlarmObj] from rfl, List.mem_singleton] at hm
    rw [hm]
    exact exAlarmObj_writable
  · refine trees_cons (exLine_writable (by decide +kernel) (by decide +kernel) (by decide +kernel)) (trees_cons ?_ writableTrees_nil)
    rw [WritableTree]
    exact ⟨exName (by decide +kernel), trees_cons (exLine_writable (by decide +kernel) (by decide +kernel) (by decide +kernel)) writableTrees_nil⟩

theorem exTodoObj_writable : WritableEntry exLib exTodoObj :=
  ⟨.inr rfl, writableObj_of (fun m hm => by cases hm) writableTrees_nil (by decide +kernel)⟩

theorem exCalRep_writable : WritableCalendar exLib exCalRep := by
  refine writableObj_of ?_ ?_ (by decide +kernel)
  · intro m hm
    rw [show exCalRep.comps = [exEventObj, exEventObj, exTodoObj] from rfl] at hm
    simp only [List.mem_cons, List.not_mem_nil, or_false] at hm
    rcases hm with rfl | rfl | rfl
    · exact exEventObj_writable
    · exact exEventObj_writable
    · exact exTodoObj_writable
  · exact trees_cons (exLine_writable (by decide +kernel) (by decide +kernel) (by decide +kernel))
      (trees_cons (exLine_writable (by decide +kernel) (by decide +kernel) (by decide +kernel)) writableTrees_nil)

/-- The hypotheses of `C57_roundtrip` and `C58_multiple` are met by the calendar. -/
example : (∀ o ∈ [exCalRep, exCalRep], RepCalendar exLib [("X/Y".toList, 1)] o ∧ WritableCalendar exLib o) ∧
    (∀ n z, dictGet? [("X/Y".toList, 1)] n = some z → ZoneTrip exLib z) ∧
    (match Wrap.none with | .none => True | .width _ W => 1 ≤ W) := by
  refine ⟨List.forall_mem_cons.2 ⟨⟨exCalRep_rep, exCalRep_writable⟩, List.forall_mem_cons.2
    ⟨⟨exCalRep_rep, exCalRep_writable⟩, nofun⟩⟩, fun n z h => ?_, trivial⟩
  have := mem_of_dictGet h
  rw [List.mem_singleton] at this
  cases this
  refine ⟨_, rfl, ?_, fun _ _ => rfl⟩
  rw [WritableTree]
  exact ⟨exName (by decide +kernel), trees_cons (i := exLine "TZID" "X/Y")
    (exLine_writable (by decide +kernel) (by decide +kernel) (by decide +kernel)) writableTrees_nil⟩

/-- Nothing, two calendars, and a line instead of a calendar. -/
example : calendarOfString exLib [] = .error .valueError ∧
    calendarOfString exLib "BEGIN:VCALENDAR\r\nVERSION:2.0\r\nPRODID:x\r\nEND:VCALENDAR\r\nX:1".toList = .error .valueError ∧
    (parseMultiple exLib
      "BEGIN:VCALENDAR\nVERSION:2.0\nPRODID:x\nEND:VCALENDAR\nBEGIN:VCALENDAR\nPRODID:y\nVERSION:1\nEND:VCALENDAR".toList).map
        (fun os => os.map fun o => (o.get "prodid".toList, o.get "version".toList)) =
      .ok [(.one (.text "x".toList), .one (.text "2.0".toList)), (.one (.text "y".toList), .one (.text "1".toList))] := by
  decide +kernel

end Ics
