import Verif.Proofs.EqualTrip
import Verif.Props.Accepted
import Verif.Props.Clone
import Verif.Props.Fromutc
import Verif.Spec.Zones

/-
C96: `==` of components.
-/
namespace Ics

/-! ### What `==` compares -/

/-- C96: two calendars are `==` if and only if they are equal: same class, same attributes (members one by one), the same extra
lines, and the same parameters, whatever the order of the dictionaries and the quotation marks. -/
theorem C96_iff (e : Env) (a b : CalObj) (ha : ProperCalendar a) (hb : ProperCalendar b) :
    calendarEq e a b = true ↔ EqualCalendar e a b :=
  calendarEq_iff ha hb

/-- C96 for events and todos. -/
theorem C96_entry_iff (e : Env) (a b : EntryObj) (ha : ProperEntry a) (hb : ProperEntry b) :
    entryEq e a b = true ↔ EqualEntry e a b :=
  entryEq_iff ha hb

/-- C96 for alarms. -/
theorem C96_alarm_iff (e : Env) (a b : Alarm) (ha : ProperAlarm a) (hb : ProperAlarm b) :
    alarmEq e a b = true ↔ EqualAlarm e a b :=
  alarmEq_iff ha hb

/-- C96: every calendar is `==` to itself. -/
theorem C96_refl (e : Env) (a : CalObj) (ha : ProperCalendar a) : calendarEq e a a = true :=
  (calendarEq_iff ha ha).2 (EqualCalendar.refl e a)

/-- C96: `==` is symmetric. -/
theorem C96_symm (e : Env) (a b : CalObj) (ha : ProperCalendar a) (hb : ProperCalendar b) :
    calendarEq e a b = calendarEq e b a := by
  have h : ∀ {a b : CalObj}, ProperCalendar a → ProperCalendar b → calendarEq e a b = true → calendarEq e b a = true :=
    fun ha hb h => (calendarEq_iff hb ha).2 ((calendarEq_iff ha hb).1 h).symm
  exact Bool.eq_iff_iff.2 ⟨h ha hb, h hb ha⟩

/-- C96: `==` is transitive if in every zone no two wall clocks whose offset does not depend on `fold` stand for the same instant.
Missing: other zones, see `C96_trans_fails`. -/
theorem C96_trans_partial (e : Env) (hz : OneToOne e) (a b c : CalObj) (ha : ProperCalendar a) (hb : ProperCalendar b)
    (hc : ProperCalendar c) (h : calendarEq e a b = true) (k : calendarEq e b c = true) : calendarEq e a c = true :=
  (calendarEq_iff ha hc).2 (((calendarEq_iff ha hb).1 h).trans hz ((calendarEq_iff hb hc).1 k))

theorem berlin_even {w : Int} (h : berlinOff w true = berlinOff w false) :
    (w < dayNo 737512 + hours 2 ∧ berlinOff w false = hours 1) ∨
      (dayNo 737512 + hours 3 ≤ w ∧ w < dayNo 737722 + hours 2 ∧ berlinOff w false = hours 2) ∨
      (dayNo 737722 + hours 3 ≤ w ∧ berlinOff w false = hours 1) := by
  unfold berlinOff dayNo hours at *
  simp only [if_true, Bool.false_eq_true, if_false] at *
  by_cases h1 : w < 737512 * 86400000000 + 2 * 3600000000
  · rw [if_pos h1]
    omega
  · by_cases h2 : w < 737512 * 86400000000 + 3 * 3600000000
    · rw [if_neg h1, if_neg h1, if_pos h2, if_pos h2] at h
      omega
    · by_cases h3 : w < 737722 * 86400000000 + 2 * 3600000000
      · rw [if_neg h1, if_neg h2, if_pos h3]
        omega
      · by_cases h4 : w < 737722 * 86400000000 + 3 * 3600000000
        · rw [if_neg h1, if_neg h1, if_neg h2, if_neg h2, if_neg h3, if_neg h3, if_pos h4, if_pos h4] at h
          omega
        · rw [if_neg h1, if_neg h2, if_neg h3, if_neg h4]
          omega

/-- Europe/Berlin in 2020 is such a zone: the offset of the wall clocks that are skipped depends on `fold`. -/
theorem dstEnv_oneToOne : OneToOne dstEnv := by
  intro t w w' h h' hi
  cases t with
  | zone n =>
    replace h := h true
    replace h' := h' true
    simp only [Env.tzOff, dstEnv] at h h' hi
    by_cases hn : n = 0
    · rw [if_pos hn, if_pos hn] at hi
      omega
    · rw [if_neg hn, if_neg hn] at h h' hi
      have a := berlin_even h
      have b := berlin_even h'
      unfold dayNo hours at a b
      omega
  | loc k =>
    simp only [Env.tzOff, dstEnv] at hi
    omega
  | fixed o =>
    simp only [Env.tzOff] at hi
    omega

/-- An event that begins at a time. -/
def exBegins (d : DT) : EntryObj where
  cls := .event
  attrs := [("timespan".toList, .one (.span { cls := .event, begin? := some d })), ("uid".toList, .one (.text "u1".toList))]
  extraName := "VEVENT".toList
  extra := []
  extraParams := []

/-- C96 is false of transitivity: in a zone of this library (`Timezone`), in which the clock is put forward at 2:00, events that
begin at 1:30 and at 2:30 are `==` to an event that begins at 0:30 UTC, but not to each other. -/
theorem C96_trans_fails :
    let a := exBegins ⟨10080 * dayUs + exHour + exHour / 2, false, some (.zone 1)⟩
    let b := exBegins ⟨10080 * dayUs + exHour / 2, false, some (.zone 0)⟩
    let c := exBegins ⟨10080 * dayUs + 2 * exHour + exHour / 2, false, some (.zone 1)⟩
    entryEq vtzEnv a b = true ∧ entryEq vtzEnv b c = true ∧ entryEq vtzEnv a c = false := by
  decide +kernel

/-- C96 is false of times that differ by `fold` only: two events that begin at 2:30 before and after the clock is put back are
`==`, although one begins an hour later. -/
theorem C96_fold_fails :
    let a : DT := ⟨dayNo 737722 + hours 2 + hours 1 / 2, false, some (.zone 1)⟩
    let b : DT := ⟨dayNo 737722 + hours 2 + hours 1 / 2, true, some (.zone 1)⟩
    entryEq dstEnv (exBegins a) (exBegins b) = true ∧ dstEnv.instant b = dstEnv.instant a + hours 1 := by
  decide +kernel

/-- C96: equal time spans have the same hash, whatever the hashes of times, durations, strings and tuples are. -/
theorem C96_hash (e : Env) (H : HashFns) (salt : Int) (a b : Span) (h : e.spanEq a b = true) :
    spanHash e H salt a = spanHash e H salt b := by
  have h := (spanEq_iff e a b).1 h
  have ht : ∀ {x y : DT}, EqualTime e x y → dtHash e H x = dtHash e H y := by
    rintro x y (⟨h1, h2⟩ | ⟨t, u, o, p, h1, h2, -, h3, h4, h5⟩)
    · unfold dtHash
      rw [h1, h2]
    · unfold dtHash
      rw [h1, h2]
      dsimp only
      rw [h3, h4, h5]
  have ho : ∀ {x y : Option DT}, Option.Rel (EqualTime e) x y →
      (x.map (dtHash e H)).getD H.none = (y.map (dtHash e H)).getD H.none := by
    rintro x y (hxy | _)
    · exact ht hxy
    · rfl
  unfold spanHash
  rw [ho h.begin, ho h.end_, h.dur, h.prec]

/-- Two equal time spans in different zones. -/
example : dstEnv.spanEq { cls := .event, begin? := some ⟨dayNo 737600 + hours 12, false, some (.zone 1)⟩ }
    { cls := .event, begin? := some ⟨dayNo 737600 + hours 10, true, some (.zone 0)⟩ } = true := by
  decide +kernel

/-! ### Reading and writing -/

/-- C96: the dictionaries of a calendar that was read have no key twice; it has parameters under the names of its attributes only,
and those of a list are as many as its values. -/
theorem C96_loaded (L : Lib) (txt : Str) (o : CalObj) (h : calendarOfString L txt = .ok o) :
    SettledCalendar o ∧ ProperCalendar o := by
  obtain ⟨is, h1, h2⟩ := C58_one L txt o h
  have hi : WritableTree (.cont "VCALENDAR".toList is) :=
    item_good (txt := txt) (by rw [h1]; exact List.mem_singleton_self _) fun cl => nofun
  rw [WritableTree] at hi
  exact calendar_settled (writable_propers hi.2) h2

/-- C96: a representable calendar that is written and read back is `==` to the calendar if and only if the calendar has the
parameters that a calendar has that was read. -/
theorem C96_roundtrip (L : Lib) (hU : UtcOk L) (zs : List (Str × Nat)) (o : CalObj) (h : RepCalendar L zs o)
    (hz : ∀ n z, dictGet? zs n = some z → ZoneTrip L z) (ho : WritableCalendar L o) (hp : ProperCalendar o)
    (w : Wrap) (hw : match w with | .none => True | .width _ W => 1 ≤ W) :
    ∃ txt o', serializeCalendar L w o = .ok txt ∧ calendarOfString L txt = .ok o' ∧
      (calendarEq L.toEnv o o' = true ↔ SettledCalendar o) := by
  obtain ⟨txt, o', h1, h2, h3⟩ := C57_roundtrip L hU zs o h hz ho w hw
  obtain ⟨h4, h5⟩ := C96_loaded L txt o' h2
  exact ⟨txt, o', h1, h2, fun he => equal_settledCalendar ((calendarEq_iff hp h5).1 he) h4,
    fun hs => (calendarEq_iff hp h5).2 (same_equalCalendar hU hs h4 h3)⟩

/-- C96: for every text that `Calendar(text)` accepts, if its lines and the values that were read are safe, the calendar is `==` to
what it is read back as after it was written, with every line wrapping. -/
theorem C96_text (L : Lib) (hU : UtcOk L) (hW : WholeOffsets L) (hL : WritableLib L) (txt : Str) (o : CalObj)
    (h : calendarOfString L txt = .ok o)
    (hl : ∀ is, stringToContainers txt = Gen.done [.cont "VCALENDAR".toList is] → SafeCalendarItems is)
    (zs : List (Str × Nat)) (ho : SafeCalendar L zs o) (hz : ∀ n z, dictGet? zs n = some z → ZoneTrip L z)
    (w : Wrap) (hw : match w with | .none => True | .width _ W => 1 ≤ W) :
    ∃ txt' o', serializeCalendar L w o = .ok txt' ∧ calendarOfString L txt' = .ok o' ∧ calendarEq L.toEnv o o' = true := by
  obtain ⟨txt', o', h1, h2, h3⟩ := C65_text L hU hW hL txt o h hl zs ho hz w hw
  obtain ⟨h4, h5⟩ := C96_loaded L txt o h
  obtain ⟨h6, h7⟩ := C96_loaded L txt' o' h2
  exact ⟨txt', o', h1, h2, (calendarEq_iff h5 h7).2 (same_equalCalendar hU h4 h6 h3)⟩

/-- The text of the examples meets the hypotheses of `C96_loaded` and `C96_text`. -/
example : ∃ o txt' o', calendarOfString exLib exText = .ok o ∧ serializeCalendar exLib (.width .chars 75) o = .ok txt' ∧
    calendarOfString exLib txt' = .ok o' ∧ calendarEq exLib.toEnv o o' = true := by
  obtain ⟨o, h1, h2⟩ := exText_accepted
  have hl : ∀ is, stringToContainers exText = Gen.done [.cont "VCALENDAR".toList is] → SafeCalendarItems is := by
    intro is h
    rw [exText_items] at h
    injection h with h
    injection h with h
    injection h with _ h
    exact h ▸ exTextItems_safe
  obtain ⟨txt', o', h3, h4, h5⟩ := C96_text exLib exLib_utc exLib_whole exLib_writable exText o h1 hl _ h2 exZoneTrip
    (.width .chars 75) (by decide)
  exact ⟨o, txt', o', h1, h3, h4, h5⟩

/-- Dictionaries of a component, as a finite check. -/
theorem properObj_of {σ : Type} {M : σ → Prop} {o : Obj σ} (h1 : ProperDict o.extraParams)
    (h2 : ∀ p ∈ o.extraParams, ProperExtra p.2) (h3 : ∀ i ∈ o.extra, ProperItem i) (h4 : ∀ p ∈ o.attrs, ProperAttr M p.2) :
    ProperObj M o where
  keys := h1
  params _ _ h := h2 _ (mem_of_dictGet h)
  extra := h3
  attrs k _ := by
    unfold Obj.get
    cases h : dictGet? o.attrs k.toList with
    | none => trivial
    | some v => exact h4 _ (mem_of_dictGet h)

theorem exAlarmObj_proper : ProperAlarm exAlarmObj := by
  refine properObj_of (by unfold ProperDict; decide) ?_ ?_ ?_
  · simp [exAlarmObj, ProperExtra, ProperDict]
  · intro i hi
    rw [show exAlarmObj.extra = [exLine "X-B" "2"] from rfl, List.mem_singleton] at hi
    exact hi ▸ .line List.nodup_nil
  · simp [exAlarmObj, ProperAttr, ProperVal]

theorem exEventObj_proper : ProperEntry exEventObj := by
  refine properObj_of (by unfold ProperDict; decide) ?_ ?_ ?_
  · simp [exEventObj, ProperExtra, ProperDict]
  · intro i hi
    rw [show exEventObj.extra = [exLine "CLASS" "PRIVATE", .cont "X-C".toList [exLine "SUMMARY" "no"]] from rfl] at hi
    rcases List.mem_cons.1 hi with hi | hi
    · exact hi ▸ .line List.nodup_nil
    · rw [List.mem_singleton] at hi
      refine hi ▸ .cont fun j hj => ?_
      rw [List.mem_singleton] at hj
      exact hj ▸ .line List.nodup_nil
  · simp [exEventObj, ProperAttr, ProperVal, ProperDict, exAlarmObj_proper]

theorem exTodoObj_proper : ProperEntry exTodoObj := by
  refine properObj_of (by unfold ProperDict; decide) ?_ (fun _ h => absurd h List.not_mem_nil) ?_
  · simp [exTodoObj, ProperExtra, ProperDict]
  · simp [exTodoObj, ProperAttr, ProperVal]

theorem exCalRep_proper : ProperCalendar exCalRep := by
  refine properObj_of (by unfold ProperDict; decide) (fun _ h => absurd h List.not_mem_nil) ?_ ?_
  · intro i hi
    rw [show exCalRep.extra = [exLine "X-D" "1", exLine "VTIMEZONE" "not a container"] from rfl] at hi
    rcases List.mem_cons.1 hi with hi | hi
    · exact hi ▸ .line List.nodup_nil
    · rw [List.mem_singleton] at hi
      exact hi ▸ .line List.nodup_nil
  · simp [exCalRep, ProperAttr, ProperVal, exEventObj_proper, exTodoObj_proper]

/-- `C96_iff`, `C96_refl`, `C96_symm` and `C96_roundtrip` apply to the calendar of the examples. -/
example : RepCalendar exLib [("X/Y".toList, 1)] exCalRep ∧ WritableCalendar exLib exCalRep ∧ ProperCalendar exCalRep ∧
    calendarEq exLib.toEnv exCalRep exCalRep = true :=
  ⟨exCalRep_rep, exCalRep_writable, exCalRep_proper, C96_refl _ _ exCalRep_proper⟩

/-- The attendees of its events have no parameters yet, so that it is not settled. -/
theorem exCalRep_unsettled : ¬SettledCalendar exCalRep := by
  intro h
  have he : SettledEntry exEventObj := h.members "events" (by decide) exEventObj (.many List.mem_cons_self)
  obtain ⟨l, h1, h2⟩ := he.lists "attendees" (by decide)
  have hd : dictGet? exEventObj.extraParams "attendees".toUpper.toList = none := by decide +kernel
  rcases h2 with ⟨rfl, -⟩ | ⟨ps, -, -, h2⟩
  · cases h1
  · rw [hd] at h2
    cases h2

/-- C96 is false of calendars that were not read: a calendar with an event with attendees that was written is not `==` to what it is
read back as, which has empty parameters for the attendees. -/
theorem C96_roundtrip_fails : ∃ txt o', serializeCalendar exLib (.width .chars 75) exCalRep = .ok txt ∧
    calendarOfString exLib txt = .ok o' ∧ SameCalendar exLib (unquoteCalendar exCalRep) (unquoteCalendar o') ∧
    calendarEq exLib.toEnv exCalRep o' = false := by
  obtain ⟨txt, o', h1, h2, h3⟩ := C57_roundtrip exLib exLib_utc _ exCalRep exCalRep_rep exZoneTrip exCalRep_writable
    (.width .chars 75) (by decide)
  obtain ⟨h4, h5⟩ := C96_loaded _ txt o' h2
  refine ⟨txt, o', h1, h2, h3, Bool.eq_false_iff.2 fun he => exCalRep_unsettled ?_⟩
  exact equal_settledCalendar ((calendarEq_iff exCalRep_proper h5).1 he) h4

/-! ### Copies -/

theorem clone_equal {σ : Type} (e : Env) {R : σ → σ → Prop} (hR : ∀ m, R m m) {M : σ → Prop} (L : Lib) (o : Obj σ)
    (hp : ProperObj M o) (h : ∀ p ∈ o.cls.attrChecks, ∃ u, p.2.run L u = .ok (o.get p.1)) :
    ∃ o', o.clone L = .ok o' ∧ ProperObj M o' ∧
      (EqualObj e R o o' ↔ o.extraName = o.cls.icsName ∧ o.extra = [] ∧ o.extraParams = []) := by
  obtain ⟨o', h1, h2, h3⟩ := C44_attributes L o h
  have he : o'.extraName = o.cls.icsName ∧ o'.extra = [] ∧ o'.extraParams = [] := by
    unfold Obj.clone at h1
    cases ha : cloneAttrs L o o.cls.attrChecks with
    | error e => rw [ha] at h1; cases h1
    | ok a => rw [ha] at h1; cases h1; exact ⟨rfl, rfl, rfl⟩
  obtain ⟨he1, he2, he3⟩ := he
  have key : ∀ k ∈ (allAttrs o.cls).map String.toList, k ∈ o.cls.attrChecks.map Prod.fst := by
    cases o.cls <;> decide +kernel
  have hg : ∀ k ∈ allAttrs o.cls, o'.get k.toList = o.get k.toList := fun k hk => h3 _ (key _ (List.mem_map_of_mem hk))
  refine ⟨o', h1, ⟨?_, ?_, ?_, fun k hk => ?_⟩, ?_⟩
  · rw [he3]
    exact List.nodup_nil
  · rw [he3]
    intro k x hx
    cases hx
  · rw [he2]
    exact fun _ h => absurd h List.not_mem_nil
  · rw [h2] at hk
    rw [hg k hk]
    exact hp.attrs k hk
  · constructor
    · rintro ⟨-, e2, e3, -, e5⟩
      rw [he2] at e3
      refine ⟨e2.trans he1, ?_, ?_⟩
      · generalize o.extra = x at e3
        cases e3
        rfl
      · cases hx : o.extraParams with
        | nil => rfl
        | cons p d =>
          have := e5 p.1
          rw [hx, he3, dictGet?] at this
          simp [dictGet?] at this
    · rintro ⟨e1, e2, e3⟩
      refine ⟨h2.symm, e1.trans he1.symm, ?_, fun k hk => ?_, fun k => ?_⟩
      · rw [e2, he2]
        exact .nil
      · rw [hg k hk]
        exact .refl hR
      · rw [e3, he3]
        exact .none

/-- C96: the clone of a calendar is `==` to it if and only if it has no extra lines and parameters. -/
theorem C96_clone (L : Lib) (o : CalObj) (hp : ProperCalendar o)
    (h : ∀ p ∈ o.cls.attrChecks, ∃ u, p.2.run L u = .ok (o.get p.1)) :
    ∃ o', o.clone L = .ok o' ∧
      (calendarEq L.toEnv o o' = true ↔ o.extraName = o.cls.icsName ∧ o.extra = [] ∧ o.extraParams = []) := by
  obtain ⟨o', h1, h2, h3⟩ := clone_equal L.toEnv (R := EqualEntry L.toEnv) (EqualObj.refl (EqualObj.refl fun m => m.elim)) L o hp h
  exact ⟨o', h1, (calendarEq_iff hp h2).trans h3⟩

/-- A new event and a new calendar with it meet the hypotheses. -/
def exFresh : CalObj :=
  { newObj (σ := EntryObj) exLib .calendar with attrs := (newObj (σ := EntryObj) exLib .calendar).attrs.map fun p =>
      if p.1 = "events".toList then (p.1, .many [.comp (newObj exLib .event)]) else p }

example : (∀ p ∈ exFresh.cls.attrChecks, ∃ u, p.2.run exLib u = .ok (exFresh.get p.1)) ∧
    ∀ p ∈ Cls.event.attrChecks, ∃ u, p.2.run exLib u = .ok ((newObj (σ := Alarm) exLib .event).get p.1) := by
  constructor
  · intro p hp
    refine ⟨exFresh.get p.1, ?_⟩
    simp only [exFresh, newObj, Cls.attrChecks, Cls.convs, attr1, List.flatMap_cons, List.flatMap_nil, Conv.attrChecks,
      List.cons_append, List.nil_append, List.mem_cons, List.not_mem_nil, or_false] at hp
    rcases hp with rfl | rfl | rfl | rfl | rfl | rfl <;> rfl
  · intro p hp
    refine ⟨(newObj (σ := Alarm) exLib .event).get p.1, ?_⟩
    simp only [Cls.attrChecks, Cls.convs, entryConvs, attr1, attrN, List.flatMap_cons, List.flatMap_nil, Conv.attrChecks,
      List.cons_append, List.nil_append, List.mem_cons, List.not_mem_nil, or_false] at hp
    rcases hp with rfl | rfl | rfl | rfl | rfl | rfl | rfl | rfl | rfl | rfl | rfl | rfl | rfl | rfl | rfl | rfl | rfl | rfl <;> rfl

/-- C96 for copies of events and todos. -/
theorem C96_clone_entry (L : Lib) (o : EntryObj) (hp : ProperEntry o)
    (h : ∀ p ∈ o.cls.attrChecks, ∃ u, p.2.run L u = .ok (o.get p.1)) :
    ∃ o', o.clone L = .ok o' ∧
      (entryEq L.toEnv o o' = true ↔ o.extraName = o.cls.icsName ∧ o.extra = [] ∧ o.extraParams = []) := by
  obtain ⟨o', h1, h2, h3⟩ := clone_equal L.toEnv (R := EqualAlarm L.toEnv) (EqualObj.refl fun m => m.elim) L o hp h
  exact ⟨o', h1, (entryEq_iff hp h2).trans h3⟩

end Ics
