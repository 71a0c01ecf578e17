import Verif.Proofs.Order
import Verif.Props.Duplicate

/-
C40: the order of property lines is irrelevant.
-/
namespace Ics

theorem Reordered.symm {xs ys : List Item} (h : Reordered xs ys) : Reordered ys xs := fun n => (h n).symm

theorem OneEnd.reordered {xs ys : List Item} (h : OneEnd xs) (hr : Reordered xs ys) : OneEnd ys :=
  h.subset fun _ hi => (reordered_perm hr).mem_iff.2 hi

/-- An event or todo with at most one of DTEND and DUE: the attributes do not depend on the order of the
lines, nor does whether it can be loaded.  The unhandled items are kept in the order of the text.
Missing: texts with both DTEND and DUE (see `C40_fails`). -/
theorem C40_entry_partial (L : Lib) (c : Cls) (xs ys : List Item) (zones : List (Str × Nat)) (hr : Reordered xs ys)
    (he : OneEnd xs) :
    ((∃ r, loadEntry L c xs (some zones) = .ok r) ↔ ∃ r, loadEntry L c ys (some zones) = .ok r) ∧
      ∀ o ctx o' ctx', loadEntry L c xs (some zones) = .ok (o, ctx) → loadEntry L c ys (some zones) = .ok (o', ctx') →
        SameAttrs o o' ∧ o.extra = xs.filter (unhandled c) ∧ o'.extra = ys.filter (unhandled c) := by
  have hm : MemStable L fun _ items ctx => loadAlarm L items ctx := fun _ items => loadAlarm_stable L items
  refine ⟨⟨?_, ?_⟩, ?_⟩
  · rintro ⟨⟨o, ctx⟩, h⟩
    obtain ⟨o', ctx', h', _⟩ := load_reordered hm hr (fun _ => he) h
    exact ⟨_, h'⟩
  · rintro ⟨⟨o, ctx⟩, h⟩
    obtain ⟨o', ctx', h', _⟩ := load_reordered hm hr.symm (fun _ => he.reordered hr) h
    exact ⟨_, h'⟩
  · intro o ctx o' ctx' h h'
    obtain ⟨o2, ctx2, h2, hs⟩ := load_reordered hm hr (fun _ => he) h
    obtain rfl : o2 = o' := by
      have := h2.symm.trans h'
      cases this
      rfl
    exact hs

theorem oneItem_reordered {xs ys : List Item} (hr : Reordered xs ys) (n : Str) : oneItem xs n = oneItem ys n := by
  unfold oneItem
  rw [hr n]

/-- The same for alarms, without exception. -/
theorem C40_alarm (L : Lib) (xs ys : List Item) (zones : List (Str × Nat)) (hr : Reordered xs ys) :
    ((∃ r, loadAlarm L xs (some zones) = .ok r) ↔ ∃ r, loadAlarm L ys (some zones) = .ok r) ∧
      ∀ a ctx a' ctx', loadAlarm L xs (some zones) = .ok (a, ctx) → loadAlarm L ys (some zones) = .ok (a', ctx') →
        SameAttrs a a' ∧ a.extra = xs.filter (unhandled a.cls) ∧ a'.extra = ys.filter (unhandled a.cls) := by
  have key : ∀ xs ys : List Item, Reordered xs ys → ∀ o ctx, loadAlarm L xs (some zones) = .ok (o, ctx) →
      ∃ o' ctx', loadAlarm L ys (some zones) = .ok (o', ctx') ∧ SameAttrs o o' ∧
        o.extra = xs.filter (unhandled o.cls) ∧ o'.extra = ys.filter (unhandled o.cls) := by
    intro xs ys hr o ctx h
    simp only [loadAlarm, oneItem_reordered hr.symm "ACTION".toList, bind_ok_iff] at h ⊢
    obtain ⟨i, hi, h⟩ := h
    cases i with
    | cont n is => cases h
    | line cl =>
      have ht : Conv.timespan ∉ (alarmCls cl.value).convs := by
        unfold alarmCls
        split
        · decide
        · split
          · decide
          · split
            · decide
            · split <;> decide
      obtain ⟨o', ctx', h', hs⟩ := load_reordered (fun _ _ => Stable.error _ _) hr (fun h => absurd h ht) h
      have e : o.cls = alarmCls cl.value := (loadObj_frame h).1
      rw [← e] at hs
      exact ⟨o', ctx', ⟨.line cl, hi, h'⟩, hs⟩
  refine ⟨⟨?_, ?_⟩, ?_⟩
  · rintro ⟨⟨o, ctx⟩, h⟩
    obtain ⟨o', ctx', h', _⟩ := key _ _ hr _ _ h
    exact ⟨_, h'⟩
  · rintro ⟨⟨o, ctx⟩, h⟩
    obtain ⟨o', ctx', h', _⟩ := key _ _ hr.symm _ _ h
    exact ⟨_, h'⟩
  · intro o ctx o' ctx' h h'
    obtain ⟨o2, ctx2, h2, hs⟩ := key _ _ hr _ _ h
    obtain rfl : o2 = o' := by
      have := h2.symm.trans h'
      cases this
      rfl
    exact hs

theorem loadZones_named (L : Lib) (items : List Item) (av : List (Str × Nat)) :
    loadZones L (items.filter fun i => i.name = "VTIMEZONE".toList) av = loadZones L items av := by
  induction items generalizing av with
  | nil => rfl
  | cons i is ih =>
    rw [List.filter_cons]
    cases i with
    | line cl =>
      split
      · exact ih av
      · exact ih av
    | cont n xs =>
      split
      · simp only [loadZones, ih]
      · rename_i hn
        have hn : n ≠ "VTIMEZONE".toList := fun e => hn (decide_eq_true e)
        rw [ih]
        exact (if_neg hn).symm

/-- The same for calendars, without exception. -/
theorem C40_calendar (L : Lib) (xs ys : List Item) (hr : Reordered xs ys) :
    ((∃ o, loadCalendar L xs = .ok o) ↔ ∃ o, loadCalendar L ys = .ok o) ∧
      ∀ o o', loadCalendar L xs = .ok o → loadCalendar L ys = .ok o' →
        SameAttrs o o' ∧ o.extra = xs.filter (unhandled .calendar) ∧ o'.extra = ys.filter (unhandled .calendar) := by
  have key : ∀ xs ys : List Item, Reordered xs ys → ∀ o, loadCalendar L xs = .ok o →
      ∃ o', loadCalendar L ys = .ok o' ∧ SameAttrs o o' ∧
        o.extra = xs.filter (unhandled .calendar) ∧ o'.extra = ys.filter (unhandled .calendar) := by
    intro xs ys hr o h
    simp only [loadCalendar, bind_ok_iff] at h ⊢
    obtain ⟨zones, hz, ⟨o1, ctx⟩, h, e⟩ := h
    cases e
    have hz' : loadZones L ys [] = .ok zones := by
      rw [← loadZones_named, ← hr, loadZones_named, hz]
    obtain ⟨o', ctx', h', hs⟩ := load_reordered (loadCalMember_stable L) hr
      (fun h => absurd h (by decide)) h
    exact ⟨o', ⟨zones, hz', _, h', rfl⟩, hs⟩
  refine ⟨⟨?_, ?_⟩, ?_⟩
  · rintro ⟨o, h⟩
    obtain ⟨o', h', _⟩ := key _ _ hr _ h
    exact ⟨_, h'⟩
  · rintro ⟨o, h⟩
    obtain ⟨o', h', _⟩ := key _ _ hr.symm _ h
    exact ⟨_, h'⟩
  · intro o o' h h'
    obtain ⟨o2, h2, hs⟩ := key _ _ hr _ h
    obtain rfl : o2 = o' := by
      have := h2.symm.trans h'
      cases this
      rfl
    exact hs

/-! ### Examples -/

/-- The event of the examples with its lines in another order. -/
def exReordered : List Item :=
  [exLine "DTSTART" "20240229T133742", .cont "X-C".toList [exLine "SUMMARY" "no"], exLine "CLASS" "PRIVATE",
    exLine "X-A" "1",
    .cont "VALARM".toList [exLine "X-B" "2", exLine "ACTION" "DISPLAY", exLine "X-B" "1"], exLine "X-A" "0",
    exLine "SUMMARY" "Party"]

theorem reordered_of_names {xs ys : List Item} (hp : xs.Perm ys)
    (h : ∀ n ∈ xs.map Item.name, (xs.filter fun i => i.name = n) = ys.filter fun i => i.name = n) : Reordered xs ys := by
  intro n
  by_cases hn : n ∈ xs.map Item.name
  · exact h n hn
  · have e : ∀ l : List Item, n ∉ l.map Item.name → (l.filter fun i => i.name = n) = [] := by
      intro l hl
      rw [List.filter_eq_nil_iff]
      intro i hi hn
      exact hl (List.mem_map.2 ⟨i, hi, by simpa using hn⟩)
    rw [e xs hn, e ys fun h => hn ((hp.map Item.name).mem_iff.2 h)]

/-- `C40_entry_partial` applies to the event of the examples. -/
example : Reordered exEvent exReordered ∧ OneEnd exEvent ∧
    (loadEntry exLib .event exEvent (some [])).toOption.isSome := by
  refine ⟨reordered_of_names (by decide +kernel) (by decide +kernel), ?_, by decide +kernel⟩
  rintro ⟨⟨i, hi, h⟩, _⟩
  revert i
  decide +kernel

/-- With both DTEND and DUE, whether an event can be loaded depends on their order: the last one counts,
and DUE is not the end of an event. -/
theorem C40_fails : ∃ xs ys : List Item, Reordered xs ys ∧
    (∃ r, loadEntry exLib .event xs (some []) = .ok r) ∧ loadEntry exLib .event ys (some []) = .error .valueError := by
  refine ⟨[exLine "DTSTART" "20240229T133742", exLine "DUE" "20240229T143742", exLine "DTEND" "20240229T153742"],
    [exLine "DTSTART" "20240229T133742", exLine "DTEND" "20240229T153742", exLine "DUE" "20240229T143742"],
    reordered_of_names (by decide +kernel) (by decide +kernel), ?_, by decide +kernel⟩
  have : (loadEntry exLib .event [exLine "DTSTART" "20240229T133742", exLine "DUE" "20240229T143742",
    exLine "DTEND" "20240229T153742"] (some [])).toOption.isSome := by decide +kernel
  revert this
  cases loadEntry exLib .event [exLine "DTSTART" "20240229T133742", exLine "DUE" "20240229T143742",
    exLine "DTEND" "20240229T153742"] (some []) with
  | error e => exact fun h => by cases h
  | ok r => exact fun _ => ⟨r, rfl⟩

end Ics
