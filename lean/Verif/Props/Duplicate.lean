import Verif.Proofs.Duplicate
import Verif.Props.Component

/-
C39: single-valued properties cannot be silently overwritten.
-/
namespace Ics

/-- The text of an event or todo with a second line of a single-valued property cannot be loaded,
wherever the two lines are.  The error is a `ValueError`, unless the text without that line already
gives another error. -/
theorem C39_entry (L : Lib) (c : Cls) (n : String) (hn : n ∈ singleNames c) (a b r : List Item) (l1 l2 : ContentLine)
    (h1 : l1.name = n.toList) (h2 : l2.name = n.toList) (zones : List (Str × Nat)) :
    ∃ e, loadEntry L c (a ++ .line l1 :: b ++ .line l2 :: r) (some zones) = .error e ∧
      (e = .valueError ∨ loadEntry L c (a ++ .line l1 :: b ++ r) (some zones) = .error e) :=
  load_duplicate (fun _ items => loadAlarm_stable L items) rfl hn (l1 := .line l1) (by simp) h1 h2 r

/-- In particular, a text that can be loaded gives a `ValueError` if a line is repeated anywhere behind. -/
theorem C39_entry_repeated (L : Lib) (c : Cls) (n : String) (hn : n ∈ singleNames c) (a b r : List Item)
    (l1 l2 : ContentLine) (h1 : l1.name = n.toList) (h2 : l2.name = n.toList) (zones : List (Str × Nat))
    (o : EntryObj × Ctx) (ho : loadEntry L c (a ++ .line l1 :: b ++ r) (some zones) = .ok o) :
    loadEntry L c (a ++ .line l1 :: b ++ .line l2 :: r) (some zones) = .error .valueError := by
  obtain ⟨e, h, he⟩ := C39_entry L c n hn a b r l1 l2 h1 h2 zones
  rcases he with rfl | he
  · exact h
  · rw [ho] at he
    cases he

theorem oneItem_without {i : Item} {name : Str} (hi : i.name ≠ name) (P R : List Item) :
    oneItem (P ++ i :: R) name = oneItem (P ++ R) name := by
  simp [oneItem, List.filter_append, List.filter_cons, hi]

/-- The same for an alarm; its class is found from the one ACTION line. -/
theorem C39_alarm (L : Lib) (act : ContentLine) (n : String) (hn : n ∈ singleNames (alarmCls act.value))
    (a b r : List Item) (l1 l2 : ContentLine) (h1 : l1.name = n.toList) (h2 : l2.name = n.toList)
    (ha : named "ACTION" (a ++ .line l1 :: b ++ .line l2 :: r) = [.line act]) (zones : List (Str × Nat)) :
    ∃ e, loadAlarm L (a ++ .line l1 :: b ++ .line l2 :: r) (some zones) = .error e ∧
      (e = .valueError ∨ loadAlarm L (a ++ .line l1 :: b ++ r) (some zones) = .error e) := by
  have hna : n.toList ≠ "ACTION".toList := (singleNames_once _ n hn).1
  have e1 : oneItem (a ++ .line l1 :: b ++ .line l2 :: r) "ACTION".toList = .ok (.line act) := by
    unfold named at ha
    rw [oneItem, ha]
  have e2 := e1
  rw [oneItem_without (i := .line l2) (show l2.name ≠ _ by rw [h2]; exact hna)] at e2
  have := load_duplicate (L := L) (mem := fun _ _ _ => .error .notImplementedError) (σ := Empty) (ctx := some zones)
    (fun _ _ => Stable.error _ _) rfl hn (P := a ++ .line l1 :: b) (l1 := .line l1) (by simp) h1 h2 r
  simpa only [loadAlarm, e1, e2, bind, Except.bind] using this

theorem loadZones_line (L : Lib) (l : ContentLine) (P R : List Item) (av : List (Str × Nat)) :
    loadZones L (P ++ .line l :: R) av = loadZones L (P ++ R) av := by
  induction P generalizing av with
  | nil => rfl
  | cons i is ih =>
    cases i with
    | line l' => exact ih av
    | cont n xs =>
      simp only [List.cons_append, loadZones, ih]

theorem loadZones_cont (L : Lib) {n : Str} (hn : n ≠ "VTIMEZONE".toList) (xs : List Item) (P R : List Item)
    (av : List (Str × Nat)) : loadZones L (P ++ .cont n xs :: R) av = loadZones L (P ++ R) av := by
  induction P generalizing av with
  | nil => exact if_neg hn
  | cons i is ih =>
    cases i with
    | line l' => exact ih av
    | cont n xs =>
      simp only [List.cons_append, loadZones, ih]

/-- The same for the properties of a calendar. -/
theorem C39_calendar (L : Lib) (n : String) (hn : n ∈ singleNames .calendar) (a b r : List Item) (l1 l2 : ContentLine)
    (h1 : l1.name = n.toList) (h2 : l2.name = n.toList) :
    ∃ e, loadCalendar L (a ++ .line l1 :: b ++ .line l2 :: r) = .error e ∧
      (e = .valueError ∨ loadCalendar L (a ++ .line l1 :: b ++ r) = .error e) := by
  simp only [loadCalendar, loadZones_line L l2]
  cases hz : loadZones L (a ++ .line l1 :: b ++ r) [] with
  | error e => exact ⟨e, rfl, Or.inr rfl⟩
  | ok zones =>
    obtain ⟨e, h, he⟩ := load_duplicate (loadCalMember_stable L) (ctx := some zones) rfl hn
      (P := a ++ .line l1 :: b) (l1 := .line l1) (by simp) h1 h2 r
    refine ⟨e, by simp only [h, bind, Except.bind], he.imp_right fun he => ?_⟩
    simp only [he, bind, Except.bind]

/-- An event with a repeated line inside a calendar: the calendar cannot be loaded either.  The error is
a `ValueError`, unless the calendar already fails without that line. -/
theorem C39_inside (L : Lib) (c : Cls) (hc : c = .event ∨ c = .todo) (n : String) (hn : n ∈ singleNames c)
    (a b r : List Item) (l1 l2 : ContentLine) (h1 : l1.name = n.toList) (h2 : l2.name = n.toList) (A B : List Item) :
    ∃ e, loadCalendar L (A ++ .cont c.icsName (a ++ .line l1 :: b ++ .line l2 :: r) :: B) = .error e ∧
      (e = .valueError ∨ loadCalendar L (A ++ .cont c.icsName (a ++ .line l1 :: b ++ r) :: B) = .error e) := by
  have hv : c.icsName ≠ "VTIMEZONE".toList := by rcases hc with rfl | rfl <;> decide
  simp only [loadCalendar, loadZones_cont L hv]
  cases hz : loadZones L (A ++ B) [] with
  | error e => exact ⟨e, rfl, Or.inr rfl⟩
  | ok zones =>
    obtain ⟨at_, hcv⟩ : ∃ at_, Conv.member at_ c.icsName ∈ Cls.calendar.convs := by
      rcases hc with rfl | rfl
      · exact ⟨"events".toList, by decide⟩
      · exact ⟨"todos".toList, by decide⟩
    have hmem : ∀ xs, loadCalMember L c.icsName xs (some zones) = loadEntry L c xs (some zones) := by
      intro xs
      rcases hc with rfl | rfl <;> rfl
    obtain ⟨e, h, he⟩ := C39_entry L c n hn a b r l1 l2 h1 h2 zones
    rw [← hmem] at h
    rcases load_bad_member (loadCalMember_stable L) rfl hcv (A := A) h B with k | ⟨e', k, k'⟩
    · refine ⟨e, by simp only [k, bind, Except.bind], ?_⟩
      rcases he with he | he
      · exact Or.inl he
      · rw [← hmem] at he
        rcases load_bad_member (loadCalMember_stable L) rfl hcv (A := A) he B with q | ⟨e', q, q'⟩
        · exact Or.inr (by simp only [q, bind, Except.bind])
        · rw [q' _] at k
          cases k
          exact Or.inr (by simp only [q, bind, Except.bind])
    · exact ⟨e', by simp only [k, bind, Except.bind], Or.inr (by simp only [k' _, bind, Except.bind])⟩

theorem loadZones_lines (L : Lib) (ls : List ContentLine) (P : List Item) (av : List (Str × Nat)) :
    loadZones L (P ++ ls.map .line) av = loadZones L P av := by
  induction ls with
  | nil => simp
  | cons l ls ih => rw [List.map_cons, loadZones_line, ih]

/-- A calendar text without VERSION or without PRODID cannot be loaded.  The error is a `ValueError`,
unless there is another error that no lines added at the end can avoid. -/
theorem C39_required (L : Lib) (n : String) (hn : n = "VERSION" ∨ n = "PRODID") (items : List Item)
    (h : named n items = []) :
    ∃ e, loadCalendar L items = .error e ∧
      (e = .valueError ∨ ∀ lines : List ContentLine, loadCalendar L (items ++ lines.map .line) = .error e) := by
  simp only [loadCalendar, loadZones_lines]
  cases hz : loadZones L items [] with
  | error e => exact ⟨e, rfl, Or.inr fun _ => rfl⟩
  | ok zones =>
    have hi : ∀ i ∈ items, i.name ≠ n.toList := by
      unfold named at h
      rw [List.filter_eq_nil_iff] at h
      intro i hi
      simpa using h i hi
    obtain ⟨s, hr, hs, hsn⟩ : ∃ s : AttrSpec, s.required = true ∧ .value s ∈ Cls.calendar.convs ∧ s.ics = n.toList := by
      rcases hn with rfl | rfl
      · exact ⟨⟨"version".toList, "VERSION".toList, false, true, [.text], .str⟩, rfl, by decide, rfl⟩
      · exact ⟨⟨"prodid".toList, "PRODID".toList, false, true, [.text], .str⟩, rfl, by decide, rfl⟩
    obtain ⟨e, h, he⟩ := load_required (loadCalMember_stable L) (ctx := some zones) rfl hr hs (by decide)
      (hsn ▸ hi)
    refine ⟨e, by simp only [h, bind, Except.bind], he.imp_right fun he lines => ?_⟩
    simp only [he, bind, Except.bind]

/-! ### Examples -/

/-- The event of the examples with its SUMMARY repeated at the end; without that line it can be loaded. -/
example : loadEntry exLib .event (exEvent ++ [exLine "SUMMARY" "Other"]) (some []) = .error .valueError ∧
    (loadEntry exLib .event exEvent (some [])).toOption.isSome := by
  have k : (loadEntry exLib .event exEvent (some [])).toOption.isSome := by decide +kernel
  refine ⟨?_, k⟩
  cases h : loadEntry exLib .event exEvent (some []) with
  | error e =>
    rw [h] at k
    cases k
  | ok o =>
    exact C39_entry_repeated exLib .event "SUMMARY" (by decide) [exLine "X-A" "1"] (exEvent.drop 2) []
      ⟨"SUMMARY".toList, [], "Party".toList⟩ ⟨"SUMMARY".toList, [], "Other".toList⟩ rfl rfl [] o
      (by rw [← h, List.append_nil]; rfl)

example : loadCalendar exLib [exLine "PRODID" "me"] = .error .valueError := by decide +kernel

/-- Another error comes first: a component called SUMMARY is an `AssertionError`. -/
example : loadEntry exLib .event [.cont "SUMMARY".toList [], exLine "UID" "1", exLine "UID" "1"] (some []) =
    .error .assertionError := by decide +kernel

end Ics
