import Verif.Proofs.AcceptedSpan

/-
Components that were read can be written.
-/
namespace Ics

variable {σ : Type}

theorem load_reading {L : Lib} {mem : MemberLoad σ} (hm : MemStable L mem) {c : Cls} {items : List Item} {ctx ctx1 : Ctx}
    (hc : ctx.isSome) {o : Obj σ} (h : loadObj L mem c items ctx = .ok (o, ctx1)) :
    ∃ rd : Reading σ, coreLoad L rd c items = .ok o := by
  obtain ⟨rd, hrd⟩ := exists_reading hm (L.toWorld.resolve ctx)
  have k := loadObj_core hrd c items hc rfl
  unfold Outcome at k
  cases ho : coreLoad L rd c items with
  | error e =>
    rw [ho] at k
    rw [k] at h
    cases h
  | ok o' =>
    rw [ho] at k
    obtain ⟨ctx', k, _⟩ := k
    rw [k] at h
    cases h
    exact ⟨rd, ho⟩

theorem foldMember_params {L : Lib} {rd : Reading σ} {x n : Str} {items : List Item} {a b : Core σ}
    (h : foldConv L rd (.member x n) items a = .ok b) : b.obj.extraParams = a.obj.extraParams := by
  induction items generalizing a with
  | nil =>
    cases h
    rfl
  | cons i is ih =>
    simp only [foldConv, bind_ok_iff] at h
    obtain ⟨a1, h1, h2⟩ := h
    rw [ih h2]
    simp only [coreConv, bind_ok_iff] at h1
    obtain ⟨_, hp, d, _, h1⟩ := h1
    cases i with
    | line cl => cases hp
    | cont m is' =>
      cases d with
      | member m =>
        simp only [storeConv, map_ok_iff] at h1
        obtain ⟨o, h1, rfl⟩ := h1
        unfold Obj.appendValue at h1
        split at h1 <;> cases h1 <;> rfl
      | _ => cases h1

theorem foldAction_params {L : Lib} {rd : Reading σ} {items : List Item} {a b : Core σ}
    (h : foldConv L rd .alarmAction items a = .ok b) (ha : RepParams [] (dictGet? a.obj.extraParams "ACTION".toList)) :
    RepParams [] (dictGet? b.obj.extraParams "ACTION".toList) := by
  induction items generalizing a with
  | nil =>
    cases h
    exact ha
  | cons i is ih =>
    simp only [foldConv, bind_ok_iff] at h
    obtain ⟨a1, h1, h2⟩ := h
    refine ih h2 ?_
    simp only [coreConv, bind_ok_iff] at h1
    obtain ⟨_, hp, d, _, h1⟩ := h1
    cases i with
    | cont m is' => cases hp
    | line cl =>
      cases d with
      | unit =>
        simp only [storeConv, storeAction] at h1
        split at h1
        · cases h1
        · split at h1
          · cases h1
            exact ha
          · rename_i hne
            cases h1
            rw [dictGet_set]
            exact ⟨hne, nofun⟩
      | _ => cases h1

/-- A component that was read can be written. -/
theorem obj_rep {L : Lib} (hU : UtcOk L) (hW : WholeOffsets L) {mem : MemberLoad σ} (hmem : MemStable L mem) {c : Cls}
    {items : List Item} {zones zs : List (Str × Nat)} {o : Obj σ} {ctx1 : Ctx} {M : σ → Prop} {M' : Str → σ → Prop}
    (h : loadObj L mem c items (some zones) = .ok (o, ctx1)) (hl : SafeLines items) (ho : SafeObj L zs M o)
    (hc : c ≠ .customAlarm)
    (hstamp : ∀ s, .value s ∈ c.convs → s.attr = "dtstamp".toList →
      ∃ cl, .line cl ∈ items ∧ cl.name = "DTSTAMP".toList)
    (he : .timespan ∈ c.convs → ∀ cl, .line cl ∈ items → cl.name = "DTEND".toList ∨ cl.name = "DUE".toList ∧ c ≠ .todo →
      ∀ k ∈ cl.params.map Prod.fst, k = "VALUE".toList ∨ k = "TZID".toList)
    (hM : ∀ a n, .member a n ∈ c.convs → ∀ is m ctx', .cont n is ∈ items → mem n is (some zones) = .ok (m, ctx') →
      M m → M' a m) : RepObj L zs M' o := by
  obtain ⟨f1, f2, f3⟩ := loadObj_frame h
  obtain ⟨rd, hrd⟩ := load_reading hmem rfl h
  have f1 : o.cls = c := f1
  refine ⟨f1 ▸ hc, ?_, ?_, ?_, ?_, ?_, ?_, ?_⟩
  · rw [f1]
    exact f2
  · intro i hi
    rw [f3] at hi
    rw [f1]
    exact (List.mem_filter.1 hi).2
  · intro s hs hm
    rw [f1] at hs
    exact single_rep hU hW hmem h hl ho hs hm (hstamp s hs)
  · intro s hs hm
    rw [f1] at hs
    exact multi_rep hmem h hl ho hs hm
  · intro a n hcv
    rw [f1] at hcv
    constructor
    · obtain ⟨b, hb, _, hp, _⟩ := coreLoad_agree hrd hcv
      rw [show dictGet? o.extraParams (upper a) = _ from hp _ (List.mem_singleton_self _), foldMember_params hb]
      rfl
    · obtain ⟨ms, hg, hf⟩ := load_member hmem rfl h hcv
      refine ⟨ms, hg, fun m hm => ?_⟩
      obtain ⟨i, hi, is, ctx', rfl, hload⟩ := forall₂_mem hf m hm
      exact hM a n hcv is m ctx' (List.mem_filter.1 hi).1 hload (ho.many a _ hg (.comp m) (List.mem_map_of_mem hm))
  · intro ht
    rw [f1] at ht
    exact span_rep hmem h hl ho (he ht) ht
  · intro ha
    rw [f1] at ha
    obtain ⟨b, hb, _, hp, _⟩ := coreLoad_agree hrd ha
    rw [hp _ (List.mem_singleton_self _)]
    exact foldAction_params hb trivial

theorem no_stamp {c : Cls} (h : c ≠ .event ∧ c ≠ .todo) : ∀ s, .value s ∈ c.convs → s.attr ≠ "dtstamp".toList := by
  intro s hs
  have : ∀ cv ∈ c.convs, ∀ s, cv = .value s → s.attr ≠ "dtstamp".toList := by
    cases c
    case event => exact absurd rfl h.1
    case todo => exact absurd rfl h.2
    all_goals simp [Cls.convs, alarmConvs, attr1, attrN]
  exact this _ hs s rfl

theorem no_span {c : Cls} (h : c ≠ .event ∧ c ≠ .todo) : .timespan ∉ c.convs := fun hc => by
  rcases span_cls hc with e | e
  · exact h.1 e
  · exact h.2 e

theorem alarmCls_standard {v : Str} (h : String.ofList v ∈ ["DISPLAY", "AUDIO", "NONE", "EMAIL"]) :
    alarmCls v ∈ [Cls.audioAlarm, .displayAlarm, .emailAlarm, .noneAlarm] := by
  have hv : v = (String.ofList v).toList := by rw [String.toList_ofList]
  simp only [List.mem_cons, List.not_mem_nil, or_false] at h
  rcases h with h | h | h | h <;> rw [h] at hv <;> rw [hv] <;> decide

/-- An alarm that was read can be written. -/
theorem alarm_rep {L : Lib} (hU : UtcOk L) (hW : WholeOffsets L) {items : List Item} {zones zs : List (Str × Nat)}
    {o : Alarm} {ctx1 : Ctx} (h : loadAlarm L items (some zones) = .ok (o, ctx1)) (hl : SafeAlarmItems items)
    (ho : SafeAlarm L zs o) : RepAlarm L zs o := by
  simp only [loadAlarm, bind_ok_iff] at h
  obtain ⟨i, hi, h⟩ := h
  cases i with
  | cont n is => cases h
  | line cl =>
    have hcl : Item.line cl ∈ items ∧ cl.name = "ACTION".toList := by
      unfold oneItem at hi
      split at hi
      · rename_i e
        cases hi
        have : Item.line cl ∈ items.filter fun i => i.name = "ACTION".toList := e ▸ List.mem_singleton_self _
        exact ⟨(List.mem_filter.1 this).1, of_decide_eq_true (List.mem_filter.1 this).2⟩
      · cases hi
    have hstd := alarmCls_standard (hl.action cl hcl.1 hcl.2)
    have hne : alarmCls cl.value ≠ .event ∧ alarmCls cl.value ≠ .todo ∧ alarmCls cl.value ≠ .customAlarm ∧
        ∀ a n, Conv.member a n ∉ (alarmCls cl.value).convs := by
      revert hstd
      generalize alarmCls cl.value = c
      intro hstd
      simp only [List.mem_cons, List.not_mem_nil, or_false] at hstd
      rcases hstd with rfl | rfl | rfl | rfl <;>
        exact ⟨nofun, nofun, nofun, by simp [Cls.convs, alarmConvs, attr1, attrN]⟩
    have hmem : MemStable L (fun (_ : Str) (_ : List Item) (_ : Ctx) => (.error .notImplementedError : Except PyErr (Empty × Ctx))) :=
      fun _ _ => Stable.error _ _
    refine ⟨?_, obj_rep hU hW hmem h hl.toSafeLines ho hne.2.2.1
      (fun s hs e => absurd e (no_stamp ⟨hne.1, hne.2.1⟩ s hs))
      (fun hc => absurd hc (no_span ⟨hne.1, hne.2.1⟩)) fun a n hcv => absurd hcv (hne.2.2.2 a n)⟩
    rw [show o.cls = _ from (loadObj_frame h).1]
    exact hstd

theorem entry_members {c : Cls} (hc : c = .event ∨ c = .todo) {a n : Str} (h : .member a n ∈ c.convs) :
    n = "VALARM".toList := by
  rcases hc with rfl | rfl <;> revert h <;> simp [Cls.convs, entryConvs, attr1, attrN]

/-- An event or a todo that was read can be written. -/
theorem entry_rep {L : Lib} (hU : UtcOk L) (hW : WholeOffsets L) {c : Cls} (hc : c = .event ∨ c = .todo)
    {items : List Item} {zones zs : List (Str × Nat)} {o : EntryObj} {ctx1 : Ctx}
    (h : loadEntry L c items (some zones) = .ok (o, ctx1)) (hl : SafeEntryItems c items) (ho : SafeEntry L zs o) :
    RepEntry L zs o := by
  have hmem : MemStable L (fun (_ : Str) (items : List Item) (ctx : Ctx) => loadAlarm L items ctx) :=
    fun _ items => loadAlarm_stable L items
  refine ⟨?_, obj_rep hU hW hmem h hl.toSafeLines ho (by rcases hc with rfl | rfl <;> nofun) (fun _ _ _ => hl.stamp)
    (fun _ cl hcl e => hl.endParams cl hcl ?_) fun a n hcv is m ctx' hi hload hm => ?_⟩
  · rw [show o.cls = _ from (loadObj_frame h).1]
    exact hc
  · rcases e with e | ⟨e, ne⟩
    · exact .inl e
    · exact .inr ⟨e, hc.resolve_right ne⟩
  · obtain rfl := entry_members hc hcv
    exact alarm_rep hU hW hload (hl.alarms is hi) hm

theorem calendar_members {a n : Str} (h : .member a n ∈ Cls.calendar.convs) :
    (a = "events".toList ∧ n = "VEVENT".toList) ∨ (a = "todos".toList ∧ n = "VTODO".toList) := by
  revert h
  simp [Cls.convs, attr1]

/-- A calendar that was read can be written. -/
theorem calendar_rep {L : Lib} (hU : UtcOk L) (hW : WholeOffsets L) {items : List Item} {zs : List (Str × Nat)}
    {o : CalObj} (h : loadCalendar L items = .ok o) (hl : SafeCalendarItems items) (ho : SafeCalendar L zs o) :
    RepCalendar L zs o := by
  simp only [loadCalendar, bind_ok_iff] at h
  obtain ⟨avail, _, ⟨o', ctx1⟩, h, e⟩ := h
  cases e
  refine ⟨(loadObj_frame h).1, obj_rep hU hW (loadCalMember_stable L) h hl.toSafeLines ho nofun
    (fun s hs e => absurd e (no_stamp (c := .calendar) ⟨nofun, nofun⟩ s hs)) (fun hc => absurd hc (no_span (c := .calendar) ⟨nofun, nofun⟩))
    fun a n hcv is m ctx' hi hload hm => ?_⟩
  rcases calendar_members hcv with ⟨rfl, rfl⟩ | ⟨rfl, rfl⟩
  · rw [if_pos rfl]
    exact ⟨entry_rep hU hW (.inl rfl) hload (hl.events is hi) hm, (loadObj_frame hload).1⟩
  · rw [if_neg (by decide)]
    exact ⟨entry_rep hU hW (.inr rfl) hload (hl.todos is hi) hm, (loadObj_frame hload).1⟩

end Ics
