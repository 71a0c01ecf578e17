import Verif.Proofs.Params

/-
C42: parameters of handled properties are written back.
-/
namespace Ics

variable {σ : Type}

/-- The converter of each name. -/
theorem handled_conv {c : Cls} (hc : c ≠ .customAlarm) {n : String} (hn : n ∈ handledNames c)
    (hn' : n ∉ ["VALARM", "VEVENT", "VTODO", "VTIMEZONE"]) :
    (∃ s, .value s ∈ c.convs ∧ s.ics = n.toList ∧ (n ∉ dateNames → .datetime ∉ s.convs)) ∨
      (.timespan ∈ c.convs ∧ n ∈ ["DTSTART", "DTEND", "DUE", "DURATION"]) ∨ (.alarmAction ∈ c.convs ∧ n = "ACTION") := by
  have key : c.convs.any (fun cv => match cv with
      | .value s => decide (s.ics = n.toList ∧ (n ∉ dateNames → .datetime ∉ s.convs))
      | .timespan => decide (n ∈ ["DTSTART", "DTEND", "DUE", "DURATION"])
      | .alarmAction => decide (n = "ACTION")
      | _ => false) = true := by
    revert n
    cases c
    case customAlarm => exact absurd rfl hc
    all_goals decide
  obtain ⟨cv, hcv, h⟩ := List.any_eq_true.1 key
  cases cv with
  | value s =>
    obtain ⟨h1, h2⟩ := of_decide_eq_true h
    exact Or.inl ⟨s, hcv, h1, h2⟩
  | timespan => exact Or.inr (Or.inl ⟨hcv, of_decide_eq_true h⟩)
  | alarmAction => exact Or.inr (Or.inr ⟨hcv, of_decide_eq_true h⟩)
  | member a n => cases h
  | calendarTimezone => cases h

theorem named_timespan {n : String} (hn : n ∈ ["DTSTART", "DTEND", "DUE", "DURATION"]) (l : List Item) :
    named n l = named n (Conv.own .timespan l) := by
  unfold named Conv.own
  rw [List.filter_filter]
  refine List.filter_congr fun i _ => ?_
  by_cases e : i.name = n.toList
  · have : n.toList ∈ Conv.timespan.names := List.mem_map_of_mem (f := String.toList) hn
    simp only [e, this, decide_true, Bool.true_and]
  · simp only [e, decide_false, Bool.false_and]

theorem named_line {n : String} {cl : ContentLine} (h : cl.name = n.toList) : named n [.line cl] = [.line cl] := by
  unfold named
  rw [List.filter_cons, if_pos (by exact decide_eq_true h)]
  rfl

theorem named_not {n : String} {cl : ContentLine} (h : cl.name ≠ n.toList) : named n [.line cl] = [] := by
  unfold named
  rw [List.filter_cons, if_neg (by exact fun e => h (of_decide_eq_true e))]
  rfl

theorem named_append (n : String) (a b : List Item) : named n (a ++ b) = named n a ++ named n b :=
  List.filter_append ..

theorem spanValue_params {L : Lib} {s : Span} {d : DT} {p p' : Params} {ctx ctx' : Ctx} {t : Str}
    (h : dumpSpanValue L s d (spanParams s p) ctx = .ok (t, p', ctx')) {k : Str} (hk : k ≠ "VALUE".toList)
    (hk' : k ≠ "TZID".toList) : dictGet? p' k = dictGet? p k := by
  have e : dictGet? (spanParams s p) k = dictGet? p k := by
    unfold spanParams
    split
    · exact dictGet_set_ne _ _ hk
    · rfl
  rw [← e]
  unfold dumpSpanValue at h
  split at h
  · cases h
    rfl
  · exact serializeDt_params h hk'

/-- The line for the begin of a span, if there is one. -/
theorem spanBegin_line {L : Lib} {o : Obj σ} {s : Span} {st st' : DState} {l : List Item}
    (h : dumpSpanBegin L o s st = .ok (l, st')) :
    (s.begin? = none ∧ l = []) ∨ (s.begin?.isSome ∧ ∃ p cl, l = [.line cl] ∧ cl.name = "DTSTART".toList ∧
      o.extraParamsOf "begin".toList = .ok p ∧
      ∀ k, k ≠ "VALUE".toList → k ≠ "TZID".toList → dictGet? cl.params k = dictGet? p k) := by
  unfold dumpSpanBegin at h
  split at h
  · rename_i e
    exact Or.inl ⟨e, (congrArg Prod.fst (Except.ok.inj h)).symm⟩
  · rename_i b e
    split at h
    · cases h
    · simp only [bind_ok_iff] at h
      obtain ⟨p, hp, ⟨t, p', ctx⟩, hv, h⟩ := h
      exact Or.inr ⟨by rw [e]; rfl, p, _, (congrArg Prod.fst (Except.ok.inj h)).symm, spanNames_upper.1, hp,
        fun k h1 h2 => spanValue_params hv h1 h2⟩

/-- The line for the end of a span, if there is one. -/
theorem spanEnd_line {L : Lib} {o : Obj σ} {s : Span} {st st' : DState} {l : List Item}
    (h : dumpSpanEnd L o s st = .ok (l, st')) :
    (s.dur? = none ∧ s.end? = none ∧ l = []) ∨
    (s.dur?.isSome ∧ ∃ cl, l = [.line cl] ∧ cl.name = "DURATION".toList ∧
      o.extraParamsOf "duration".toList = .ok cl.params) ∨
    (s.dur? = none ∧ s.end?.isSome ∧ ∃ p cl, l = [.line cl] ∧ cl.name = s.cls.endLine ∧
      o.extraParamsOf s.cls.endLine = .ok p ∧
      ∀ k, k ≠ "VALUE".toList → k ≠ "TZID".toList → dictGet? cl.params k = dictGet? p k) := by
  unfold dumpSpanEnd at h
  split at h
  · rename_i d e
    simp only [bind_ok_iff] at h
    obtain ⟨p, hp, h⟩ := h
    exact Or.inr (Or.inl ⟨by rw [e]; rfl, _, (congrArg Prod.fst (Except.ok.inj h)).symm, spanNames_upper.2.1, hp⟩)
  · rename_i en e1 e2
    simp only [bind_ok_iff] at h
    obtain ⟨p, hp, ⟨t, p', ctx⟩, hv, h⟩ := h
    refine Or.inr (Or.inr ⟨e1, by rw [e2]; rfl, p, _, (congrArg Prod.fst (Except.ok.inj h)).symm, ?_, hp,
      fun k h1 h2 => spanValue_params hv h1 h2⟩)
    show upper s.cls.endLine = _
    unfold SpanCls.endLine
    split
    · exact (by decide : upper "DTEND".toList = "DTEND".toList)
    · exact (by decide : upper "DUE".toList = "DUE".toList)
  · rename_i e1 e2
    exact Or.inl ⟨e1, e2, (congrArg Prod.fst (Except.ok.inj h)).symm⟩

theorem endLine_cases (c : SpanCls) : c.endLine = "DTEND".toList ∨ c.endLine = "DUE".toList := by
  cases c <;> decide

/-- The lines of a timespan. -/
theorem span_params {L : Lib} {mem : MemberLoad σ} (hmem : MemStable L mem) {c : Cls} {items : List Item}
    {zones : List (Str × Nat)} {o : Obj σ} {ctx1 : Ctx} (h : loadObj L mem c items (some zones) = .ok (o, ctx1))
    (hc : .timespan ∈ c.convs) {n : String} (hn : n ∈ ["DTSTART", "DTEND", "DUE", "DURATION"]) (hnd : n ≠ "DTEND")
    (hdue : n = "DUE" → c = .todo) (hne : named n items ≠ []) {st st' : DState} {l : List Item}
    (hd : dumpSpan L o st = .ok (l, st')) : List.Forall₂ (ParamsKept n) (named n items) (named n l) := by
  have hnn : n.toList ∈ Conv.timespan.names := List.mem_map_of_mem (f := String.toList) hn
  obtain ⟨i, hi⟩ := List.exists_mem_of_ne_nil _ hne
  obtain ⟨hi, hin⟩ := List.mem_filter.1 hi
  have hin : i.name = n.toList := of_decide_eq_true hin
  obtain ⟨cl, rfl⟩ : ∃ cl, i = .line cl := by
    obtain ⟨rd, b, hrd, hb, _⟩ := load_span hmem h hc
    have hm : i ∈ Conv.own .timespan items := List.mem_filter.2 ⟨hi, decide_eq_true (hin ▸ hnn)⟩
    obtain ⟨pre, post, e⟩ := List.append_of_mem hm
    rw [e, foldConv_append] at hb
    obtain ⟨a1, _, hb⟩ := hb
    simp only [foldConv, bind_ok_iff] at hb
    obtain ⟨a2, hb, _⟩ := hb
    exact spanItem_line hb
  have hcn : cl.name = n.toList := hin
  obtain ⟨sp, hget, hcls, hfil, hb, hdur, hend, hpar⟩ := load_span_line hmem h hc hi (hcn ▸ hnn)
  have hnamed : named n items = [.line cl] := by
    unfold named
    rw [← hcn]
    exact hfil
  rw [hnamed]
  unfold dumpSpan at hd
  rw [hget] at hd
  simp only [bind_ok_iff] at hd
  obtain ⟨⟨a, st1⟩, h1, ⟨b, st2⟩, h2, hd⟩ := hd
  have e : l = a ++ b := (congrArg Prod.fst (Except.ok.inj hd)).symm
  rw [e, named_append]
  have k1 := spanBegin_line h1
  have k2 := spanEnd_line h2
  rw [hcn] at hpar hb hdur hend
  simp only [List.mem_cons, List.not_mem_nil, or_false] at hn
  rcases hn with rfl | rfl | rfl | rfl
  · rcases k1 with ⟨e1, _⟩ | ⟨_, p, cl', e1, e2, e3, e4⟩
    · have := hb rfl
      rw [e1] at this
      cases this
    · have hb0 : named "DTSTART" b = [] := by
        rcases k2 with ⟨_, _, rfl⟩ | ⟨_, cl2, rfl, e5, _⟩ | ⟨_, _, p2, cl2, rfl, e5, _⟩
        · rfl
        · exact named_not (by rw [e5]; decide)
        · refine named_not ?_
          rw [e5]
          rcases endLine_cases sp.cls with e | e <;> rw [e] <;> decide
      rw [e1, hb0, named_line e2, List.append_nil]
      refine .cons ⟨cl, cl', rfl, rfl, fun k hk => ?_⟩ .nil
      have hk1 : k ≠ "VALUE".toList := fun e => hk (Or.inl e)
      have hk2 : k ≠ "TZID".toList := fun e => hk (Or.inr ⟨e, by decide⟩)
      rw [e4 k hk1 hk2]
      have e3' : o.extraParamsOf (spanKey "DTSTART".toList) = .ok p := e3
      rw [hpar, if_neg (by decide)] at e3'
      rw [← Except.ok.inj e3', dictGet_erase_ne _ hk2, dictGet_erase_ne _ hk1]
  · exact absurd rfl hnd
  · have hct := hdue rfl
    subst hct
    have ha0 : named "DUE" a = [] := by
      rcases k1 with ⟨_, rfl⟩ | ⟨_, p, cl', rfl, e2, _⟩
      · rfl
      · exact named_not (by rw [e2]; decide)
    obtain ⟨h3, h4⟩ := hend rfl
    rcases k2 with ⟨_, e1, _⟩ | ⟨e1, _⟩ | ⟨_, _, p, cl', rfl, e5, e6, e7⟩
    · rw [e1] at h3
      cases h3
    · rw [h4] at e1
      cases e1
    · rw [hcls] at e5 e6
      rw [ha0, named_line e5, List.nil_append]
      refine .cons ⟨cl, cl', rfl, rfl, fun k hk => ?_⟩ .nil
      have hk1 : k ≠ "VALUE".toList := fun e => hk (Or.inl e)
      have hk2 : k ≠ "TZID".toList := fun e => hk (Or.inr ⟨e, by decide⟩)
      rw [e7 k hk1 hk2]
      have e3' : o.extraParamsOf (spanKey "DUE".toList) = .ok p := by
        have : o.extraParamsOf (spanKey "DUE".toList) = o.extraParamsOf Cls.todo.spanCls.endLine := by
          unfold Obj.extraParamsOf
          rw [show extraKey (spanKey "DUE".toList) = extraKey Cls.todo.spanCls.endLine by decide]
        rw [this]
        exact e6
      rw [hpar, if_neg (by decide)] at e3'
      rw [← Except.ok.inj e3', dictGet_erase_ne _ hk2, dictGet_erase_ne _ hk1]
  · have ha0 : named "DURATION" a = [] := by
      rcases k1 with ⟨_, rfl⟩ | ⟨_, p, cl', rfl, e2, _⟩
      · rfl
      · exact named_not (by rw [e2]; decide)
    have h3 := hdur rfl
    rcases k2 with ⟨e1, _⟩ | ⟨_, cl', rfl, e5, e6⟩ | ⟨e1, _⟩
    · rw [e1] at h3
      cases h3
    · rw [ha0, named_line e5, List.nil_append]
      refine .cons ⟨cl, cl', rfl, rfl, fun k hk => ?_⟩ .nil
      have e3' : o.extraParamsOf (spanKey "DURATION".toList) = .ok cl'.params := e6
      rw [hpar, if_pos (by rfl)] at e3'
      rw [Except.ok.inj e3']
    · rw [e1] at h3
      cases h3

/-- The ACTION line of an alarm. -/
theorem action_params {L : Lib} {mem : MemberLoad σ} (hmem : MemStable L mem) {c : Cls} {items : List Item}
    {zones : List (Str × Nat)} {o : Obj σ} {ctx1 : Ctx} (h : loadObj L mem c items (some zones) = .ok (o, ctx1))
    (hc : .alarmAction ∈ c.convs) {cl : ContentLine} (hown : Conv.own .alarmAction items = [.line cl])
    {st st' : DState} {l : List Item} (hd : dumpAction o st = .ok (l, st')) :
    ∃ cl', l = [.line cl'] ∧ cl'.params = cl.params := by
  obtain ⟨rd, hrd⟩ := exists_reading hmem (L.toWorld.resolve (some zones))
  have k := loadObj_core hrd c items (ctx := some zones) rfl rfl
  unfold Outcome at k
  cases ho : coreLoad L rd c items with
  | error e =>
    rw [ho] at k
    rw [k] at h
    cases h
  | ok o' =>
    rw [ho] at k
    obtain ⟨ctx', k, _⟩ := k
    rw [k] at h
    cases h
    obtain ⟨b, hb, _, h2, _⟩ := coreLoad_agree ho hc
    have hp := h2 "ACTION".toList (List.mem_singleton_self _)
    rw [hown] at hb
    simp only [foldConv, coreConv, bind_ok_iff] at hb
    obtain ⟨a, ⟨_, _, d, hr, hst⟩, hb⟩ := hb
    cases hb
    have hst : storeAction cl (.new L c) = .ok b := by
      cases d with
      | unit => exact hst
      | _ => cases hst
    have hget : dictGet? o.extraParams "ACTION".toList = if cl.params = [] then none else some (.one cl.params) := by
      rw [hp]
      unfold storeAction at hst
      split at hst
      · cases hst
      · split at hst
        · rename_i e
          cases hst
          rw [if_pos e]
          rfl
        · rename_i e
          cases hst
          rw [if_neg e]
          exact dictGet_set _ _ _
    unfold dumpAction at hd
    split at hd
    · rename_i e1 e2
      refine ⟨_, (congrArg Prod.fst (Except.ok.inj hd)).symm, ?_⟩
      rw [e2] at hget
      split at hget
      · rename_i e
        exact e.symm
      · cases hget
    · rename_i e1 e2
      refine ⟨_, (congrArg Prod.fst (Except.ok.inj hd)).symm, ?_⟩
      rw [e2] at hget
      split at hget
      · cases hget
      · exact ExtraVal.one.inj (Option.some.inj hget)
    · cases hd

/-- All lines of a component. -/
theorem lines_kept {L : Lib} {mem : MemberLoad σ} (hmem : MemStable L mem) {c : Cls} (hc : c ≠ .customAlarm)
    {items : List Item} {zones : List (Str × Nat)} {o : Obj σ} {ctx1 : Ctx}
    (h : loadObj L mem c items (some zones) = .ok (o, ctx1)) (hg : ∀ cl, .line cl ∈ items → GoodParams cl.params)
    (hact : .alarmAction ∈ c.convs → ∃ cl, Conv.own .alarmAction items = [.line cl]) {memd : MemberDump σ}
    {items' : List Item} (hd : ∀ cv ∈ c.convs, cv ≠ .calendarTimezone →
      ∃ st1 st2, cv.dump L memd o st1 = .ok (cv.own items', st2)) : LinesKept c items items' := by
  intro n hn hn' hnd hdue hne
  rcases handled_conv hc hn hn' with ⟨s, hs, hics, hdate⟩ | ⟨ht, hn2⟩ | ⟨ha, rfl⟩
  · obtain ⟨st1, st2, hw⟩ := hd _ hs (by simp)
    rw [named_value hics] at hne ⊢
    rw [named_value hics items']
    cases hm : s.multi with
    | true =>
      simp only [Conv.dump, hm, if_true] at hw
      obtain ⟨cls, cls', e1, e2, hf⟩ := multi_params hmem h hg hs hm hw
      rw [e1, e2, List.forall₂_map_left_iff, List.forall₂_map_right_iff]
      exact hf.imp fun cl cl' hk => ⟨cl, cl', rfl, rfl, fun k hk' => hk k fun e => hk' (Or.inl e)⟩
    | false =>
      simp only [Conv.dump, hm, Bool.false_eq_true, if_false] at hw
      obtain ⟨cl, cl', e1, e2, hf⟩ := single_params hmem h hg hs hm hne hw
      rw [e1, e2]
      refine .cons ⟨cl, cl', rfl, rfl, fun k hk => hf k (fun e => hk (Or.inl e)) fun e => hdate fun h => ?_⟩ .nil
      exact hk (Or.inr ⟨e, h⟩)
  · obtain ⟨st1, st2, hw⟩ := hd _ ht (by simp)
    rw [named_timespan hn2 items']
    exact span_params hmem h ht hn2 hnd hdue hne hw
  · obtain ⟨st1, st2, hw⟩ := hd _ ha (by simp)
    obtain ⟨cl, hown⟩ := hact ha
    obtain ⟨cl', e1, e2⟩ := action_params hmem h ha hown hw
    have hnm : ∀ l, named "ACTION" l = Conv.own .alarmAction l := by
      intro l
      unfold named Conv.own
      congr 1
      funext i
      simp [Conv.names]
    rw [hnm, hnm, hown, e1]
    exact .cons ⟨cl, cl', rfl, rfl, fun k _ => by rw [e2]⟩ .nil

/-- Alarms: the parameters of every understood line are written back.  Missing: alarms with an unknown
action, which are written with two ACTION lines (see C52). -/
theorem C42_alarm_partial (L : Lib) (items : List Item) (zones : List (Str × Nat)) (a : Alarm) (ctx' : Ctx)
    (h : loadAlarm L items (some zones) = .ok (a, ctx')) (hc : a.cls ≠ .customAlarm)
    (hg : ∀ cl, .line cl ∈ items → GoodParams cl.params) (st st' : DState) (i : Item)
    (hd : dumpAlarm L a st = .ok (i, st')) :
    ∃ items', i = .cont "VALARM".toList items' ∧ LinesKept a.cls items items' := by
  obtain ⟨items', rfl, hown⟩ := alarm_dump_own h hc hd
  refine ⟨items', rfl, ?_⟩
  simp only [loadAlarm, bind_ok_iff] at h
  obtain ⟨i, hone, h⟩ := h
  cases i with
  | cont n is => cases h
  | line cl =>
    have e : a.cls = alarmCls cl.value := (loadObj_frame h).1
    rw [e] at hc hown ⊢
    refine lines_kept (fun _ _ => Stable.error _ _) hc h hg (fun _ => ⟨cl, ?_⟩) fun cv hcv _ => hown cv hcv
    unfold oneItem at hone
    split at hone
    · rename_i e1
      cases hone
      rw [← e1]
      unfold Conv.own
      congr 1
      funext i
      simp [Conv.names]
    · cases hone

/-- Two texts of an alarm with the same parameters on the lines that it understands. -/
def AlarmParamsKept (x y : Item) : Prop :=
  ∃ n is is', x = .cont n is ∧ y = .cont n is' ∧
    ∀ cl, named "ACTION" is = [.line cl] → alarmCls cl.value ≠ .customAlarm → LinesKept (alarmCls cl.value) is is'

/-- Events and todos: the parameters of every understood line are written back, in the component and in its
alarms.  Missing: DTEND (see `C42_dtend_fails`), and lines that the code drops (DUE in an event, which is
only accepted together with DTEND, see `C40_fails`). -/
theorem C42_entry_partial (L : Lib) (c : Cls) (hc : c = .event ∨ c = .todo) (items : List Item)
    (zones : List (Str × Nat)) (o : EntryObj) (ctx' : Ctx) (h : loadEntry L c items (some zones) = .ok (o, ctx'))
    (hg : ∀ cl, LineIn cl items → GoodParams cl.params) (st st' : DState) (i : Item)
    (hd : dumpEntry L o st = .ok (i, st')) :
    ∃ items', i = .cont c.icsName items' ∧ LinesKept c items items' ∧
      List.Forall₂ AlarmParamsKept (named "VALARM" items) (named "VALARM" items') := by
  have hms : MemStable L fun _ items ctx => loadAlarm L items ctx := fun _ items => loadAlarm_stable L items
  obtain ⟨items', rfl, hown⟩ := entry_dump_own hc h hd
  have hcu : c ≠ .customAlarm := by rcases hc with rfl | rfl <;> decide
  have hal : Conv.alarmAction ∉ c.convs := by rcases hc with rfl | rfl <;> decide
  have hm : Conv.member "alarms".toList "VALARM".toList ∈ c.convs := by rcases hc with rfl | rfl <;> decide
  refine ⟨items', rfl, lines_kept hms hcu h (fun cl hcl => hg cl (.here hcl)) (fun h => absurd h hal)
    fun cv hcv _ => hown cv hcv, ?_⟩
  obtain ⟨st1, st2, hw⟩ := hown _ hm
  obtain ⟨ms, hget, hf⟩ := load_member hms rfl h hm
  obtain ⟨ms', hget', hf'⟩ := dumpMember_forall hw
  rw [hget'] at hget
  obtain rfl := comp_injective hget
  have e : ∀ l, named "VALARM" l = Conv.own (.member "alarms".toList "VALARM".toList) l := fun l => named_own _ _ l
  rw [e items']
  have hf2 := (List.forall₂_and_left (p := fun x => x ∈ items) _ _).2 ⟨fun x hx => (List.mem_filter.1 hx).1,
    forall₂_comp hf hf'⟩
  refine hf2.imp ?_
  rintro x y ⟨hx, m, ⟨is, ctx2, rfl, hl⟩, s1, s2, hw⟩
  obtain ⟨ys, rfl, _⟩ := C38_alarm_roundtrip L is _ _ _ hl _ _ _ hw
  refine ⟨_, is, ys, rfl, rfl, fun cl hcl hcust => ?_⟩
  have hcls : m.cls = alarmCls cl.value := by
    simp only [loadAlarm, bind_ok_iff] at hl
    obtain ⟨i, hone, hl⟩ := hl
    unfold oneItem at hone
    unfold named at hcl
    rw [hcl] at hone
    cases hone
    exact (loadObj_frame hl).1
  obtain ⟨ys', e, hk⟩ := C42_alarm_partial L is zones m _ hl (hcls ▸ hcust)
    (fun cl hcl => hg cl (.inside hx (.here hcl))) _ _ _ hw
  cases e
  rw [← hcls]
  exact hk

/-- Two texts of an event or todo with the same parameters on the lines that it understands. -/
def EntryParamsKept (c : Cls) (x y : Item) : Prop :=
  ∃ is is', x = .cont c.icsName is ∧ y = .cont c.icsName is' ∧ LinesKept c is is' ∧
    List.Forall₂ AlarmParamsKept (named "VALARM" is) (named "VALARM" is')

/-- Whole calendars: the same for the calendar itself and for all that is inside. -/
theorem C42_calendar_partial (L : Lib) (hz : ∀ z i, L.tzDump z = .ok i → ∃ is, i = .cont "VTIMEZONE".toList is)
    (items : List Item) (o : CalObj) (h : loadCalendar L items = .ok o)
    (hg : ∀ cl, LineIn cl items → GoodParams cl.params) (i : Item) (hd : dumpCalendar L o = .ok i) :
    ∃ items', i = .cont "VCALENDAR".toList items' ∧ LinesKept .calendar items items' ∧
      List.Forall₂ (EntryParamsKept .event) (named "VEVENT" items) (named "VEVENT" items') ∧
      List.Forall₂ (EntryParamsKept .todo) (named "VTODO" items) (named "VTODO" items') := by
  simp only [loadCalendar, bind_ok_iff] at h
  obtain ⟨zones, _, ⟨o1, ctx1⟩, h, hh⟩ := h
  obtain rfl : o1 = o := by cases hh; rfl
  have k := loadObj_frame h
  have hms : MemStable L (loadCalMember L) := loadCalMember_stable L
  have hdn : DumpNamed (σ := EntryObj) Obj.extraName (dumpEntry L) := by
    intro m st i st' hmi
    obtain ⟨known, e⟩ := C38_write L (dumpAlarm L) m st st' i hmi
    exact ⟨_, e⟩
  have hmn : MembersNamed Obj.extraName o1 := by
    refine load_membersNamed hms rfl h ?_
    intro a n hcv is m ctx2 ha
    have e : n = "VEVENT".toList ∨ n = "VTODO".toList := by
      have : ∀ cv ∈ Cls.calendar.convs, ∀ a n, cv = .member a n → n = "VEVENT".toList ∨ n = "VTODO".toList := by
        simp [Cls.convs, attr1]
      exact this _ hcv a n rfl
    rcases e with rfl | rfl
    · rw [loadCalMember, if_neg (by decide)] at ha
      exact (loadObj_frame ha).2.1
    · rw [loadCalMember, if_pos rfl] at ha
      exact (loadObj_frame ha).2.1
  obtain ⟨known, rfl, hk, hown⟩ := dumpCalendar_parts hz hdn k.1 hmn hd
  have hown' : ∀ cv ∈ Cls.calendar.convs, cv ≠ .calendarTimezone →
      ∃ st1 st2, cv.dump L (dumpEntry L) o1 st1 = .ok (cv.own (known ++ o1.extra), st2) := by
    intro cv hcv hne
    rw [own_append, k.2.2, own_extra hcv hne, List.append_nil]
    exact hown cv hcv hne
  have mem : ∀ a n, Conv.member a n ∈ Cls.calendar.convs →
      List.Forall₂ (fun x y => x ∈ items ∧ ∃ m, (∃ is ctx', x = .cont n is ∧ loadCalMember L n is (some zones) = .ok (m, ctx')) ∧
        ∃ s1 s2, dumpEntry L m s1 = .ok (y, s2)) (items.filter fun i => i.name = n)
        ((known ++ o1.extra).filter fun i => i.name = n) := by
    intro a n hm
    obtain ⟨st1, st2, hw⟩ := hown' _ hm (by simp)
    obtain ⟨ms, hget, hf⟩ := load_member hms rfl h hm
    obtain ⟨ms', hget', hf'⟩ := dumpMember_forall hw
    rw [hget'] at hget
    obtain rfl := comp_injective hget
    rw [named_own a n (known ++ o1.extra)]
    exact (List.forall₂_and_left (p := fun x => x ∈ items) _ _).2 ⟨fun x hx => (List.mem_filter.1 hx).1,
      forall₂_comp hf hf'⟩
  refine ⟨known ++ o1.extra, by rw [k.2.1]; rfl, ?_, ?_, ?_⟩
  · exact lines_kept hms (by decide) h (fun cl hcl => hg cl (.here hcl)) (fun h => absurd h (by decide)) hown'
  · refine (mem "events".toList "VEVENT".toList (by decide)).imp ?_
    rintro x y ⟨hx, m, ⟨is, ctx2, rfl, hl⟩, s1, s2, hw⟩
    rw [loadCalMember, if_neg (by decide)] at hl
    obtain ⟨ys, rfl, h1, h2⟩ := C42_entry_partial L .event (Or.inl rfl) is zones m ctx2 hl
      (fun cl hcl => hg cl (.inside hx hcl)) s1 s2 _ hw
    exact ⟨is, ys, rfl, rfl, h1, h2⟩
  · refine (mem "todos".toList "VTODO".toList (by decide)).imp ?_
    rintro x y ⟨hx, m, ⟨is, ctx2, rfl, hl⟩, s1, s2, hw⟩
    rw [loadCalMember, if_pos rfl] at hl
    obtain ⟨ys, rfl, h1, h2⟩ := C42_entry_partial L .todo (Or.inr rfl) is zones m ctx2 hl
      (fun cl hcl => hg cl (.inside hx hcl)) s1 s2 _ hw
    exact ⟨is, ys, rfl, rfl, h1, h2⟩

/-- The parameters of DTEND are always lost: whatever event is read, the DTEND line that is written has at
most VALUE and TZID. -/
theorem C42_dtend_fails (L : Lib) (items : List Item) (zones : List (Str × Nat)) (o : EntryObj) (ctx' : Ctx)
    (h : loadEntry L .event items (some zones) = .ok (o, ctx')) (st st' : DState) (i : Item)
    (hd : dumpEntry L o st = .ok (i, st')) :
    ∃ items', i = .cont "VEVENT".toList items' ∧
      ∀ x ∈ named "DTEND" items', ∃ cl, x = .line cl ∧
        ∀ k, k ≠ "VALUE".toList → k ≠ "TZID".toList → dictGet? cl.params k = none := by
  have hms : MemStable L fun _ items ctx => loadAlarm L items ctx := fun _ items => loadAlarm_stable L items
  obtain ⟨items', rfl, hown⟩ := entry_dump_own (Or.inl rfl) h hd
  refine ⟨items', rfl, fun x hx => ?_⟩
  have hc : Conv.timespan ∈ Cls.event.convs := by decide
  obtain ⟨st1, st2, hw⟩ := hown _ hc
  rw [named_timespan (by decide)] at hx
  obtain ⟨hx1, hx2⟩ := List.mem_filter.1 hx
  have hx2 : x.name = "DTEND".toList := of_decide_eq_true hx2
  obtain ⟨rd, b, hrd, hb, hget, _, _, hpar⟩ := load_span hms h hc
  have hnone : dictGet? o.extraParams "DTEND".toList = none := by
    rw [hpar _ (by decide)]
    have hsr := spanReading hrd
    have hnames : ∀ i ∈ Conv.own .timespan items, i.name ∈ Conv.timespan.names := fun i hi =>
      of_decide_eq_true (List.mem_filter.1 hi).2
    have key : ∀ (l : List Item), (∀ i ∈ l, i.name ∈ Conv.timespan.names) → ∀ a b : Core Alarm,
        foldConv L rd .timespan l a = .ok b →
        dictGet? b.obj.extraParams "DTEND".toList = dictGet? a.obj.extraParams "DTEND".toList := by
      intro l
      induction l with
      | nil =>
        intro _ a b h
        cases h
        rfl
      | cons i is ih =>
        intro hn a b h
        simp only [foldConv, bind_ok_iff] at h
        obtain ⟨a1, h1, h2⟩ := h
        rw [ih (fun i hi => hn i (List.mem_cons_of_mem _ hi)) a1 b h2]
        obtain ⟨cl, rfl⟩ := spanItem_line h1
        have hcl : cl.name ∈ Conv.timespan.names := hn _ List.mem_cons_self
        rw [spanStep_iff hsr hcl] at h1
        have hne : extraKey (spanKey cl.name) ≠ "DTEND".toList := by
          simp only [Conv.names, List.map_cons, List.map_nil, List.mem_cons, List.not_mem_nil, or_false] at hcl
          rcases hcl with e | e | e | e <;> rw [e] <;> decide
        have h1 := h1.2
        split at h1
        · rename_i e
          obtain ⟨d, _, rfl⟩ := h1
          rw [e] at hne
          simp only [storeSpanDur, dictGet_setExtraParams_eq]
          rw [if_neg fun h => hne h.2.symm]
        · obtain ⟨v, prec, p, _, _, rfl⟩ := h1
          simp only [Core.timed, dictGet_setExtraParams_eq]
          rw [if_neg fun h => hne h.2.symm]
    rw [key _ hnames _ _ hb]
    rfl
  have hw : dumpSpan L o st1 = .ok (Conv.own .timespan items', st2) := hw
  unfold dumpSpan Obj.get at hw
  rw [hget] at hw
  simp only [Option.getD_some, bind_ok_iff] at hw
  obtain ⟨⟨a, st3⟩, h1, ⟨b', st4⟩, h2, hw⟩ := hw
  have e : Conv.own .timespan items' = a ++ b' := (congrArg Prod.fst (Except.ok.inj hw)).symm
  rw [e, List.mem_append] at hx1
  rcases hx1 with hx1 | hx1
  · rcases spanBegin_line h1 with ⟨_, rfl⟩ | ⟨_, p, cl, rfl, e1, _⟩
    · cases hx1
    · rw [List.mem_singleton.1 hx1] at hx2
      exact absurd (e1.symm.trans hx2) (by decide)
  · rcases spanEnd_line h2 with ⟨_, _, rfl⟩ | ⟨_, cl, rfl, e1, _⟩ | ⟨_, _, p, cl, rfl, e1, e2, e3⟩
    · cases hx1
    · rw [List.mem_singleton.1 hx1] at hx2
      exact absurd (e1.symm.trans hx2) (by decide)
    · refine ⟨cl, List.mem_singleton.1 hx1, fun k h1 h2 => ?_⟩
      rw [e3 k h1 h2]
      have e2 : o.extraParamsOf "DTEND".toList = .ok p := e2
      unfold Obj.extraParamsOf at e2
      rw [show extraKey "DTEND".toList = "DTEND".toList by decide, hnone] at e2
      cases e2
      rfl

/-! ### Examples -/

/-- An event with parameters on many lines. -/
def exParams : List Item :=
  [exLine "DTSTART" "20240229T133742" [("TZID".toList, [⟨false, "X/Y".toList⟩]), ("X-S".toList, [⟨false, "1".toList⟩])],
    exLine "SUMMARY" "Party" [("LANGUAGE".toList, [⟨false, "en".toList⟩]), ("X-Q".toList, [⟨true, "a;b".toList⟩, ⟨false, [] ⟩])],
    exLine "ORGANIZER" "mailto:a@b" [("CN".toList, [⟨true, "A, B".toList⟩])],
    exLine "ATTENDEE" "mailto:c@d" [("CN".toList, [⟨false, "C".toList⟩])],
    exLine "ATTENDEE" "mailto:e@f" [("ROLE".toList, [⟨false, "CHAIR".toList⟩])],
    .cont "VALARM".toList [exLine "ACTION" "DISPLAY" [("X-T".toList, [⟨false, "2".toList⟩])],
      exLine "TRIGGER" "-PT15M" [("RELATED".toList, [⟨false, "END".toList⟩])]],
    exLine "DTEND" "20240229T143742" [("TZID".toList, [⟨false, "X/Y".toList⟩]), ("X-E".toList, [⟨false, "3".toList⟩])]]

/-- `C42_entry_partial` applies to it, and its DTEND line has lost a parameter. -/
example : ∃ o ctx' i st', loadEntry exLib .event exParams (some [("X/Y".toList, 1)]) = .ok (o, ctx') ∧
    dumpEntry exLib o { ctx := some [] } = .ok (.cont "VEVENT".toList i, st') ∧
    named "DTEND" i = [exLine "DTEND" "20240229T143742" [("TZID".toList, [⟨false, "X/Y".toList⟩])]] ∧
    named "DTSTART" i = [exLine "DTSTART" "20240229T133742" [("X-S".toList, [⟨false, "1".toList⟩]),
      ("TZID".toList, [⟨false, "X/Y".toList⟩])]] := by
  have h : (loadEntry exLib .event exParams (some [("X/Y".toList, 1)]) >>= fun r =>
      dumpEntry exLib r.1 { ctx := some [] } >>= fun q => .ok (match q.1 with
        | .cont n i => (n, named "DTEND" i, named "DTSTART" i)
        | .line _ => ([], [], []))) = .ok ("VEVENT".toList,
      [exLine "DTEND" "20240229T143742" [("TZID".toList, [⟨false, "X/Y".toList⟩])]],
      [exLine "DTSTART" "20240229T133742" [("X-S".toList, [⟨false, "1".toList⟩]),
        ("TZID".toList, [⟨false, "X/Y".toList⟩])]]) := by decide +kernel
  simp only [bind_ok_iff] at h
  obtain ⟨⟨o, ctx'⟩, h1, ⟨i, st'⟩, h2, h3⟩ := h
  cases i with
  | line cl => cases h3
  | cont n i =>
    have h3 := Except.ok.inj h3
    simp only [Prod.mk.injEq] at h3
    obtain ⟨rfl, h4, h5⟩ := h3
    exact ⟨o, ctx', i, st', h1, h2, h4, h5⟩

/-- The parameters of its lines are good. -/
example : ∀ cl, .line cl ∈ exParams → GoodParams cl.params := by
  intro cl h
  simp only [exParams, exLine, List.mem_cons, List.not_mem_nil, or_false, Item.line.injEq, reduceCtorEq, false_or] at h
  rcases h with rfl | rfl | rfl | rfl | rfl | rfl <;> unfold GoodParams <;> decide

/-! ### The hypothesis on the parameters -/

theorem parseLoop_unique {line name : Str} {n : Nat} {params : Params} (hp : UniqueKeys params) {d : Nat}
    {ds : List Nat} {cl : ContentLine} (h : parseLoop line name n params d ds = .ok cl) : UniqueKeys cl.params := by
  induction n generalizing params d ds with
  | zero => cases h
  | succ n ih =>
    rw [parseLoop] at h
    split at h
    · cases h
    · split at h
      · cases h
        exact hp
      · split at h
        · split at h
          · cases h
          · exact ih (uniqueKeys_dictSet _ _ hp) h
        · cases h

/-- The parser always gives parameters with different names, so the hypothesis of the theorems above only
excludes a parameter that is called `__merge_next`. -/
theorem C42_parsed (line : Str) (cl : ContentLine) (h : parseLine line = .ok cl)
    (hm : "__merge_next".toList ∉ cl.params.map Prod.fst) : GoodParams cl.params := by
  refine ⟨?_, hm⟩
  unfold parseLine at h
  split at h
  · cases h
  · exact parseLoop_unique (params := []) List.nodup_nil h

/-- Such a parameter is lost on a multi-valued property. -/
example : ((parseLine "CATEGORIES;__merge_next=x:a".toList).toOption.map fun cl => (cl.params.map Prod.fst)) =
      some ["__merge_next".toList] ∧
    (loadEntry exLib .event [exLine "CATEGORIES" "a" [("__merge_next".toList, [⟨false, ['x']⟩])]] (some []) >>= fun r =>
      dumpEntry exLib r.1 { ctx := some [] } >>= fun q => .ok (match q.1 with
        | .cont _ i => named "CATEGORIES" i
        | .line _ => [])) = .ok [exLine "CATEGORIES" "a"] := by decide +kernel

end Ics
