import Verif.Proofs.FaultLoad

/-
The faults of a component keep it from being read.
-/
namespace Ics

variable {σ : Type}

/-- Every item was read from a state of the right class. -/
theorem populateItems_each {L : Lib} {c : Cls} {items : List Item} {mem : MemberLoad σ} {P : PyErr → Prop}
    (hmem : MembersOk c items P mem)
    (hact : ∀ cl, .line cl ∈ items → cl.name = "ACTION".toList → Conv.alarmAction ∈ c.convs → c = alarmCls cl.value) :
    ∀ (is : List Item), (∀ i ∈ is, i ∈ items) → ∀ {st st' : LState σ}, LoadOk c items st →
      populateItems L mem is st = .ok st' → ∀ i ∈ is, ∃ s s', LoadOk c items s ∧ populateItem L mem i s = .ok s'
  | [], _, _, _, _, _, i, hi => absurd hi (by simp)
  | j :: is, hj, st, st', h, hst, i, hi => by
    obtain ⟨st1, e1, e2⟩ := bind_ok_iff.1 hst
    rcases List.mem_cons.1 hi with rfl | hi
    · exact ⟨st, st1, h, e1⟩
    · exact populateItems_each hmem hact is (fun k hk => hj k (List.mem_cons_of_mem _ hk))
        ((populateItem_ok (L := L) hmem hact (hj j (List.mem_cons_self ..)) h).2 _ e1) e2 i hi

/-- Do the first converter of an item read lines, do they read components? -/
def headKind (c : Cls) (name : Str) : Option Bool :=
  match c.lookup name with
  | .value _ :: _ => some true
  | .timespan :: _ => some true
  | .alarmAction :: _ => some true
  | .member _ _ :: _ => some false
  | _ => none

theorem headKind_property (c : Cls) : (propertyNames c).all (fun n => headKind c n == some true) = true := by
  cases c <;> decide +kernel

theorem headKind_component (c : Cls) : (componentNames c).all (fun n => headKind c n == some false) = true := by
  cases c <;> decide +kernel

/-- The one converter of a property that is a date, a time or a duration. -/
def loneConv (c : Cls) (name : Str) : Bool :=
  match c.lookup name with
  | [.value s] => !s.multi && (s.convs == [.datetime] || s.convs == [.duration] ||
      (s.convs == [.duration, .datetime] && decide (s.ics = "TRIGGER".toList)))
  | [.timespan] => true
  | _ => false

theorem loneConv_time (c : Cls) (h : c ≠ .calendar) : (timeNames c).all (fun n => loneConv c n &&
    (decide (n ≠ "DURATION".toList) )) = true := by
  cases c <;> first | exact absurd rfl h | decide +kernel

/-- The one converter of a duration. -/
def loneDuration (c : Cls) (name : Str) : Bool :=
  match c.lookup name with
  | [.value s] => !s.multi && (s.convs == [.duration] ||
      (s.convs == [.duration, .datetime] && decide (name = "TRIGGER".toList)))
  | [.timespan] => decide (name = "DURATION".toList)
  | _ => false

theorem loneDuration_all (c : Cls) (h : c ≠ .calendar) : (durationNames c).all (fun n => loneDuration c n) = true := by
  cases c <;> first | exact absurd rfl h | decide +kernel

/-- An item whose first converter does not accept it. -/
theorem populateItem_head {L : Lib} {mem : MemberLoad σ} {i : Item} {st : LState σ} {cv : Conv} {cvs : List Conv}
    (hl : st.obj.cls.lookup i.name = cv :: cvs) {s' : LState σ} (h : populateItem L mem i st = .ok s') :
    ∃ b s, cv.populate L mem i st = .ok (b, s) := by
  unfold populateItem at h
  rw [hl] at h
  obtain ⟨⟨b, s⟩, e1, -⟩ := bind_ok_iff.1 h
  obtain ⟨⟨b1, s1⟩, e2, -⟩ := bind_ok_iff.1 e1
  exact ⟨b1, s1, e2⟩

theorem wrongKind_stops {L : Lib} {c : Cls} {items : List Item} {mem : MemberLoad σ} {i : Item} {st s' : LState σ}
    (h : LoadOk c items st) (hw : WrongKind c i) : populateItem L mem i st ≠ .ok s' := by
  intro hp
  have hc := h.lists.cls
  cases i with
  | line cl =>
    have hk := List.all_eq_true.1 (headKind_component c) _ (hw : cl.name ∈ componentNames c)
    rw [beq_iff_eq] at hk
    unfold headKind at hk
    split at hk <;> first | exact absurd hk (by decide) | skip
    rename_i hl
    obtain ⟨b, s, h1⟩ := populateItem_head (by rw [hc]; exact hl) hp
    exact absurd h1 (by simp [Conv.populate])
  | cont name is =>
    have hk := List.all_eq_true.1 (headKind_property c) _ (hw : name ∈ propertyNames c)
    rw [beq_iff_eq] at hk
    unfold headKind at hk
    split at hk <;> first | exact absurd hk (by decide) | skip
    all_goals
      rename_i hl
      obtain ⟨b, s, h1⟩ := populateItem_head (by rw [hc]; exact hl) hp
      exact absurd h1 (by simp [Conv.populate])

theorem parseDt_nil (w : World) (f : List Nat) (p : Params) (ctx : Ctx) : ∃ e, parseDt w f [] p ctx = .error e := by
  cases h : parseDt w f [] p ctx with
  | error e => exact ⟨e, rfl⟩
  | ok r =>
    obtain ⟨tz, last, wall, h1, hl, -⟩ := (parseDt_iff _ _ _ _ _ _).1 h
    exact absurd hl (by simp)

theorem durationParse_nil : durationParse [] = .error .indexError := by decide +kernel

theorem empty_stops {L : Lib} {c : Cls} {items : List Item} {mem : MemberLoad σ} {cl : ContentLine} {st s' : LState σ}
    (h : LoadOk c items st) (hn : cl.name ∈ timeNames c) (he : cl.value = []) :
    populateItem L mem (.line cl) st ≠ .ok s' := by
  intro hp
  have hc := h.lists.cls
  have hcal : c ≠ .calendar := by
    rintro rfl
    exact absurd hn (by simp [timeNames])
  have hk := List.all_eq_true.1 (loneConv_time c hcal) _ hn
  simp only [Bool.and_eq_true, decide_eq_true_eq] at hk
  obtain ⟨hk, hnd⟩ := hk
  unfold loneConv at hk
  split at hk
  · rename_i s hl
    obtain ⟨b, st1, h1⟩ := populateItem_head (i := .line cl) (by rw [hc]; exact hl) hp
    simp only [Bool.and_eq_true, Bool.not_eq_true', Bool.or_eq_true, beq_iff_eq, decide_eq_true_eq] at hk
    obtain ⟨hm, hk⟩ := hk
    unfold Conv.populate at h1
    simp only [hm, Bool.false_eq_true, if_false] at h1
    obtain ⟨st2, h1, -⟩ := map_ok_iff.1 h1
    unfold populateSingle at h1
    obtain ⟨_, -, h1⟩ := bind_ok_iff.1 h1
    obtain ⟨⟨p, v⟩, hv, h1⟩ := bind_ok_iff.1 h1
    obtain ⟨⟨x, q, ctx⟩, hx, -⟩ := bind_ok_iff.1 h1
    have hv' := (prepareParams_ok hv).1
    have hcv : v = .datetime ∨ v = .duration := by
      rcases hk with (hk | hk) | ⟨hk, -⟩ <;> rw [hk] at hv' <;> simp at hv' <;> tauto
    rw [he] at hx
    rcases hcv with rfl | rfl
    · obtain ⟨r, hr, -⟩ := map_ok_iff.1 hx
      obtain ⟨e, hr'⟩ := parseDt_nil L.toWorld datetimeFormats p st.ctx
      rw [hr'] at hr
      exact absurd hr (by simp)
    · unfold ValConv.parse at hx
      rw [durationParse_nil] at hx
      exact absurd hx (by simp [Except.map])
  · rename_i hl
    obtain ⟨b, st1, h1⟩ := populateItem_head (i := .line cl) (by rw [hc]; exact hl) hp
    obtain ⟨st2, h1, -⟩ := map_ok_iff.1 h1
    unfold populateSpan at h1
    obtain ⟨_, -, h1⟩ := bind_ok_iff.1 h1
    rw [if_neg hnd] at h1
    unfold populateSpanTime at h1
    obtain ⟨r, hr, -⟩ := bind_ok_iff.1 h1
    unfold parseSpanValue at hr
    dsimp only at hr
    rw [he] at hr
    obtain ⟨e, h2⟩ := parseDt_nil L.toWorld datetimeFormats (dictErase cl.params "VALUE".toList) st.ctx
    split at hr
    · rw [h2] at hr
      exact absurd hr (by simp [Except.map])
    · split at hr
      · obtain ⟨r', hr, -⟩ := map_ok_iff.1 hr
        unfold parseDate at hr
        split at hr
        · rename_i h3
          obtain ⟨e, h4⟩ := parseDt_nil L.toWorld baseFormats (dictErase cl.params "VALUE".toList) st.ctx
          first
          | (rw [h4] at h3; exact absurd h3 (by simp))
          | skip
        · exact absurd hr (by simp)
      · exact absurd hr (by simp)
  · exact absurd hk (by simp)

theorem prepareParams_trigger {cl : ContentLine} {p : Params} {v : ValConv}
    (h : prepareParams [.duration, .datetime] cl.params = .ok (p, v)) (hn : cl.name = "TRIGGER".toList)
    (ht : ¬ TimeTrigger cl) : v = .duration := by
  unfold prepareParams at h
  dsimp only at h
  split at h
  · rename_i w hg
    obtain ⟨c', h1, h2⟩ := map_ok_iff.1 h
    injection h2 with _ e2
    subst e2
    unfold findByType at h1
    split at h1
    · rename_i c'' hf
      injection h1 with h1
      subst h1
      have hm := List.mem_of_find?_eq_some hf
      have hs := List.find?_some hf
      simp only [List.mem_cons, List.not_mem_nil, or_false] at hm
      rcases hm with rfl | rfl
      · rfl
      · refine absurd ⟨hn, w.quoted, ?_⟩ ht
        rw [hg]
        have : "DATE-TIME".toList = w.text := of_decide_eq_true hs
        rw [this]
    · exact absurd h1 (by simp)
  · exact absurd h (by simp)
  · injection h with h
    injection h with _ h
    exact h.symm

/-- A value of a duration that is not accepted. -/
def NoDuration (s : Str) : Prop :=
  (¬ ∃ v, LooseDuration s v) ∨ ∃ v, LooseDuration s v ∧ (v < -(999999999 * 86400) ∨ (999999999 + 1) * 86400 ≤ v)

theorem noDuration_stops {L : Lib} {c : Cls} {items : List Item} {mem : MemberLoad σ} {cl : ContentLine} {st s' : LState σ}
    (h : LoadOk c items st) (hn : cl.name ∈ durationNames c) (ht : ¬ TimeTrigger cl) (he : NoDuration cl.value) :
    populateItem L mem (.line cl) st ≠ .ok s' := by
  intro hp
  have hc := h.lists.cls
  have hno : ∀ us, durationParse cl.value ≠ .ok us := by
    intro us hus
    obtain ⟨v, h1, rfl, h2, h3⟩ := (C76_duration _ _).1 hus
    rcases he with he | ⟨v', h1', he⟩
    · exact he ⟨v, h1⟩
    · rw [C76_duration_unique _ _ _ h1' h1] at he
      omega
  have hcal : c ≠ .calendar := by
    rintro rfl
    exact absurd hn (by simp [durationNames])
  have hk := List.all_eq_true.1 (loneDuration_all c hcal) _ hn
  unfold loneDuration at hk
  split at hk
  · rename_i s hl
    obtain ⟨b, st1, h1⟩ := populateItem_head (i := .line cl) (by rw [hc]; exact hl) hp
    simp only [Bool.and_eq_true, Bool.not_eq_true', Bool.or_eq_true, beq_iff_eq, decide_eq_true_eq] at hk
    obtain ⟨hm, hk⟩ := hk
    unfold Conv.populate at h1
    simp only [hm, Bool.false_eq_true, if_false] at h1
    obtain ⟨st2, h1, -⟩ := map_ok_iff.1 h1
    unfold populateSingle at h1
    obtain ⟨_, -, h1⟩ := bind_ok_iff.1 h1
    obtain ⟨⟨p, v⟩, hv, h1⟩ := bind_ok_iff.1 h1
    obtain ⟨⟨x, q, ctx⟩, hx, -⟩ := bind_ok_iff.1 h1
    have hv' : v = .duration := by
      rcases hk with hk | ⟨hk, hn⟩
      · have := (prepareParams_ok hv).1
        rw [hk] at this
        simpa using this
      · rw [hk] at hv
        exact prepareParams_trigger hv hn ht
    subst hv'
    unfold ValConv.parse at hx
    cases hd : durationParse cl.value with
    | ok us => exact hno _ hd
    | error e =>
      rw [hd] at hx
      exact absurd hx (by simp [Except.map])
  · rename_i hl
    obtain ⟨b, st1, h1⟩ := populateItem_head (i := .line cl) (by rw [hc]; exact hl) hp
    obtain ⟨st2, h1, -⟩ := map_ok_iff.1 h1
    unfold populateSpan at h1
    obtain ⟨_, -, h1⟩ := bind_ok_iff.1 h1
    rw [if_pos (of_decide_eq_true hk)] at h1
    unfold populateSpanDuration at h1
    obtain ⟨r, hr, -⟩ := bind_ok_iff.1 h1
    exact hno _ hr
  · exact absurd hk (by simp)

/-! ### Time spans -/

theorem postAll_span {L : Lib} : ∀ (cvs : List Conv) {st st' : LState σ}, Conv.timespan ∈ cvs →
    postAll L cvs st = .ok st' → ∃ s s' : LState σ, s.span = st.span ∧ s.obj.cls = st.obj.cls ∧ postSpan L s = .ok s'
  | [], _, _, h, _ => absurd h (by simp)
  | cv :: cvs, st, st', h, hst => by
    obtain ⟨st1, e1, e2⟩ := bind_ok_iff.1 hst
    by_cases hcv : cv = .timespan
    · subst hcv
      exact ⟨st, st1, rfl, rfl, e1⟩
    · have hm : Conv.timespan ∈ cvs := by
        rcases List.mem_cons.1 h with h | h
        · exact absurd h.symm hcv
        · exact h
      have hs : st1.span = st.span ∧ st1.obj.cls = st.obj.cls := by
        cases cv with
        | value s =>
          unfold Conv.post at e1
          dsimp only at e1
          split at e1
          · exact absurd e1 (by simp)
          · injection e1 with e1; subst e1; exact ⟨rfl, rfl⟩
        | timespan => exact absurd rfl hcv
        | member _ _ => injection e1 with e1; subst e1; exact ⟨rfl, rfl⟩
        | alarmAction => injection e1 with e1; subst e1; exact ⟨rfl, rfl⟩
        | calendarTimezone => injection e1 with e1; subst e1; exact ⟨rfl, rfl⟩
      obtain ⟨s, s', g1, g2, g3⟩ := postAll_span cvs hm e2
      exact ⟨s, s', g1.trans hs.1, g2.trans hs.2, g3⟩

theorem sub_mixed {e : Env} {a b : DT} {x : Int} (h : e.sub a b = .ok x) : a.tz.isSome ↔ b.tz.isSome := by
  unfold Env.sub at h
  split at h
  · rename_i h'; rw [h']
  · unfold Env.utcoffset at h
    cases ha : a.tz <;> cases hb : b.tz <;> rw [ha, hb] at h <;> first | (simp; done) | cases h

theorem validate_pair {e : Env} {s : Span} {b en : DT} (hb : s.begin? = some b) (hen : s.end? = some en)
    (h : e.validate s = .ok ()) :
    (b.tz.isSome ↔ en.tz.isSome) ∧ (s.prec = .day → b.wall + dayUs < maxWall) := by
  unfold Env.validate at h
  obtain ⟨_, h, -⟩ := bind_ok_iff.1 h
  unfold Env.validateBase at h
  rw [hb, hen] at h
  obtain ⟨_, -, h⟩ := bind_ok_iff.1 h
  obtain ⟨_, h, -⟩ := bind_ok_iff.1 h
  unfold ifGiven Env.validateEnd at h
  obtain ⟨_, -, h⟩ := bind_ok_iff.1 h
  obtain ⟨_, h1, h⟩ := bind_ok_iff.1 h
  obtain ⟨_, -, h⟩ := bind_ok_iff.1 h
  obtain ⟨_, h2, h⟩ := bind_ok_iff.1 h
  refine ⟨?_, fun hp => ?_⟩
  · unfold Env.gt at h1
    first
    | (obtain ⟨x, h1, -⟩ := map_ok_iff.1 h1; exact sub_mixed h1)
    | (obtain ⟨x, h1, -⟩ := bind_ok_iff.1 h1; exact sub_mixed h1)
  · unfold Env.validateOneDay at h2
    rw [if_pos hp] at h2
    obtain ⟨next, h2, -⟩ := bind_ok_iff.1 h2
    exact (add_ok.1 h2).2.1

/-- What is known of the begin and the end of an event or todo that was read. -/
theorem loadObj_span {L : Lib} {c : Cls} {items : List Item} {mem : MemberLoad σ} {P : PyErr → Prop}
    (hmem : MembersOk c items P mem)
    (hact : ∀ cl, .line cl ∈ items → cl.name = "ACTION".toList → Conv.alarmAction ∈ c.convs → c = alarmCls cl.value)
    {d : List (Str × Nat)} {r : Obj σ × Ctx} (h : loadObj L mem c items (some d) = .ok r) (hc : c = .event ∨ c = .todo)
    {b e : ContentLine} (hb : .line b ∈ items) (hbn : b.name = "DTSTART".toList) (he : LastEnd items e) :
    ∃ x y p, ReadAs b x (some p) ∧ ReadAs e y (some p) ∧ (x.tz.isSome ↔ y.tz.isSome) ∧
      (p = .day → x.wall + dayUs < maxWall) := by
  have hcv : Conv.timespan ∈ c.convs := by rcases hc with rfl | rfl <;> decide +kernel
  unfold loadObj at h
  obtain ⟨st, h1, h⟩ := bind_ok_iff.1 h
  obtain ⟨st2, h2, -⟩ := bind_ok_iff.1 h
  have T : Tracks items st.span := by
    simpa using populateItems_tracks hmem hact hcv items [] (fun _ h => h) (.init L c items d) .nil h1
  obtain ⟨s, s', g1, g2, g3⟩ := postAll_span _ hcv h2
  obtain ⟨x, hx, rx⟩ := T.begin b hb hbn
  obtain ⟨y, hy, ry⟩ := T.end e he
  obtain ⟨p, hp⟩ : ∃ p, st.span.prec? = some p := by
    rcases rx with ⟨h, -⟩ | ⟨h, -⟩ <;> exact ⟨_, h⟩
  unfold postSpan at g3
  dsimp only at g3
  obtain ⟨sp, k1, -⟩ := bind_ok_iff.1 g3
  obtain ⟨k1, -⟩ := mkSpan_ok.1 k1
  rw [g1] at k1
  obtain ⟨k2, k3⟩ := validate_pair (b := x) (en := y) hx hy k1
  rw [hp] at rx ry
  refine ⟨x, y, p, rx, ry, k2, fun hp' => k3 ?_⟩
  show st.span.prec?.getD _ = _
  rw [hp, hp']
  rfl

theorem lastDay_wall {b : ContentLine} {x : DT} (h : ReadAs b x (some .day)) (hs : stripped b.value = "99991231".toList) :
    ¬ x.wall + dayUs < maxWall := by
  rcases h with ⟨h, -⟩ | ⟨-, -, -, -, y, m, d, ht, hw⟩
  · exact absurd h (by decide)
  · rw [hs] at ht
    obtain ⟨f, h1, h2⟩ := (strptime_wall_iff _ _).2 ⟨y, m, d, 0, 0, 0, ht, rfl⟩
    have key : (strptimeFields "99991231".toList).map (fun f => match wallOf f with
        | .ok w => decide (w + dayUs < maxWall)
        | .error _ => true) = some false := by decide +kernel
    rw [h1, Option.map_some, h2, ← hw] at key
    simpa using key

section

variable {L : Lib} {c : Cls} {items : List Item} {mem : MemberLoad σ} {P : PyErr → Prop}
    (hmem : MembersOk c items P mem)
    (hact : ∀ cl, .line cl ∈ items → cl.name = "ACTION".toList → Conv.alarmAction ∈ c.convs → c = alarmCls cl.value)
    {d : List (Str × Nat)} {r : Obj σ × Ctx} (h : loadObj L mem c items (some d) = .ok r)
include hmem hact h

theorem loadObj_each {i : Item} (hi : i ∈ items) : ∃ s s', LoadOk c items s ∧ populateItem L mem i s = .ok s' := by
  unfold loadObj at h
  obtain ⟨st, h1, -⟩ := bind_ok_iff.1 h
  exact populateItems_each hmem hact items (fun _ h => h) (.init L c items d) h1 i hi

theorem loadObj_no_duration {cl : ContentLine} (hi : .line cl ∈ items) (hn : cl.name ∈ durationNames c)
    (ht : ¬ TimeTrigger cl) : ¬ NoDuration cl.value := by
  intro he
  obtain ⟨s, s', h1, h2⟩ := loadObj_each hmem hact h hi
  exact noDuration_stops h1 hn ht he h2

theorem loadObj_no_lastDay {b e : ContentLine} (hc : c = .event ∨ c = .todo) (hb : .line b ∈ items)
    (hbn : b.name = "DTSTART".toList) (he : LastEnd items e) (hd : IsDate b) : stripped b.value ≠ "99991231".toList := by
  intro hs
  obtain ⟨x, y, p, rx, ry, -, hl⟩ := loadObj_span hmem hact h hc hb hbn he
  have hp : p = .day := by
    rcases rx with ⟨-, hn, -⟩ | ⟨hp, -⟩
    · exact absurd hd hn
    · injection hp
  subst hp
  exact lastDay_wall rx hs (hl rfl)

/-- The faults of a component that was read: only a `ValueError` or the conversion to UTC. -/
theorem loadObj_no_fault {e : PyErr} (hf : Fault L c items e) : e = .valueError ∨ e = .overflowError := by
  cases hf with
  | kind hi hw =>
    obtain ⟨s, s', h1, h2⟩ := loadObj_each hmem hact h hi
    exact absurd h2 (wrongKind_stops h1 hw)
  | empty hi hn he =>
    obtain ⟨s, s', h1, h2⟩ := loadObj_each hmem hact h hi
    exact absurd h2 (empty_stops h1 hn he)
  | noDuration hi hn ht he => exact absurd (.inl he) (loadObj_no_duration hmem hact h hi hn ht)
  | long _ _ _ _ _ => exact .inr rfl
  | stamp _ _ _ _ _ => exact .inr rfl
  | lastDay _ _ _ _ _ _ _ => exact .inr rfl
  | value => exact .inl rfl
  | mixed hc hb hbn he d1 d2 hz =>
    obtain ⟨x, y, p, rx, ry, ht, -⟩ := loadObj_span hmem hact h hc hb hbn he
    rcases rx with ⟨-, -, zx⟩ | ⟨-, hd, -⟩
    · rcases ry with ⟨-, -, zy⟩ | ⟨-, hd, -⟩
      · rw [zx, zy] at ht
        tauto
      · exact absurd hd d2
    · exact absurd hd d1

end

/-! ### Components -/

theorem ActionClass.eq {s : Str} {c : Cls} (h : ActionClass s c) : c = alarmCls s := by
  cases h with
  | custom h =>
    simp only [List.map_cons, List.map_nil, List.mem_cons, List.not_mem_nil, or_false, not_or] at h
    unfold alarmCls
    rw [if_neg h.1, if_neg h.2.1, if_neg h.2.2.2, if_neg h.2.2.1]
  | _ => rfl

theorem alarm_membersOk (s : Str) (items : List Item) :
    MembersOk (σ := Empty) (alarmCls s) items (fun _ => False) fun _ _ _ => .error .notImplementedError := by
  intro name is d _ hn
  have : componentNames (alarmCls s) = [] := by
    have := alarmCls_class s
    generalize alarmCls s = k at this
    cases this <;> rfl
  rw [this] at hn
  cases hn

theorem loadAlarm_no_fault {L : Lib} {items : List Item} {d : List (Str × Nat)} {r : Alarm × Ctx}
    (h : loadAlarm L items (some d) = .ok r) {e : PyErr} (hf : AlarmFault L items e) :
    e = .valueError ∨ e = .overflowError := by
  unfold loadAlarm at h
  obtain ⟨i, hi, h⟩ := bind_ok_iff.1 h
  have hu : ∀ j ∈ items, j.name = "ACTION".toList → j = i := by
    unfold oneItem at hi
    split at hi
    · rename_i k hk
      injection hi with hi
      subst hi
      intro j hj hn
      have : j ∈ items.filter fun i => i.name = "ACTION".toList := List.mem_filter.2 ⟨hj, by simpa using hn⟩
      rw [hk] at this
      simpa using this
    · exact absurd hi (by simp)
  cases i with
  | cont _ _ => exact absurd h (by simp)
  | line cl =>
    dsimp only at h
    have hact : ∀ cl', .line cl' ∈ items → cl'.name = "ACTION".toList → Conv.alarmAction ∈ (alarmCls cl.value).convs →
        alarmCls cl.value = alarmCls cl'.value := by
      intro cl' h1 h2 _
      have := hu _ h1 h2
      injection this with this
      rw [this]
    cases hf with
    | action ha => exact absurd (hu _ ha rfl) (by simp)
    | own h1 h2 h3 h4 =>
      have := hu _ h1 h2
      injection this with this
      subst this
      rw [h3.eq] at h4
      exact loadObj_no_fault (alarm_membersOk _ _) hact h h4
    | value => exact .inl rfl

theorem entry_membersOk (L : Lib) {c : Cls} (items : List Item) :
    MembersOk c items (fun _ => True) fun _ items ctx => loadAlarm L items ctx := by
  intro name is d _ _
  exact ⟨fun _ _ => trivial, (loadAlarm_ok L is d).2⟩

theorem noAction {c : Cls} {items : List Item} (hc : Conv.alarmAction ∉ c.convs) :
    ∀ cl, .line cl ∈ items → cl.name = "ACTION".toList → Conv.alarmAction ∈ c.convs → c = alarmCls cl.value :=
  fun _ _ _ h => absurd h hc

/-- The members of a component were read. -/
theorem populateItem_member {L : Lib} {c : Cls} {items : List Item} {mem : MemberLoad σ} {name : Str} {is : List Item}
    {st s' : LState σ} (h : LoadOk c items st) (hn : name ∈ componentNames c)
    (hp : populateItem L mem (.cont name is) st = .ok s') : ∃ d m ctx, mem name is (some d) = .ok (m, ctx) := by
  have hk := List.all_eq_true.1 (headKind_component c) _ hn
  rw [beq_iff_eq] at hk
  unfold headKind at hk
  split at hk <;> first | exact absurd hk (by decide) | skip
  rename_i hl
  obtain ⟨b, s, h1⟩ := populateItem_head (i := .cont name is) (by rw [h.lists.cls]; exact hl) hp
  obtain ⟨st1, h1, -⟩ := map_ok_iff.1 h1
  unfold populateMember at h1
  obtain ⟨⟨m, ctx⟩, h1, -⟩ := bind_ok_iff.1 h1
  obtain ⟨d, hd⟩ := h.ctx
  rw [hd] at h1
  exact ⟨d, m, ctx, h1⟩

theorem loadEntry_no_fault {L : Lib} {c : Cls} (hc : c = .event ∨ c = .todo) {items : List Item} {d : List (Str × Nat)}
    {r : EntryObj × Ctx} (h : loadEntry L c items (some d) = .ok r) {e : PyErr} (hf : EntryFault L c items e) :
    e = .valueError ∨ e = .overflowError := by
  have hna : Conv.alarmAction ∉ c.convs := by rcases hc with rfl | rfl <;> decide
  cases hf with
  | own hf => exact loadObj_no_fault (entry_membersOk L items) (noAction hna) h hf
  | alarm hi hf =>
    obtain ⟨s, s', h1, h2⟩ := loadObj_each (entry_membersOk L items) (noAction hna) h hi
    obtain ⟨d', m, ctx, h3⟩ := populateItem_member h1 (by rcases hc with rfl | rfl <;> decide) h2
    exact loadAlarm_no_fault h3 hf

theorem loadZones_no_fault {L : Lib} : ∀ {is : List Item} {avail r : List (Str × Nat)}, loadZones L is avail = .ok r →
    ∀ {zis : List Item} {e : PyErr}, .cont "VTIMEZONE".toList zis ∈ is → L.tzLoad zis ≠ .error e
  | [], _, _, _, _, _, hi => absurd hi (by simp)
  | .line _ :: is, avail, r, h, zis, e, hi => by
    refine loadZones_no_fault (is := is) h ?_
    rcases List.mem_cons.1 hi with hi | hi
    · exact absurd hi (by simp)
    · exact hi
  | .cont name zs :: is, avail, r, h, zis, e, hi => by
    unfold loadZones at h
    rcases List.mem_cons.1 hi with hi | hi
    · injection hi with h1 h2
      subst h1 h2
      rw [if_pos rfl] at h
      obtain ⟨z, hz, -⟩ := bind_ok_iff.1 h
      rw [hz]
      simp
    · split at h
      · obtain ⟨z, -, h⟩ := bind_ok_iff.1 h
        exact loadZones_no_fault h hi
      · exact loadZones_no_fault h hi

theorem calendar_membersOk (L : Lib) (items : List Item) :
    MembersOk .calendar items (fun _ => True) (loadCalMember L) := by
  intro name is d _ _
  refine ⟨fun _ _ => trivial, ?_⟩
  unfold loadCalMember
  split
  · exact (loadEntry_ok L (.inr rfl) is d).2
  · exact (loadEntry_ok L (.inl rfl) is d).2

theorem loadCalendar_no_fault {L : Lib} {items : List Item} {o : CalObj} (h : loadCalendar L items = .ok o) {e : PyErr}
    (hf : CalendarFault L items e) : e = .valueError ∨ e = .overflowError := by
  unfold loadCalendar at h
  obtain ⟨avail, hz, h⟩ := bind_ok_iff.1 h
  obtain ⟨r, h, -⟩ := bind_ok_iff.1 h
  have hna : Conv.alarmAction ∉ Cls.calendar.convs := by decide
  cases hf with
  | own hf => exact loadObj_no_fault (calendar_membersOk L items) (noAction hna) h hf
  | zone hi hf => exact absurd hf (loadZones_no_fault hz hi)
  | event hi hf =>
    obtain ⟨s, s', h1, h2⟩ := loadObj_each (calendar_membersOk L items) (noAction hna) h hi
    obtain ⟨d', m, ctx, h3⟩ := populateItem_member h1 (by decide) h2
    unfold loadCalMember at h3
    rw [if_neg (by decide)] at h3
    exact loadEntry_no_fault (.inl rfl) h3 hf
  | todo hi hf =>
    obtain ⟨s, s', h1, h2⟩ := loadObj_each (calendar_membersOk L items) (noAction hna) h hi
    obtain ⟨d', m, ctx, h3⟩ := populateItem_member h1 (by decide) h2
    unfold loadCalMember at h3
    rw [if_pos rfl] at h3
    exact loadEntry_no_fault (.inr rfl) h3 hf

end Ics
