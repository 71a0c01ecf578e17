import Verif.Spec.Component
import Verif.Proofs.Dict
import Verif.Proofs.Timespan

/-
Lemmas about loading and writing components.
-/
namespace Ics

variable {σ : Type}

theorem map_ok_iff {α β : Type} {x : Except PyErr α} {f : α → β} {b : β} :
    x.map f = .ok b ↔ ∃ a, x = .ok a ∧ f a = b := by
  cases x <;> simp [Except.map]

theorem names_table (c : Cls) (h : c ≠ .customAlarm) :
    c.convs.flatMap Conv.names = (handledNames c).map String.toList := by
  cases c <;> first | exact absurd rfl h | decide

/-- The names in the tables are those of the specification. -/
theorem mem_names_iff (c : Cls) (n : Str) :
    (∃ cv ∈ c.convs, n ∈ cv.names) ↔ String.ofList n ∈ handledNames c := by
  have h : n ∈ c.convs.flatMap Conv.names ↔ n ∈ (handledNames c).map String.toList := by
    by_cases hc : c = .customAlarm
    · subst hc
      have : (Cls.customAlarm.convs.flatMap Conv.names) =
          ["ACTION", "TRIGGER", "REPEAT", "DURATION", "ACTION"].map String.toList := by decide
      rw [this]
      simp only [handledNames, List.map_cons, List.map_nil, List.mem_cons, List.not_mem_nil]
      constructor
      · rintro (h | h | h | h | h | h) <;> simp [h]
      · rintro (h | h | h | h | h) <;> simp [h]
    · rw [names_table c hc]
  rw [← List.mem_flatMap, h, List.mem_map]
  constructor
  · rintro ⟨s, hs, rfl⟩
    simpa using hs
  · intro hs
    exact ⟨_, hs, by simp⟩

theorem lookup_eq_nil_iff (c : Cls) (n : Str) : c.lookup n = [] ↔ String.ofList n ∉ handledNames c := by
  rw [← mem_names_iff]
  unfold Cls.lookup
  rw [List.filter_eq_nil_iff]
  simp

/-- Loading changes neither class nor name nor, except for unhandled items, `extra`. -/
def SameFrame (o o' : Obj σ) : Prop := o'.cls = o.cls ∧ o'.extraName = o.extraName ∧ o'.extra = o.extra

theorem SameFrame.refl (o : Obj σ) : SameFrame o o := ⟨rfl, rfl, rfl⟩

theorem SameFrame.trans {a b c : Obj σ} (h : SameFrame a b) (k : SameFrame b c) : SameFrame a c :=
  ⟨k.1.trans h.1, k.2.1.trans h.2.1, k.2.2.trans h.2.2⟩

theorem setExtraParams_frame (o : Obj σ) (n : Str) (p : Params) : SameFrame o (o.setExtraParams n p) := by
  unfold Obj.setExtraParams
  split <;> exact ⟨rfl, rfl, rfl⟩

theorem setattr_frame {L : Lib} {o o' : Obj σ} {a : Str} {k : Check} {v : AttrVal σ}
    (h : o.setattr L a k v = .ok o') : SameFrame o o' := by
  unfold Obj.setattr at h
  rw [map_ok_iff] at h
  obtain ⟨v, _, rfl⟩ := h
  exact ⟨rfl, rfl, rfl⟩

theorem appendExtraParams_frame {o o' : Obj σ} {n : Str} {p : Params}
    (h : o.appendExtraParams n p = .ok o') : SameFrame o o' := by
  unfold Obj.appendExtraParams at h
  split at h <;> cases h <;> exact ⟨rfl, rfl, rfl⟩

theorem appendValue_frame {o o' : Obj σ} {n : Str} {v : Val σ}
    (h : o.appendValue n v = .ok o') : SameFrame o o' := by
  unfold Obj.appendValue at h
  split at h <;> cases h <;> exact ⟨rfl, rfl, rfl⟩

theorem appendAll_frame {n : Str} {l : List (Val σ × Params)} {o o' : Obj σ}
    (h : Obj.appendAll n l o = .ok o') : SameFrame o o' := by
  induction l generalizing o with
  | nil => cases h; exact .refl _
  | cons x l ih =>
    obtain ⟨v, p⟩ := x
    simp only [Obj.appendAll, bind_ok_iff] at h
    obtain ⟨o1, h1, o2, h2, h3⟩ := h
    exact (appendExtraParams_frame h1).trans ((appendValue_frame h2).trans (ih h3))

theorem populateMulti_frame {L : Lib} {s : AttrSpec} {cl : ContentLine} {st st' : LState σ}
    (h : populateMulti L s cl st = .ok st') : SameFrame st.obj st'.obj := by
  simp only [populateMulti, bind_ok_iff] at h
  obtain ⟨x, _, y, _, _, _, o, ho, h⟩ := h
  cases h
  exact appendAll_frame ho

theorem populateSingle_frame {L : Lib} {s : AttrSpec} {cl : ContentLine} {st st' : LState σ}
    (h : populateSingle L s cl st = .ok st') : SameFrame st.obj st'.obj := by
  simp only [populateSingle, bind_ok_iff] at h
  obtain ⟨x, _, y, _, z, _, o, ho, h⟩ := h
  cases h
  exact (setExtraParams_frame _ _ _).trans (setattr_frame ho)

theorem populateSpan_frame {L : Lib} {cl : ContentLine} {st st' : LState σ}
    (h : populateSpan L cl st = .ok st') : SameFrame st.obj st'.obj := by
  simp only [populateSpan, bind_ok_iff] at h
  obtain ⟨x, _, h⟩ := h
  split at h
  · simp only [populateSpanDuration, bind_ok_iff] at h
    obtain ⟨d, _, h⟩ := h
    cases h
    exact setExtraParams_frame _ _ _
  · simp only [populateSpanTime, bind_ok_iff] at h
    obtain ⟨d, _, y, _, h⟩ := h
    split at h <;> cases h <;> exact setExtraParams_frame _ _ _

theorem populateAction_frame {cl : ContentLine} {st st' : LState σ}
    (h : populateAction cl st = .ok st') : SameFrame st.obj st'.obj := by
  unfold populateAction at h
  split at h
  · cases h
  · split at h <;> cases h <;> exact ⟨rfl, rfl, rfl⟩

theorem populateMember_frame {mem : MemberLoad σ} {attr name : Str} {items : List Item} {st st' : LState σ}
    (h : populateMember mem attr name items st = .ok st') : SameFrame st.obj st'.obj := by
  simp only [populateMember, bind_ok_iff] at h
  obtain ⟨x, _, o, ho, h⟩ := h
  cases h
  exact appendValue_frame ho

/-- A line given to `CalendarTimezoneConverter`. -/
def tzLine (cv : Conv) (item : Item) : Bool :=
  match cv, item with
  | .calendarTimezone, .line _ => true
  | _, _ => false

theorem populate_frame {L : Lib} {mem : MemberLoad σ} {cv : Conv} {item : Item} {st : LState σ}
    {r : Bool × LState σ} (h : cv.populate L mem item st = .ok r) :
    SameFrame st.obj r.2.obj ∧ r.1 = !tzLine cv item := by
  unfold Conv.populate at h
  split at h
  · rw [map_ok_iff] at h
    obtain ⟨st', h, rfl⟩ := h
    split at h
    · exact ⟨populateMulti_frame h, rfl⟩
    · exact ⟨populateSingle_frame h, rfl⟩
  · cases h
  · rw [map_ok_iff] at h
    obtain ⟨st', h, rfl⟩ := h
    exact ⟨populateMember_frame h, rfl⟩
  · cases h
  · rw [map_ok_iff] at h
    obtain ⟨st', h, rfl⟩ := h
    exact ⟨populateSpan_frame h, rfl⟩
  · cases h
  · rw [map_ok_iff] at h
    obtain ⟨st', h, rfl⟩ := h
    exact ⟨populateAction_frame h, rfl⟩
  · cases h
  · cases h; exact ⟨.refl _, rfl⟩
  · cases h; exact ⟨.refl _, rfl⟩

theorem populateConvs_frame {L : Lib} {mem : MemberLoad σ} {item : Item} {cvs : List Conv} {b : Bool}
    {st : LState σ} {r : Bool × LState σ} (h : populateConvs L mem item cvs b st = .ok r) :
    SameFrame st.obj r.2.obj ∧ r.1 = (b || cvs.any fun cv => !tzLine cv item) := by
  induction cvs generalizing b st with
  | nil => cases h; exact ⟨.refl _, by simp⟩
  | cons cv cvs ih =>
    simp only [populateConvs, bind_ok_iff] at h
    obtain ⟨⟨b1, st1⟩, h1, h2⟩ := h
    have a := populate_frame h1
    have c := ih h2
    refine ⟨a.1.trans c.1, ?_⟩
    rw [c.2, List.any_cons, ← a.2]
    simp [Bool.or_assoc]

theorem lookup_mem {c : Cls} {n : Str} {cv : Conv} : cv ∈ c.lookup n ↔ cv ∈ c.convs ∧ n ∈ cv.names := by
  simp [Cls.lookup, List.mem_filter]

theorem calendarTimezone_mem (c : Cls) : Conv.calendarTimezone ∈ c.convs ↔ c = .calendar := by
  cases c <;> decide

theorem calendar_vtimezone : Cls.calendar.lookup "VTIMEZONE".toList = [.calendarTimezone] := by decide

theorem consumed_iff (c : Cls) (item : Item) :
    ((c.lookup item.name).any fun cv => !tzLine cv item) = !unhandled c item := by
  cases item with
  | cont name items =>
    have : (fun cv : Conv => !tzLine cv (.cont name items)) = fun _ => true := by
      funext cv
      cases cv <;> rfl
    rw [this]
    simp only [unhandled, Item.name, Bool.not_not]
    rw [Bool.eq_iff_iff]
    rw [List.any_eq_true, List.contains_iff_mem, ← mem_names_iff]
    constructor
    · rintro ⟨cv, h, _⟩
      exact ⟨cv, (lookup_mem.1 h).1, (lookup_mem.1 h).2⟩
    · rintro ⟨cv, h, h'⟩
      exact ⟨cv, lookup_mem.2 ⟨h, h'⟩, rfl⟩
  | line cl =>
    simp only [unhandled, Item.name]
    by_cases hz : c = .calendar ∧ cl.name = "VTIMEZONE".toList
    · obtain ⟨rfl, hz⟩ := hz
      rw [hz, calendar_vtimezone]
      rfl
    · have e : (c == Cls.calendar && cl.name == "VTIMEZONE".toList) = false := by
        rw [Bool.and_eq_false_iff]
        by_cases hc : c = .calendar
        · right
          simp only [beq_eq_false_iff_ne]
          exact fun h => hz ⟨hc, h⟩
        · left
          simpa using hc
      rw [e, Bool.or_false, Bool.not_not, Bool.eq_iff_iff, List.any_eq_true, List.contains_iff_mem,
        ← mem_names_iff]
      constructor
      · rintro ⟨cv, h, _⟩
        exact ⟨cv, (lookup_mem.1 h).1, (lookup_mem.1 h).2⟩
      · rintro ⟨cv, h, h'⟩
        refine ⟨cv, lookup_mem.2 ⟨h, h'⟩, ?_⟩
        cases cv with
        | calendarTimezone =>
          refine absurd ⟨(calendarTimezone_mem c).1 h, ?_⟩ hz
          simpa [Conv.names] using h'
        | _ => rfl

theorem populateItem_frame {L : Lib} {mem : MemberLoad σ} {item : Item} {st st' : LState σ}
    (h : populateItem L mem item st = .ok st') :
    st'.obj.cls = st.obj.cls ∧ st'.obj.extraName = st.obj.extraName ∧
      st'.obj.extra = st.obj.extra ++ (if unhandled st.obj.cls item then [item] else []) := by
  simp only [populateItem, bind_ok_iff] at h
  obtain ⟨⟨b, st1⟩, h1, h2⟩ := h
  have a := populateConvs_frame h1
  rw [consumed_iff, Bool.false_or] at a
  dsimp only at a h2
  obtain ⟨⟨a1, a2, a3⟩, a4⟩ := a
  cases hu : unhandled st.obj.cls item
  · rw [hu] at a4
    rw [a4] at h2
    cases h2
    exact ⟨a1, a2, by simp [a3]⟩
  · rw [hu] at a4
    rw [a4] at h2
    cases h2
    exact ⟨a1, a2, by simp [a3]⟩

theorem populateItems_frame {L : Lib} {mem : MemberLoad σ} {items : List Item} {st st' : LState σ}
    (h : populateItems L mem items st = .ok st') :
    st'.obj.cls = st.obj.cls ∧ st'.obj.extraName = st.obj.extraName ∧
      st'.obj.extra = st.obj.extra ++ items.filter (unhandled st.obj.cls) := by
  induction items generalizing st with
  | nil => cases h; simp
  | cons i is ih =>
    simp only [populateItems, bind_ok_iff] at h
    obtain ⟨st1, h1, h2⟩ := h
    obtain ⟨a1, a2, a3⟩ := populateItem_frame h1
    obtain ⟨b1, b2, b3⟩ := ih h2
    refine ⟨b1.trans a1, b2.trans a2, ?_⟩
    rw [b3, a1, a3, List.append_assoc, List.filter_cons]
    cases unhandled st.obj.cls i <;> simp

theorem post_frame {L : Lib} {cv : Conv} {st st' : LState σ} (h : cv.post L st = .ok st') :
    SameFrame st.obj st'.obj := by
  unfold Conv.post at h
  split at h
  · split at h <;> cases h
    exact .refl _
  · simp only [postSpan, bind_ok_iff] at h
    obtain ⟨x, _, y, _, o, ho, h⟩ := h
    cases h
    exact setattr_frame ho
  · cases h
    exact .refl _

theorem postAll_frame {L : Lib} {cvs : List Conv} {st st' : LState σ} (h : postAll L cvs st = .ok st') :
    SameFrame st.obj st'.obj := by
  induction cvs generalizing st with
  | nil => cases h; exact .refl _
  | cons cv cvs ih =>
    simp only [postAll, bind_ok_iff] at h
    obtain ⟨st1, h1, h2⟩ := h
    exact (post_frame h1).trans (ih h2)

theorem loadObj_frame {L : Lib} {mem : MemberLoad σ} {c : Cls} {items : List Item} {ctx : Ctx}
    {r : Obj σ × Ctx} (h : loadObj L mem c items ctx = .ok r) :
    r.1.cls = c ∧ r.1.extraName = c.icsName ∧ r.1.extra = items.filter (unhandled c) := by
  simp only [loadObj, bind_ok_iff] at h
  obtain ⟨st1, h1, st2, h2, h⟩ := h
  cases h
  obtain ⟨a1, a2, a3⟩ := populateItems_frame h1
  obtain ⟨b1, b2, b3⟩ := postAll_frame h2
  refine ⟨b1.trans a1, b2.trans a2, ?_⟩
  rw [b3, a3]
  rfl

end Ics
