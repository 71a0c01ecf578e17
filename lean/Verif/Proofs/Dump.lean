import Verif.Proofs.Decompose
import Mathlib.Data.List.Forall2

/-
What is written for a component, converter by converter.
-/
namespace Ics

variable {σ : Type}

/-- The names of lines are upper-case already. -/
theorem names_upper (c : Cls) : ∀ cv ∈ c.convs, ∀ n ∈ cv.names, upper n = n := by
  cases c <;> decide +kernel

/-- Except for custom alarms, no two converters handle the same name. -/
theorem names_disjoint (c : Cls) (hc : c ≠ .customAlarm) : ∀ cv ∈ c.convs, ∀ cv' ∈ c.convs, cv ≠ cv' →
    ∀ n ∈ cv.names, n ∉ cv'.names := by
  cases c <;> first | exact absurd rfl hc | decide +kernel

theorem not_unhandled {c : Cls} {cv : Conv} (h : cv ∈ c.convs) {i : Item} (hn : i.name ∈ cv.names)
    (hz : ∀ cl, i = .line cl → cv ≠ .calendarTimezone) : unhandled c i = false := by
  have k := consumed_iff c i
  have : ((c.lookup i.name).any fun cv => !tzLine cv i) = true := by
    rw [List.any_eq_true]
    refine ⟨cv, lookup_mem.2 ⟨h, hn⟩, ?_⟩
    cases i with
    | cont n is => cases cv <;> rfl
    | line cl =>
      have := hz cl rfl
      cases cv <;> first | rfl | exact absurd rfl this
  rw [this] at k
  simpa using k.symm

theorem unhandled_name {c : Cls} {i : Item} (h : unhandled c i = true) {cv : Conv} (hcv : cv ∈ c.convs)
    (hz : cv ≠ .calendarTimezone) : i.name ∉ cv.names := by
  intro hn
  rw [not_unhandled hcv hn fun _ _ => hz] at h
  cases h

theorem unhandled_cont {c : Cls} {n : Str} {is : List Item} (h : unhandled c (.cont n is) = true) {cv : Conv}
    (hcv : cv ∈ c.convs) : n ∉ cv.names := by
  intro hn
  rw [not_unhandled hcv (i := .cont n is) hn fun cl e => by cases e] at h
  cases h

/-! ### What a converter writes -/

/-- A line with this name. -/
def IsLine (n : Str) (i : Item) : Prop := ∃ p v, i = .line ⟨n, p, v⟩

theorem dumpSingle_lines {L : Lib} {s : AttrSpec} (hs : upper s.ics = s.ics) {o : Obj σ} {st st' : DState}
    {is : List Item} (h : dumpSingle L s o st = .ok (is, st')) : ∀ i ∈ is, IsLine s.ics i := by
  unfold dumpSingle at h
  split at h
  · cases h
    simp
  · simp only [bind_ok_iff] at h
    obtain ⟨p, _, x, _, y, _, h⟩ := h
    cases h
    intro i hi
    obtain rfl := List.mem_singleton.1 hi
    exact ⟨_, _, by rw [mkContentLine, hs]⟩
  · cases h

theorem dumpMultiLoop_lines {L : Lib} {s : AttrSpec} (hs : upper s.ics = s.ics) {l : List (Val σ × Params)}
    {cur : Option Params} {ts : List Str} {st st' : DState} {is : List Item}
    (h : dumpMultiLoop L s l cur ts st = .ok (is, st')) : ∀ i ∈ is, IsLine s.ics i := by
  induction l generalizing cur ts st is with
  | nil =>
    simp only [dumpMultiLoop, bind_ok_iff] at h
    obtain ⟨_, _, h⟩ := h
    cases h
    simp
  | cons x l ih =>
    obtain ⟨v, p⟩ := x
    simp only [dumpMultiLoop, bind_ok_iff] at h
    obtain ⟨c, _, t, _, _, _, h⟩ := h
    split at h
    · exact ih h
    · simp only [bind_ok_iff] at h
      obtain ⟨r, hr, h⟩ := h
      cases h
      intro i hi
      rcases List.mem_cons.1 hi with rfl | hi
      · exact ⟨_, _, by rw [mkContentLine, hs]⟩
      · exact ih hr i hi

theorem dumpMulti_lines {L : Lib} {s : AttrSpec} (hs : upper s.ics = s.ics) {o : Obj σ} {st st' : DState}
    {is : List Item} (h : dumpMulti L s o st = .ok (is, st')) : ∀ i ∈ is, IsLine s.ics i := by
  unfold dumpMulti at h
  split at h
  · simp only [bind_ok_iff] at h
    obtain ⟨l, _, h⟩ := h
    exact dumpMultiLoop_lines hs h
  · cases h

theorem spanNames_upper : upper "DTSTART".toList = "DTSTART".toList ∧ upper "DURATION".toList = "DURATION".toList ∧
    (∀ c : SpanCls, upper c.endLine = c.endLine) ∧
    (∀ c : SpanCls, c.endLine = "DTEND".toList ∨ c.endLine = "DUE".toList) := by
  refine ⟨by decide, by decide, fun c => ?_, fun c => ?_⟩ <;> cases c <;> decide

theorem dumpSpan_lines {L : Lib} {o : Obj σ} {st st' : DState} {is : List Item}
    (h : dumpSpan L o st = .ok (is, st')) : ∀ i ∈ is, ∃ n ∈ Conv.timespan.names, IsLine n i := by
  unfold dumpSpan at h
  split at h
  · rename_i s _
    simp only [bind_ok_iff] at h
    obtain ⟨⟨a, st1⟩, ha, ⟨b, st2⟩, hb, h⟩ := h
    cases h
    intro i hi
    rcases List.mem_append.1 hi with hi | hi
    · unfold dumpSpanBegin at ha
      split at ha
      · cases ha
        simp at hi
      · split at ha
        · cases ha
        · simp only [bind_ok_iff] at ha
          obtain ⟨_, _, _, _, ha⟩ := ha
          cases ha
          obtain rfl := List.mem_singleton.1 hi
          exact ⟨"DTSTART".toList, by decide, _, _, by rw [mkContentLine, spanNames_upper.1]⟩
    · unfold dumpSpanEnd at hb
      split at hb
      · simp only [bind_ok_iff] at hb
        obtain ⟨_, _, hb⟩ := hb
        cases hb
        obtain rfl := List.mem_singleton.1 hi
        exact ⟨"DURATION".toList, by decide, _, _, by rw [mkContentLine, spanNames_upper.2.1]⟩
      · simp only [bind_ok_iff] at hb
        obtain ⟨_, _, _, _, hb⟩ := hb
        cases hb
        obtain rfl := List.mem_singleton.1 hi
        refine ⟨s.cls.endLine, ?_, _, _, by rw [mkContentLine, spanNames_upper.2.2.1]⟩
        rcases spanNames_upper.2.2.2 s.cls with h | h <;> rw [h] <;> decide
      · cases hb
        simp at hi
  · cases h

theorem dumpAction_lines {o : Obj σ} {st st' : DState} {is : List Item} (h : dumpAction o st = .ok (is, st')) :
    ∀ i ∈ is, IsLine "ACTION".toList i := by
  have e : upper "ACTION".toList = "ACTION".toList := by decide
  unfold dumpAction at h
  split at h <;> cases h <;> intro i hi <;> obtain rfl := List.mem_singleton.1 hi <;>
    exact ⟨_, _, by rw [mkContentLine, e]⟩

theorem dumpMembers_forall {mem : MemberDump σ} {l : List (Val σ)} {st st' : DState} {is : List Item}
    (h : dumpMembers mem l st = .ok (is, st')) :
    ∃ ms : List σ, l = ms.map .comp ∧ List.Forall₂ (fun m i => ∃ st1 st2, mem m st1 = .ok (i, st2)) ms is := by
  induction l generalizing st is with
  | nil =>
    cases h
    exact ⟨[], rfl, .nil⟩
  | cons v l ih =>
    cases v with
    | comp m =>
      simp only [dumpMembers, bind_ok_iff] at h
      obtain ⟨⟨i, st1⟩, h1, ⟨is1, st2⟩, h2, h⟩ := h
      cases h
      obtain ⟨ms, rfl, hf⟩ := ih h2
      exact ⟨m :: ms, rfl, .cons ⟨_, _, h1⟩ hf⟩
    | _ => cases h

theorem dumpMember_forall {mem : MemberDump σ} {a : Str} {o : Obj σ} {st st' : DState} {is : List Item}
    (h : dumpMember mem a o st = .ok (is, st')) :
    ∃ ms : List σ, o.get a = .many (ms.map .comp) ∧
      List.Forall₂ (fun m i => ∃ st1 st2, mem m st1 = .ok (i, st2)) ms is := by
  simp only [dumpMember, bind_ok_iff] at h
  obtain ⟨_, _, h⟩ := h
  cases hg : o.get a with
  | many l =>
    rw [hg] at h
    obtain ⟨ms, rfl, hf⟩ := dumpMembers_forall h
    exact ⟨ms, rfl, hf⟩
  | none => rw [hg] at h; cases h
  | one v => rw [hg] at h; cases h

/-- The members of a component are called what the class calls them. -/
def MembersNamed (nameOf : σ → Str) (o : Obj σ) : Prop :=
  ∀ a n, Conv.member a n ∈ o.cls.convs → ∀ ms : List σ, o.get a = .many (ms.map .comp) → ∀ m ∈ ms, nameOf m = n

/-- Members are written as containers with their name. -/
def DumpNamed (nameOf : σ → Str) (mem : MemberDump σ) : Prop :=
  ∀ m st i st', mem m st = .ok (i, st') → ∃ is, i = .cont (nameOf m) is

theorem dump_names {L : Lib} {mem : MemberDump σ} {nameOf : σ → Str} (hd : DumpNamed nameOf mem) {o : Obj σ}
    (ho : MembersNamed nameOf o) {cv : Conv} (hcv : cv ∈ o.cls.convs) {st st' : DState} {is : List Item}
    (h : cv.dump L mem o st = .ok (is, st')) :
    ∀ i ∈ is, i.name ∈ cv.names ∧ unhandled o.cls i = false := by
  cases cv with
  | value s =>
    have hu := names_upper _ _ hcv s.ics (List.mem_singleton_self _)
    have key : ∀ i ∈ is, IsLine s.ics i := by
      unfold Conv.dump at h
      dsimp only at h
      split at h
      · exact dumpMulti_lines hu h
      · exact dumpSingle_lines hu h
    intro i hi
    obtain ⟨p, v, rfl⟩ := key i hi
    have hn : s.ics ∈ (Conv.value s).names := List.mem_singleton_self _
    exact ⟨hn, not_unhandled hcv (i := .line ⟨s.ics, p, v⟩) hn fun _ _ => by simp⟩
  | member a n =>
    obtain ⟨ms, hg, hf⟩ := dumpMember_forall h
    intro i hi
    obtain ⟨m, hm, st1, st2, hmi⟩ : ∃ m ∈ ms, ∃ st1 st2, mem m st1 = .ok (i, st2) := by
      clear hg h
      induction hf with
      | nil => simp at hi
      | cons h1 _ ih =>
        rcases List.mem_cons.1 hi with rfl | hi
        · obtain ⟨st1, st2, h1⟩ := h1
          exact ⟨_, List.mem_cons_self, st1, st2, h1⟩
        · obtain ⟨m, hm, h⟩ := ih hi
          exact ⟨m, List.mem_cons_of_mem _ hm, h⟩
    obtain ⟨is', rfl⟩ := hd _ _ _ _ hmi
    have e := ho a n hcv ms hg m hm
    have hn : (Item.cont (nameOf m) is').name ∈ (Conv.member a n).names := by
      rw [Item.name, e]
      exact List.mem_singleton_self _
    exact ⟨hn, not_unhandled hcv hn fun _ h => by cases h⟩
  | timespan =>
    intro i hi
    obtain ⟨n, hn, p, v, rfl⟩ := dumpSpan_lines h i hi
    exact ⟨hn, not_unhandled hcv (i := .line ⟨n, p, v⟩) hn fun _ _ => by simp⟩
  | alarmAction =>
    intro i hi
    obtain ⟨p, v, rfl⟩ := dumpAction_lines h i hi
    have hn : "ACTION".toList ∈ Conv.alarmAction.names := List.mem_singleton_self _
    exact ⟨hn, not_unhandled hcv (i := .line ⟨_, p, v⟩) hn fun _ _ => by simp⟩
  | calendarTimezone =>
    cases h
    simp

/-- The converters write one after the other. -/
theorem dumpConvs_parts {L : Lib} {mem : MemberDump σ} {cvs : List Conv} {o : Obj σ} {st st' : DState}
    {is : List Item} (h : dumpConvs L mem cvs o st = .ok (is, st')) :
    ∃ parts : List (List Item), is = parts.flatten ∧
      List.Forall₂ (fun cv part => ∃ st1 st2, cv.dump L mem o st1 = .ok (part, st2)) cvs parts := by
  induction cvs generalizing st is with
  | nil =>
    cases h
    exact ⟨[], rfl, .nil⟩
  | cons cv cvs ih =>
    simp only [dumpConvs, bind_ok_iff] at h
    obtain ⟨⟨a, st1⟩, h1, ⟨b, st2⟩, h2, h⟩ := h
    cases h
    obtain ⟨parts, rfl, hf⟩ := ih h2
    exact ⟨a :: parts, rfl, .cons ⟨_, _, h1⟩ hf⟩

theorem own_append (cv : Conv) (a b : List Item) : cv.own (a ++ b) = cv.own a ++ cv.own b :=
  List.filter_append ..

theorem own_self {cv : Conv} {a : List Item} (h : ∀ i ∈ a, i.name ∈ cv.names) : cv.own a = a := by
  unfold Conv.own
  rw [List.filter_eq_self]
  intro i hi
  simpa using h i hi

theorem own_none {cv : Conv} {a : List Item} (h : ∀ i ∈ a, i.name ∉ cv.names) : cv.own a = [] := by
  unfold Conv.own
  rw [List.filter_eq_nil_iff]
  intro i hi
  simpa using h i hi

/-- The lines that a converter handles in what was written are those it wrote. -/
theorem parts_own {c : Cls} (hc : c ≠ .customAlarm) {cvs : List Conv} (hsub : ∀ cv ∈ cvs, cv ∈ c.convs)
    (hnd : cvs.Nodup) {parts : List (List Item)}
    (hp : List.Forall₂ (fun cv part => ∀ i ∈ part, i.name ∈ Conv.names cv) cvs parts) {cv : Conv} (hcv : cv ∈ c.convs) :
    (cv ∉ cvs → cv.own parts.flatten = []) ∧ (cv ∈ cvs → (cv, cv.own parts.flatten) ∈ cvs.zip parts) := by
  induction hp with
  | nil => exact ⟨fun _ => rfl, fun h => (by simp at h)⟩
  | @cons x part cvs parts h1 h2 ih =>
    have i := ih (fun y hy => hsub y (List.mem_cons_of_mem _ hy)) (List.nodup_cons.1 hnd).2
    have hx := (List.nodup_cons.1 hnd).1
    rw [List.flatten_cons, own_append]
    by_cases e : cv = x
    · subst e
      refine ⟨fun h => absurd List.mem_cons_self h, fun _ => ?_⟩
      rw [i.1 hx, List.append_nil, own_self h1]
      simp
    · have : cv.own part = [] := own_none fun j hj hn =>
        names_disjoint c hc x (hsub x List.mem_cons_self) cv hcv (Ne.symm e) _ (h1 j hj) hn
      rw [this, List.nil_append]
      refine ⟨fun h => i.1 fun h' => h (List.mem_cons_of_mem _ h'), fun h => ?_⟩
      rw [List.zip_cons_cons]
      exact List.mem_cons_of_mem _ (i.2 ((List.mem_cons.1 h).resolve_left e))

theorem forall₂_zip {α β : Type} {R : α → β → Prop} {l : List α} {l' : List β} (h : List.Forall₂ R l l') :
    ∀ p ∈ l.zip l', R p.1 p.2 := by
  induction h with
  | nil => simp
  | cons h1 _ ih =>
    intro p hp
    rw [List.zip_cons_cons] at hp
    rcases List.mem_cons.1 hp with rfl | hp
    · exact h1
    · exact ih p hp

theorem forall₂_mem {α β : Type} {R : α → β → Prop} {l : List α} {l' : List β} (h : List.Forall₂ R l l') :
    ∀ b ∈ l', ∃ a ∈ l, R a b := by
  induction h with
  | nil => simp
  | cons h1 _ ih =>
    intro b hb
    rcases List.mem_cons.1 hb with rfl | hb
    · exact ⟨_, List.mem_cons_self, h1⟩
    · obtain ⟨a, ha, hr⟩ := ih b hb
      exact ⟨a, List.mem_cons_of_mem _ ha, hr⟩

/-- Writing a component: its handled lines, then `extra`. -/
theorem dumpObj_parts {L : Lib} {mem : MemberDump σ} {nameOf : σ → Str} (hd : DumpNamed nameOf mem) {o : Obj σ}
    (ho : MembersNamed nameOf o) {st st' : DState} {i : Item} (h : dumpObj L mem o st = .ok (i, st')) :
    ∃ known, i = .cont o.extraName (known ++ o.extra) ∧ (∀ k ∈ known, unhandled o.cls k = false) ∧
      (o.cls ≠ .customAlarm → ∀ cv ∈ o.cls.convs, ∃ st1 st2, cv.dump L mem o st1 = .ok (cv.own known, st2)) := by
  simp only [dumpObj, bind_ok_iff] at h
  obtain ⟨⟨is, st1⟩, h1, h⟩ := h
  cases h
  obtain ⟨parts, rfl, hf⟩ := dumpConvs_parts h1
  have hf' : List.Forall₂ (fun cv part => (cv ∈ o.cls.convs ∧ ∃ st1 st2, cv.dump L mem o st1 = .ok (part, st2)))
      o.cls.convs parts := (List.forall₂_and_left _ _).2 ⟨fun _ h => h, hf⟩
  refine ⟨parts.flatten, rfl, ?_, fun hc cv hcv => ?_⟩
  · intro k hk
    obtain ⟨part, hpart, hk⟩ := List.mem_flatten.1 hk
    obtain ⟨cv, _, hcv, st1, st2, hd'⟩ := forall₂_mem hf' part hpart
    exact (dump_names hd ho hcv hd' k hk).2
  · have hn : List.Forall₂ (fun cv part => ∀ i ∈ part, i.name ∈ Conv.names cv) o.cls.convs parts :=
      hf'.imp fun cv part hcp i hi => by
        obtain ⟨hcv, st1, st2, hd'⟩ := hcp
        exact (dump_names hd ho hcv hd' i hi).1
    have := (parts_own hc (fun _ h => h) (convs_nodup _) hn hcv).2 hcv
    exact forall₂_zip hf _ this

/-- VTIMEZONE components are written as such. -/
def ZonesNamed (L : Lib) : Prop := ∀ z i, L.tzDump z = .ok i → ∃ is, i = .cont "VTIMEZONE".toList is

theorem dumpZones_names {L : Lib} (hz : ZonesNamed L) {zs : List (Str × Nat)} {is : List Item}
    (h : dumpZones L zs = .ok is) : ∀ i ∈ is, ∃ is', i = .cont "VTIMEZONE".toList is' := by
  induction zs generalizing is with
  | nil => cases h; simp
  | cons x zs ih =>
    obtain ⟨n, z⟩ := x
    simp only [dumpZones, bind_ok_iff] at h
    obtain ⟨i, h1, is1, h2, h⟩ := h
    cases h
    intro j hj
    rcases List.mem_cons.1 hj with rfl | hj
    · exact hz _ _ h1
    · exact ih h2 j hj

/-- Writing a calendar: the lines before the zones, the zones, the events and todos, and `extra`. -/
theorem dumpCalendar_parts {L : Lib} (hz : ZonesNamed L) {nameOf : EntryObj → Str}
    (hd : DumpNamed nameOf (dumpEntry L)) {o : CalObj} (hcls : o.cls = .calendar) (ho : MembersNamed nameOf o)
    {i : Item} (h : dumpCalendar L o = .ok i) :
    ∃ known, i = .cont o.extraName (known ++ o.extra) ∧ (∀ k ∈ known, unhandled .calendar k = false) ∧
      ∀ cv ∈ Cls.calendar.convs, cv ≠ .calendarTimezone →
        ∃ st1 st2, cv.dump L (dumpEntry L) o st1 = .ok (cv.own known, st2) := by
  simp only [dumpCalendar, bind_ok_iff] at h
  obtain ⟨⟨a, st1⟩, h1, ⟨b, st2⟩, h2, z, h3, h⟩ := h
  cases h
  obtain ⟨pa, rfl, hfa⟩ := dumpConvs_parts h1
  obtain ⟨pb, rfl, hfb⟩ := dumpConvs_parts h2
  have happ : calConvsBefore ++ calConvsAfter = Cls.calendar.convs := List.takeWhile_append_dropWhile ..
  have hf : List.Forall₂ (fun cv part => ∃ st1 st2, cv.dump L (dumpEntry L) o st1 = .ok (part, st2))
      Cls.calendar.convs (pa ++ pb) := happ ▸ List.rel_append hfa hfb
  have hf' : List.Forall₂ (fun cv part => (cv ∈ o.cls.convs ∧ ∃ st1 st2, cv.dump L (dumpEntry L) o st1 = .ok (part, st2)))
      Cls.calendar.convs (pa ++ pb) := (List.forall₂_and_left _ _).2 ⟨fun _ h => hcls ▸ h, hf⟩
  have hzn := dumpZones_names hz h3
  refine ⟨pa.flatten ++ z ++ pb.flatten, by simp [List.append_assoc], ?_, fun cv hcv hne => ?_⟩
  · intro k hk
    have : k ∈ (pa ++ pb).flatten ∨ k ∈ z := by
      rw [List.flatten_append]
      simp only [List.mem_append] at hk ⊢
      tauto
    rcases this with hk | hk
    · obtain ⟨part, hpart, hk⟩ := List.mem_flatten.1 hk
      obtain ⟨cv, _, hcv, st1, st2, hd'⟩ := forall₂_mem hf' part hpart
      exact hcls ▸ (dump_names hd ho hcv hd' k hk).2
    · obtain ⟨is', rfl⟩ := hzn k hk
      exact not_unhandled (cv := .calendarTimezone) (by decide)
        (show "VTIMEZONE".toList ∈ Conv.calendarTimezone.names by decide) fun _ e => by cases e
  · have hn : List.Forall₂ (fun cv part => ∀ i ∈ part, i.name ∈ Conv.names cv) Cls.calendar.convs (pa ++ pb) :=
      hf'.imp fun cv part hcp i hi => by
        obtain ⟨hcv, st1, st2, hd'⟩ := hcp
        exact (dump_names hd ho hcv hd' i hi).1
    have := (parts_own (c := .calendar) (by decide) (fun _ h => h) (convs_nodup _) hn hcv).2 hcv
    have e : cv.own (pa.flatten ++ z ++ pb.flatten) = cv.own (pa ++ pb).flatten := by
      rw [List.flatten_append, own_append, own_append, own_append, own_none (cv := cv) (a := z), List.append_nil]
      intro j hj
      obtain ⟨is', rfl⟩ := hzn j hj
      intro hmem
      have hzc : Conv.calendarTimezone ∈ Cls.calendar.convs := by decide
      exact names_disjoint .calendar (by decide) _ hzc cv hcv (Ne.symm hne) _
        (show "VTIMEZONE".toList ∈ Conv.calendarTimezone.names by decide) hmem
    rw [e]
    exact forall₂_zip hf _ this

theorem own_extra {c : Cls} {cv : Conv} (hcv : cv ∈ c.convs) (hz : cv ≠ .calendarTimezone) (items : List Item) :
    cv.own (items.filter (unhandled c)) = [] :=
  own_none fun _ hi => unhandled_name (List.mem_filter.1 hi).2 hcv hz

end Ics
