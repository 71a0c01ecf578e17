import Mathlib.Data.List.Forall2
import Verif.Spec.CalNormalize
import Verif.Model.CalNormalize
import Verif.Props.Normalize
import Verif.Props.CalEdited

/-
C105: `Calendar.normalize` on calendars that were read.
-/
namespace Ics

/-- How one time of a normalized span comes about. -/
def TimeMoved (e : Env) (z : Tz) (a b : Option DT) : Prop :=
  (a = none ∧ b = none) ∨ ∃ d x, a = some d ∧ b = some x ∧ (x = d.replaceTz (some z) ∨ e.astimezone d z = .ok x)

theorem replaceTimezone_parts {e : Env} {z : Tz} {s t : Span} (h : e.replaceTimezone s (some z) = .ok t) :
    e.validate t = .ok () ∧ t.cls = s.cls ∧ t.dur? = s.dur? ∧ t.prec = s.prec ∧ TimeMoved e z s.begin? t.begin? ∧
      TimeMoved e z s.end? t.end? := by
  unfold Env.replaceTimezone at h
  split at h
  · cases h
  · obtain ⟨hv, rfl⟩ := mkSpan_ok.1 h
    refine ⟨hv, rfl, rfl, rfl, ?_, ?_⟩
    · cases hb : s.begin? with
      | none => exact .inl ⟨rfl, by simp [hb]⟩
      | some d => exact .inr ⟨d, _, rfl, by simp [hb], .inl rfl⟩
    · cases hb : s.end? with
      | none => exact .inl ⟨rfl, by simp [hb]⟩
      | some d => exact .inr ⟨d, _, rfl, by simp [hb], .inl rfl⟩

theorem convertTimezone_parts {e : Env} {z : Tz} {s t : Span} (h : e.convertTimezone s (some z) = .ok t) :
    e.validate t = .ok () ∧ t.cls = s.cls ∧ t.dur? = s.dur? ∧ t.prec = s.prec ∧ TimeMoved e z s.begin? t.begin? ∧
      TimeMoved e z s.end? t.end? := by
  obtain ⟨_, b, en, hb, he, hm⟩ := convertTimezone_ok h
  obtain ⟨hv, rfl⟩ := mkSpan_ok.1 hm
  refine ⟨hv, rfl, rfl, rfl, ?_, ?_⟩
  · rcases convertOpt_ok hb with ⟨h1, h2⟩ | ⟨a, y, h1, h2, h3⟩
    · exact .inl ⟨h1, h2⟩
    · exact .inr ⟨a, y, h1, h2, .inr h3⟩
  · rcases convertOpt_ok he with ⟨h1, h2⟩ | ⟨a, y, h1, h2, h3⟩
    · exact .inl ⟨h1, h2⟩
    · exact .inr ⟨a, y, h1, h2, .inr h3⟩

/-- An event or todo after normalization: it is as before, or it has another time span. -/
theorem normalized_parts {L : Lib} {n : Normalization} {m m1 : EntryObj} (h : m.normalized L n = .ok m1) :
    ∃ s, m.get "timespan".toList = .one (.span s) ∧
      ((m1 = m ∧ (s.isAllDay = true ∨ n.action s.isFloating = .ignore)) ∨
        ∃ t, s.isAllDay = false ∧ L.normalizeSpan n s = .ok t ∧ n.action s.isFloating ≠ .ignore ∧
          m.change L (.assign "timespan".toList (.one (.span t))) = .ok m1) := by
  unfold Obj.normalized at h
  split at h
  · rename_i s hs
    refine ⟨s, hs, ?_⟩
    split at h
    · rename_i hd
      cases h
      exact .inl ⟨rfl, .inl hd⟩
    · rename_i hd
      have hd : s.isAllDay = false := by simpa using hd
      split at h
      · rename_i ha
        cases h
        exact .inl ⟨rfl, .inr ha⟩
      · rename_i ha
        obtain ⟨t, h1, h2⟩ := bind_ok_iff.1 h
        refine .inr ⟨t, hd, ?_, by rw [ha]; nofun, h2⟩
        unfold Env.normalizeSpan
        rw [ha]
        exact h1
      · rename_i ha
        obtain ⟨t, h1, h2⟩ := bind_ok_iff.1 h
        refine .inr ⟨t, hd, ?_, by rw [ha]; nofun, h2⟩
        unfold Env.normalizeSpan
        rw [ha]
        exact h1
  · cases h

theorem normalizeSpan_parts {e : Env} {n : Normalization} {z : Tz} (hz : n.replacement = some z) {s t : Span}
    (hn : n.action s.isFloating ≠ .ignore) (h : e.normalizeSpan n s = .ok t) :
    e.validate t = .ok () ∧ t.cls = s.cls ∧ t.dur? = s.dur? ∧ t.prec = s.prec ∧ TimeMoved e z s.begin? t.begin? ∧
      TimeMoved e z s.end? t.end? := by
  unfold Env.normalizeSpan at h
  split at h
  · rename_i ha; exact absurd ha hn
  · rw [hz] at h; exact replaceTimezone_parts h
  · rw [hz] at h; exact convertTimezone_parts h

/-- Assigning a time span. -/
theorem change_span {L : Lib} {m m1 : EntryObj} {t : Span}
    (h : m.change L (.assign "timespan".toList (.one (.span t))) = .ok m1) (hc : m.cls = .event ∨ m.cls = .todo) :
    m1 = { m with attrs := dictSet m.attrs "timespan".toList (.one (.span t)) } := by
  have h1 : m.cls.attrChecks.find? (fun x => x.1 = "timespan".toList) = some ("timespan".toList, .timespan m.cls.spanCls) := by
    rcases hc with hc | hc <;> rw [hc] <;> decide
  simp only [Obj.change, h1, Obj.setattr] at h
  obtain ⟨v, h2, rfl⟩ := map_ok_iff.1 h
  unfold Check.run at h2
  obtain ⟨_, _, rfl⟩ := map_ok_iff.1 h2
  rfl

theorem span_got {m : EntryObj} {t : Span} :
    Obj.get { m with attrs := dictSet m.attrs "timespan".toList (.one (.span t)) } "timespan".toList = .one (.span t) := by
  unfold Obj.get
  dsimp only
  rw [dictGet_set]
  rfl

/-- A whole second that was moved to a lawful zone is a whole second. -/
theorem whole_moved {L : Lib} (hW : WholeOffsets L) {zs : List (Str × Nat)} {z : Nat} (hl : L.Lawful (.zone z))
    (hz : RepZone L zs (some (.zone z))) {d x : DT} (d1 : d.wall % 1000000 = 0) (d3 : 0 ≤ d.wall) (d4 : d.wall < maxWall)
    (d6 : RepZone L zs d.tz) (hx : x = d.replaceTz (some (.zone z)) ∨ L.astimezone d (.zone z) = .ok x) :
    x.wall % 1000000 = 0 ∧ 0 ≤ x.wall ∧ x.wall < maxWall ∧ RepZone L zs x.tz := by
  rcases hx with rfl | hx
  · exact ⟨d1, d3, d4, hz⟩
  · obtain ⟨h1, h2⟩ := astimezone_instant hl hx
    have hw : x.wall % 1000000 = 0 := by
      unfold Env.instant at h2
      rw [h1] at h2
      dsimp only at h2
      have a1 := hW.1 z x.wall x.fold
      have h2 : x.wall - L.off z x.wall x.fold = _ := h2
      cases ht : d.tz with
      | none =>
        rw [ht] at h2
        dsimp only at h2
        have a2 := hW.2 d.wall d.fold
        omega
      | some t =>
        rw [ht] at h2 d6
        cases t with
        | zone k =>
          have h2 : x.wall - L.off z x.wall x.fold = d.wall - L.off k d.wall d.fold := h2
          have a2 := hW.1 k d.wall d.fold
          omega
        | loc k => exact d6.elim
        | fixed k => exact d6.elim
    have hr : 0 ≤ x.wall ∧ x.wall < maxWall := by
      rw [astimezone_eq] at hx
      split at hx
      · cases hx
        exact ⟨d3, d4⟩
      · split at hx
        · cases hx
        · split at hx
          · rename_i w hmk
            cases hx
            obtain ⟨k1, k2, rfl⟩ := mkWall_ok.1 hmk
            exact ⟨k1, k2⟩
          · cases hx
    exact ⟨hw, hr.1, hr.2, by rw [h1]; exact hz⟩

/-- A time that was moved to a lawful zone survives if it is settled. -/
theorem rep_moved {L : Lib} (hW : WholeOffsets L) {zs : List (Str × Nat)} {z : Nat} (hl : L.Lawful (.zone z))
    (hz : RepZone L zs (some (.zone z))) {d x : DT} (hd : RepTime L zs d)
    (hx : x = d.replaceTz (some (.zone z)) ∨ L.astimezone d (.zone z) = .ok x)
    (hs : x.fold = false ∧ (L.padYear = true ∨ 364877 * 86400000000 ≤ x.wall)) : RepTime L zs x := by
  obtain ⟨d1, _, d3, d4, _, d6⟩ := hd
  obtain ⟨k1, k2, k3, k4⟩ := whole_moved hW hl hz d1 d3 d4 d6 hx
  exact ⟨k1, hs.1, k2, k3, hs.2, k4⟩

theorem span_conv {c : Cls} (hc : c = .event ∨ c = .todo) {cv : Conv} (hcv : cv ∈ c.convs)
    (hof : cv.Of "timespan".toList) : cv = .timespan := by
  have : (c.convs.all fun cv => match cv with
      | .value s => decide (s.attr ≠ "timespan".toList)
      | .member a _ => decide (a ≠ "timespan".toList)
      | _ => true) = true := by
    rcases hc with rfl | rfl <;> decide +kernel
  have h := List.all_eq_true.1 this _ hcv
  cases cv with
  | value s =>
    dsimp only at h
    exact absurd hof (of_decide_eq_true h : s.attr ≠ _)
  | member a k =>
    dsimp only at h
    exact absurd hof (of_decide_eq_true h : a ≠ _)
  | timespan => rfl
  | alarmAction => exact hof.elim
  | calendarTimezone => exact hof.elim

/-- An event or todo that survives still does when it was normalized. -/
theorem entry_normalized {L : Lib} (hW : WholeOffsets L) (hL : WritableLib L) {zs : List (Str × Nat)} {n : Normalization}
    {z : Nat} (hn : n.replacement = some (.zone z)) (hl : L.Lawful (.zone z)) (hz : RepZone L zs (some (.zone z)))
    {m m1 : EntryObj} (hr : RepEntry L zs m) (hw : WritableEntry L m) (h : m.normalized L n = .ok m1)
    (hs : ∀ s d, m1.get "timespan".toList = .one (.span s) → s.begin? = some d ∨ s.end? = some d →
      d.fold = false ∧ (L.padYear = true ∨ 364877 * 86400000000 ≤ d.wall)) :
    RepEntry L zs m1 ∧ m1.cls = m.cls ∧ WritableEntry L m1 := by
  obtain ⟨s, hg, ⟨rfl, _⟩ | ⟨t, hd, ht, ha, hc⟩⟩ := normalized_parts h
  · exact ⟨hr, rfl, hw⟩
  · have hch : m.changes L [.assign "timespan".toList (.one (.span t))] = .ok m1 := by
      simp only [Obj.changes, hc]
      rfl
    have hm1 := change_span hc hr.1
    have hg1 : m1.get "timespan".toList = .one (.span t) := by rw [hm1]; exact span_got
    have htime : .timespan ∈ m.cls.convs := by rcases hr.1 with e | e <;> rw [e] <;> decide
    obtain ⟨s', hs'⟩ := hr.2.time htime
    have e : s' = s := by
      have := hs'.get
      rw [hg] at this
      cases this
      rfl
    subst e
    obtain ⟨p1, p2, p3, p4, p5, p6⟩ := normalizeSpan_parts hn ha ht
    have f := changes_frame hch
    have hrep : RepSpan L zs m1 t := by
      refine ⟨hg1, ?_, p1, ?_, ?_, ?_, ?_, ?_, ?_, ?_, ?_⟩
      · rw [p2, f.1]
        exact hs'.cls
      · rcases hs'.timed with ⟨h1, h2⟩ | ⟨h1, h2, h3⟩
        · refine .inl ⟨?_, p4 ▸ h2⟩
          rcases h1 with h1 | h1
          · rcases p5 with ⟨q1, _⟩ | ⟨_, _, _, q2, _⟩
            · rw [q1] at h1; cases h1
            · exact .inl (by rw [q2]; rfl)
          · rcases p6 with ⟨q1, _⟩ | ⟨_, _, _, q2, _⟩
            · rw [q1] at h1; cases h1
            · exact .inr (by rw [q2]; rfl)
        · refine .inr ⟨?_, ?_, p4 ▸ h3⟩
          · rcases p5 with ⟨_, q⟩ | ⟨_, _, q1, _⟩
            · exact q
            · rw [h1] at q1; cases q1
          · rcases p6 with ⟨_, q⟩ | ⟨_, _, q1, _⟩
            · exact q
            · rw [h2] at q1; cases q1
      · intro d hb
        rcases p5 with ⟨_, q⟩ | ⟨d0, x, q1, q2, q3⟩
        · rw [hb] at q; cases q
        · rw [hb] at q2
          cases q2
          exact rep_moved hW hl hz (hs'.begin d0 q1) q3 (hs t d hg1 (.inl hb))
      · intro d hb
        rcases p6 with ⟨_, q⟩ | ⟨d0, x, q1, q2, q3⟩
        · rw [hb] at q; cases q
        · rw [hb] at q2
          cases q2
          exact rep_moved hW hl hz (hs'.end_ d0 q1) q3 (hs t d hg1 (.inr hb))
      · rw [p3]
        exact hs'.dur
      · rw [f.2.2.2.1]
        refine ⟨hs'.beginParams.1, fun hb => hs'.beginParams.2 ?_⟩
        rcases p5 with ⟨q, _⟩ | ⟨_, _, _, q, _⟩
        · exact q
        · rw [hb] at q; cases q
      · rw [f.2.2.2.1]
        exact hs'.endParams
      · rw [f.2.2.2.1, f.1]
        refine ⟨hs'.dueParams.1, fun hb => hs'.dueParams.2 (hb.imp_left fun hb => ?_)⟩
        rcases p6 with ⟨q, _⟩ | ⟨_, _, _, q, _⟩
        · exact q
        · rw [hb] at q; cases q
      · rw [f.2.2.2.1, p3]
        exact hs'.durParams
    have hwt : ∀ d : DT, WritableTime L d := fun d t' z' _ hconv => hL.zones t' z' hconv
    refine ⟨entry_changed hr hch fun a hin cv hcv hof => ?_, f.1, writable_changed hw hch fun ch hin => ?_⟩
    · rw [f.1] at hcv
      have ha : a = "timespan".toList := List.mem_singleton.1 hin
      subst ha
      rw [span_conv hr.1 hcv hof]
      exact ⟨t, hrep⟩
    · rw [List.mem_singleton.1 hin]
      show WritableAttr _ _ (m1.get "timespan".toList)
      rw [hg1]
      exact ⟨fun d _ => hwt d, fun d _ => hwt d⟩

/-- The members of a list, one by one. -/
theorem normalizedMembers_each {L : Lib} {n : Normalization} {l l1 : List (Val EntryObj)}
    (h : normalizedMembers L n l = .ok l1) :
    List.Forall₂ (fun v v1 => ∃ m m1, v = .comp m ∧ v1 = .comp m1 ∧ m.normalized L n = .ok m1) l l1 := by
  induction l generalizing l1 with
  | nil =>
    cases h
    exact .nil
  | cons v l ih =>
    cases v with
    | comp m =>
      rw [normalizedMembers] at h
      obtain ⟨m1, h1, h⟩ := bind_ok_iff.1 h
      obtain ⟨l2, h2, h⟩ := bind_ok_iff.1 h
      cases h
      exact .cons ⟨m, m1, rfl, rfl, h1⟩ (ih h2)
    | _ => cases h

theorem normalizeList_parts {L : Lib} {n : Normalization} {o o1 : CalObj} {list : CalList}
    (h : o.normalizeList L n list = .ok o1) :
    ∃ l l1, o.get list.attr = .many l ∧ normalizedMembers L n l = .ok l1 ∧
      o1 = { o with attrs := dictSet o.attrs list.attr (.many l1) } := by
  unfold Obj.normalizeList at h
  split at h
  · rename_i l hg
    obtain ⟨l1, h1, h2⟩ := bind_ok_iff.1 h
    cases h2
    exact ⟨l, l1, hg, h1, rfl⟩
  · cases h

theorem list_got {o : CalObj} {a : Str} {v : AttrVal EntryObj} : Obj.get { o with attrs := dictSet o.attrs a v } a = v := by
  unfold Obj.get
  dsimp only
  rw [dictGet_set]
  rfl

theorem list_got_ne {o : CalObj} {a b : Str} {v : AttrVal EntryObj} (h : b ≠ a) :
    Obj.get { o with attrs := dictSet o.attrs a v } b = o.get b := by
  unfold Obj.get
  dsimp only
  rw [dictGet_set_ne _ _ h]

/-- What normalizing a calendar does to its lists. -/
theorem normalizeCalendar_parts {L : Lib} {n : Normalization} {o o1 : CalObj} (h : o.normalizeCalendar L n = .ok o1) :
    ∃ es es1 ts ts1, o.get "events".toList = .many es ∧ o.get "todos".toList = .many ts ∧
      normalizedMembers L n es = .ok es1 ∧ normalizedMembers L n ts = .ok ts1 ∧
      o1 = { o with attrs := dictSet (dictSet o.attrs "events".toList (.many es1)) "todos".toList (.many ts1) } := by
  unfold Obj.normalizeCalendar at h
  obtain ⟨o', h1, h2⟩ := bind_ok_iff.1 h
  obtain ⟨es, es1, k1, k2, rfl⟩ := normalizeList_parts h1
  obtain ⟨ts, ts1, k3, k4, rfl⟩ := normalizeList_parts h2
  exact ⟨es, es1, ts, ts1, k1, (list_got_ne (by decide)).symm.trans k3, k2, k4, rfl⟩

theorem normalizeCalendar_gets {L : Lib} {n : Normalization} {o o1 : CalObj} (h : o.normalizeCalendar L n = .ok o1) :
    (∀ list : CalList, ∃ l l1, o.get list.attr = .many l ∧ o1.get list.attr = .many l1 ∧ normalizedMembers L n l = .ok l1) ∧
    (∀ a, a ≠ "events".toList → a ≠ "todos".toList → o1.get a = o.get a) ∧
    o1.cls = o.cls ∧ o1.extraName = o.extraName ∧ o1.extra = o.extra ∧ o1.extraParams = o.extraParams := by
  obtain ⟨es, es1, ts, ts1, h1, h2, h3, h4, rfl⟩ := normalizeCalendar_parts h
  refine ⟨fun list => ?_, fun a ha hb => ?_, rfl, rfl, rfl, rfl⟩
  · cases list with
    | events =>
      exact ⟨es, es1, h1, (list_got_ne (o := { o with attrs := dictSet o.attrs "events".toList (.many es1) }) (by decide)).trans list_got, h3⟩
    | todos => exact ⟨ts, ts1, h2, list_got (o := { o with attrs := dictSet o.attrs "events".toList (.many es1) }), h4⟩
  · exact (list_got_ne (o := { o with attrs := dictSet o.attrs "events".toList (.many es1) }) hb).trans (list_got_ne ha)

theorem members_normalized {L : Lib} {n : Normalization} {ms : List EntryObj} {l1 : List (Val EntryObj)}
    (h : normalizedMembers L n (ms.map .comp) = .ok l1) :
    ∃ ms1 : List EntryObj, l1 = ms1.map .comp ∧ List.Forall₂ (fun m m1 => m.normalized L n = .ok m1) ms ms1 := by
  induction ms generalizing l1 with
  | nil =>
    cases h
    exact ⟨[], rfl, .nil⟩
  | cons m ms ih =>
    rw [List.map_cons, normalizedMembers] at h
    obtain ⟨m1, h1, h⟩ := bind_ok_iff.1 h
    obtain ⟨l2, h2, h⟩ := bind_ok_iff.1 h
    cases h
    obtain ⟨ms1, rfl, h3⟩ := ih h2
    exact ⟨m1 :: ms1, rfl, .cons h1 h3⟩

theorem fine_normalized {L : Lib} (hW : WholeOffsets L) (hL : WritableLib L) {zs : List (Str × Nat)} {n : Normalization}
    {z : Nat} (hn : n.replacement = some (.zone z)) (hl : L.Lawful (.zone z)) (hz : RepZone L zs (some (.zone z)))
    {o o1 : CalObj} (hf : Fine L zs o) (h : o.normalizeCalendar L n = .ok o1) (hs : Settled L o1) : Fine L zs o1 := by
  obtain ⟨hg, _⟩ := normalizeCalendar_gets h
  have key : ∀ list : CalList, ∃ ms1 : List EntryObj, o1.get list.attr = .many (ms1.map .comp) ∧
      ∀ m ∈ ms1, RepEntry L zs m ∧ m.cls = list.cls ∧ WritableEntry L m := by
    intro list
    obtain ⟨ms, k1, k2⟩ := fine_members hf list
    obtain ⟨l, l1, g1, g2, g3⟩ := hg list
    rw [k1] at g1
    cases g1
    obtain ⟨ms1, rfl, h3⟩ := members_normalized g3
    refine ⟨ms1, g2, fun m1 hm1 => ?_⟩
    obtain ⟨m, hm, h4⟩ := forall₂_mem h3 m1 hm1
    obtain ⟨r1, r2, r3⟩ := k2 m hm
    obtain ⟨q1, q2, q3⟩ := entry_normalized hW hL hn hl hz r1 r3 h4 fun s d hsp hd =>
      hs list _ m1 s d g2 (List.mem_map_of_mem hm1) hsp hd
    exact ⟨q1, q2.trans r2, q3⟩
  obtain ⟨es, es1, ts, ts1, _, _, _, _, e⟩ := normalizeCalendar_parts h
  obtain ⟨me, ge, he⟩ := key .events
  obtain ⟨mt, gt, ht⟩ := key .todos
  have e1 : o1.get "events".toList = .many es1 := by
    rw [e]
    exact (list_got_ne (o := { o with attrs := dictSet o.attrs "events".toList (.many es1) }) (by decide)).trans list_got
  have e2 : o1.get "todos".toList = .many ts1 := by
    rw [e]
    exact list_got (o := { o with attrs := dictSet o.attrs "events".toList (.many es1) })
  have e1 : es1 = me.map .comp := by
    have := e1.symm.trans ge
    cases this
    rfl
  have e2 : ts1 = mt.map .comp := by
    have := e2.symm.trans gt
    cases this
    rfl
  have f1 := fine_list hf .events me e1 he
  rw [e]
  exact fine_list f1 .todos mt e2 ht

/-- C105: a file is read (as in C65) and its calendar normalized, with any setting, to a lawful zone that the reader knows
(UTC for example).  If the times that result are settled, the calendar can be written with every line wrapping, and what is
written is read as the normalized calendar, up to quotation marks around parameter values. -/
theorem C105_text (L : Lib) (hU : UtcOk L) (hW : WholeOffsets L) (hL : WritableLib L) (txt : Str) (o o1 : CalObj)
    (h : calendarOfString L txt = .ok o)
    (hl : ∀ is, stringToContainers txt = Gen.done [.cont "VCALENDAR".toList is] → SafeCalendarItems is)
    (zs : List (Str × Nat)) (ho : SafeCalendar L zs o) (hz : ∀ n z, dictGet? zs n = some z → ZoneTrip L z)
    (n : Normalization) (z : Nat) (hn : n.replacement = some (.zone z)) (hlaw : L.Lawful (.zone z))
    (hk : RepZone L zs (some (.zone z))) (h1 : o.normalizeCalendar L n = .ok o1) (hs : Settled L o1)
    (w : Wrap) (hw : match w with | .none => True | .width _ W => 1 ≤ W) :
    ∃ txt' o2, serializeCalendar L w o1 = .ok txt' ∧ calendarOfString L txt' = .ok o2 ∧
      SameCalendar L (unquoteCalendar o1) (unquoteCalendar o2) := by
  obtain ⟨is, h2, h3⟩ := C58_one L txt o h
  have hi : WritableTree (.cont "VCALENDAR".toList is) :=
    item_good (txt := txt) (by rw [h2]; exact List.mem_singleton_self _) fun cl => nofun
  rw [WritableTree] at hi
  have hsafe := hl is h2
  obtain ⟨k1, k2⟩ := fine_normalized hW hL hn hlaw hk
    ⟨calendar_rep hU hW h3 hsafe ho, calendar_writable hL hi.2 h3 hsafe⟩ h1 hs
  exact cal_text hU k1 hz k2 w hw

theorem sameMoment_of {L : Lib} {z : Tz} (hl : L.Lawful z) {a b : Option DT}
    (h : (a = none ∧ b = none) ∨ ∃ d x, a = some d ∧ b = some x ∧ L.astimezone d z = .ok x) : SameMoment L z a b := by
  rcases h with ⟨rfl, rfl⟩ | ⟨d, x, rfl, rfl, h⟩
  · trivial
  · obtain ⟨h1, h2⟩ := astimezone_instant hl h
    exact ⟨h2, h1⟩

theorem member_moved {L : Lib} {n : Normalization} {z : Tz} (hn : n.replacement = some z) (hf : n.floating = .convert)
    (ht : n.withTz = .convert) (hl : L.Lawful z) {m m1 : EntryObj} (hc : m.cls = .event ∨ m.cls = .todo)
    (h : m.normalized L n = .ok m1) : MovedTo L z (.comp m) (.comp m1) := by
  have hact : ∀ b, n.action b = .convert := by
    intro b
    unfold Normalization.action
    rw [hf, ht]
    exact ite_self _
  obtain ⟨s, hg, ⟨rfl, hd⟩ | ⟨t, hd, h1, _, hch⟩⟩ := normalized_parts h
  · refine ⟨m1, m1, s, s, rfl, rfl, hg, hg, rfl, rfl, rfl, rfl, fun _ _ => rfl, fun _ => rfl, fun hp => ?_⟩
    rcases hd with hd | hd
    · exact absurd (by simpa [Span.isAllDay] using hd) hp
    · rw [hact] at hd
      cases hd
  · have hm1 := change_span hch hc
    unfold Env.normalizeSpan at h1
    rw [hact, hn] at h1
    dsimp only at h1
    obtain ⟨_, b, en, hb, he, hm⟩ := convertTimezone_ok h1
    obtain ⟨_, rfl⟩ := mkSpan_ok.1 hm
    have hp : s.prec ≠ .day := by simpa [Span.isAllDay] using hd
    obtain ⟨f1, f2, f3, f4, f5⟩ := change_frame hch
    have hg1 := congrArg (fun m => Obj.get m "timespan".toList) hm1
    rw [span_got] at hg1
    refine ⟨m, m1, s, _, rfl, rfl, hg, hg1, f1, f2, f3, f4, f5, fun e => absurd e hp,
      fun _ => ⟨sameMoment_of hl ?_, sameMoment_of hl ?_, rfl, rfl, rfl⟩⟩
    · exact convertOpt_ok hb
    · exact convertOpt_ok he

/-- C105: normalizing a calendar with conversion (the default) moves every begin and end of the events and todos that are
not all-day to the zone, without changing the instant; everything else of the calendar, of its events and of its todos is as
before. -/
theorem C105_moved (L : Lib) (n : Normalization) (z : Tz) (hn : n.replacement = some z) (hf : n.floating = .convert)
    (ht : n.withTz = .convert) (hl : L.Lawful z) (o o1 : CalObj)
    (ho : ∀ (list : CalList) (l : List (Val EntryObj)) (m : EntryObj), o.get list.attr = .many l → .comp m ∈ l →
      m.cls = .event ∨ m.cls = .todo)
    (h : o.normalizeCalendar L n = .ok o1) :
    (∀ list : CalList, ∃ l l1, o.get list.attr = .many l ∧ o1.get list.attr = .many l1 ∧ List.Forall₂ (MovedTo L z) l l1) ∧
    (∀ a, a ≠ "events".toList → a ≠ "todos".toList → o1.get a = o.get a) ∧
    o1.cls = o.cls ∧ o1.extraName = o.extraName ∧ o1.extra = o.extra ∧ o1.extraParams = o.extraParams := by
  obtain ⟨h1, h2⟩ := normalizeCalendar_gets h
  refine ⟨fun list => ?_, h2⟩
  obtain ⟨l, l1, g1, g2, g3⟩ := h1 list
  refine ⟨l, l1, g1, g2, ?_⟩
  have hc : ∀ m, .comp m ∈ l → m.cls = .event ∨ m.cls = .todo := fun m hm => ho list l m g1 hm
  have := normalizedMembers_each g3
  clear g1 g2 g3
  induction this with
  | nil => exact .nil
  | cons hv _ ih =>
    obtain ⟨m, m1, rfl, rfl, h3⟩ := hv
    exact .cons (member_moved hn hf ht hl (hc m List.mem_cons_self) h3) (ih fun m hm => hc m (List.mem_cons_of_mem _ hm))

/-- C105: which setting is used, and what it does.  An event or todo that is all-day is left alone.  Otherwise it is the
setting for floating times if none of its times has a zone, and the setting for times with a zone if not: to ignore it leaves
it alone, to replace gives the same clock times in the zone, to convert the same instants. -/
theorem C105_settings (L : Lib) (n : Normalization) (z : Tz) (hn : n.replacement = some z) (hl : L.Lawful z)
    (m m1 : EntryObj) (hc : m.cls = .event ∨ m.cls = .todo) (s : Span) (hg : m.get "timespan".toList = .one (.span s))
    (hr : s.InRange) (hv : L.validate s = .ok ()) (h : m.normalized L n = .ok m1) (action : NormAction)
    (ha : (∀ d, s.begin? = some d ∨ s.end? = some d → d.tz = none) ∧ action = n.floating ∨
      ¬(∀ d, s.begin? = some d ∨ s.end? = some d → d.tz = none) ∧ action = n.withTz) :
    (s.prec = .day → m1 = m) ∧
    (s.prec ≠ .day → match action with
      | .ignore => m1 = m
      | .replace => m1.get "timespan".toList = .one (.span { s with
          begin? := s.begin?.map fun d => ⟨d.wall, d.fold, some z⟩, end? := s.end?.map fun d => ⟨d.wall, d.fold, some z⟩ })
      | .convert => ∃ t, m1.get "timespan".toList = .one (.span t) ∧ SameMoment L z s.begin? t.begin? ∧
          SameMoment L z s.end? t.end? ∧ t.dur? = s.dur? ∧ t.prec = s.prec ∧ t.cls = s.cls) := by
  have hact : n.action s.isFloating = action := by
    have hfl := C50_floating L.toEnv s ((validate_ok L.toEnv s hr).1 hv)
    unfold Normalization.action
    rcases ha with ⟨h1, rfl⟩ | ⟨h1, rfl⟩
    · rw [if_pos (hfl.2 h1)]
    · rw [if_neg fun h2 => h1 (hfl.1 h2)]
  obtain ⟨s', hg', hcase⟩ := normalized_parts h
  rw [hg] at hg'
  cases hg'
  constructor
  · intro hp
    rcases hcase with ⟨e, _⟩ | ⟨t, hd, _⟩
    · exact e
    · rw [Span.isAllDay, decide_eq_true hp] at hd
      cases hd
  · intro hp
    rcases hcase with ⟨e, hd | hd⟩ | ⟨t, hd, h1, hni, hch⟩
    · exact absurd (by simpa [Span.isAllDay] using hd) hp
    · rw [hact] at hd
      subst hd
      exact e
    · have hg1 : m1.get "timespan".toList = .one (.span t) := by rw [change_span hch hc]; exact span_got
      rw [hact] at hni
      unfold Env.normalizeSpan at h1
      rw [hact, hn] at h1
      cases action with
      | ignore => exact absurd rfl hni
      | replace =>
        dsimp only at h1 ⊢
        unfold Env.replaceTimezone at h1
        rw [if_neg (by rw [hd]; simp)] at h1
        obtain ⟨_, rfl⟩ := mkSpan_ok.1 h1
        exact hg1
      | convert =>
        dsimp only at h1 ⊢
        obtain ⟨_, b, en, hb, he, hm⟩ := convertTimezone_ok h1
        obtain ⟨_, rfl⟩ := mkSpan_ok.1 hm
        exact ⟨_, hg1, sameMoment_of hl (convertOpt_ok hb), sameMoment_of hl (convertOpt_ok he), rfl, rfl, rfl⟩

theorem dictSet_self {κ ν : Type} [DecidableEq κ] {d : List (κ × ν)} {k : κ} {v : ν} (h : dictGet? d k = some v) :
    dictSet d k v = d := by
  induction d with
  | nil => cases h
  | cons kv d ih =>
    obtain ⟨k', v'⟩ := kv
    unfold dictGet? at h
    unfold dictSet
    split
    · rename_i e
      rw [if_pos e] at h
      cases h
      rw [e]
    · rename_i e
      rw [if_neg e] at h
      rw [ih h]

theorem member_again {L : Lib} {n : Normalization} {z : Tz} (hn : n.replacement = some z) {m m1 : EntryObj}
    (hc : m.cls = .event ∨ m.cls = .todo) (h : m.normalized L n = .ok m1) : m1.normalized L n = .ok m1 := by
  obtain ⟨s, hg, ⟨rfl, _⟩ | ⟨t, hd, h1, ha, hch⟩⟩ := normalized_parts h
  · exact h
  · have hm1 := change_span hch hc
    have hg1 : m1.get "timespan".toList = .one (.span t) := by rw [hm1]; exact span_got
    have hdt : t.isAllDay = false := by
      have := (normalizeSpan_parts hn ha h1).2.2.2.1
      unfold Span.isAllDay at hd ⊢
      rw [this]
      exact hd
    have h2 := C50_span_idempotent _ n z hn s t h1
    have hch2 : m1.change L (.assign "timespan".toList (.one (.span t))) = .ok m1 := by
      have hfind : ∀ c : Cls, (c = .event ∨ c = .todo) → c.attrChecks.find? (fun x => x.1 = "timespan".toList) =
          some ("timespan".toList, .timespan c.spanCls) := by
        intro c hc
        rcases hc with rfl | rfl <;> decide
      have hfr := (change_frame hch).1
      have k := hfind m.cls hc
      have k1 := hfind m1.cls (hfr ▸ hc)
      simp only [Obj.change, k, Obj.setattr] at hch
      obtain ⟨v, q1, _⟩ := map_ok_iff.1 hch
      simp only [Obj.change, k1, Obj.setattr]
      rw [hfr, q1]
      unfold Check.run at q1
      obtain ⟨_, _, rfl⟩ := map_ok_iff.1 q1
      show Except.ok _ = _
      congr 1
      have : dictSet m1.attrs "timespan".toList (.one (.span t)) = m1.attrs := by
        rw [hm1]
        exact dictSet_dictSet ..
      dsimp only
      rw [this, ← hfr]
    unfold Obj.normalized
    rw [hg1]
    dsimp only
    rw [if_neg (by rw [hdt]; simp)]
    unfold Env.normalizeSpan at h2
    split
    · rfl
    · rename_i ha2
      rw [ha2] at h2
      dsimp only at h2
      rw [h2]
      exact hch2
    · rename_i ha2
      rw [ha2] at h2
      dsimp only at h2
      rw [h2]
      exact hch2

/-- C105: normalizing a calendar again with the same setting changes nothing. -/
theorem C105_again (L : Lib) (n : Normalization) (z : Tz) (hn : n.replacement = some z) (o o1 : CalObj)
    (ho : ∀ (list : CalList) (l : List (Val EntryObj)) (m : EntryObj), o.get list.attr = .many l → .comp m ∈ l →
      m.cls = .event ∨ m.cls = .todo)
    (h : o.normalizeCalendar L n = .ok o1) : o1.normalizeCalendar L n = .ok o1 := by
  have key : ∀ (l l1 : List (Val EntryObj)), (∀ m, .comp m ∈ l → m.cls = .event ∨ m.cls = .todo) →
      normalizedMembers L n l = .ok l1 → normalizedMembers L n l1 = .ok l1 := by
    intro l l1 hl h
    have := normalizedMembers_each h
    clear h
    induction this with
    | nil => rfl
    | cons hv _ ih =>
      obtain ⟨m, m1, rfl, rfl, h3⟩ := hv
      rw [normalizedMembers, member_again hn (hl m List.mem_cons_self) h3]
      show (normalizedMembers L n _ >>= _) = _
      rw [ih fun m hm => hl m (List.mem_cons_of_mem _ hm)]
      rfl
  have hself : ∀ list : CalList, o1.normalizeList L n list = .ok o1 := by
    intro list
    obtain ⟨l, l1, g1, g2, g3⟩ := (normalizeCalendar_gets h).1 list
    unfold Obj.normalizeList
    rw [g2]
    dsimp only
    rw [key l l1 (fun m hm => ho list l m g1 hm) g3]
    show Except.ok _ = _
    have : dictSet o1.attrs list.attr (.many l1) = o1.attrs := by
      refine dictSet_self ?_
      unfold Obj.get at g2
      cases hd : dictGet? o1.attrs list.attr with
      | none => rw [hd] at g2; cases g2
      | some v => rw [hd] at g2; exact congrArg some g2
    rw [this]
  unfold Obj.normalizeCalendar
  rw [hself .events]
  exact hself .todos

/-- `Settled` as a program. -/
def settledB (L : Lib) (o : CalObj) : Bool :=
  [CalList.events, .todos].all fun list => match o.get list.attr with
    | .many l => l.all fun v => match v with
      | .comp m => match m.get "timespan".toList with
        | .one (.span s) => (s.begin?.toList ++ s.end?.toList).all fun d =>
            !d.fold && (L.padYear || decide (364877 * 86400000000 ≤ d.wall))
        | _ => true
      | _ => true
    | _ => true

theorem settled_of {L : Lib} {o : CalObj} (h : settledB L o = true) : Settled L o := by
  intro list l m s d hl hm hs hd
  unfold settledB at h
  have h := List.all_eq_true.1 h list (by cases list <;> simp)
  rw [hl] at h
  have h := List.all_eq_true.1 h _ hm
  dsimp only at h
  rw [hs] at h
  have h := List.all_eq_true.1 h d (by simpa using hd)
  simpa using h

/-- The example text normalized to UTC. -/
def exNorm : Normalization := ⟨some (.zone 2), .convert, .convert⟩

theorem exLib_utc_lawful : exLib.Lawful (.zone 2) := by
  intro u
  show u - 0 = u
  omega

/-- `C105_text` applies to the example text, which has an event in another zone and a todo that is all-day; the event now
begins at 17:00 UTC instead of 18:00. -/
example : ∃ o o1 txt' o2, calendarOfString exLib exText = .ok o ∧ o.normalizeCalendar exLib exNorm = .ok o1 ∧
    serializeCalendar exLib (.width .chars 75) o1 = .ok txt' ∧ calendarOfString exLib txt' = .ok o2 ∧
    SameCalendar exLib (unquoteCalendar o1) (unquoteCalendar o2) := by
  obtain ⟨o, h1, h2⟩ := exText_accepted
  have key : ((calendarOfString exLib exText >>= fun o => o.normalizeCalendar exLib exNorm).toOption.map (settledB exLib)) =
      some true := by
    unfold calendarOfString
    rw [exText_items]
    decide +kernel
  rw [h1] at key
  have key : ((o.normalizeCalendar exLib exNorm).toOption.map (settledB exLib)) = some true := key
  cases hn : o.normalizeCalendar exLib exNorm with
  | error e =>
    rw [hn] at key
    cases key
  | ok o1 =>
    rw [hn] at key
    obtain ⟨txt', o2, k1, k2, k3⟩ := C105_text exLib exLib_utc exLib_whole exLib_writable exText o o1 h1 (fun is h => by
        rw [exText_items] at h
        injection h with h
        injection h with h
        injection h with _ h
        exact h ▸ exTextItems_safe) _ h2 exZoneTrip exNorm 2 rfl exLib_utc_lawful (.inl (by decide)) hn
      (settled_of (Option.some.inj key)) (.width .chars 75) (by decide)
    exact ⟨o, o1, txt', o2, h1, hn, k1, k2, k3⟩

/-- The begins of the events of the example text before and after, which is what `C105_moved` is about. -/
example : ((calendarOfString exLib exText >>= fun o => (o.normalizeCalendar exLib exNorm).map fun o1 => [o, o1].map fun o =>
    match o.get "events".toList with
    | .many [.comp m] => match m.get "timespan".toList with | .one (.span s) => s.begin?.map fun d => (d.wall % 86400000000, d.tz) | _ => none
    | _ => none).toOption) =
    some [some (64800000000, some (.zone 1)), some (61200000000, some (.zone 2))] := by
  unfold calendarOfString
  rw [exText_items]
  decide +kernel

/-- With the setting to replace (`C105_settings`) the event begins at the same time of day, in the other zone; if times
with a zone are to be ignored it stays as it is. -/
example : ([NormAction.replace, .ignore].map fun a => (calendarOfString exLib exText >>= fun o =>
    (o.normalizeCalendar exLib ⟨some (.zone 2), .convert, a⟩).map fun o =>
    match o.get "events".toList with
    | .many [.comp m] => match m.get "timespan".toList with | .one (.span s) => s.begin?.map fun d => (d.wall % 86400000000, d.tz) | _ => none
    | _ => none).toOption) =
    [some (some (64800000000, some (.zone 2))), some (some (64800000000, some (.zone 1)))] := by
  unfold calendarOfString
  rw [exText_items]
  decide +kernel

end Ics
