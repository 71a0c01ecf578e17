import Verif.Spec.TimeEdit
import Verif.Model.TimeEdit
import Verif.Props.CalNormalize
import Verif.Proofs.ReadTime

/-
C106: events and todos whose times are changed after they were read.
-/
namespace Ics

/-- The span that an operation gives. -/
def editSpan (e : Env) (x : Entry) : Edit → Except PyErr Span
  | .timespan v => .ok v
  | .begin v => e.mkSpan { x.timespan with begin? := v }
  | .end_ v => e.mkSpan { x.timespan with end? := v, dur? := none }
  | .duration v => e.mkSpan { x.timespan with dur? := v, end? := none }
  | .convertEnd t => e.convertEnd x.timespan (x.endTarget t)
  | .makeAllDay => e.makeAllDay x.timespan
  | .unsetAllDay => e.mkSpan { x.timespan with prec := .other "seconds".toList }
  | .replaceTimezone tz => e.replaceTimezone x.timespan tz
  | .convertTimezone tz => e.convertTimezone x.timespan tz

theorem edit_eq (e : Env) (x : Entry) (c : Edit) : e.edit x c = e.assign (editSpan e x c) x := by
  cases c <;> rfl

theorem edit_parts {e : Env} {x y : Entry} {c : Edit} (h : e.edit x c = (.ok (), y)) :
    ∃ t, editSpan e x c = .ok t ∧ e.validateTimespan x.tsType t = .ok () ∧ y = { x with timespan := t } := by
  rw [edit_eq] at h
  unfold Env.assign at h
  cases hs : editSpan e x c with
  | error err => rw [hs] at h; cases h
  | ok t =>
    rw [hs] at h
    dsimp only at h
    unfold Env.setTimespan at h
    split at h
    · cases h
    · rename_i hv
      cases h
      exact ⟨t, rfl, hv, rfl⟩

theorem whole_add {L : Lib} {zs : List (Str × Nat)} {d x : DT} {td : Int} (hd : WholeTime L zs d) (ht : td % 1000000 = 0)
    (h : d.add td = .ok x) : WholeTime L zs x := by
  obtain ⟨h1, h2, h3, h4⟩ := hd
  unfold DT.add at h
  split at h
  · rename_i w hw
    cases h
    obtain ⟨k1, k2, rfl⟩ := mkWall_ok.1 hw
    exact ⟨by dsimp only; omega, k1, k2, h4⟩
  · cases h

theorem whole_sub {L : Lib} (hW : WholeOffsets L) (hB : BoundedOffsets L) {zs : List (Str × Nat)} {a b : DT} {d : Int}
    (ha : WholeTime L zs a) (hb : WholeTime L zs b) (h : L.sub a b = .ok d) : RepDur d := by
  obtain ⟨a1, a2, a3, a4⟩ := ha
  obtain ⟨b1, b2, b3, b4⟩ := hb
  unfold Env.sub at h
  unfold RepDur tdMin tdMax
  unfold maxWall at a3 b3
  split at h
  · cases h
    omega
  · split at h
    · rename_i oa ob ho hp
      cases h
      unfold Env.utcoffset at ho hp
      have off : ∀ (x : DT) (o : Int), RepZone L zs x.tz → x.tz.map (fun t => L.tzOff t x.wall x.fold) = some o →
          o % 1000000 = 0 ∧ -86400000000 < o ∧ o < 86400000000 := by
        intro x o hz ho
        cases ht : x.tz with
        | none => rw [ht] at ho; cases ho
        | some t =>
          rw [ht] at ho hz
          cases t with
          | zone n =>
            cases ho
            have := hB n x.wall x.fold
            refine ⟨hW.1 n x.wall x.fold, ?_, ?_⟩
            · show _ < L.off n x.wall x.fold
              omega
            · show L.off n x.wall x.fold < _
              omega
          | loc n => exact hz.elim
          | fixed n => exact hz.elim
      have p := off a oa a4 ho
      have q := off b ob b4 hp
      omega
    · cases h

theorem whole_effDur {L : Lib} (hW : WholeOffsets L) (hB : BoundedOffsets L) {zs : List (Str × Nat)} {s : Span}
    (hs : WholeTimes L zs s) {d : Int} (h : L.effDur s = .ok (some d)) : RepDur d := by
  unfold Env.effDur at h
  split at h
  · rename_i d' hd
    cases h
    exact hs.dur d hd
  · split at h
    · rename_i en b he hb
      split at h
      · rename_i d' hsub
        cases h
        exact whole_sub hW hB (hs.end_ en he) (hs.begin b hb) hsub
      · cases h
    · split at h
      · cases h
        unfold RepDur tdMin tdMax dayUs
        split <;> decide
      · cases h

theorem whole_effEnd {L : Lib} (hW : WholeOffsets L) (hB : BoundedOffsets L) {zs : List (Str × Nat)} {s : Span}
    (hs : WholeTimes L zs s) {d : DT} (h : L.effEnd s = .ok (some d)) : WholeTime L zs d := by
  unfold Env.effEnd at h
  split at h
  · rename_i en he
    cases h
    exact hs.end_ d he
  · split at h
    · cases h
    · rename_i b hb
      split at h
      · cases h
      · cases h
      · rename_i td htd
        split at h
        · rename_i en hadd
          cases h
          exact whole_add (hs.begin b hb) (whole_effDur hW hB hs htd).1 hadd
        · cases h

/-- A date without zone. -/
def BareDay (d : DT) : Prop := d.wall % dayUs = 0 ∧ 0 ≤ d.wall ∧ d.wall < maxWall ∧ d.tz = none

theorem BareDay.whole {L : Lib} {zs : List (Str × Nat)} {d : DT} (h : BareDay d) : WholeTime L zs d := by
  obtain ⟨h1, h2, h3, h4⟩ := h
  refine ⟨?_, h2, h3, by rw [h4]; trivial⟩
  unfold dayUs at h1
  omega

theorem floorDay_midnight {d : DT} (h0 : 0 ≤ d.wall) (h1 : d.wall < maxWall) : BareDay (d.floorDay.replaceTz none) := by
  unfold BareDay DT.floorDay DT.replaceTz dayUs
  dsimp only
  refine ⟨?_, ?_, ?_, rfl⟩ <;> omega

theorem midnight_add {d x : DT} (h : BareDay d) (ha : d.add dayUs = .ok x) : BareDay x := by
  obtain ⟨h1, h2, h3, h4⟩ := h
  unfold DT.add at ha
  split at ha
  · rename_i w hw
    cases ha
    obtain ⟨k1, k2, rfl⟩ := mkWall_ok.1 hw
    refine ⟨?_, k1, k2, h4⟩
    dsimp only
    unfold dayUs at *
    omega
  · cases ha

theorem ceilDay_midnight {e : Env} {d x : DT} (h0 : 0 ≤ d.wall) (h1 : d.wall < maxWall) (h : e.ceilDay d = .ok x) :
    BareDay (x.replaceTz none) := by
  unfold Env.ceilDay at h
  split at h
  · cases h
    exact floorDay_midnight h0 h1
  · unfold DT.add at h
    split at h
    · rename_i w hw
      cases h
      obtain ⟨k1, k2, rfl⟩ := mkWall_ok.1 hw
      refine ⟨?_, k1, k2, rfl⟩
      unfold DT.floorDay DT.replaceTz dayUs
      dsimp only
      omega
    · cases h

theorem allDayEnd_midnight {L : Lib} (hW : WholeOffsets L) (hB : BoundedOffsets L) {zs : List (Str × Nat)} {s : Span}
    (hs : WholeTimes L zs s) {x : DT} (h : L.allDayEnd? s = .ok (some x)) : BareDay x := by
  unfold Env.allDayEnd? at h
  obtain ⟨r, h1, h2⟩ := bind_ok_iff.1 h
  cases r with
  | none => cases h2
  | some en =>
    dsimp only at h2
    obtain ⟨y, h3, h4⟩ := bind_ok_iff.1 h2
    cases h4
    obtain ⟨_, e1, e2, _⟩ := whole_effEnd hW hB hs h1
    unfold Env.allDayEnd at h3
    obtain ⟨w, h5, h6⟩ := bind_ok_iff.1 h3
    have hm := ceilDay_midnight e1 e2 h5
    dsimp only at h6
    split at h6
    · split at h6
      · exact midnight_add hm h6
      · cases h6
        exact hm
    · cases h6
      exact hm

theorem whole_span {L : Lib} (hW : WholeOffsets L) (hB : BoundedOffsets L) {zs : List (Str × Nat)} {x : Entry} {c : Edit}
    {t : Span} (hs : WholeTimes L zs x.timespan) (hc : LastingTime L zs c) (h : editSpan L.toEnv x c = .ok t) :
    WholeTimes L zs t := by
  cases c with
  | timespan v => cases h; exact hc
  | begin v =>
    obtain ⟨_, rfl⟩ := mkSpan_ok.1 h
    exact ⟨hs.prec, hc, hs.end_, hs.dur⟩
  | end_ v =>
    obtain ⟨_, rfl⟩ := mkSpan_ok.1 h
    exact ⟨hs.prec, hs.begin, hc, nofun⟩
  | duration v =>
    obtain ⟨_, rfl⟩ := mkSpan_ok.1 h
    exact ⟨hs.prec, hs.begin, nofun, hc⟩
  | convertEnd tg =>
    unfold editSpan Env.convertEnd at h
    dsimp only at h
    split at h
    · cases h; exact hs
    · split at h
      · obtain ⟨d, h1, h2⟩ := bind_ok_iff.1 h
        obtain ⟨_, rfl⟩ := mkSpan_ok.1 h2
        refine ⟨hs.prec, hs.begin, nofun, fun d' hd' => ?_⟩
        dsimp only at hd'
        subst hd'
        exact whole_effDur hW hB hs h1
      · split at h
        · obtain ⟨d, h1, h2⟩ := bind_ok_iff.1 h
          obtain ⟨_, rfl⟩ := mkSpan_ok.1 h2
          refine ⟨hs.prec, hs.begin, fun d' hd' => ?_, nofun⟩
          dsimp only at hd'
          subst hd'
          exact whole_effEnd hW hB hs h1
        · split at h
          · obtain ⟨_, rfl⟩ := mkSpan_ok.1 h
            exact ⟨hs.prec, hs.begin, nofun, nofun⟩
          · cases h
  | makeAllDay =>
    unfold editSpan Env.makeAllDay at h
    dsimp only at h
    split at h
    · cases h; exact hs
    · obtain ⟨en, h1, h2⟩ := bind_ok_iff.1 h
      have hbegin : ∀ d, x.timespan.begin?.map (fun b => b.floorDay.replaceTz none) = some d → BareDay d := by
        intro d hd
        obtain ⟨b, hb, rfl⟩ := Option.map_eq_some_iff.1 hd
        obtain ⟨_, b1, b2, _⟩ := hs.begin b hb
        exact floorDay_midnight b1 b2
      have hend : ∀ d, en = some d → BareDay d := by
        intro d hd
        subst hd
        exact allDayEnd_midnight hW hB hs h1
      unfold Env.makeAllDayFrom at h2
      split at h2
      · split at h2
        · rename_i en' b' hb'
          obtain ⟨d, h3, h4⟩ := bind_ok_iff.1 h2
          obtain ⟨_, rfl⟩ := mkSpan_ok.1 h4
          refine ⟨.inl rfl, fun d' hd' => ?_, nofun, fun d' hd' => ?_⟩
          · cases hd'
            exact (hbegin _ hb').whole
          · cases hd'
            exact whole_sub hW hB (zs := zs) (hend _ rfl).whole (hbegin _ hb').whole h3
        · cases h2
      · obtain ⟨_, rfl⟩ := mkSpan_ok.1 h2
        exact ⟨.inl rfl, fun d hd => (hbegin d hd).whole, fun d hd => (hend d hd).whole, nofun⟩
  | unsetAllDay => exact hc.elim
  | replaceTimezone tz =>
    unfold editSpan Env.replaceTimezone at h
    dsimp only at h
    split at h
    · cases h
    · obtain ⟨_, rfl⟩ := mkSpan_ok.1 h
      refine ⟨hs.prec, fun d hd => ?_, fun d hd => ?_, hs.dur⟩
      · obtain ⟨b, hb, rfl⟩ := Option.map_eq_some_iff.1 hd
        obtain ⟨k1, k2, k3, _⟩ := hs.begin b hb
        exact ⟨k1, k2, k3, hc⟩
      · obtain ⟨b, hb, rfl⟩ := Option.map_eq_some_iff.1 hd
        obtain ⟨k1, k2, k3, _⟩ := hs.end_ b hb
        exact ⟨k1, k2, k3, hc⟩
  | convertTimezone tz =>
    obtain ⟨z, rfl, hlaw, hz⟩ := hc
    have h : L.convertTimezone x.timespan (some (.zone z)) = .ok t := h
    obtain ⟨_, p2, p3, p4, p5, p6⟩ := convertTimezone_parts h
    have moved : ∀ {a b : Option DT}, (∀ d, a = some d → WholeTime L zs d) → TimeMoved L.toEnv (.zone z) a b →
        ∀ d, b = some d → WholeTime L zs d := by
      intro a b ha hm d hd
      rcases hm with ⟨_, q⟩ | ⟨d0, y, q1, q2, q3⟩
      · rw [hd] at q; cases q
      · rw [hd] at q2
        cases q2
        obtain ⟨d1, d2, d3, d4⟩ := ha d0 q1
        exact whole_moved hW hlaw hz d1 d2 d3 d4 q3
    exact ⟨p4 ▸ hs.prec, moved hs.begin p5, moved hs.end_ p6, p3 ▸ hs.dur⟩

/-- An operation on the time is an assignment to `timespan`. -/
theorem timeEdit_parts {L : Lib} {m m1 : EntryObj} {c : Edit} (hcls : m.cls = .event ∨ m.cls = .todo)
    (h : m.timeEdit L c = .ok m1) :
    ∃ s t, m.get "timespan".toList = .one (.span s) ∧ editSpan L.toEnv ⟨m.cls.spanCls, s, none⟩ c = .ok t ∧
      m.change L (.assign "timespan".toList (.one (.span t))) = .ok m1 ∧ m1.get "timespan".toList = .one (.span t) ∧
      L.validate t = .ok () ∧ t.cls = m.cls.spanCls := by
  unfold Obj.timeEdit at h
  split at h
  · rename_i s hg
    split at h
    · rename_i y hy
      cases h
      obtain ⟨t, h1, h2, rfl⟩ := edit_parts hy
      have hv : L.validate t = .ok () ∧ t.cls = m.cls.spanCls := by
        unfold Env.validateTimespan at h2
        dsimp only at h2
        split at h2
        · rename_i hi
          refine ⟨h2, ?_⟩
          unfold isInstance at hi
          rcases hcls with e | e <;> rw [e] at hi ⊢ <;> exact of_decide_eq_true hi
        · cases h2
      refine ⟨s, t, hg, h1, ?_, span_got, hv⟩
      have k : m.cls.attrChecks.find? (fun x => x.1 = "timespan".toList) = some ("timespan".toList, .timespan m.cls.spanCls) := by
        rcases hcls with hc | hc <;> rw [hc] <;> decide
      simp only [Obj.change, k, Obj.setattr, Check.run]
      dsimp only at h2
      rw [h2]
      rfl
    · cases h
  · cases h

/-- All operations together. -/
theorem timeEdits_parts {L : Lib} (hW : WholeOffsets L) (hB : BoundedOffsets L) {zs : List (Str × Nat)} {cs : List Edit}
    {m m1 : EntryObj} {s : Span} (hcls : m.cls = .event ∨ m.cls = .todo) (hg : m.get "timespan".toList = .one (.span s))
    (hs : WholeTimes L zs s) (hv : L.validate s = .ok () ∧ s.cls = m.cls.spanCls) (hc : ∀ c ∈ cs, LastingTime L zs c)
    (h : m.timeEdits L cs = .ok m1) :
    ∃ t, m1.get "timespan".toList = .one (.span t) ∧ WholeTimes L zs t ∧ L.validate t = .ok () ∧ t.cls = m.cls.spanCls ∧
      ∃ chs, m.changes L chs = .ok m1 ∧ ∀ ch ∈ chs, ch.attr = "timespan".toList := by
  induction cs generalizing m s with
  | nil =>
    cases h
    exact ⟨s, hg, hs, hv.1, hv.2, [], rfl, fun ch hch => absurd hch List.not_mem_nil⟩
  | cons c cs ih =>
    rw [Obj.timeEdits] at h
    obtain ⟨m', h1, h2⟩ := bind_ok_iff.1 h
    obtain ⟨s', t, k1, k2, k3, k4, k5, k6⟩ := timeEdit_parts hcls h1
    rw [hg] at k1
    cases k1
    have hcls' : m'.cls = m.cls := (change_frame k3).1
    have hw := whole_span hW hB (x := ⟨m.cls.spanCls, s, none⟩) hs (hc c List.mem_cons_self) k2
    obtain ⟨t', q1, q2, q3, q4, chs, q5, q6⟩ := ih (hcls' ▸ hcls) k4 hw ⟨k5, hcls' ▸ k6⟩
      (fun c hm => hc c (List.mem_cons_of_mem _ hm)) h2
    refine ⟨t', q1, q2, q3, hcls' ▸ q4, .assign "timespan".toList (.one (.span t)) :: chs, ?_, ?_⟩
    · rw [Obj.changes, k3]
      exact q5
    · intro ch hm
      rcases List.mem_cons.1 hm with rfl | hm
      · rfl
      · exact q6 ch hm

theorem rep_timeEdited {L : Lib} (hW : WholeOffsets L) (hB : BoundedOffsets L) {zs : List (Str × Nat)} {cs : List Edit}
    {m m1 : EntryObj} (hr : RepEntry L zs m) {s t : Span} (hg : m.get "timespan".toList = .one (.span s)) (hd : s.Dated)
    (hc : ∀ c ∈ cs, LastingTime L zs c) (h : m.timeEdits L cs = .ok m1) (hg1 : m1.get "timespan".toList = .one (.span t))
    (hd1 : t.Dated) (hs1 : t.Settled L) (hn : t.NoStale m) : RepEntry L zs m1 ∧ m1.cls = m.cls := by
  have htime : .timespan ∈ m.cls.convs := by rcases hr.1 with e | e <;> rw [e] <;> decide
  obtain ⟨s', hs'⟩ := hr.2.time htime
  have e : s' = s := by
    have := hs'.get
    rw [hg] at this
    cases this
    rfl
  subst e
  have hw : WholeTimes L zs s' := by
    have hp : s'.prec = .day ∨ s'.prec = .second := by
      rcases hs'.timed with ⟨_, h⟩ | ⟨h1, h2, _⟩
      · exact h
      · rcases hd with hd | hd
        · rw [h1] at hd; cases hd
        · rw [h2] at hd; cases hd
    have hrt : ∀ d, RepTime L zs d → WholeTime L zs d := fun d hd => ⟨hd.1, hd.2.2.1, hd.2.2.2.1, hd.2.2.2.2.2⟩
    exact ⟨hp, fun d h => hrt d (hs'.begin d h), fun d h => hrt d (hs'.end_ d h), hs'.dur⟩
  obtain ⟨t', q1, q2, q3, q4, chs, q5, q6⟩ := timeEdits_parts hW hB hr.1 hg hw ⟨hs'.valid, hs'.cls⟩ hc h
  rw [hg1] at q1
  cases q1
  have f := changes_frame q5
  have hrt : ∀ d, WholeTime L zs d → t.begin? = some d ∨ t.end? = some d → RepTime L zs d := fun d hw hd =>
    ⟨hw.1, (hs1 d hd).1, hw.2.1, hw.2.2.1, (hs1 d hd).2, hw.2.2.2⟩
  have hrep : RepSpan L zs m1 t := by
    refine ⟨hg1, by rw [q4, f.1], q3, .inl ⟨hd1, q2.prec⟩, fun d hd => hrt d (q2.begin d hd) (.inl hd),
      fun d hd => hrt d (q2.end_ d hd) (.inr hd), q2.dur, ?_, ?_, ?_, ?_⟩
    · rw [f.2.2.2.1]
      exact ⟨hs'.beginParams.1, hn.1⟩
    · rw [f.2.2.2.1]
      exact hs'.endParams
    · rw [f.2.2.2.1, f.1]
      exact ⟨hs'.dueParams.1, fun hb => hb.elim hn.2.1 fun hne => hs'.dueParams.2 (.inr hne)⟩
    · rw [f.2.2.2.1]
      exact ⟨hs'.durParams.1, hn.2.2⟩
  refine ⟨entry_changed hr q5 fun a hin cv hcv hof => ?_, f.1⟩
  obtain ⟨ch, hm, rfl⟩ := List.mem_map.1 hin
  rw [q6 ch hm] at hof
  rw [f.1] at hcv
  rw [span_conv hr.1 hcv hof]
  exact ⟨t, hrep⟩

/-- C106: an event or todo that was read (as in C65) has a begin or an end.  Its times are changed in any number of steps:
begin, end and duration are set to whole seconds, the end is converted to a duration or back, it is made all-day, its zone is
replaced or converted.  If at the end there is a begin or an end, no time is in the second half of an overlap or in a year
before 1000, and no parameters are left of what is no longer there, it is written, and what is written is read as the same.

Missing for the full claim: `unset_all_day` (`C106_unset_fails`), entries without begin and end (`C106_undated_fails`). -/
theorem C106_edited_partial (L : Lib) (hU : UtcOk L) (hW : WholeOffsets L) (hB : BoundedOffsets L) (c : Cls)
    (hc : c = .event ∨ c = .todo) (items : List Item) (zones zs : List (Str × Nat)) (o : EntryObj) (ctx : Ctx)
    (h : loadEntry L c items (some zones) = .ok (o, ctx)) (hl : SafeEntryItems c items) (ho : SafeEntry L zs o)
    (s : Span) (hg : o.get "timespan".toList = .one (.span s)) (hd : s.Dated)
    (cs : List Edit) (hcs : ∀ c ∈ cs, LastingTime L zs c) (o1 : EntryObj) (h1 : o.timeEdits L cs = .ok o1)
    (t : Span) (hg1 : o1.get "timespan".toList = .one (.span t)) (hd1 : t.Dated) (hs1 : t.Settled L) (hn : t.NoStale o) :
    ∃ items' used, dumpEntry L o1 { ctx := some [] } = .ok (.cont c.icsName items', { ctx := some used }) ∧
      (∀ n z, dictGet? used n = some z → dictGet? zs n = some z) ∧
      ∀ zones', (∀ n z, dictGet? used n = some z → Knows L zones' n z) →
        ∃ o2 ctx', loadEntry L c items' (some zones') = .ok (o2, ctx') ∧ SameEntry L o1 o2 := by
  have hcls : o.cls = c := (loadObj_frame h).1
  obtain ⟨hrep, f1⟩ := rep_timeEdited hW hB (entry_rep hU hW hc h hl ho) hg hd hcs h1 hg1 hd1 hs1 hn
  obtain ⟨items', used, k1, k2, k3⟩ := C41_roundtrip_partial L hU zs o1 hrep
  rw [f1, hcls] at k1 k3
  exact ⟨items', used, k1, k2, k3⟩

/-- C106, an event or todo that was read without begin and end: a begin can be set, but then no duration that is not
negative and no other end, as the precision of the time is not known: `KeyError`. -/
theorem C106_undated_fails (L : Lib) (m m1 : EntryObj) (hc : m.cls = .event ∨ m.cls = .todo)
    (hg : m.get "timespan".toList = .one (.span ⟨m.cls.spanCls, none, none, none, .other []⟩)) (b : DT)
    (h : m.timeEdit L (.begin (some b)) = .ok m1) :
    (∀ d, 0 ≤ d → m1.timeEdit L (.duration (some d)) = .error .keyError) ∧
    (∀ en, en.tz = b.tz → b.wall < en.wall → m1.timeEdit L (.end_ (some en)) = .error .keyError) := by
  obtain ⟨s, t, k1, k2, k3, k4, k5, k6⟩ := timeEdit_parts hc h
  rw [hg] at k1
  cases k1
  obtain ⟨_, rfl⟩ := mkSpan_ok.1 k2
  have hcls : m1.cls = m.cls := (change_frame k3).1
  have fail : ∀ (c : Edit) (u : Span), (∀ x : Entry, x.timespan = ⟨m.cls.spanCls, some b, none, none, .other []⟩ →
      editSpan L.toEnv x c = L.mkSpan u) → L.validate u = .error .keyError → m1.timeEdit L c = .error .keyError := by
    intro c u h1 h2
    unfold Obj.timeEdit
    rw [k4]
    dsimp only
    rw [edit_eq, h1 _ rfl]
    unfold Env.mkSpan
    rw [h2]
    rfl
  constructor
  · intro d hd
    refine fail _ _ (fun x hx => by unfold editSpan; rw [hx]) ?_
    unfold Env.validate Env.validateBase
    simp only [Env.validatePrecision, ifGiven, validateDur, raiseIf, timedeltaCache]
    have : ¬ d < 0 := by omega
    simp [this, bind, Except.bind]
  · intro en he hlt
    refine fail _ _ (fun x hx => by unfold editSpan; rw [hx]) ?_
    have hne : ¬ (b.wall - en.wall > 0) := by omega
    unfold Env.validate Env.validateBase
    simp only [Env.validatePrecision, ifGiven, Env.validateEnd, Env.validateOneDay, raiseIf, timedeltaCache, Env.gt, Env.cmp,
      Env.sub, Env.validateExtent, Env.effDur, he]
    have h0 : ¬ 0 < b.wall - en.wall := by omega
    have h1 : en.wall - b.wall ≠ 0 := by omega
    have h2 : ¬ en.wall < b.wall := by omega
    have h3 : en.wall ≠ b.wall := by omega
    cases hz : b.tz <;> simp [bind, Except.bind, Except.map, h0, h1, h2, h3]

/-- C106, `unset_all_day`: nothing at all that is read is what it gives, as the precision is then `seconds`, which no text
gives. -/
theorem C106_unset_fails (L : Lib) (m m1 : EntryObj) (hc : m.cls = .event ∨ m.cls = .todo)
    (h : m.timeEdit L .unsetAllDay = .ok m1) (items : List Item) (zones : List (Str × Nat)) (o2 : EntryObj) (ctx : Ctx)
    (h2 : loadEntry L m.cls items (some zones) = .ok (o2, ctx)) : ¬ SameEntry L m1 o2 := by
  intro hsame
  obtain ⟨s, t, _, k2, k3, k4, _, _⟩ := timeEdit_parts hc h
  obtain ⟨_, e⟩ := mkSpan_ok.1 k2
  have hp : t.prec = .other "seconds".toList := by rw [← e]
  have hcls : m1.cls = m.cls := (change_frame k3).1
  obtain ⟨sp, g1, _, _, said⟩ := load_time (fun _ items => loadAlarm_stable L items) h2 (by rcases hc with e | e <;> rw [e] <;> decide)
  have g : o2.get "timespan".toList = .one (.span sp) := by
    unfold Obj.get
    rw [g1]
    rfl
  have key := hsame.attrs "timespan" (by rw [hcls]; rcases hc with e | e <;> rw [e] <;> decide)
  rw [k4, g] at key
  have hsp : sp.prec = .other "seconds".toList := by
    cases key with
    | one hv =>
      cases hv with
      | same => exact hp
      | span hv => exact hv.prec.symm.trans hp
  by_cases hno : ∀ cl, .line cl ∈ items → ¬ (cl.name = "DTSTART".toList ∨ IsEnd cl)
  · have := said.noTime hno
    rw [hsp] at this
    cases this
  · obtain ⟨cl, hcl⟩ := not_forall.1 hno
    obtain ⟨h3, h4⟩ := _root_.not_imp.1 hcl
    obtain ⟨d, p, hsay⟩ := said.all cl h3 (not_not.1 h4)
    have := said.precision cl d p h3 (not_not.1 h4) hsay
    rw [hsp] at this
    cases hsay <;> cases this

/-- The end becomes a duration, the begin is moved, the event is made all-day, and is then three days long. -/
def exTimeSteps : List Edit :=
  [.convertEnd .duration, .begin (some ⟨63845078400000000, false, some (.zone 1)⟩), .convertTimezone (some (.zone 2)), .makeAllDay,
    .duration (some 259200000000)]

theorem exLib_bounded : BoundedOffsets exLib := by
  intro n w f
  show _ < (if n = 1 then (3600000000 : Int) else 0) ∧ (if n = 1 then (3600000000 : Int) else 0) < _
  split <;> omega

theorem exTimeSteps_lasting : ∀ c ∈ exTimeSteps, LastingTime exLib [("X/Y".toList, 1)] c := by
  intro c hc
  simp only [exTimeSteps, List.mem_cons, List.not_mem_nil, or_false] at hc
  rcases hc with rfl | rfl | rfl | rfl | rfl
  · trivial
  · intro d hd
    cases hd
    refine ⟨by decide, by decide, by decide, .inr ⟨rfl, by decide, by decide⟩⟩
  · exact ⟨2, rfl, exLib_utc_lawful, .inl (by decide)⟩
  · trivial
  · intro d hd
    cases hd
    unfold RepDur tdMin tdMax
    decide

/-- The conditions of `C106_edited_partial` on the result as a program. -/
def timeEditB (L : Lib) (m m1 : EntryObj) : Bool :=
  match m.get "timespan".toList, m1.get "timespan".toList with
  | .one (.span s), .one (.span t) =>
    (s.begin?.isSome || s.end?.isSome) && (t.begin?.isSome || t.end?.isSome) &&
    ((t.begin?.toList ++ t.end?.toList).all fun d => !d.fold && (L.padYear || decide (364877 * 86400000000 ≤ d.wall))) &&
    (t.begin?.isSome || (dictGet? m.extraParams "BEGIN".toList).isNone) &&
    (t.end?.isSome || (dictGet? m.extraParams "DUE".toList).isNone) &&
    (t.dur?.isSome || (dictGet? m.extraParams "DURATION".toList).isNone)
  | _, _ => false

theorem timeEdit_of {L : Lib} {m m1 : EntryObj} (h : timeEditB L m m1 = true) :
    ∃ s t, m.get "timespan".toList = .one (.span s) ∧ m1.get "timespan".toList = .one (.span t) ∧ s.Dated ∧ t.Dated ∧
      t.Settled L ∧ t.NoStale m := by
  unfold timeEditB at h
  split at h
  · rename_i s t hs ht
    simp only [Bool.and_eq_true, Bool.or_eq_true, List.all_eq_true, Option.isNone_iff_eq_none] at h
    obtain ⟨⟨⟨⟨⟨h1, h2⟩, h3⟩, h4⟩, h5⟩, h6⟩ := h
    refine ⟨s, t, hs, ht, h1, h2, fun d hd => ?_, fun e => ?_, fun e => ?_, fun e => ?_⟩
    · simpa using h3 d (by simpa using hd)
    · rw [e] at h4; simpa using h4
    · rw [e] at h5; simpa using h5
    · rw [e] at h6; simpa using h6
  · cases h

/-- `C106_edited_partial` applies to the event of the example text. -/
example : ∃ o ctx o1 items' used o2 ctx', loadEntry exLib .event exEventItems (some [("X/Y".toList, 1)]) = .ok (o, ctx) ∧
    o.timeEdits exLib exTimeSteps = .ok o1 ∧
    dumpEntry exLib o1 { ctx := some [] } = .ok (.cont "VEVENT".toList items', { ctx := some used }) ∧
    loadEntry exLib .event items' (some [("X/Y".toList, 1)]) = .ok (o2, ctx') ∧ SameEntry exLib o1 o2 := by
  have key : ((loadEntry exLib .event exEventItems (some [("X/Y".toList, 1)])).toOption.bind fun r =>
      (r.1.timeEdits exLib exTimeSteps).toOption.map fun o1 =>
        safeObjB exLib [("X/Y".toList, 1)] (safeObjB exLib [("X/Y".toList, 1)] fun _ => true) r.1 && timeEditB exLib r.1 o1) =
      some true := by
    decide +kernel
  cases h : loadEntry exLib .event exEventItems (some [("X/Y".toList, 1)]) with
  | error e => rw [h] at key; cases key
  | ok r =>
    rw [h] at key
    obtain ⟨o, ctx⟩ := r
    have key : ((o.timeEdits exLib exTimeSteps).toOption.map fun o1 =>
        safeObjB exLib [("X/Y".toList, 1)] (safeObjB exLib [("X/Y".toList, 1)] fun _ => true) o && timeEditB exLib o o1) =
      some true := key
    cases h1 : o.timeEdits exLib exTimeSteps with
    | error e => rw [h1] at key; cases key
    | ok o1 =>
      rw [h1] at key
      have key := Option.some.inj key
      rw [Bool.and_eq_true] at key
      obtain ⟨s, t, k1, k2, k3, k4, k5, k6⟩ := timeEdit_of key.2
      obtain ⟨items', used, q1, q2, q3⟩ := C106_edited_partial exLib exLib_utc exLib_whole exLib_bounded .event (.inl rfl)
        exEventItems _ [("X/Y".toList, 1)] o ctx h exEventItems_safe (safeObj_of (fun _ h => safeObj_of (fun _ _ => trivial) h) key.1)
        s k1 k3 exTimeSteps exTimeSteps_lasting o1 h1 t k2 k4 k5 k6
      obtain ⟨o2, ctx', q4, q5⟩ := q3 [("X/Y".toList, 1)] fun n z hz => .inl (q2 n z hz)
      exact ⟨o, ctx, o1, items', used, o2, ctx', rfl, h1, q1, q4, q5⟩

/-- A todo that is read without dates; its begin can be set, but then its end cannot (`C106_undated_fails`). -/
example : ((loadEntry exLib .todo [exLine "UID" "1", exLine "DTSTAMP" "20240229T133742Z"] (some [])).toOption.bind fun r =>
    (r.1.timeEdit exLib (.begin (some ⟨63845078400000000, false, none⟩))).toOption.map fun m =>
      match m.timeEdit exLib (.end_ (some ⟨63845082000000000, false, none⟩)) with | .error e => some e | .ok _ => none) =
    some (some .keyError) := by
  decide +kernel

/-- An all-day event for `C106_unset_fails`. -/
example : ((loadEntry exLib .event [exLine "UID" "1", exLine "DTSTAMP" "20240229T133742Z",
      exLine "DTSTART" "20240301" [("VALUE".toList, [⟨false, "DATE".toList⟩])]] (some [])).toOption.map fun r =>
    (r.1.timeEdit exLib .unsetAllDay).isOk) = some true := by
  decide +kernel

end Ics
