import Verif.Proofs.NeededList
import Verif.Proofs.ReadTime
import Verif.Proofs.Params
import Verif.Proofs.RtEntry

/-
Time spans and members that survive.
-/
namespace Ics

variable {σ : Type}

/-- What is written and read as the same date has a year with four digits. -/
theorem date_kept {pad : Bool} {wall : Int} {f : Fields} (h : 0 ≤ wall ∧ wall < maxWall)
    (h1 : strptimeFields (dateStr pad (fieldsOf wall)) = some f) (h2 : wallOf f = .ok wall) :
    pad = true ∨ 364877 * 86400000000 ≤ wall := by
  cases pad with
  | true => exact .inl rfl
  | false =>
    right
    by_cases hy : 1000 ≤ (fieldsOf wall).year
    · have h3 := (strptime_dateStr (pad := false) (fieldsOf_ok h) (.inr hy)).1
      rw [h1] at h3
      have : f.year = (fieldsOf wall).year := by rw [Option.some.inj h3]
      exact wallOf_year h2 (by omega)
    · obtain ⟨c, l, hl, hc⟩ := natStr_head_pos (fieldsOf wall).year (by omega) (fieldsOf_ok h).1
      have he : dateStr false (fieldsOf wall) = c :: (l ++ pad2 (fieldsOf wall).month ++ pad2 (fieldsOf wall).day) := by
        simp only [dateStr, yearStr, hl]
        simp
      rw [he] at h1
      exact wallOf_year h2 (strptime_year h1 hc)

theorem not_endsInZ {s : Str} (h : ∀ c ∈ s, isDigit c = true ∨ c = 'T') : ¬ EndsInZ s := by
  rintro (hl | hl)
  · exact last_digits h hl (.inl rfl)
  · exact last_digits h hl (.inr rfl)

/-- A time of a span that is read as the same. -/
theorem says_time {L : Lib} {zones : List (Str × Nat)} {d d' : DT} (hr : 0 ≤ d.wall ∧ d.wall < maxWall)
    {ctx0 ctx : Ctx} {text name : Str} {params : Params} {pr : Precision}
    (h1 : serializeDt L.toWorld d [] ctx0 = .ok (text, params, ctx))
    (hs : SaysTime (zonesOf L.toWorld zones) L.utc (mkContentLine name params text) d' pr)
    (same : SameTime L d d') : pr = .second ∧ KeptTime L zones d := by
  obtain ⟨wall, fold, tz⟩ := d
  have e3 := datetimeStr_chars L.padYear (fieldsOf wall)
  have hval : dictGet? params "VALUE".toList = none := serializeDt_params h1 (by decide)
  have gen : d'.fold = false ∧ pr = .second ∧ ∃ f, strptimeFields (stripDt text) = some f ∧ wallOf f = .ok d'.wall ∧
      ((EndsInZ text ∧ d'.tz = some (.zone L.utc)) ∨
        (¬ EndsInZ text ∧ ∃ v z, dictGet? params "TZID".toList = some [v] ∧ v.text ≠ [] ∧
          zonesOf L.toWorld zones v.text z ∧ d'.tz = some (.zone z)) ∨ (¬ EndsInZ text ∧ d'.tz = none)) := by
    cases hs with
    | date hd _ _ =>
      obtain ⟨q, hq⟩ := hd
      have hq : dictGet? params "VALUE".toList = _ := hq
      rw [hval] at hq
      cases hq
    | utc _ ht hz =>
      obtain ⟨f, f1, f2⟩ := (strptime_wall_iff _ _).2 ⟨_, _, _, _, _, _, ht, rfl⟩
      exact ⟨rfl, rfl, f, by rw [stripDt_eq]; exact f1, f2, .inl ⟨hz, rfl⟩⟩
    | zoned _ ht hz hv hn hZ =>
      obtain ⟨f, f1, f2⟩ := (strptime_wall_iff _ _).2 ⟨_, _, _, _, _, _, ht, rfl⟩
      exact ⟨rfl, rfl, f, by rw [stripDt_eq]; exact f1, f2, .inr (.inl ⟨hz, _, _, hv, hn, hZ, rfl⟩)⟩
    | floating _ ht hz _ =>
      obtain ⟨f, f1, f2⟩ := (strptime_wall_iff _ _).2 ⟨_, _, _, _, _, _, ht, rfl⟩
      exact ⟨rfl, rfl, f, by rw [stripDt_eq]; exact f1, f2, .inr (.inr ⟨hz, rfl⟩)⟩
  obtain ⟨g1, g2, f, p4, p5, p6⟩ := gen
  refine ⟨g2, ?_⟩
  obtain ⟨s1, s2, s3⟩ := same
  dsimp only at s1 s2 s3
  have fin : stripDt text = datetimeStr L.padYear (fieldsOf wall) → KeptZone L zones tz →
      KeptTime L zones ⟨wall, fold, tz⟩ := by
    intro ht hz
    rw [ht] at p4
    obtain ⟨k1, k2⟩ := wall_kept hr p4 p5 s1.symm
    exact ⟨k1, by rw [← g1]; exact s2, k2, hz⟩
  by_cases hu : L.toWorld.dtIsUtc ⟨wall, fold, tz⟩ = true
  · simp only [serializeDt, hu, if_true] at h1
    cases h1
    refine fin (stripDt_z e3) ?_
    unfold Env.dtIsUtc at hu
    dsimp only at hu
    split at hu
    · exact .inl hu
    · cases hu
  · have hu : L.toWorld.dtIsUtc ⟨wall, fold, tz⟩ = false := by simpa using hu
    simp only [serializeDt, hu] at h1
    cases tz with
    | none =>
      cases h1
      exact fin (stripDt_digits e3) trivial
    | some t =>
      dsimp only at h1
      cases hc : L.conv t with
      | unserializable => rw [hc] at h1; cases h1
      | localTime =>
        rw [hc] at h1
        cases h1
        exfalso
        have hn := not_endsInZ e3
        rcases p6 with ⟨hz, _⟩ | ⟨_, v, z, h, _⟩ | ⟨_, h⟩
        · exact hn hz
        · cases h
        · rw [h] at s3
          rcases s3 with h | ⟨m, n, _, h, _⟩ <;> cases h
      | timezone z =>
        rw [hc] at h1
        cases ctx0 with
        | none => cases h1
        | some avail =>
        cases h1
        refine fin (stripDt_digits e3) ?_
        have hn := not_endsInZ e3
        rcases p6 with ⟨hz, _⟩ | ⟨_, v, z', h, hne, hZ, htz⟩ | ⟨_, h⟩
        · exact absurd hz hn
        · have hv : v = ⟨false, L.tzid z⟩ := by
            have h : some [(⟨false, L.tzid z⟩ : PVal)] = some [v] := h
            injection h with h
            injection h with h
            exact h.symm
          subst hv
          have hf : Knows L zones (L.tzid z) z' := knows_iff.2 hZ
          rw [htz] at s3
          rcases s3 with h | ⟨m, n, h, _, hm, _⟩
          · cases h
            exact .inr ⟨z, hc, hne, hf⟩
          · cases h
            exact .inl hm
        · rw [h] at s3
          rcases s3 with h | ⟨m, n, _, h, _⟩ <;> cases h

theorem clock_midnight (y m d : Nat) : clock y m d 0 0 0 % 86400000000 = 0 := by
  unfold clock
  push_cast
  omega

/-- A date of a span that is read as the same. -/
theorem says_date {L : Lib} {Z : Str → Nat → Prop} {u : Nat} {d d' : DT} (hr : 0 ≤ d.wall ∧ d.wall < maxWall)
    {name : Str} {pr : Precision}
    (hs : SaysTime Z u (mkContentLine name [("VALUE".toList, [⟨false, "DATE".toList⟩])] (serializeDate L.toWorld d.wall)) d' pr)
    (same : SameTime L d d') : pr = .day ∧ KeptDate L d := by
  obtain ⟨wall, fold, tz⟩ := d
  have hd : IsDate (mkContentLine name [("VALUE".toList, [⟨false, "DATE".toList⟩])] (serializeDate L.toWorld wall)) :=
    ⟨false, rfl⟩
  obtain ⟨s1, s2, s3⟩ := same
  dsimp only at s1 s2 s3 hs
  cases hs with
  | date _ ht _ =>
    obtain ⟨f, f1, f2⟩ := (strptime_wall_iff _ _).2 ⟨_, _, _, _, _, _, ht, rfl⟩
    dsimp only at s1 s2 s3
    rw [← s1] at f2
    have he : stripped (mkContentLine name [("VALUE".toList, [⟨false, "DATE".toList⟩])] (serializeDate L.toWorld wall)).value =
        dateStr L.padYear (fieldsOf wall) := by
      rw [← stripDt_eq]
      refine stripDt_digits fun c hc => datetimeStr_chars L.padYear (fieldsOf wall) c ?_
      exact List.mem_append_left _ hc
    rw [he] at f1
    refine ⟨rfl, ?_, s2, date_kept hr f1 f2, ?_⟩
    · show wall % _ = 0
      rw [s1]
      exact clock_midnight _ _ _
    · rcases s3 with h | ⟨m, n, _, h, _⟩
      · exact h
      · cases h
  | utc h _ _ => exact absurd hd h
  | zoned h _ _ _ _ _ => exact absurd hd h
  | floating h _ _ _ => exact absurd hd h

/-- A time or date of a span that is read as the same. -/
theorem says_value {L : Lib} {zones : List (Str × Nat)} {s : Span} {d d' : DT} (hr : 0 ≤ d.wall ∧ d.wall < maxWall)
    {ctx0 ctx : Ctx} {text name : Str} {params : Params} {pr : Precision}
    (h1 : dumpSpanValue L s d (spanParams s []) ctx0 = .ok (text, params, ctx))
    (hs : SaysTime (zonesOf L.toWorld zones) L.utc (mkContentLine name params text) d' pr)
    (same : SameTime L d d') : (pr = .day ∨ pr = .second) ∧ if s.prec = .day then KeptDate L d else KeptTime L zones d := by
  unfold dumpSpanValue spanParams Span.isAllDay at h1
  by_cases hp : s.prec = .day
  · rw [decide_eq_true hp] at h1
    simp only [if_true] at h1
    cases h1
    obtain ⟨k1, k2⟩ := says_date hr hs same
    rw [if_pos hp]
    exact ⟨.inl k1, k2⟩
  · rw [decide_eq_false hp] at h1
    simp only [Bool.false_eq_true, if_false] at h1
    obtain ⟨k1, k2⟩ := says_time hr h1 hs same
    rw [if_neg hp]
    exact ⟨.inr k1, k2⟩

/-- What is needed so that a time span without parameters survives. -/
theorem span_needed {L : Lib} {mem : MemberLoad σ} {memd : MemberDump σ} (hmem : MemStable L mem) {R : σ → σ → Prop}
    {o o' : Obj σ} {st st' : DState} {n : Str}
    {items : List Item} {zones : List (Str × Nat)} {ctx1 : Ctx} (h1 : dumpObj L memd o st = .ok (.cont n items, st'))
    (h2 : loadObj L mem o.cls items (some zones) = .ok (o', ctx1)) (hs : .timespan ∈ o.cls.convs)
    (hp : ∀ k ∈ ["BEGIN", "DTEND", "DUE"].map String.toList, dictGet? o.extraParams k = none)
    (hv : ∀ s, o.get "timespan".toList = .one (.span s) → PyVal (σ := σ) (.span s))
    (hR : SameAttr L R (o.get "timespan".toList) (o'.get "timespan".toList)) :
    ∃ s, o.get "timespan".toList = .one (.span s) ∧ KeptSpan L zones o s := by
  simp only [dumpObj, bind_ok_iff] at h1
  obtain ⟨⟨is, st1⟩, h1, e⟩ := h1
  cases e
  obtain ⟨parts, rfl, hf⟩ := dumpConvs_parts h1
  obtain ⟨part, hpart, st2, st3, hd⟩ := forall₂_mem hf.flip _ hs
  simp only [Conv.dump] at hd
  obtain ⟨s', hget, hcls, hval, T⟩ := load_time hmem h2 hs
  have hget : o'.get "timespan".toList = .one (.span s') := by unfold Obj.get; rw [hget]; rfl
  unfold dumpSpan at hd
  split at hd
  case h_2 => cases hd
  rename_i s hg
  refine ⟨s, hg, ?_⟩
  rw [hg, hget] at hR
  have hsame : SameSpan L s s' := by
    cases hR with
    | one h =>
      cases h with
      | same =>
        have r : ∀ x, SameTime? L x x := fun x => by cases x <;> first | trivial | exact sameTime_refl L _
        exact ⟨rfl, r _, r _, rfl, rfl⟩
      | span h => exact h
  have hin : ∀ i ∈ part, i ∈ parts.flatten ++ o.extra := fun i hi =>
    List.mem_append_left _ (List.mem_flatten.2 ⟨_, hpart, hi⟩)
  simp only [bind_ok_iff] at hd
  obtain ⟨⟨a, sta⟩, ha, ⟨b, stb⟩, hb, e⟩ := hd
  cases e
  have params : ∀ k, upper k ∈ ["BEGIN", "DTEND", "DUE"].map String.toList → ∀ p, o.extraParamsOf k = .ok p → p = [] := by
    intro k hk p h
    unfold Obj.extraParamsOf at h
    rw [show dictGet? o.extraParams (extraKey k) = none from hp _ hk] at h
    cases h
    rfl
  -- the written lines
  have hbegin : ∀ d, s.begin? = some d → ∃ t p ctx ctx', dumpSpanValue L s d (spanParams s []) ctx = .ok (t, p, ctx') ∧
      .line (mkContentLine "DTSTART".toList p t) ∈ parts.flatten ++ o.extra := by
    intro d hd
    unfold dumpSpanBegin at ha
    rw [hd] at ha
    dsimp only at ha
    split at ha
    · cases ha
    · simp only [bind_ok_iff] at ha
      obtain ⟨p0, hp0, ⟨t, p, ctx⟩, hser, e⟩ := ha
      obtain rfl := params _ (by decide) _ hp0
      cases e
      exact ⟨t, p, _, ctx, hser, hin _ (by simp)⟩
  have hboth : ∀ us, s.dur? = some us → s.end? = none := by
    intro us hu
    cases he : s.end? with
    | none => rfl
    | some d =>
      have h1 := hsame.end_
      rw [he] at h1
      have h2 : s'.end?.isSome := by
        cases hx : s'.end? with
        | none => rw [hx] at h1; exact absurd h1 id
        | some _ => rfl
      have h3 := validate_end hval h2
      rw [← hsame.dur, hu] at h3
      cases h3
  have hend : ∀ d, s.end? = some d → ∃ t p ctx ctx', dumpSpanValue L s d (spanParams s []) ctx = .ok (t, p, ctx') ∧
      .line (mkContentLine s.cls.endLine p t) ∈ parts.flatten ++ o.extra := by
    intro d hd
    have hdur : s.dur? = none := by
      cases hx : s.dur? with
      | none => rfl
      | some us => rw [hboth us hx] at hd; cases hd
    unfold dumpSpanEnd at hb
    rw [hdur, hd] at hb
    simp only [bind_ok_iff] at hb
    obtain ⟨p0, hp0, ⟨t, p, ctx⟩, hser, e⟩ := hb
    obtain rfl := params _ (by cases s.cls <;> decide) _ hp0
    cases e
    exact ⟨t, p, _, ctx, hser, hin _ (by simp)⟩
  have hE : upper s.cls.endLine = endLine s'.cls ∧ (endLine s'.cls = "DTEND".toList ∨ endLine s'.cls = "DUE".toList) := by
    rw [← hsame.cls]
    cases s.cls <;> decide
  -- the begin
  have kb : ∀ d, s.begin? = some d → (s'.prec = .day ∨ s'.prec = .second) ∧
      if s.prec = .day then KeptDate L d else KeptTime L zones d := by
    intro d hd
    obtain ⟨t, p, ctx, ctx', hser, hl⟩ := hbegin d hd
    obtain ⟨d', pr, hsay⟩ := T.all _ hl (.inl rfl)
    have hb' := (T.begin d').2 ⟨_, pr, hl, rfl, hsay⟩
    have hst := hsame.begin
    rw [hd, hb'] at hst
    obtain ⟨k1, k2⟩ := says_value (hv s hg d (.inl hd)) hser hsay hst
    rw [T.precision _ _ _ hl (.inl rfl) hsay]
    exact ⟨k1, k2⟩
  -- the end
  have ke : ∀ d, s.end? = some d → (s'.prec = .day ∨ s'.prec = .second) ∧
      if s.prec = .day then KeptDate L d else KeptTime L zones d := by
    intro d hd
    obtain ⟨t, p, ctx, ctx', hser, hl⟩ := hend d hd
    have hname : (mkContentLine s.cls.endLine p t).name = endLine s'.cls := hE.1
    have hie : IsEnd (mkContentLine s.cls.endLine p t) := by
      unfold IsEnd
      rw [hname]
      exact hE.2
    obtain ⟨cl, hlast⟩ := exists_lastEnd _ ⟨_, hl, hie⟩
    have hcl : cl = mkContentLine s.cls.endLine p t := by
      have hn2 := T.endName cl hlast
      have honce := T.once (endLine s'.cls) (by rcases hE.2 with h | h <;> rw [h] <;> decide)
      have m1 : (.line cl : Item) ∈ (parts.flatten ++ o.extra).filter fun i => i.name = endLine s'.cls :=
        List.mem_filter.2 ⟨lastEnd_mem hlast, decide_eq_true hn2⟩
      have m2 : (.line (mkContentLine s.cls.endLine p t) : Item) ∈
          (parts.flatten ++ o.extra).filter fun i => i.name = endLine s'.cls :=
        List.mem_filter.2 ⟨hl, decide_eq_true hname⟩
      generalize (parts.flatten ++ o.extra).filter (fun i => i.name = endLine s'.cls) = F at honce m1 m2
      match F, honce with
      | [], _ => exact absurd m1 List.not_mem_nil
      | [x], _ =>
        rw [List.mem_singleton] at m1 m2
        rw [← m2] at m1
        injection m1
      | x :: y :: l, h => simp only [List.length_cons] at h; omega
    subst hcl
    obtain ⟨d', pr, hsay⟩ := T.all _ hl (.inr hie)
    have hb' := (T.end d').2 ⟨_, pr, hlast, hsay⟩
    have hst := hsame.end_
    rw [hd, hb'] at hst
    obtain ⟨k1, k2⟩ := says_value (hv s hg d (.inr hd)) hser hsay hst
    rw [T.precision _ _ _ hl (.inr hie) hsay]
    exact ⟨k1, k2⟩
  refine ⟨hsame.cls.trans hcls, ?_, ?_, ?_⟩
  · rw [hsame.prec]
    split
    · rename_i hno
      refine T.noTime fun cl hl ht => ?_
      obtain ⟨d', pr, hsay⟩ := T.all _ hl ht
      rcases ht with ht | ht
      · have hb' := (T.begin d').2 ⟨_, pr, hl, ht, hsay⟩
        have hst := hsame.begin
        rw [hno.1, hb'] at hst
        exact hst
      · obtain ⟨cl2, hlast⟩ := exists_lastEnd _ ⟨_, hl, ht⟩
        obtain ⟨d2, pr2, hsay2⟩ := T.all _ (lastEnd_mem hlast) (.inr hlast.1)
        have hb' := (T.end d2).2 ⟨_, pr2, hlast, hsay2⟩
        have hst := hsame.end_
        rw [hno.2, hb'] at hst
        exact hst
    · rename_i hno
      cases hb0 : s.begin? with
      | some d => exact (kb d hb0).1
      | none =>
        cases he0 : s.end? with
        | some d => exact (ke d he0).1
        | none => exact absurd ⟨hb0, he0⟩ hno
  · rintro d (hd | hd)
    · exact (kb d hd).2
    · exact (ke d hd).2
  · intro us hu
    refine ⟨?_, hboth us hu⟩
    rw [hsame.dur] at hu
    obtain ⟨cl, v, _, _, _, rfl⟩ := (T.duration us).1 hu
    omega

/-- The lines of members. -/
theorem dumpMembers_items {memd : MemberDump σ} : ∀ {l : List (Val σ)} {st st' : DState} {is : List Item},
    dumpMembers memd l st = .ok (is, st') →
    ∃ ms : List σ, l = ms.map .comp ∧ List.Forall₂ (fun m i => ∃ st1 st2, memd m st1 = .ok (i, st2)) ms is
  | [], _, _, _, h => by cases h; exact ⟨[], rfl, .nil⟩
  | v :: l, st, st', is, h => by
    cases v <;> first | cases h | skip
    rename_i m
    simp only [dumpMembers, bind_ok_iff] at h
    obtain ⟨⟨i, st1⟩, hi, ⟨is', st2⟩, h, e⟩ := h
    cases e
    obtain ⟨ms, rfl, hf⟩ := dumpMembers_items h
    exact ⟨m :: ms, rfl, .cons ⟨_, _, hi⟩ hf⟩

/-- Members that survive were written, and read as the same. -/
theorem members_wrote {L : Lib} {mem : MemberLoad σ} {memd : MemberDump σ} (hmem : MemStable L mem) {R : σ → σ → Prop}
    {o o' : Obj σ}
    {items : List Item} {zones : List (Str × Nat)} {ctx1 : Ctx} (hw0 : Wrote L memd o items)
    (h2 : loadObj L mem o.cls items (some zones) = .ok (o', ctx1)) {a nm : Str} (hs : .member a nm ∈ o.cls.convs)
    (hrefl : ∀ m, R m m)
    (hname : ∀ m m' st st' i is c c', memd m st = .ok (i, st') → mem nm is c = .ok (m', c') → R m m' → i.name = nm)
    (hR : SameAttr L R (o.get a) (o'.get a)) :
    ∃ ms : List σ, o.get a = .many (ms.map .comp) ∧ ∀ m ∈ ms, ∃ st st' is m' ctx,
      memd m st = .ok (.cont nm is, st') ∧ mem nm is (some zones) = .ok (m', ctx) ∧ R m m' := by
  obtain ⟨part, st2, st3, hd, hpart⟩ := hw0 _ hs
  simp only [Conv.dump, dumpMember, bind_ok_iff] at hd
  obtain ⟨_, -, hd⟩ := hd
  obtain ⟨ms', hget, hread⟩ := load_member hmem rfl h2 hs
  dsimp only at hget hread
  split at hd
  case h_2 => cases hd
  rename_i l hg
  obtain ⟨ms, rfl, hw⟩ := dumpMembers_items hd
  refine ⟨ms, hg, ?_⟩
  rw [hg, hget] at hR
  have hsame : List.Forall₂ R ms ms' := by
    cases hR with
    | many h =>
      rw [List.forall₂_map_left_iff, List.forall₂_map_right_iff] at h
      refine h.imp fun x y hxy => ?_
      cases hxy with
      | comp h => exact h
      | same => exact hrefl _
  have hnames : ∀ i ∈ part, i.name = nm := by
    intro i hi
    obtain ⟨m, hm, st4, st5, hdm⟩ := forall₂_mem hw i hi
    obtain ⟨m', hm', hRm⟩ := forall₂_mem hsame.flip m hm
    obtain ⟨_, _, is', ctx', _, hl⟩ := forall₂_mem hread m' hm'
    exact hname _ _ _ _ _ _ _ _ hdm hl hRm
  have hsub : List.Sublist part (items.filter fun i => i.name = nm) := by
    have hall : part.filter (fun i => decide (i.name = nm)) = part :=
      List.filter_eq_self.2 fun i hi => decide_eq_true (hnames i hi)
    rw [← hall]
    exact List.Sublist.filter _ hpart
  have e1 := hw.length_eq
  have e2 := hsame.length_eq
  have e3 := hread.length_eq
  have heq := hsub.eq_of_length (by omega)
  rw [← heq] at hread
  intro m hm
  obtain ⟨i, m', ⟨st4, st5, h4⟩, ⟨is', ctx', rfl, h5⟩, h6⟩ := three hw hread hsame m hm
  exact ⟨st4, st5, is', m', ctx', h4, h5, h6⟩

theorem members_needed {L : Lib} {mem : MemberLoad σ} {memd : MemberDump σ} (hmem : MemStable L mem) {R : σ → σ → Prop}
    {o o' : Obj σ} {st st' : DState} {n : Str}
    {items : List Item} {zones : List (Str × Nat)} {ctx1 : Ctx} (h1 : dumpObj L memd o st = .ok (.cont n items, st'))
    (h2 : loadObj L mem o.cls items (some zones) = .ok (o', ctx1)) {a nm : Str} (hs : .member a nm ∈ o.cls.convs)
    (hrefl : ∀ m, R m m)
    (hname : ∀ m m' st st' i is c c', memd m st = .ok (i, st') → mem nm is c = .ok (m', c') → R m m' → i.name = nm)
    (hR : SameAttr L R (o.get a) (o'.get a)) :
    ∃ ms : List σ, o.get a = .many (ms.map .comp) ∧ ∀ m ∈ ms, ∃ st st' is m' ctx,
      memd m st = .ok (.cont nm is, st') ∧ mem nm is (some zones) = .ok (m', ctx) ∧ R m m' :=
  members_wrote hmem (wrote_obj h1) h2 hs hrefl hname hR

end Ics
