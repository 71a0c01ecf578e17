import Verif.Proofs.RtMember

/-
Writing the time of a component and reading it back.
-/
namespace Ics

variable {σ : Type}

/-! ### The same times -/

theorem sameTime_off {L : Lib} (hU : UtcOk L) {a b : DT} (h : SameTime L a b) :
    L.utcoffset a = L.utcoffset b ∧ a.tz.isSome = b.tz.isSome := by
  obtain ⟨h1, h2, h3 | ⟨m, n, e1, e2, e3, e4⟩⟩ := h
  · unfold Env.utcoffset
    rw [h1, h2, h3]
    exact ⟨rfl, rfl⟩
  · unfold Env.utcoffset
    rw [e1, e2]
    exact ⟨congrArg some ((hU.off _ _ _ e3).trans (hU.off _ _ _ e4).symm), rfl⟩

/-- The difference of two times in different zone objects for UTC. -/
theorem sub_off {L : Lib} {a b : DT} {o p : Int} (ha : L.utcoffset a = some o) (hb : L.utcoffset b = some p)
    (h : a.tz = b.tz → o = p) : L.sub a b = .ok (a.wall - b.wall + p - o) := by
  unfold Env.sub
  split
  · rename_i e
    rw [h e]
    exact congrArg _ (by omega)
  · rw [ha, hb]

theorem sameTime_sub {L : Lib} (hU : UtcOk L) {a a' b b' : DT} (ha : SameTime L a a') (hb : SameTime L b b') :
    L.sub a b = L.sub a' b' := by
  have oa := sameTime_off hU ha
  have ob := sameTime_off hU hb
  by_cases e : a.tz = b.tz
  · by_cases e' : a'.tz = b'.tz
    · unfold Env.sub
      rw [if_pos e, if_pos e', ha.1, hb.1]
    · -- one of them is a zone object for UTC
      have key : ∀ x : DT, (∃ m, x.tz = some (.zone m) ∧ L.isUtc m = true) → L.utcoffset x = some 0 := by
        rintro x ⟨m, h1, h2⟩
        unfold Env.utcoffset
        rw [h1]
        exact congrArg some (hU.off _ _ _ h2)
      have hutc : L.utcoffset a = some 0 ∧ L.utcoffset b = some 0 := by
        rcases ha.2.2 with h1 | ⟨m, n, e1, e2, e3, e4⟩
        · rcases hb.2.2 with h2 | ⟨m, n, e1, e2, e3, e4⟩
          · exact absurd (h1.symm.trans (e.trans h2)) e'
          · exact ⟨key a ⟨m, e.trans e1, e3⟩, key b ⟨m, e1, e3⟩⟩
        · exact ⟨key a ⟨m, e1, e3⟩, key b ⟨m, e.symm.trans e1, e3⟩⟩
      rw [sub_off hutc.1 hutc.2 (fun _ => rfl), sub_off (oa.1 ▸ hutc.1) (ob.1 ▸ hutc.2) (fun _ => rfl), ha.1, hb.1]
  · by_cases e' : a'.tz = b'.tz
    · have key : ∀ x : DT, (∃ m, x.tz = some (.zone m) ∧ L.isUtc m = true) → L.utcoffset x = some 0 := by
        rintro x ⟨m, h1, h2⟩
        unfold Env.utcoffset
        rw [h1]
        exact congrArg some (hU.off _ _ _ h2)
      have hutc : L.utcoffset a' = some 0 ∧ L.utcoffset b' = some 0 := by
        rcases ha.2.2 with h1 | ⟨m, n, e1, e2, e3, e4⟩
        · rcases hb.2.2 with h2 | ⟨m, n, e1, e2, e3, e4⟩
          · exact absurd (h1.trans (e'.trans h2.symm)) e
          · exact ⟨key a' ⟨n, e'.trans e2, e4⟩, key b' ⟨n, e2, e4⟩⟩
        · exact ⟨key a' ⟨n, e2, e4⟩, key b' ⟨n, e'.symm.trans e2, e4⟩⟩
      rw [sub_off hutc.1 hutc.2 (fun _ => rfl), sub_off (oa.1.trans hutc.1) (ob.1.trans hutc.2) (fun _ => rfl), ha.1, hb.1]
    · unfold Env.sub
      rw [if_neg e, if_neg e', oa.1, ob.1, ha.1, hb.1]

theorem floorDay_eq (L : Lib) (d : DT) : L.eq d.floorDay d = decide (d.wall % dayUs = 0) := by
  unfold Env.eq
  rw [if_pos (by rfl : d.floorDay.tz = d.tz)]
  show decide (d.wall - d.wall % dayUs = d.wall) = _
  exact decide_eq_decide.2 (by unfold dayUs; omega)

theorem sameTime_precision {L : Lib} (hU : UtcOk L) {s s' : Span} (hs : s.prec = s'.prec) {a b : DT}
    (h : SameTime L a b) : L.validatePrecision s a = L.validatePrecision s' b := by
  have h2 := (sameTime_off hU h).2
  unfold Env.validatePrecision
  rw [floorDay_eq, floorDay_eq, hs, h.1, h2]

theorem sameTime_add {L : Lib} {a b : DT} (h : SameTime L a b) (td : Int) {a1 : DT} (h1 : a.add td = .ok a1) :
    ∃ b1, b.add td = .ok b1 ∧ SameTime L a1 b1 := by
  unfold DT.add at *
  rw [h.1] at h1
  split at h1
  · rename_i w hw
    cases h1
    exact ⟨⟨w, false, b.tz⟩, rfl, rfl, rfl, h.2.2⟩
  · cases h1

theorem sameSpan_effDur {L : Lib} (hU : UtcOk L) {s s' : Span} (h : SameSpan L s s') :
    L.effDur s = L.effDur s' := by
  obtain ⟨h1, h2, h3, h4, h5⟩ := h
  obtain ⟨c, b, e, d, p⟩ := s
  obtain ⟨c', b', e', d', p'⟩ := s'
  dsimp only at *
  subst h1 h4 h5
  cases d with
  | some d => rfl
  | none =>
    cases b <;> cases b' <;> cases e <;> cases e' <;> first
      | exact h2.elim
      | exact h3.elim
      | rfl
      | (unfold Env.effDur
         dsimp only
         rw [sameTime_sub hU h3 h2])

theorem isNone_of_isSome {α : Type} {x y : Option α} (h : x.isSome = y.isSome) : x.isNone = y.isNone := by
  cases x <;> cases y <;> simp_all

theorem sameSpan_validate {L : Lib} (hU : UtcOk L) {s s' : Span} (h : SameSpan L s s') (hv : L.validate s = .ok ()) :
    L.validate s' = .ok () := by
  have hdur := sameSpan_effDur hU h
  obtain ⟨h1, h2, h3, h4, h5⟩ := h
  obtain ⟨c, b, e, d, p⟩ := s
  obtain ⟨c', b', e', d', p'⟩ := s'
  dsimp only at *
  subst h1 h4 h5
  simp only [Env.validate, bind_ok_iff] at *
  obtain ⟨_, hv1, hv2⟩ := hv
  refine ⟨(), ?_, ?_⟩
  · cases b with
    | none =>
      cases b' with
      | some _ => exact h2.elim
      | none =>
        cases e with
        | none =>
          cases e' with
          | some _ => exact h3.elim
          | none => exact hv1
        | some e =>
          cases e' with
          | none => exact h3.elim
          | some e' =>
            simp only [Env.validateBase, ifGiven, bind_ok_iff] at *
            obtain ⟨_, q1, q2⟩ := hv1
            exact ⟨(), (sameTime_precision hU (by rfl) h3).symm.trans q1, q2⟩
    | some b =>
      cases b' with
      | none => exact h2.elim
      | some b' =>
        simp only [Env.validateBase, bind_ok_iff] at *
        obtain ⟨_, q1, _, q2, q3⟩ := hv1
        refine ⟨(), (sameTime_precision hU (by rfl) h2).symm.trans q1, (), ?_, q3⟩
        cases e with
        | none =>
          cases e' with
          | some _ => exact h3.elim
          | none => rfl
        | some e =>
          cases e' with
          | none => exact h3.elim
          | some e' =>
            simp only [ifGiven, Env.validateEnd, bind_ok_iff] at *
            obtain ⟨_, r1, late, r2, _, r3, _, r4, _, r5, _, r6, _, r7, r8⟩ := q2
            have hb := sameTime_off hU h2
            have he := sameTime_off hU h3
            refine ⟨(), (sameTime_precision hU (by rfl) h3).symm.trans r1, late, ?_, (), r3, (), ?_, (), r5,
              (), ?_, (), ?_, ?_⟩
            · unfold Env.gt Env.cmp at *
              rw [← sameTime_sub hU h2 h3]
              exact r2
            · unfold Env.validateOneDay at *
              split
              · rename_i hp
                rw [if_pos hp] at r4
                simp only [bind_ok_iff] at *
                obtain ⟨next, t1, early, t2, t3⟩ := r4
                obtain ⟨next', u1, u2⟩ := sameTime_add h2 _ t1
                refine ⟨next', u1, early, ?_, t3⟩
                unfold Env.lt Env.cmp at *
                rw [← sameTime_sub hU h3 u2]
                exact t2
              · rfl
            · rw [← isNone_of_isSome hb.2, ← he.2]
              exact r6
            · rw [← isNone_of_isSome he.2, ← hb.2]
              exact r7
            · unfold Env.validateExtent at *
              rw [← hdur]
              exact r8
  · cases b <;> cases b' <;> cases e <;> cases e' <;> first
      | exact h2.elim
      | exact h3.elim
      | exact hv2

/-! ### Writing a time -/

theorem midnight_of_valid {L : Lib} {s : Span} (hp : s.prec = .day) {d : DT} (h : L.validatePrecision s d = .ok ()) :
    d.wall % 86400000000 = 0 ∧ d.tz = none := by
  unfold Env.validatePrecision at h
  rw [if_pos hp, floorDay_eq] at h
  split at h
  · cases h
  · split at h
    · cases h
    · rename_i h1 h2
      refine ⟨?_, ?_⟩
      · rw [Bool.not_eq_true', Bool.not_eq_false] at h1
        exact of_decide_eq_true h1
      · simpa using h2

theorem rep_spanTime {L : Lib} (hU : UtcOk L) {zs : List (Str × Nat)} {s : Span} {d : DT} (hd : RepTime L zs d)
    (hp : L.validatePrecision s d = .ok ()) (hprec : s.prec = .day ∨ s.prec = .second) {p : Params}
    (h1 : "VALUE".toList ∉ p.map Prod.fst) (h2 : "TZID".toList ∉ p.map Prod.fst) :
    ∃ t q, ∀ avail, SubDict avail zs → ∃ avail',
      dumpSpanValue L s d (spanParams s p) (some avail) = .ok (t, q, some avail') ∧ SubDict avail avail' ∧
      SubDict avail' zs ∧ ∀ zones, SubDict avail' zones → ∃ d' ctx', SameTime L d d' ∧
        ∀ n, parseSpanValue L (mkContentLine n q t) (some zones) = .ok (d', s.prec, p, ctx') := by
  rcases hprec with hday | hsec
  · obtain ⟨m1, m2⟩ := midnight_of_valid hday hp
    have hall : s.isAllDay = true := decide_eq_true hday
    refine ⟨serializeDate L.toWorld d.wall, p ++ [("VALUE".toList, [⟨false, "DATE".toList⟩])], fun avail hs =>
      ⟨avail, ?_, .refl _, hs, fun zones hz => ⟨⟨d.wall, false, none⟩, some zones, ⟨rfl, hd.2.1, Or.inl m2⟩, fun n => ?_⟩⟩⟩
    · unfold dumpSpanValue spanParams
      rw [hall, if_pos rfl, if_pos rfl, dictSet_new _ _ _ h1]
    · have hdate := C16_date_partial L.toWorld d.wall m1 ⟨hd.2.2.1, hd.2.2.2.1⟩ hd.2.2.2.2.1 p (dictGet_eq_none.2 h2)
        (some zones)
      unfold parseSpanValue
      have e1 : dictGet? (mkContentLine n (p ++ [("VALUE".toList, [⟨false, "DATE".toList⟩])])
          (serializeDate L.toWorld d.wall)).params "VALUE".toList = some [⟨false, "DATE".toList⟩] := by
        show dictGet? (p ++ [("VALUE".toList, [⟨false, "DATE".toList⟩])]) "VALUE".toList = _
        rw [dictGet_append h1]
        rfl
      have e2 : dictErase (mkContentLine n (p ++ [("VALUE".toList, [⟨false, "DATE".toList⟩])])
          (serializeDate L.toWorld d.wall)).params "VALUE".toList = p := by
        show dictErase (p ++ [("VALUE".toList, [⟨false, "DATE".toList⟩])]) "VALUE".toList = _
        rw [dictErase_append h1]
        exact List.append_nil p
      dsimp only
      rw [e1, e2]
      rw [if_neg (by decide), if_pos (by rfl)]
      show (parseDate L.toWorld (serializeDate L.toWorld d.wall) p (some zones)).map _ = _
      rw [hdate, hday]
      rfl
  · obtain ⟨t, tz, htz, key⟩ := rep_dt hU hd
    have hall : s.isAllDay = false := decide_eq_false fun e => by rw [hsec] at e; cases e
    refine ⟨t, p ++ tz, fun avail hs => ?_⟩
    obtain ⟨avail', k1, k2, k3, k4⟩ := key p avail h2 hs
    refine ⟨avail', ?_, k2, k3, fun zones hz => ?_⟩
    · unfold dumpSpanValue spanParams
      rw [hall]
      exact k1
    · obtain ⟨d', ctx', l1, l2⟩ := k4 p zones h2 hz
      refine ⟨d', ctx', l2, fun n => ?_⟩
      have hv : "VALUE".toList ∉ (p ++ tz).map Prod.fst := by
        rw [List.map_append, List.mem_append, not_or]
        exact ⟨h1, htz.value⟩
      unfold parseSpanValue
      have e1 : dictGet? (mkContentLine n (p ++ tz) t).params "VALUE".toList = none := dictGet_eq_none.2 hv
      have e2 : dictErase (mkContentLine n (p ++ tz) t).params "VALUE".toList = p ++ tz :=
        dictErase_absent _ _ (dictGet_eq_none.2 hv)
      dsimp only
      rw [e1, e2, if_pos (by rfl)]
      show (parseDt L.toWorld datetimeFormats t (p ++ tz) (some zones)).map _ = _
      rw [l1, hsec]
      rfl

/-! ### The lines -/

theorem validate_dur_end {L : Lib} {s : Span} (h : L.validate s = .ok ()) :
    (s.dur? = none ∨ s.end? = none) ∧ (s.begin? = none → s.dur? = none) := by
  simp only [Env.validate, bind_ok_iff] at h
  obtain ⟨_, h, _⟩ := h
  unfold Env.validateBase at h
  cases hb : s.begin? with
  | none =>
    rw [hb] at h
    simp only [bind_ok_iff] at h
    obtain ⟨_, _, h⟩ := h
    have : s.dur? = none := by simpa using raiseIf_ok.1 h
    exact ⟨Or.inl this, fun _ => this⟩
  | some b =>
    rw [hb] at h
    simp only [bind_ok_iff] at h
    obtain ⟨_, _, _, h, _⟩ := h
    refine ⟨?_, fun e => nomatch e⟩
    cases he : s.end? with
    | none => exact Or.inr rfl
    | some e =>
      rw [he] at h
      simp only [ifGiven, Env.validateEnd, bind_ok_iff] at h
      obtain ⟨_, _, _, _, _, _, _, _, _, h, _⟩ := h
      exact Or.inl (by simpa using raiseIf_ok.1 h)

theorem validate_precision {L : Lib} {s : Span} (h : L.validate s = .ok ()) {d : DT}
    (hd : s.begin? = some d ∨ s.end? = some d) : L.validatePrecision s d = .ok () := by
  simp only [Env.validate, bind_ok_iff] at h
  obtain ⟨_, h, _⟩ := h
  unfold Env.validateBase at h
  cases hb : s.begin? with
  | none =>
    rw [hb] at h hd
    simp only [bind_ok_iff] at h
    obtain ⟨_, h, _⟩ := h
    have he : s.end? = some d := hd.resolve_left fun e => nomatch e
    rw [he] at h
    exact h
  | some b =>
    rw [hb] at h hd
    simp only [bind_ok_iff] at h
    obtain ⟨_, h1, _, h, _⟩ := h
    rcases hd with hd | hd
    · cases hd
      exact h1
    · rw [hd] at h
      simp only [ifGiven, Env.validateEnd, bind_ok_iff] at h
      obtain ⟨_, h, _⟩ := h
      exact h

/-- The DTSTART line. -/
theorem RepSpan.prec {L : Lib} {zs : List (Str × Nat)} {o : Obj σ} {s : Span} (h : RepSpan L zs o s) {d : DT}
    (hd : s.begin? = some d ∨ s.end? = some d) : s.prec = .day ∨ s.prec = .second := by
  rcases h.timed with h | ⟨h1, h2, _⟩
  · exact h.2
  · rw [h1, h2] at hd
    rcases hd with hd | hd <;> cases hd

theorem RepSpan.getPrec {L : Lib} {zs : List (Str × Nat)} {o : Obj σ} {s : Span} (h : RepSpan L zs o s)
    (he : s.end? = none) : (s.begin?.map fun _ => s.prec).getD (.other []) = s.prec := by
  cases hb : s.begin? with
  | some b => rfl
  | none =>
    rcases h.timed with ⟨h, _⟩ | ⟨_, _, h⟩
    · rw [hb, he] at h
      rcases h with h | h <;> cases h
    · exact h.symm

theorem rt_spanBegin {L : Lib} (hU : UtcOk L) {mem : MemberLoad σ} {zs : List (Str × Nat)} {o : Obj σ} {s : Span}
    (h : RepSpan L zs o s) {avail : List (Str × Nat)} (hs : SubDict avail zs) :
    ∃ part avail' dts', dumpSpanBegin L o s ⟨some avail, false⟩ = .ok (part, ⟨some avail', dts'⟩) ∧
      SubDict avail avail' ∧ SubDict avail' zs ∧
      (∀ i ∈ part, i.name ∈ Conv.timespan.names) ∧
      ∀ zones rd, SubDict avail' zones → IsReading L mem (L.toWorld.resolve (some zones)) rd →
        ∃ b : Core σ, foldConv L rd .timespan part (.new L o.cls) = .ok b ∧ SameTime? L s.begin? b.span.begin? ∧
          b.span.end? = none ∧ b.span.dur? = none ∧ b.span.endName? = none ∧
          b.span.prec? = s.begin?.map (fun _ => s.prec) ∧ (∀ n ∈ b.span.seen, n = "DTSTART".toList) ∧
          dictGet? b.obj.extraParams "BEGIN".toList = dictGet? o.extraParams "BEGIN".toList ∧
          ∀ k, k ≠ "BEGIN".toList → dictGet? b.obj.extraParams k = none := by
  unfold dumpSpanBegin
  cases hb : s.begin? with
  | none =>
    refine ⟨[], avail, false, rfl, .refl _, hs, fun i hi => (nomatch hi), fun zones rd hz hrd =>
      ⟨.new L o.cls, rfl, trivial, rfl, rfl, rfl, rfl, fun n hn => (nomatch hn), ?_, fun k hk => rfl⟩⟩
    rw [h.beginParams.2 hb]
    rfl
  | some d =>
    have hup : extraKey "begin".toList = "BEGIN".toList := by decide
    obtain ⟨p, p1, p2, p3⟩ := params_of_rep (a := "begin".toList) (hup ▸ h.beginParams.1)
    obtain ⟨t, q, key⟩ := rep_spanTime hU (h.begin d hb) (validate_precision h.valid (Or.inl hb)) (h.prec (.inl hb))
      (p2 "VALUE" (by simp)) (p2 "TZID" (by simp))
    obtain ⟨avail', k1, k2, k3, k4⟩ := key avail hs
    refine ⟨[.line (mkContentLine "DTSTART".toList q t)], avail', true, ?_, k2, k3, fun i hi => ?_, fun zones rd hz hrd => ?_⟩
    · simp only [Bool.false_eq_true, if_false, bind, Except.bind, p1, k1]
    · rw [List.mem_singleton.1 hi]
      show upper "DTSTART".toList ∈ _
      decide
    · obtain ⟨d', ctx', l1, l2⟩ := k4 zones hz
      have hname : (mkContentLine "DTSTART".toList q t).name = "DTSTART".toList := by
        show upper "DTSTART".toList = _
        decide
      have hr : rd .timespan (.line (mkContentLine "DTSTART".toList q t)) = .ok (.spanTime d' s.prec p) := by
        refine reading_ok (ctx' := ctx') hrd rfl ?_
        simp only [readConv, hname, l2, bind, Except.bind]
        rw [if_neg (by decide)]
      obtain ⟨b, hbe⟩ : ∃ b : Core σ, b = ⟨(newObj (σ := σ) L o.cls).setExtraParams "begin".toList p, [],
        { seen := ["DTSTART".toList], prec? := some s.prec, begin? := some d' }⟩ := ⟨_, rfl⟩
      refine ⟨b, ?_, ?_, ?_, ?_, ?_, ?_, ?_, ?_, ?_⟩
      · simp only [foldConv, coreConv, preConv, hr, bind, Except.bind, storeConv, storeSpanTime, hname]
        simp only [Core.new, raiseIf, Option.getD_none, ne_eq, not_true_eq_false, decide_false, List.not_mem_nil,
          Bool.false_eq_true, if_false, if_true, List.nil_append, hbe]
      · rw [hbe]
        exact l1
      · rw [hbe]
      · rw [hbe]
      · rw [hbe]
      · rw [hbe]
        rfl
      · rw [hbe]
        exact fun n hn => List.mem_singleton.1 hn
      · rw [hbe]
        dsimp only
        rw [dictGet_setExtraParams, hup]
        have p3 : dictGet? o.extraParams "BEGIN".toList = _ := p3
        rw [p3]
        by_cases hp : p = []
        · rw [if_neg (fun e => e.1 hp), if_pos hp]
          rfl
        · rw [if_pos ⟨hp, rfl⟩, if_neg hp]
      · intro k hk
        rw [hbe]
        dsimp only
        rw [dictGet_setExtraParams, hup, if_neg (fun e => hk e.2)]
        rfl

/-- The line for the end or the duration. -/
theorem rt_spanEnd {L : Lib} (hU : UtcOk L) {mem : MemberLoad σ} {zs : List (Str × Nat)} {o : Obj σ} {s : Span}
    (hcls : o.cls = .event ∨ o.cls = .todo)
    (h : RepSpan L zs o s) {avail : List (Str × Nat)} {dts : Bool} (hs : SubDict avail zs) :
    ∃ part avail', dumpSpanEnd L o s ⟨some avail, dts⟩ = .ok (part, ⟨some avail', dts⟩) ∧
      SubDict avail avail' ∧ SubDict avail' zs ∧
      (∀ i ∈ part, i.name ∈ Conv.timespan.names) ∧
      ∀ zones rd, SubDict avail' zones → IsReading L mem (L.toWorld.resolve (some zones)) rd →
        ∀ c : Core σ, c.span.end? = none → c.span.dur? = none → c.span.endName? = none →
          c.span.prec? = s.begin?.map (fun _ => s.prec) → (∀ n ∈ c.span.seen, n = "DTSTART".toList) →
          (∀ k, k ≠ "BEGIN".toList → dictGet? c.obj.extraParams k = none) →
          ∃ b : Core σ, foldConv L rd .timespan part c = .ok b ∧ b.span.begin? = c.span.begin? ∧
            SameTime? L s.end? b.span.end? ∧ b.span.dur? = s.dur? ∧ b.span.prec?.getD (.other []) = s.prec ∧
            b.span.endName?.getD o.cls.spanCls.endName = o.cls.spanCls.endName ∧
            (∀ k, k = "DUE".toList ∨ k = "DURATION".toList → dictGet? b.obj.extraParams k = dictGet? o.extraParams k) ∧
            ∀ k, k ≠ "DUE".toList → k ≠ "DURATION".toList → dictGet? b.obj.extraParams k = dictGet? c.obj.extraParams k := by
  have hbase := validate_dur_end h.valid
  unfold dumpSpanEnd
  cases hd : s.dur? with
  | some d =>
    have he : s.end? = none := hbase.1.resolve_left fun e => by rw [hd] at e; cases e
    have hup : extraKey "duration".toList = "DURATION".toList := by decide
    obtain ⟨p, p1, _, p3⟩ := params_of_rep (a := "duration".toList) (hup ▸ h.durParams.1)
    have p3 : dictGet? o.extraParams "DURATION".toList = _ := p3
    have hdur : durationParse (durationSerialize d) = .ok d := by
      obtain ⟨d1, d2, d3⟩ := h.dur d hd
      obtain ⟨k, rfl⟩ : ∃ k, d = k * 1000000 := ⟨d / 1000000, by omega⟩
      exact C13_roundtrip _ ⟨d2, d3⟩
    refine ⟨[.line (mkContentLine "DURATION".toList p (durationSerialize d))], avail, ?_, .refl _, hs, fun i hi => ?_,
      fun zones rd hz hrd c c1 c2 c3 c4 c5 c6 => ?_⟩
    · simp only [bind, Except.bind, p1]
    · rw [List.mem_singleton.1 hi]
      show upper "DURATION".toList ∈ _
      decide
    · have hname : (mkContentLine "DURATION".toList p (durationSerialize d)).name = "DURATION".toList := by
        show upper "DURATION".toList = _
        decide
      have hr : rd .timespan (.line (mkContentLine "DURATION".toList p (durationSerialize d))) = .ok (.spanDur d) := by
        refine reading_ok (ctx' := some zones) hrd rfl ?_
        simp only [readConv, hname, bind, Except.bind]
        rw [if_pos trivial]
        have hdur' : durationParse (mkContentLine "DURATION".toList p (durationSerialize d)).value = .ok d := hdur
        rw [hdur']
      have hseen : "DURATION".toList ∉ c.span.seen := fun e => absurd (c5 _ e) (by decide)
      refine ⟨storeSpanDur (mkContentLine "DURATION".toList p (durationSerialize d)) d c, ?_, rfl, ?_, rfl, ?_, ?_, ?_, ?_⟩
      · simp only [foldConv, coreConv, preConv, hr, bind, Except.bind, storeConv, hname]
        rw [decide_eq_false hseen]
        rfl
      · rw [he]
        show SameTime? L none c.span.end?
        rw [c1]
        trivial
      · show c.span.prec?.getD _ = _
        rw [c4]
        exact h.getPrec he
      · show c.span.endName?.getD _ = _
        rw [c3]
        rfl
      · intro k hk
        show dictGet? (c.obj.setExtraParams "duration".toList p).extraParams k = _
        rw [dictGet_setExtraParams, hup]
        rcases hk with hk | hk
        · rw [hk, if_neg (fun e => absurd e.2 (by decide)), c6 _ (by decide), h.dueParams.2 (Or.inl he)]
        · rw [hk, p3]
          by_cases hp : p = []
          · rw [if_neg (fun e => e.1 hp), if_pos hp, c6 _ (by decide)]
          · rw [if_pos ⟨hp, rfl⟩, if_neg hp]
      · intro k _ hk
        show dictGet? (c.obj.setExtraParams "duration".toList p).extraParams k = _
        rw [dictGet_setExtraParams, hup, if_neg (fun e => hk e.2)]
  | none =>
    cases he : s.end? with
    | none =>
      refine ⟨[], avail, rfl, .refl _, hs, fun i hi => (nomatch hi), fun zones rd hz hrd c c1 c2 c3 c4 c5 c6 =>
        ⟨c, rfl, rfl, ?_, c2, ?_, ?_, ?_, fun k _ _ => rfl⟩⟩
      · rw [c1]
        trivial
      · rw [c4]
        exact h.getPrec he
      · rw [c3]
        rfl
      · intro k hk
        rcases hk with rfl | rfl
        · rw [c6 _ (by decide), h.dueParams.2 (Or.inl he)]
        · rw [c6 _ (by decide), h.durParams.2 hd]
    | some d =>
      obtain ⟨p, p1, p2, p3⟩ : ∃ p : Params, o.extraParamsOf s.cls.endLine = .ok p ∧
          (∀ k ∈ ["VALUE", "TZID"], k.toList ∉ p.map Prod.fst) ∧
          ((o.cls = .event ∧ p = []) ∨ (o.cls = .todo ∧
            dictGet? o.extraParams "DUE".toList = if p = [] then none else some (.one p))) := by
        rw [h.cls]
        rcases hcls with hc | hc
        · refine ⟨[], ?_, fun _ _ e => (nomatch e), Or.inl ⟨hc, rfl⟩⟩
          rw [hc]
          have hup : extraKey (Cls.spanCls .event).endLine = "DTEND".toList := by decide
          unfold Obj.extraParamsOf
          rw [hup, h.endParams.2]
        · rw [hc]
          have hup : extraKey (Cls.spanCls .todo).endLine = "DUE".toList := by decide
          obtain ⟨p, p1, p2, p3⟩ := params_of_rep (a := (Cls.spanCls .todo).endLine) (hup ▸ h.dueParams.1)
          exact ⟨p, p1, p2, Or.inr ⟨rfl, p3⟩⟩
      obtain ⟨t, q, key⟩ := rep_spanTime hU (h.end_ d he) (validate_precision h.valid (Or.inr he)) (h.prec (.inr he))
        (p2 "VALUE" (by simp)) (p2 "TZID" (by simp))
      obtain ⟨avail', k1, k2, k3, k4⟩ := key avail hs
      have hname : (mkContentLine s.cls.endLine q t).name = s.cls.endLine := by
        show upper s.cls.endLine = _
        cases s.cls <;> decide
      refine ⟨[.line (mkContentLine s.cls.endLine q t)], avail', ?_, k2, k3, fun i hi => ?_,
        fun zones rd hz hrd c c1 c2 c3 c4 c5 c6 => ?_⟩
      · simp only [bind, Except.bind, p1, k1]
      · rw [List.mem_singleton.1 hi]
        show (mkContentLine s.cls.endLine q t).name ∈ _
        rw [hname]
        cases s.cls <;> decide
      · obtain ⟨d', ctx', l1, l2⟩ := k4 zones hz
        have hr : rd .timespan (.line (mkContentLine s.cls.endLine q t)) = .ok (.spanTime d' s.prec p) := by
          refine reading_ok (ctx' := ctx') hrd rfl ?_
          simp only [readConv, hname, l2, bind, Except.bind]
          rw [if_neg (by cases s.cls <;> decide)]
        have hseen : s.cls.endLine ∉ c.span.seen := fun e =>
          absurd (c5 _ e) (by cases s.cls <;> decide)
        have hprec : c.span.prec?.getD s.prec = s.prec := by
          rw [c4]
          cases s.begin? <;> rfl
        have hst : s.cls.endLine ≠ "DTSTART".toList := by cases s.cls <;> decide
        obtain ⟨b, hbe⟩ : ∃ b : Core σ, b = ⟨c.obj.setExtraParams (if s.cls.endLine = "DUE".toList then "due".toList
            else "end".toList) p, c.counts,
          { c.span with
            seen := c.span.seen ++ [s.cls.endLine], prec? := some s.prec, end? := some d',
            endName? := some (if s.cls.endLine = "DUE".toList then .due else .end_) }⟩ := ⟨_, rfl⟩
        refine ⟨b, ?_, ?_, ?_, ?_, ?_, ?_, ?_, ?_⟩
        · simp only [foldConv, coreConv, preConv, hr, bind, Except.bind, storeConv, storeSpanTime, hname]
          rw [decide_eq_false hseen, hprec, decide_eq_false (fun e => e rfl), if_neg hst, hbe]
          rfl
        · rw [hbe]
        · rw [hbe]
          exact l1
        · rw [hbe]
          exact c2
        · rw [hbe]
          rfl
        · rw [hbe]
          dsimp only [Option.getD_some]
          rw [h.cls]
          rcases hcls with hc | hc <;> rw [hc] <;> decide
        · intro k hk
          rw [hbe]
          dsimp only
          rw [dictGet_setExtraParams]
          rcases hk with rfl | rfl
          · rcases p3 with ⟨hc, hp⟩ | ⟨hc, hp⟩
            · rw [if_neg (fun e => e.1 hp), c6 _ (by decide), h.dueParams.2 (Or.inr (by rw [hc]; decide))]
            · have hup : "DUE".toList = extraKey (if s.cls.endLine = "DUE".toList then "due".toList else "end".toList) := by
                rw [h.cls, hc]
                decide
              rw [hp]
              by_cases hpe : p = []
              · rw [if_neg (fun e => e.1 hpe), if_pos hpe, c6 _ (by decide)]
              · rw [if_pos ⟨hpe, hup⟩, if_neg hpe]
          · rw [if_neg, c6 _ (by decide), h.durParams.2 hd]
            intro e
            have e := e.2
            rw [h.cls] at e
            rcases hcls with hc | hc <;> rw [hc] at e <;> exact absurd e (by decide)
        · intro k hk1 hk2
          rw [hbe]
          dsimp only
          rw [dictGet_setExtraParams]
          rcases p3 with ⟨hc, hp⟩ | ⟨hc, hp⟩
          · rw [if_neg (fun e => e.1 hp)]
          · have hup : "DUE".toList = extraKey (if s.cls.endLine = "DUE".toList then "due".toList else "end".toList) := by
              rw [h.cls, hc]
              decide
            rw [if_neg (fun e => hk1 (e.2.trans hup.symm))]

theorem span_cls {c : Cls} (h : .timespan ∈ c.convs) : c = .event ∨ c = .todo := by
  cases c <;> first | exact Or.inl rfl | exact Or.inr rfl | exact absurd h (by decide)

theorem rt_span {L : Lib} (hU : UtcOk L) {mem : MemberLoad σ} {memd : MemberDump σ} {R : σ → σ → Prop}
    {zs : List (Str × Nat)} {need : Bool} {o : Obj σ} (hc : .timespan ∈ o.cls.convs) {s : Span}
    (h : RepSpan L zs o s) : RT L mem memd R zs need o .timespan := by
  intro avail dts hs hd
  rw [hd (Or.inl rfl)]
  obtain ⟨p1, avail1, dts1, a1, a2, a3, a4, a5⟩ := rt_spanBegin (mem := mem) hU h hs
  obtain ⟨p2, avail2, b1, b2, b3, b4, b5⟩ := rt_spanEnd (mem := mem) (dts := dts1) hU (span_cls hc) h a3
  refine ⟨p1 ++ p2, avail2, dts1, ?_, fun e => absurd rfl e, a2.trans b2, b3, fun i hi => ⟨?_, fun e => nomatch e⟩,
    fun zones rd hz hrd => ?_⟩
  · simp only [Conv.dump, dumpSpan, h.get, bind, Except.bind, a1, b1]
  · rcases List.mem_append.1 hi with hi | hi
    · exact a4 i hi
    · exact b4 i hi
  · obtain ⟨c, c1, c2, c3, c4, c5, c6, c7, c8, c9⟩ := a5 zones rd (b2.trans hz) hrd
    obtain ⟨b, d1, d2, d3, d4, d5, d6, d7, d8⟩ := b5 zones rd hz hrd c c3 c4 c5 c6 c7 c9
    have hsame : SameSpan L s (spanOf o.cls b.span) := by
      refine ⟨h.cls, ?_, d3, d4.symm, ?_⟩
      · show SameTime? L s.begin? b.span.begin?
        rw [d2]
        exact c2
      · exact d5.symm
    refine ⟨b, foldConv_append.2 ⟨c, c1, d1⟩, fun e => absurd rfl e, fun _ k hk => ?_, fun s e => (nomatch e),
      fun s e => (nomatch e), fun s e => (nomatch e), fun _ => ⟨s, h.get, hsame, sameSpan_validate hU hsame h.valid, d6⟩⟩
    simp only [Conv.paramKeys, List.mem_cons, List.not_mem_nil, or_false] at hk
    rcases hk with rfl | rfl | rfl | rfl | rfl
    · rw [d8 _ (by decide) (by decide), c8]
    · rw [d8 _ (by decide) (by decide), c9 _ (by decide), h.endParams.1]
    · exact (d7 _ (Or.inl rfl)).symm
    · exact (d7 _ (Or.inr rfl)).symm
    · rw [d8 _ (by decide) (by decide), c9 _ (by decide), h.endParams.2]

end Ics
