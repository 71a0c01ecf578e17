import Verif.Proofs.Represent

/-
Writing the part of a component that belongs to one converter, and reading it back.
-/
namespace Ics

variable {σ : Type}

theorem reading_ok {L : Lib} {mem : MemberLoad σ} {ctx : Ctx} {rd : Reading σ}
    (h : IsReading L mem (L.toWorld.resolve ctx) rd) (hc : ctx.isSome) {cv : Conv} {i : Item} {d : Delta σ} {ctx' : Ctx}
    (hr : readConv L mem cv i ctx = .ok (d, ctx')) : rd cv i = .ok d := by
  have k := h cv i ctx hc rfl
  rw [hr] at k
  unfold Outcome at k
  cases hd : rd cv i with
  | error e =>
    rw [hd] at k
    cases k
  | ok d' =>
    rw [hd] at k
    obtain ⟨_, k, _⟩ := k
    cases k
    rfl

/-- The parameters that a value on a line of its own has after it was read. -/
def ownLine : Params := [("__merge_next".toList, [⟨false, "FALSE".toList⟩])]

/-- What reading the part of a converter gives, compared with the component that was written. -/
structure RtRead (L : Lib) (R : σ → σ → Prop) (o : Obj σ) (cv : Conv) (b : Core σ) : Prop where
  attrs : cv ≠ .timespan → ∀ k ∈ cv.attrKeys, SameAttr L R (o.get k) (b.obj.get k)
  params : (∀ s, cv = .value s → s.multi = false) →
    ∀ k ∈ cv.paramKeys, dictGet? o.extraParams k = dictGet? b.obj.extraParams k
  listParams : ∀ s, cv = .value s → s.multi = true → ∀ ps,
    dictGet? o.extraParams (extraKey s.attr) = some (.many ps) →
    dictGet? b.obj.extraParams (extraKey s.attr) = some (.many ps)
  newParams : ∀ s, cv = .value s → s.multi = true → dictGet? o.extraParams (extraKey s.attr) = none →
    dictGet? b.obj.extraParams (extraKey s.attr) = none ∨ ∃ l, b.obj.get s.attr = .many l ∧
      dictGet? b.obj.extraParams (extraKey s.attr) = some (.many (l.map fun _ => ownLine))
  required : ∀ s, cv = .value s → s.required = true → 0 < b.count s.attr
  span : cv = .timespan → ∃ s, o.get "timespan".toList = .one (.span s) ∧ SameSpan L s (spanOf o.cls b.span) ∧
    L.validate (spanOf o.cls b.span) = .ok () ∧ b.span.endName?.getD o.cls.spanCls.endName = o.cls.spanCls.endName

/-- Writing the part of a converter, from any state, and reading it back.  `need` says that the members
must not be written while DTSTART is set. -/
def RT (L : Lib) (mem : MemberLoad σ) (memd : MemberDump σ) (R : σ → σ → Prop) (zs : List (Str × Nat)) (need : Bool)
    (o : Obj σ) (cv : Conv) : Prop :=
  ∀ avail dts, SubDict avail zs → (cv = .timespan ∨ need = true → dts = false) →
    ∃ part avail' dts', cv.dump L memd o ⟨some avail, dts⟩ = .ok (part, ⟨some avail', dts'⟩) ∧
      (cv ≠ .timespan → dts' = dts) ∧ SubDict avail avail' ∧ SubDict avail' zs ∧
      (∀ i ∈ part, i.name ∈ cv.names ∧ (cv ≠ .calendarTimezone)) ∧
      ∀ zones rd, SubDict avail' zones → IsReading L mem (L.toWorld.resolve (some zones)) rd →
        ∃ b, foldConv L rd cv part (.new L o.cls) = .ok b ∧ RtRead L R o cv b

/-! ### Single values -/

theorem astimezone_same {L : Lib} (hU : UtcOk L) {zs : List (Str × Nat)} {d d' : DT} (hr : RepTime L zs d)
    (h : SameTime L d d') (ha : L.astimezone d (.zone L.icsUtc) = .ok d) :
    ∃ w, L.astimezone d' (.zone L.icsUtc) = .ok w ∧ SameTime L d w := by
  obtain ⟨h1, h2, h3⟩ := h
  have htz : d.tz = some (.zone L.icsUtc) := by
    unfold Env.astimezone at ha
    split at ha
    · assumption
    · dsimp only at ha
      split at ha
      · cases ha
      · split at ha
        · have := Except.ok.inj ha
          rw [← this]
        · cases ha
  by_cases he : d'.tz = some (.zone L.icsUtc)
  · refine ⟨d', ?_, h1, h2, h3⟩
    unfold Env.astimezone
    rw [if_pos he]
  · rcases h3 with h3 | ⟨m, n, h4, h5, h6, h7⟩
    · exact absurd (h3.symm.trans htz) he
    · have hw : mkWall d.wall = .ok d.wall := if_pos ⟨hr.2.2.1, hr.2.2.2.1⟩
      refine ⟨⟨d.wall, false, some (.zone L.icsUtc)⟩, ?_, rfl, hr.2.1, Or.inl htz⟩
      unfold Env.astimezone
      rw [if_neg he, h5]
      dsimp only [Env.tzOff, Env.tzFromUtc]
      rw [hU.off _ _ _ h7, Int.sub_zero, ← h1, hw]
      dsimp only
      rw [hU.fromUtc]
      dsimp only
      rw [hw]

theorem check_same {L : Lib} (hU : UtcOk L) {zs : List (Str × Nat)} {ch : Check} {v v' : Val σ}
    (hr : ∀ d, v = .dt d → RepTime L zs d) (h : SameBase L v v') (hv : ch.run L (.one v) = .ok (.one v)) :
    ∃ w, ch.run L (.one v') = .ok (.one w) ∧ SameBase L v w := by
  cases h with
  | same => exact ⟨v, hv, .same _⟩
  | dt h =>
    rename_i a b
    cases ch with
    | utc =>
      simp only [Check.run, map_ok_iff] at hv
      obtain ⟨x, hx, e⟩ := hv
      cases e
      obtain ⟨w, hw, hs⟩ := astimezone_same hU (hr _ rfl) h hx
      exact ⟨.dt w, by simp [Check.run, hw, Except.map], .dt hs⟩
    | utcRequired =>
      simp only [Check.run, map_ok_iff] at hv
      obtain ⟨x, hx, e⟩ := hv
      cases e
      obtain ⟨w, hw, hs⟩ := astimezone_same hU (hr _ rfl) h hx
      exact ⟨.dt w, by simp [Check.run, hw, Except.map], .dt hs⟩
    | any => exact ⟨_, rfl, .dt h⟩
    | datetime => exact ⟨_, rfl, .dt h⟩
    | trigger => exact ⟨_, rfl, .dt h⟩
    | status => cases hv
    | str => cases hv
    | strOpt => cases hv
    | organizerOpt => cases hv
    | geo => cases hv
    | range => cases hv
    | timedelta => cases hv
    | timespan => cases hv
    | list => cases hv

theorem newCore_count {L : Lib} {c : Cls} (k : Str) : (Core.new (σ := σ) L c).count k = 0 := rfl

theorem get_of_dict {o : Obj σ} {k : Str} {v : AttrVal σ} (h : dictGet? o.attrs k = some v) : o.get k = v := by
  unfold Obj.get
  rw [h]
  rfl

theorem params_of_rep {res : List String} {o : Obj σ} {a : Str} (h : RepParams res (dictGet? o.extraParams (upper a))) :
    ∃ p : Params, o.extraParamsOf a = .ok p ∧ (∀ k ∈ res, k.toList ∉ p.map Prod.fst) ∧
      dictGet? o.extraParams (upper a) = if p = [] then none else some (.one p) := by
  unfold Obj.extraParamsOf extraKey
  generalize dictGet? o.extraParams (upper a) = x at *
  match x, h with
  | none, _ => exact ⟨[], rfl, fun _ _ h => (nomatch h), rfl⟩
  | some (.one p), h => exact ⟨p, rfl, h.2, (if_neg h.1).symm⟩
  | some (.many _), h => exact h.elim

theorem icsType_inj {a b : ValConv} (h : a.icsType = b.icsType) : a = b := by
  revert h
  cases a <;> cases b <;> decide

theorem find_type {convs : List ValConv} {x : ValConv} (h : x ∈ convs) :
    convs.find? (fun y => y.icsType = x.icsType) = some x := by
  induction convs with
  | nil => cases h
  | cons y ys ih =>
    by_cases e : y = x
    · rw [List.find?_cons_of_pos (by simp [e]), e]
    · rw [List.find?_cons_of_neg (by simpa using fun h => e (icsType_inj h))]
      exact ih ((List.mem_cons.1 h).resolve_left fun h => e h.symm)

/-- Choosing the converter when writing, and finding it again when reading. -/
theorem prepare_written {convs : List ValConv} {v : Val σ} {c : ValConv}
    (hf : convs.find? (fun c => c.accepts v) = some c) {p : Params}
    (hp : "VALUE".toList ∉ p.map Prod.fst) :
    ∃ val : Params, (∀ k ∈ val.map Prod.fst, k = "VALUE".toList) ∧ (convs.head? = some c → val = []) ∧
      findConverter convs p v = .ok (c, p ++ val) ∧
      ∀ tz : Params, "VALUE".toList ∉ tz.map Prod.fst → prepareParams convs (p ++ val ++ tz) = .ok (p ++ tz, c) := by
  unfold findConverter
  rw [hf]
  dsimp only
  by_cases hh : convs.head? = some c
  · refine ⟨[], fun _ h => (nomatch h), fun _ => rfl, ?_, fun tz htz => ?_⟩
    · rw [if_pos hh, List.append_nil]
    · have hn : "VALUE".toList ∉ (p ++ tz).map Prod.fst := by
        rw [List.map_append, List.mem_append, not_or]
        exact ⟨hp, htz⟩
      unfold prepareParams
      rw [List.append_nil, dictGet_eq_none.2 hn, dictErase_absent _ _ (dictGet_eq_none.2 hn)]
      dsimp only
      cases convs with
      | nil => cases hh
      | cons x xs =>
        cases hh
        rfl
  · refine ⟨[("VALUE".toList, [⟨false, c.icsType⟩])], fun k h => List.mem_singleton.1 h,
      fun h => absurd h hh, ?_, fun tz htz => ?_⟩
    · rw [if_neg hh, dictSet_new _ _ _ hp]
    · unfold prepareParams
      rw [List.append_assoc, dictGet_append hp, dictErase_append hp, List.singleton_append, dictGet?, dictErase,
        if_pos rfl, if_pos rfl]
      dsimp only
      rw [findByType, find_type (List.mem_of_find?_eq_some hf)]
      rfl

theorem rt_single {L : Lib} (hU : UtcOk L) {mem : MemberLoad σ} {memd : MemberDump σ} {R : σ → σ → Prop}
    {zs : List (Str × Nat)} {need : Bool} {o : Obj σ} {s : AttrSpec} (hs : .value s ∈ o.cls.convs)
    (hm : s.multi = false) (h : RepSingle L zs o s) (hreq : s.required = true → o.get s.attr ≠ .none) :
    RT L mem memd R zs need o (.value s) := by
  intro avail dts hsub hdts
  simp only [Conv.dump, hm, Bool.false_eq_true, if_false, dumpSingle]
  have hup : upper s.ics = s.ics := names_upper _ _ hs _ (List.mem_singleton_self _)
  unfold RepSingle at h
  cases hv : o.get s.attr with
  | many l =>
    rw [hv] at h
    exact h.elim
  | none =>
    rw [hv] at h
    obtain ⟨h1, h2⟩ := h
    refine ⟨[], avail, dts, rfl, fun _ => rfl, .refl _, hsub, fun i hi => (nomatch hi), fun zones rd hz hrd =>
      ⟨.new L o.cls, rfl, fun _ k hk => ?_, fun _ k hk => ?_, fun s' e hm' => ?_, fun s' e hm' => ?_, fun s' e hr => ?_,
        fun e => nomatch e⟩⟩
    · rw [List.mem_singleton.1 hk, hv, get_of_dict (new_value hs), hm]
      have : defaultAttr (σ := σ) L s.attr false = .none := by
        unfold defaultAttr
        simp only [List.map_cons, List.map_nil, List.mem_cons, List.not_mem_nil, or_false, not_or] at h2
        rw [if_neg (by decide), if_neg h2.1, if_neg h2.2.1, if_neg h2.2.2.1, if_neg h2.2.2.2]
      rw [this]
      exact .none
    · rw [List.mem_singleton.1 hk]
      exact h1
    · cases e
      rw [hm] at hm'
      cases hm'
    · cases e
      rw [hm] at hm'
      cases hm'
    · cases e
      exact absurd hv (hreq hr)
  | one v =>
    rw [hv] at h
    obtain ⟨c, hf, hrep, hchk, hpar, horg⟩ := h
    obtain ⟨p, hp1, hp2, hp3⟩ := params_of_rep hpar
    have hval : "VALUE".toList ∉ p.map Prod.fst := hp2 "VALUE" (by split <;> simp)
    obtain ⟨val, hvk, hhead, hfc, hprep⟩ := prepare_written hf hval
    rw [hp1]
    simp only [bind, Except.bind, hfc]
    have final : ∀ (cl : ContentLine) (v' w : Val σ), cl.name = s.ics → SameBase L v w →
        s.check.run L (.one v') = .ok (.one w) → ∀ rd : Reading σ, rd (.value s) (.line cl) = .ok (.single v' p) →
        ∃ b, foldConv L rd (.value s) [.line cl] (.new L o.cls) = .ok b ∧ RtRead L R o (.value s) b := by
      intro cl v' w _ hsame hrun rd hrd
      obtain ⟨b, hb⟩ : ∃ b : Core σ, b = ⟨{ ((newObj (σ := σ) L o.cls).setExtraParams s.attr p) with
            attrs := dictSet ((newObj (σ := σ) L o.cls).setExtraParams s.attr p).attrs s.attr (.one w) },
          dictSet [] s.attr 1, {}⟩ := ⟨_, rfl⟩
      refine ⟨b, ?_, ?_⟩
      · have hpre : preConv (.value s) (.line cl) (Core.new (σ := σ) L o.cls) = .ok () := by
          simp only [preConv, hm, Bool.false_eq_true, if_false]
          rfl
        simp only [foldConv, coreConv, hpre, hrd, storeConv, hm, Bool.false_eq_true, if_false, storeSingle,
          Obj.setattr, hrun, bind, Except.bind, Except.map]
        rw [hb]
        rfl
      · subst hb
        refine ⟨fun _ k hk => ?_, fun _ k hk => ?_, fun s' e hm' => ?_, fun s' e hm' => ?_, fun s' e hr => ?_,
          fun e => nomatch e⟩
        · rw [List.mem_singleton.1 hk, hv]
          rw [get_of_dict (v := .one w)]
          · exact .one hsame.toVal
          · dsimp only
            rw [dictGet_set]
        · rw [List.mem_singleton.1 hk]
          dsimp only
          rw [dictGet_setExtraParams]
          unfold extraKey
          rw [hp3]
          by_cases hpe : p = []
          · rw [if_pos hpe, if_neg (fun h => h.1 hpe)]
            rfl
          · rw [if_neg hpe, if_pos ⟨hpe, rfl⟩]
        · cases e
          rw [hm] at hm'
          cases hm'
        · cases e
          rw [hm] at hm'
          cases hm'
        · cases e
          unfold Core.count
          dsimp only
          rw [dictGet_set]
          exact Nat.one_pos
    by_cases hper : c.isPerson = true
    · have hco : c = .organizer := by
        have := List.mem_of_find?_eq_some hf
        rcases (single_table _ _ hs hm).2 with h1 | ⟨h1, _⟩
        · rw [h1 c this] at hper
          cases hper
        · rw [h1] at this
          exact List.mem_singleton.1 this
      have hhd : s.convs.head? = some c := by
        have := List.mem_of_find?_eq_some hf
        rcases (single_table _ _ hs hm).2 with h1 | ⟨h1, _⟩
        · rw [h1 c this] at hper
          cases hper
        · rw [h1, hco]
          rfl
      have hpn : p = [] := by
        rw [horg hco] at hp3
        split at hp3
        · assumption
        · cases hp3
      rw [hhead hhd] at hprep ⊢
      subst hpn hco
      obtain ⟨u, extra, rfl, r1, r2, r3⟩ : ∃ u extra, v = .person false (.url u) extra ∧ RepUrl L u ∧ RepPerson extra := by
        cases v with
        | person att e x =>
          cases att <;> cases e <;> first | exact ⟨_, _, rfl, hrep⟩ | exact hrep.elim
        | _ => exact hrep.elim
      have hup2 : dictUpdate ([] ++ []) extra = extra := dictUpdate_nil r2
      simp only [ValConv.serialize, hup2, Email.str?]
      refine ⟨_, avail, dts, rfl, fun _ => rfl, .refl _, hsub, fun i hi => ?_, fun zones rd hz hrd => ?_⟩
      · rw [List.mem_singleton.1 hi]
        refine ⟨?_, fun e => nomatch e⟩
        show upper s.ics ∈ [s.ics]
        rw [hup]
        exact List.mem_singleton_self _
      · refine final _ _ _ hup (.same _) hchk rd (reading_ok (ctx' := some zones) hrd rfl ?_)
        have := hprep extra r3
        rw [List.nil_append, List.nil_append] at this
        have r1 : urlparse L.urlChecks u.geturl = .ok u := r1
        simp only [readConv, hm, Bool.false_eq_true, if_false, mkContentLine, this, bind, Except.bind,
          ValConv.parse, r1, Except.map]
    · have hper : c.isPerson = false := by simpa using hper
      obtain ⟨t, tz, htz, _, hser⟩ := rep_value hU hper hrep
      have htzk : c = .datetime → "TZID".toList ∉ p.map Prod.fst := fun e => hp2 "TZID" (by rw [if_pos e]; simp)
      obtain ⟨avail', a1, a2, a3, a4⟩ := hser (p ++ val) avail (fun e => by
        rw [List.map_append, List.mem_append, not_or]
        refine ⟨htzk e, fun h => ?_⟩
        exact absurd (hvk _ h) (by decide)) hsub
      rw [a1]
      refine ⟨_, avail', dts, rfl, fun _ => rfl, a2, a3, fun i hi => ?_, fun zones rd hz hrd => ?_⟩
      · rw [List.mem_singleton.1 hi]
        refine ⟨?_, fun e => nomatch e⟩
        show upper s.ics ∈ [s.ics]
        rw [hup]
        exact List.mem_singleton_self _
      · obtain ⟨v', ctx', b1, b2⟩ := a4 p zones htzk hz
        obtain ⟨w, c1, c2⟩ := check_same hU (zs := zs) (ch := s.check) (fun d e => by
          subst e
          cases c <;> first | exact hrep | exact hrep.elim) b2 hchk
        refine final _ v' w hup c2 c1 rd (reading_ok (ctx' := ctx') hrd rfl ?_)
        simp only [readConv, hm, Bool.false_eq_true, if_false, mkContentLine, hprep tz htz.value, b1, bind,
          Except.bind]

end Ics
