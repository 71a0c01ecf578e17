import Verif.Proofs.RtCal

/-
The same is written for components that are the same.
-/
namespace Ics

variable {σ : Type}

/-! ### The tables of the specification, the other way round -/

theorem convs_allAttrs (c : Cls) : ∀ cv ∈ c.convs, ∀ k ∈ cv.attrKeys, ∃ x ∈ allAttrs c, x.toList = k := by
  cases c <;> decide +kernel

theorem convs_oneParamKeys (c : Cls) : ∀ cv ∈ c.convs, cv.multiAttr = none → ∀ k ∈ cv.paramKeys,
    ∃ x ∈ oneParamKeys c, x.toList = k := by
  cases c <;> decide +kernel

theorem convs_listAttrs (c : Cls) : ∀ cv ∈ c.convs, ∀ a ∈ cv.multiAttr, ∃ x ∈ listAttrs c, x.toList = a ∧
    x.toUpper.toList = extraKey a := by
  cases c <;> decide +kernel

/-! ### Values -/

theorem sameTime?_refl {L : Lib} (d : Option DT) : SameTime? L d d := by
  cases d with
  | none => trivial
  | some d => exact ⟨rfl, rfl, .inl rfl⟩


theorem serializeDt_same {L : Lib} {a b : DT} (h : SameTime L a b) (p : Params) (ctx : Ctx) :
    serializeDt L.toWorld a p ctx = serializeDt L.toWorld b p ctx := by
  obtain ⟨h1, _, h3⟩ := h
  rcases h3 with h3 | ⟨m, n, e1, e2, e3, e4⟩
  · unfold serializeDt Env.dtIsUtc
    rw [h1, h3]
  · have ka : L.dtIsUtc a = true := by
      unfold Env.dtIsUtc
      rw [e1]
      exact e3
    have kb : L.dtIsUtc b = true := by
      unfold Env.dtIsUtc
      rw [e2]
      exact e4
    unfold serializeDt
    rw [if_pos ka, if_pos kb, h1]

theorem accepts_same {L : Lib} {R : σ → σ → Prop} {v w : Val σ} (h : SameVal L R v w) (c : ValConv) :
    c.accepts v = c.accepts w := by
  cases h with
  | same => rfl
  | dt => cases c <;> rfl
  | span => cases c <;> rfl
  | comp => cases c <;> rfl

theorem findConverter_same {L : Lib} {R : σ → σ → Prop} {v w : Val σ} (h : SameVal L R v w) (cs : List ValConv) (p : Params) :
    findConverter cs p v = findConverter cs p w := by
  unfold findConverter
  simp only [accepts_same h]

theorem serialize_same {L : Lib} {R : σ → σ → Prop} {v w : Val σ} (h : SameVal L R v w) (c : ValConv) (p : Params) (ctx : Ctx) :
    c.serialize L v p ctx = c.serialize L w p ctx := by
  cases h with
  | same => rfl
  | dt h =>
    cases c <;> first | rfl | exact serializeDt_same h p ctx
  | span => cases c <;> rfl
  | comp => cases c <;> rfl

theorem dumpSpanValue_same {L : Lib} {s t : Span} (hs : s.prec = t.prec) {a b : DT} (h : SameTime L a b) (p : Params)
    (ctx : Ctx) : dumpSpanValue L s a p ctx = dumpSpanValue L t b p ctx := by
  unfold dumpSpanValue Span.isAllDay
  rw [hs, serializeDt_same h, h.1]

/-! ### Converters -/

section
variable {L : Lib} {R : σ → σ → Prop} {a b : Obj σ}

theorem extraParamsOf_same {k : Str} (h : dictGet? a.extraParams (extraKey k) = dictGet? b.extraParams (extraKey k)) :
    a.extraParamsOf k = b.extraParamsOf k := by
  unfold Obj.extraParamsOf
  rw [h]

theorem dumpSingle_same {s : AttrSpec} (hg : SameAttr L R (a.get s.attr) (b.get s.attr))
    (hp : dictGet? a.extraParams (extraKey s.attr) = dictGet? b.extraParams (extraKey s.attr)) (st : DState) :
    dumpSingle L s a st = dumpSingle L s b st := by
  unfold dumpSingle
  rw [extraParamsOf_same hp]
  generalize a.get s.attr = x at hg
  generalize b.get s.attr = y at hg
  cases hg with
  | none => rfl
  | one h => simp only [findConverter_same h, serialize_same h]
  | many => rfl

/-- The same values on the same lines. -/
def SameStep (L : Lib) (R : σ → σ → Prop) (x y : Val σ × Params) : Prop :=
  SameVal L R x.1 y.1 ∧ mergeNext x.2 = mergeNext y.2 ∧ dictErase x.2 mergeKey = dictErase y.2 mergeKey

theorem dumpMultiLoop_same {s : AttrSpec} {l m : List (Val σ × Params)} (h : List.Forall₂ (SameStep L R) l m) :
    ∀ cur ts st, dumpMultiLoop L s l cur ts st = dumpMultiLoop L s m cur ts st := by
  induction h with
  | nil => exact fun _ _ _ => rfl
  | @cons x y l m h _ ih =>
    intro cur ts st
    obtain ⟨v, p⟩ := x
    obtain ⟨w, q⟩ := y
    obtain ⟨h1, h2, h3⟩ := h
    simp only at h1 h2 h3
    simp only [dumpMultiLoop, h2, h3, findConverter_same h1, serialize_same h1, ih]

theorem zip_same {l m : List (Val σ)} (h : List.Forall₂ (SameVal L R) l m) (ps : List Params) :
    List.Forall₂ (SameStep L R) (l.zip ps) (m.zip ps) := by
  induction h generalizing ps with
  | nil => exact .nil
  | cons h _ ih =>
    cases ps with
    | nil => exact .nil
    | cons p ps => exact .cons ⟨h, rfl, rfl⟩ (ih ps)

theorem dumpMulti_same {s : AttrSpec} (hg : SameAttr L R (a.get s.attr) (b.get s.attr))
    (hp : (∃ ps, dictGet? a.extraParams (extraKey s.attr) = some (.many ps) ∧
        dictGet? b.extraParams (extraKey s.attr) = some (.many ps)) ∨
      dictGet? a.extraParams (extraKey s.attr) = none ∧ (dictGet? b.extraParams (extraKey s.attr) = none ∨
        ∃ l, b.get s.attr = .many l ∧ dictGet? b.extraParams (extraKey s.attr) = some (.many (l.map fun _ => ownLine))))
    (st : DState) : dumpMulti L s a st = dumpMulti L s b st := by
  unfold dumpMulti
  generalize a.get s.attr = x at hg
  generalize b.get s.attr = y at hg hp
  cases hg with
  | none => rfl
  | one h => rfl
  | @many l m h =>
    have hlen := h.length_eq
    rcases hp with ⟨ps, e1, e2⟩ | ⟨e1, e2 | ⟨l', e, e2⟩⟩
    · rw [e1, e2]
      simp only [zipParams, hlen]
      by_cases h0 : ps = []
      · simp only [if_pos h0, bind, Except.bind]
        refine dumpMultiLoop_same (R := R) ?_ _ _ _
        rw [List.forall₂_map_left_iff, List.forall₂_map_right_iff]
        exact h.imp fun _ _ h => ⟨h, rfl, rfl⟩
      · simp only [if_neg h0, bind, Except.bind]
        by_cases h1 : ps.length ≠ m.length
        · simp only [if_pos h1]
        · simp only [if_neg h1]
          exact dumpMultiLoop_same (zip_same h ps) _ _ _
    · rw [e1, e2]
      simp only [zipParams, bind, Except.bind]
      refine dumpMultiLoop_same (R := R) ?_ _ _ _
      rw [List.forall₂_map_left_iff, List.forall₂_map_right_iff]
      exact h.imp fun _ _ h => ⟨h, rfl, rfl⟩
    · cases e
      rw [e1, e2]
      simp only [zipParams]
      by_cases h0 : m = []
      · subst h0
        have : l = [] := List.length_eq_zero_iff.1 hlen
        subst this
        rfl
      · have h1 : m.map (fun _ => ownLine) ≠ [] := fun e => h0 (List.map_eq_nil_iff.1 e)
        have h2 : ¬(m.map (fun _ => ownLine)).length ≠ m.length := by rw [List.length_map]; exact fun e => e rfl
        simp only [if_neg h1, if_neg h2, bind, Except.bind]
        refine dumpMultiLoop_same (R := R) ?_ _ _ _
        clear h1 h2 h0 hlen e1 e2
        induction h with
        | nil => exact .nil
        | cons h _ ih => exact .cons ⟨h, (by decide : mergeNext [] = mergeNext ownLine), (by decide : dictErase [] mergeKey = dictErase ownLine mergeKey)⟩ ih

theorem dumpMembers_same {memd : MemberDump σ} {l m : List (Val σ)} (h : List.Forall₂ (SameVal L R) l m) :
    (∀ x, .comp x ∈ l → ∀ y, R x y → ∀ st, memd x st = memd y st) → ∀ st, dumpMembers memd l st = dumpMembers memd m st := by
  induction h with
  | nil => exact fun _ _ => rfl
  | @cons x y l m h _ ih =>
    intro hR st
    have ih := ih fun x hx => hR x (List.mem_cons_of_mem _ hx)
    cases h with
    | same => cases x <;> simp only [dumpMembers, ih]
    | dt => rfl
    | span => rfl
    | comp h => simp only [dumpMembers, hR _ List.mem_cons_self _ h, ih]

theorem dumpMember_same {memd : MemberDump σ} {k : Str}
    (hR : ∀ l, a.get k = .many l → ∀ x, .comp x ∈ l → ∀ y, R x y → ∀ st, memd x st = memd y st)
    (hg : SameAttr L R (a.get k) (b.get k))
    (hp : dictGet? a.extraParams (extraKey k) = dictGet? b.extraParams (extraKey k)) (st : DState) :
    dumpMember memd k a st = dumpMember memd k b st := by
  unfold dumpMember
  rw [hp]
  generalize a.get k = x at hg hR
  generalize b.get k = y at hg
  cases hg with
  | none => rfl
  | one h => rfl
  | many h => simp only [dumpMembers_same h (hR _ rfl)]

theorem dumpSpanBegin_same {s t : Span} (h : SameSpan L s t)
    (hp : dictGet? a.extraParams "BEGIN".toList = dictGet? b.extraParams "BEGIN".toList) (st : DState) :
    dumpSpanBegin L a s st = dumpSpanBegin L b t st := by
  unfold dumpSpanBegin
  rw [extraParamsOf_same (a := a) (b := b) (k := "begin".toList) hp]
  have hb := h.begin
  generalize s.begin? = x at hb
  generalize t.begin? = y at hb
  cases x <;> cases y
  · rfl
  · exact hb.elim
  · exact hb.elim
  · simp only [dumpSpanValue_same h.prec hb, spanParams, Span.isAllDay, h.prec]
    rfl

theorem dumpSpanEnd_same {s t : Span} (h : SameSpan L s t)
    (hd : dictGet? a.extraParams "DURATION".toList = dictGet? b.extraParams "DURATION".toList)
    (hp : ∀ k ∈ ["DTEND".toList, "DUE".toList], dictGet? a.extraParams k = dictGet? b.extraParams k) (st : DState) :
    dumpSpanEnd L a s st = dumpSpanEnd L b t st := by
  unfold dumpSpanEnd
  have he : a.extraParamsOf s.cls.endLine = b.extraParamsOf t.cls.endLine := by
    rw [← h.cls]
    refine extraParamsOf_same (hp _ ?_)
    unfold SpanCls.endLine
    split <;> decide
  rw [extraParamsOf_same (a := a) (b := b) (k := "duration".toList) hd, he, h.dur, h.cls]
  have hb := h.end_
  generalize s.end? = x at hb
  generalize t.end? = y at hb
  cases t.dur? with
  | some d => rfl
  | none =>
    cases x <;> cases y
    · rfl
    · exact hb.elim
    · exact hb.elim
    · simp only [dumpSpanValue_same h.prec hb, spanParams, Span.isAllDay, h.prec]
      rfl

theorem dumpSpan_same (hg : SameAttr L R (a.get "timespan".toList) (b.get "timespan".toList))
    (hp : ∀ k ∈ Conv.timespan.paramKeys, dictGet? a.extraParams k = dictGet? b.extraParams k) (st : DState) :
    dumpSpan L a st = dumpSpan L b st := by
  unfold dumpSpan
  generalize a.get "timespan".toList = x at hg
  generalize b.get "timespan".toList = y at hg
  have key : ∀ s t, SameSpan L s t → (do
      let (x, st) ← dumpSpanBegin L a s st
      let (y, st) ← dumpSpanEnd L a s st
      .ok (x ++ y, st) : Except PyErr (List Item × DState)) = (do
      let (x, st) ← dumpSpanBegin L b t st
      let (y, st) ← dumpSpanEnd L b t st
      .ok (x ++ y, st)) := by
    intro s t h
    rw [dumpSpanBegin_same h (hp _ (by decide))]
    simp only [dumpSpanEnd_same h (hp _ (by decide)) fun k hk => hp k (by revert k; decide)]
  cases hg with
  | none => rfl
  | one h =>
    cases h with
    | same =>
      rename_i v
      cases v with
      | span s => exact key s s ⟨rfl, sameTime?_refl _, sameTime?_refl _, rfl, rfl⟩
      | _ => rfl
    | dt => rfl
    | span h => exact key _ _ h
    | comp => rfl
  | many => rfl

theorem dumpAction_same (hc : a.action = b.action)
    (hp : dictGet? a.extraParams "ACTION".toList = dictGet? b.extraParams "ACTION".toList) (st : DState) :
    dumpAction a st = dumpAction b st := by
  unfold dumpAction
  rw [hp, hc]

end

/-! ### Components -/

theorem action_same {a b : Obj σ} (hc : a.cls = b.cls) (h1 : a.cls ≠ .customAlarm) (h2 : .alarmAction ∈ a.cls.convs) :
    a.action = b.action := by
  unfold Obj.action
  rw [← hc]
  generalize a.cls = c at h1 h2
  cases c <;> first | rfl | exact absurd rfl h1 | exact absurd h2 (by decide +kernel)

section
variable {L : Lib} {R : σ → σ → Prop} {a b : Obj σ} {memd : MemberDump σ} {zs : List (Str × Nat)} {M : Str → σ → Prop}

theorem conv_dump_same (h : SameObj L R a b) (ha : RepObj L zs M a)
    (hR : ∀ k x y, M k x → R x y → ∀ st, memd x st = memd y st) {cv : Conv} (hcv : cv ∈ a.cls.convs) (st : DState) :
    cv.dump L memd a st = cv.dump L memd b st := by
  have attr : ∀ k ∈ cv.attrKeys, SameAttr L R (a.get k) (b.get k) := by
    intro k hk
    obtain ⟨x, hx, rfl⟩ := convs_allAttrs _ _ hcv k hk
    exact h.attrs x hx
  have par : cv.multiAttr = none → ∀ k ∈ cv.paramKeys, dictGet? a.extraParams k = dictGet? b.extraParams k := by
    intro hm k hk
    obtain ⟨x, hx, rfl⟩ := convs_oneParamKeys _ _ hcv hm k hk
    exact h.params x hx
  cases cv with
  | value s =>
    cases hm : s.multi with
    | false =>
      simp only [Conv.dump, hm]
      refine dumpSingle_same (R := R) (attr _ (List.mem_singleton_self _)) (par ?_ _ (List.mem_singleton_self _)) st
      simp only [Conv.multiAttr, hm]
      rfl
    | true =>
      simp only [Conv.dump, hm]
      have hma : s.attr ∈ (Conv.value s).multiAttr := by
        simp only [Conv.multiAttr, hm]
        rfl
      obtain ⟨x, hx, e1, e2⟩ := convs_listAttrs _ _ hcv _ hma
      refine dumpMulti_same (R := R) (attr _ (List.mem_singleton_self _)) ?_ st
      rw [← e2, ← e1]
      obtain ⟨groups, -, -, g⟩ := ha.multi s hcv hm
      change _ ∨ _ at g
      have e3 : upper s.attr = x.toUpper.toList := e2.symm
      rcases g with ⟨g, -⟩ | ⟨-, g⟩
      · rw [e3] at g
        exact .inr ⟨g, h.newParams x hx g⟩
      · rw [e3] at g
        exact .inl ⟨_, g, h.listParams x hx _ g⟩
  | member k n =>
    refine dumpMember_same (R := R) ?_ (attr _ (List.mem_singleton_self _)) (par rfl _ (List.mem_singleton_self _)) st
    intro l hl x hx y hxy
    obtain ⟨-, ms, e, hms⟩ := ha.members k n hcv
    rw [hl] at e
    cases e
    obtain ⟨m, hm, e⟩ := List.mem_map.1 hx
    cases e
    exact hR k _ y (hms _ hm) hxy
  | timespan => exact dumpSpan_same (R := R) (attr _ (List.mem_singleton_self _)) (par rfl) st
  | alarmAction => exact dumpAction_same (action_same h.cls ha.cls hcv) (par rfl _ (List.mem_singleton_self _)) st
  | calendarTimezone => rfl

theorem dumpConvs_same (h : SameObj L R a b) (ha : RepObj L zs M a)
    (hR : ∀ k x y, M k x → R x y → ∀ st, memd x st = memd y st) :
    ∀ (cvs : List Conv), (∀ cv ∈ cvs, cv ∈ a.cls.convs) → ∀ st, dumpConvs L memd cvs a st = dumpConvs L memd cvs b st
  | [], _, _ => rfl
  | cv :: cvs, hcvs, st => by
    simp only [dumpConvs, conv_dump_same h ha hR (hcvs cv List.mem_cons_self),
      dumpConvs_same h ha hR cvs fun cv hcv => hcvs cv (List.mem_cons_of_mem _ hcv)]

theorem dumpObj_same (h : SameObj L R a b) (ha : RepObj L zs M a)
    (hR : ∀ k x y, M k x → R x y → ∀ st, memd x st = memd y st) (st : DState) : dumpObj L memd a st = dumpObj L memd b st := by
  unfold dumpObj
  rw [dumpConvs_same h ha hR _ (fun _ h => h), h.cls, h.extraName, h.extra]

end

theorem dumpAlarm_same {L : Lib} {zs : List (Str × Nat)} {a b : Alarm} (h : SameAlarm L a b) (ha : RepAlarm L zs a) (st : DState) :
    dumpAlarm L a st = dumpAlarm L b st :=
  dumpObj_same h ha.2 (fun _ x => nomatch x) st

theorem dumpEntry_same {L : Lib} {zs : List (Str × Nat)} {a b : EntryObj} (h : SameEntry L a b) (ha : RepEntry L zs a)
    (st : DState) : dumpEntry L a st = dumpEntry L b st :=
  dumpObj_same h ha.2 (fun _ _ _ hm hxy st => dumpAlarm_same hxy hm st) st

theorem dumpCalendar_same {L : Lib} {zs : List (Str × Nat)} {a b : CalObj} (h : SameCalendar L a b) (ha : RepCalendar L zs a) :
    dumpCalendar L a = dumpCalendar L b := by
  have hcv : a.cls.convs = calConvsBefore ++ calConvsAfter := by
    rw [ha.1]
    exact (List.takeWhile_append_dropWhile).symm
  have hR : ∀ k x y, (RepEntry L zs x ∧ x.cls = if k = "events".toList then .event else .todo) → SameEntry L x y →
      ∀ st, dumpEntry L x st = dumpEntry L y st := fun k x y hm hxy st => dumpEntry_same hxy hm.1 st
  unfold dumpCalendar
  simp only [dumpConvs_same h ha.2 hR calConvsBefore (fun cv hcv' => hcv ▸ List.mem_append_left _ hcv'),
    dumpConvs_same h ha.2 hR calConvsAfter (fun cv hcv' => hcv ▸ List.mem_append_right _ hcv'), h.extraName, h.extra]

end Ics
