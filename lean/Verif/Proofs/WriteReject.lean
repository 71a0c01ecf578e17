import Verif.Proofs.Write

/-
What is written has attributes of the right types and none of the faults.
-/
namespace Ics

variable {σ : Type}

/-! ### The tables -/

/-- The converter of a row. -/
def hasOne (c : Cls) (p : String × List ValKind) : Bool :=
  c.convs.any fun cv => match cv with
    | .value s => !s.multi && (s.attr == p.1.toList && s.convs.flatMap convKinds == p.2)
    | _ => false

def hasList (c : Cls) (p : String × List ValKind) : Bool :=
  c.convs.any fun cv => match cv with
    | .value s => s.multi && (s.attr == p.1.toList && s.convs.flatMap convKinds == p.2)
    | _ => false

def hasMember (c : Cls) (a : String) : Bool :=
  c.convs.any fun cv => match cv with
    | .member b _ => b == a.toList
    | _ => false

theorem rows_one (c : Cls) : (loneAttrs c).all (hasOne c) = true := by cases c <;> decide +kernel
theorem rows_list (c : Cls) : (listAttrKinds c).all (hasList c) = true := by cases c <;> decide +kernel
theorem rows_member (c : Cls) : (memberLists c).all (hasMember c) = true := by cases c <;> decide +kernel
theorem rows_span {c : Cls} (h : c = .event ∨ c = .todo) : .timespan ∈ c.convs := by
  rcases h with rfl | rfl <;> decide +kernel
theorem rows_action {c : Cls} (h : c ∉ [Cls.calendar, .event, .todo]) : .alarmAction ∈ c.convs := by
  revert h; cases c <;> decide +kernel

theorem convOne {c : Cls} {a : String} {ks : List ValKind} (h : (a, ks) ∈ loneAttrs c) :
    ∃ s, .value s ∈ c.convs ∧ s.multi = false ∧ s.attr = a.toList ∧ s.convs.flatMap convKinds = ks := by
  obtain ⟨cv, hcv, h2⟩ := List.any_eq_true.1 (List.all_eq_true.1 (rows_one c) _ h)
  cases cv with
  | value s =>
    simp only [Bool.and_eq_true, Bool.not_eq_true', beq_iff_eq] at h2
    exact ⟨s, hcv, h2.1, h2.2.1, h2.2.2⟩
  | _ => exact (Bool.false_ne_true h2).elim

theorem convList {c : Cls} {a : String} {ks : List ValKind} (h : (a, ks) ∈ listAttrKinds c) :
    ∃ s, .value s ∈ c.convs ∧ s.multi = true ∧ s.attr = a.toList ∧ s.convs.flatMap convKinds = ks := by
  obtain ⟨cv, hcv, h2⟩ := List.any_eq_true.1 (List.all_eq_true.1 (rows_list c) _ h)
  cases cv with
  | value s =>
    simp only [Bool.and_eq_true, beq_iff_eq] at h2
    exact ⟨s, hcv, h2.1, h2.2.1, h2.2.2⟩
  | _ => exact (Bool.false_ne_true h2).elim

theorem convMember {c : Cls} {a : String} (h : a ∈ memberLists c) : ∃ ics, .member a.toList ics ∈ c.convs := by
  obtain ⟨cv, hcv, h2⟩ := List.any_eq_true.1 (List.all_eq_true.1 (rows_member c) _ h)
  cases cv with
  | member b ics =>
    rw [beq_iff_eq] at h2
    exact ⟨ics, h2 ▸ hcv⟩
  | _ => exact (Bool.false_ne_true h2).elim

/-! ### What must hold where writing succeeds -/

theorem findConverter_accepts {convs : List ValConv} {p : Params} {v : Val σ} {r : ValConv × Params}
    (h : findConverter convs p v = .ok r) : r.1 ∈ convs ∧ r.1.accepts v = true := by
  unfold findConverter at h
  cases hf : convs.find? fun c => c.accepts v with
  | none => rw [hf] at h; cases h
  | some c =>
    rw [hf] at h
    have h1 := List.mem_of_find?_eq_some hf
    have h2 := List.find?_some hf
    dsimp only at h
    by_cases hh : convs.head? = some c
    · rw [if_pos hh] at h; cases h; exact ⟨h1, h2⟩
    · rw [if_neg hh] at h; cases h; exact ⟨h1, h2⟩

theorem kind_of_accepts {convs : List ValConv} {c : ValConv} {v : Val σ} (hc : c ∈ convs) (h : c.accepts v = true) :
    ∃ k ∈ convs.flatMap convKinds, OfKind k v := by
  obtain ⟨k, hk, hv⟩ := (accepts_iff c v).1 h
  exact ⟨k, List.mem_flatMap.2 ⟨c, hc, hk⟩, hv⟩

theorem serializeDt_named {L : Lib} {d : DT} {t : Tz} (hu : L.dtIsUtc d = false) (ht : d.tz = some t)
    (hc : L.conv t = .unserializable) (p : Params) (ctx : Ctx) : serializeDt L.toWorld d p ctx = .error .valueError := by
  unfold serializeDt
  rw [if_neg (by rw [hu]; decide), ht]
  dsimp only
  rw [hc]

theorem extraParamsOf_listed {o : Obj σ} {name : Str} {p : Params} {ps : List Params}
    (h : dictGet? o.extraParams (upper name) = some (.many (p :: ps))) : o.extraParamsOf name = .error .attributeError := by
  unfold Obj.extraParamsOf extraKey
  rw [h]

theorem dumpSingle_ok {L : Lib} {s : AttrSpec} {o : Obj σ} {st : DState} {r : List Item × DState}
    (h : dumpSingle L s o st = .ok r) :
    o.get s.attr = .none ∨ ∃ v, o.get s.attr = .one v ∧ (∃ k ∈ s.convs.flatMap convKinds, OfKind k v) ∧
      (∀ p ps, dictGet? o.extraParams (upper s.attr) ≠ some (.many (p :: ps))) ∧
      (∀ n, v = .int n → n.natAbs < 10 ^ 4300) ∧
      ∀ d t, v = .dt d → L.dtIsUtc d = false → d.tz = some t → L.conv t ≠ .unserializable := by
  unfold dumpSingle at h
  cases hg : o.get s.attr with
  | none => exact .inl rfl
  | many l => rw [hg] at h; cases h
  | one v =>
    rw [hg] at h
    dsimp only at h
    obtain ⟨p, hp, h⟩ := bind_ok_iff.1 h
    obtain ⟨⟨c, p'⟩, hc, h⟩ := bind_ok_iff.1 h
    obtain ⟨⟨t, p'', ctx⟩, hs, h⟩ := bind_ok_iff.1 h
    obtain ⟨h1, h2⟩ := findConverter_accepts hc
    dsimp only at h1 h2 hs
    refine .inr ⟨v, rfl, kind_of_accepts h1 h2, fun q qs he => ?_, ?_, ?_⟩
    · rw [extraParamsOf_listed he] at hp
      cases hp
    · rintro n rfl
      refine Nat.lt_of_not_le fun hb => ?_
      have hi : c = .integer := by
        cases c <;> first | rfl | exact (Bool.false_ne_true h2).elim
      subst hi
      replace hs : (intSerialize n).map (fun s => (s, p', st.ctx)) = .ok (t, p'', ctx) := hs
      rw [C18_int_limit n hb] at hs
      cases hs
    · rintro d tz rfl hu htz hcv
      have hi : c = .datetime := by
        cases c <;> first | rfl | exact (Bool.false_ne_true h2).elim
      subst hi
      replace hs : serializeDt L.toWorld d p' st.ctx = .ok (t, p'', ctx) := hs
      rw [serializeDt_named hu htz hcv] at hs
      cases hs

theorem zipParams_values {values : List (Val σ)} {e : Option ExtraVal} {l : List (Val σ × Params)}
    (h : zipParams values e = .ok l) : ∀ v ∈ values, ∃ p, (v, p) ∈ l := by
  have hnil : ∀ v ∈ values, ∃ p, (v, p) ∈ values.map fun v => (v, ([] : Params)) :=
    fun v hv => ⟨[], List.mem_map.2 ⟨v, hv, rfl⟩⟩
  unfold zipParams at h
  match e with
  | none => cases h; exact hnil
  | some (.many ps) =>
    dsimp only at h
    by_cases h1 : ps = []
    · rw [if_pos h1] at h; cases h; exact hnil
    · rw [if_neg h1] at h
      by_cases h2 : ps.length ≠ values.length
      · rw [if_pos h2] at h; cases h
      · rw [if_neg h2] at h
        cases h
        intro v hv
        obtain ⟨i, hi, rfl⟩ := List.getElem_of_mem hv
        have hl : ps.length = values.length := not_not.1 h2
        refine ⟨ps[i], ?_⟩
        rw [← List.getElem_zip (h := by rw [List.length_zip, hl, Nat.min_self]; exact hi)]
        exact List.getElem_mem _
  | some (.one p) =>
    dsimp only at h
    by_cases h1 : p = []
    · rw [if_pos h1] at h; cases h; exact hnil
    · rw [if_neg h1] at h
      by_cases h2 : p.length ≠ values.length
      · rw [if_pos h2] at h; cases h
      · rw [if_neg h2] at h; cases h

theorem dumpMultiLoop_ok {L : Lib} {s : AttrSpec} {l : List (Val σ × Params)} {cur : Option Params} {texts : List Str}
    {st : DState} {r : List Item × DState} (h : dumpMultiLoop L s l cur texts st = .ok r) :
    ∀ vp ∈ l, ∃ k ∈ s.convs.flatMap convKinds, OfKind k vp.1 := by
  induction l generalizing cur texts st r with
  | nil => exact fun vp h => nomatch h
  | cons vp l ih =>
    obtain ⟨v, p⟩ := vp
    unfold dumpMultiLoop at h
    dsimp only at h
    obtain ⟨⟨c, p'⟩, hc, h⟩ := bind_ok_iff.1 h
    obtain ⟨⟨t, p'', ctx⟩, hs, h⟩ := bind_ok_iff.1 h
    obtain ⟨_, _, h⟩ := bind_ok_iff.1 h
    obtain ⟨h1, h2⟩ := findConverter_accepts hc
    have hv : ∃ k ∈ s.convs.flatMap convKinds, OfKind k v := kind_of_accepts h1 h2
    intro vp hvp
    rcases List.mem_cons.1 hvp with rfl | hvp
    · exact hv
    · by_cases hm : mergeNext p = true
      · rw [if_pos hm] at h
        exact ih h vp hvp
      · rw [if_neg hm] at h
        obtain ⟨⟨is, st'⟩, hr, _⟩ := bind_ok_iff.1 h
        exact ih hr vp hvp

theorem dumpMulti_ok {L : Lib} {s : AttrSpec} {o : Obj σ} {st : DState} {r : List Item × DState}
    (h : dumpMulti L s o st = .ok r) :
    ∃ l, o.get s.attr = .many l ∧ ∀ v ∈ l, ∃ k ∈ s.convs.flatMap convKinds, OfKind k v := by
  unfold dumpMulti at h
  cases hg : o.get s.attr with
  | none => rw [hg] at h; cases h
  | one v => rw [hg] at h; cases h
  | many l =>
    rw [hg] at h
    dsimp only at h
    obtain ⟨z, hz, h⟩ := bind_ok_iff.1 h
    refine ⟨l, rfl, fun v hv => ?_⟩
    obtain ⟨p, hp⟩ := zipParams_values hz v hv
    exact dumpMultiLoop_ok h _ hp

theorem dumpMembers_ok {mem : MemberDump σ} {l : List (Val σ)} {st : DState} {r : List Item × DState}
    (h : dumpMembers mem l st = .ok r) : ∀ v ∈ l, ∃ m, v = .comp m ∧ ∃ st r, mem m st = .ok r := by
  induction l generalizing st r with
  | nil => exact fun v h => nomatch h
  | cons v l ih =>
    cases v with
    | comp m =>
      unfold dumpMembers at h
      obtain ⟨⟨i, st1⟩, h1, h⟩ := bind_ok_iff.1 h
      obtain ⟨⟨is, st2⟩, h2, h⟩ := bind_ok_iff.1 h
      intro v hv
      rcases List.mem_cons.1 hv with rfl | hv
      · exact ⟨m, rfl, st, _, h1⟩
      · exact ih h2 v hv
    | _ => cases h

theorem dumpMember_ok {mem : MemberDump σ} {attr : Str} {o : Obj σ} {st : DState} {r : List Item × DState}
    (h : dumpMember mem attr o st = .ok r) : ¬ SomeParams o (upper attr) ∧
      ∃ l, o.get attr = .many l ∧ ∀ v ∈ l, ∃ m, v = .comp m ∧ ∃ st r, mem m st = .ok r := by
  unfold dumpMember at h
  obtain ⟨_, h1, h⟩ := bind_ok_iff.1 h
  refine ⟨?_, ?_⟩
  · unfold extraKey at h1
    rintro (⟨p, hp, he⟩ | ⟨ps, hp, he⟩)
    · rw [he] at h1
      have : raiseIf (decide (p ≠ [])) = .ok () := h1
      rw [decide_eq_true hp] at this
      cases this
    · rw [he] at h1
      have : raiseIf (decide (ps ≠ [])) = .ok () := h1
      rw [decide_eq_true hp] at this
      cases this
  · cases hg : o.get attr with
    | none => rw [hg] at h; cases h
    | one v => rw [hg] at h; cases h
    | many l =>
      rw [hg] at h
      exact ⟨l, rfl, dumpMembers_ok h⟩

theorem dumpSpan_ok {L : Lib} {o : Obj σ} {st : DState} {r : List Item × DState} (h : dumpSpan L o st = .ok r) :
    ∃ s, o.get "timespan".toList = .one (.span s) ∧ (∃ st r, dumpSpanBegin L o s st = .ok r) ∧
      ∃ st r, dumpSpanEnd L o s st = .ok r := by
  unfold dumpSpan at h
  split at h
  · rename_i s hs
    obtain ⟨⟨a, st1⟩, h1, h⟩ := bind_ok_iff.1 h
    obtain ⟨⟨b, st2⟩, h2, h⟩ := bind_ok_iff.1 h
    exact ⟨s, hs, ⟨_, _, h1⟩, _, _, h2⟩
  · cases h

theorem dumpSpanValue_named {L : Lib} {s : Span} {d : DT} {t : Tz} (hp : s.prec ≠ .day) (hu : L.dtIsUtc d = false)
    (ht : d.tz = some t) (hc : L.conv t = .unserializable) (p : Params) (ctx : Ctx) :
    dumpSpanValue L s d p ctx = .error .valueError := by
  unfold dumpSpanValue Span.isAllDay
  rw [decide_eq_false hp, if_neg (by decide), serializeDt_named hu ht hc]

theorem dumpSpanBegin_ok {L : Lib} {o : Obj σ} {s : Span} {st : DState} {r : List Item × DState}
    (h : dumpSpanBegin L o s st = .ok r) {b : DT} (hb : s.begin? = some b) :
    ¬ ListedParams o "BEGIN" ∧
      (s.prec ≠ .day → ∀ t, L.dtIsUtc b = false → b.tz = some t → L.conv t ≠ .unserializable) := by
  unfold dumpSpanBegin at h
  rw [hb] at h
  dsimp only at h
  by_cases hd : st.dtstart = true
  · rw [if_pos hd] at h; cases h
  · rw [if_neg hd] at h
    obtain ⟨p, hp, h⟩ := bind_ok_iff.1 h
    obtain ⟨⟨t, p', ctx⟩, hv, h⟩ := bind_ok_iff.1 h
    refine ⟨?_, fun hp t hu ht hc => ?_⟩
    · rintro ⟨q, qs, hq⟩
      rw [extraParamsOf_listed (name := "begin".toList) hq] at hp
      cases hp
    · rw [dumpSpanValue_named hp hu ht hc] at hv
      cases hv

theorem dumpSpanEnd_ok {L : Lib} {o : Obj σ} {s : Span} {st : DState} {r : List Item × DState}
    (h : dumpSpanEnd L o s st = .ok r) :
    (∀ d, s.dur? = some d → ¬ ListedParams o "DURATION") ∧
      ∀ d, s.dur? = none → s.end? = some d → ¬ ListedParams o (if s.cls = .todo then "DUE" else "DTEND") ∧
        (s.prec ≠ .day → ∀ t, L.dtIsUtc d = false → d.tz = some t → L.conv t ≠ .unserializable) := by
  unfold dumpSpanEnd at h
  refine ⟨fun d hd => ?_, fun d hd he => ?_⟩
  · rw [hd] at h
    obtain ⟨p, hp, h⟩ := bind_ok_iff.1 h
    rintro ⟨q, qs, hq⟩
    rw [extraParamsOf_listed (name := "duration".toList) hq] at hp
    cases hp
  · rw [hd, he] at h
    obtain ⟨p, hp, h⟩ := bind_ok_iff.1 h
    obtain ⟨⟨t, p', ctx⟩, hv, h⟩ := bind_ok_iff.1 h
    refine ⟨?_, fun hp t hu ht hc => ?_⟩
    · rintro ⟨q, qs, hq⟩
      rw [extraParamsOf_listed (name := s.cls.endLine) (p := q) (ps := qs)] at hp
      · cases hp
      · rw [← hq]
        cases s.cls <;> rfl
    · rw [dumpSpanValue_named hp hu ht hc] at hv
      cases hv

theorem dumpAction_ok {o : Obj σ} {st : DState} {r : List Item × DState} (h : dumpAction o st = .ok r) :
    (∃ t, o.action = .one (.text t)) ∧ ∀ ps, dictGet? o.extraParams "ACTION".toList ≠ some (.many ps) := by
  unfold dumpAction at h
  split at h
  · rename_i a h1 h2
    exact ⟨⟨a, h1⟩, fun ps h => by rw [h2] at h; cases h⟩
  · rename_i a p h1 h2
    exact ⟨⟨a, h1⟩, fun ps h => by rw [h2] at h; cases h⟩
  · cases h

theorem dumpConvs_ok {L : Lib} {mem : MemberDump σ} {cvs : List Conv} {o : Obj σ} {st : DState} {r : List Item × DState}
    (h : dumpConvs L mem cvs o st = .ok r) : ∀ cv ∈ cvs, ∃ st r, cv.dump L mem o st = .ok r := by
  induction cvs generalizing st r with
  | nil => exact fun cv h => nomatch h
  | cons cv cvs ih =>
    unfold dumpConvs at h
    obtain ⟨⟨a, st1⟩, h1, h⟩ := bind_ok_iff.1 h
    obtain ⟨⟨b, st2⟩, h2, h⟩ := bind_ok_iff.1 h
    intro c hc
    rcases List.mem_cons.1 hc with rfl | hc
    · exact ⟨_, _, h1⟩
    · exact ih h2 c hc

/-! ### Objects -/

/-- All converters have written something. -/
def AllDumped (L : Lib) (mem : MemberDump σ) (o : Obj σ) : Prop := ∀ cv ∈ o.cls.convs, ∃ st r, cv.dump L mem o st = .ok r

theorem dumped_one {L : Lib} {mem : MemberDump σ} {o : Obj σ} (h : AllDumped L mem o) {a : String} {ks : List ValKind}
    (hr : (a, ks) ∈ loneAttrs o.cls) :
    o.get a.toList = .none ∨ ∃ v, o.get a.toList = .one v ∧ (∃ k ∈ ks, OfKind k v) ∧
      (∀ p ps, dictGet? o.extraParams (upper a.toList) ≠ some (.many (p :: ps))) ∧
      (∀ n, v = .int n → n.natAbs < 10 ^ 4300) ∧
      ∀ d t, v = .dt d → L.dtIsUtc d = false → d.tz = some t → L.conv t ≠ .unserializable := by
  obtain ⟨s, hs, hm, ha, rfl⟩ := convOne hr
  obtain ⟨st, r, hd⟩ := h _ hs
  unfold Conv.dump at hd
  dsimp only at hd
  rw [hm, if_neg (by decide)] at hd
  rw [← ha]
  exact dumpSingle_ok hd

theorem dumped_member {L : Lib} {mem : MemberDump σ} {o : Obj σ} (h : AllDumped L mem o) {a : String}
    (hr : a ∈ memberLists o.cls) : ¬ SomeParams o (upper a.toList) ∧
      ∃ l, o.get a.toList = .many l ∧ ∀ v ∈ l, ∃ m, v = .comp m ∧ ∃ st r, mem m st = .ok r := by
  obtain ⟨ics, hs⟩ := convMember hr
  obtain ⟨st, r, hd⟩ := h _ hs
  exact dumpMember_ok hd

theorem dumped_members {L : Lib} {mem : MemberDump σ} {o : Obj σ} (h : AllDumped L mem o) {m : σ} (hm : MemberOf o m) :
    ∃ st r, mem m st = .ok r := by
  obtain ⟨a, ha, l, hl, hml⟩ := hm
  obtain ⟨-, l', hl', hall⟩ := dumped_member h ha
  rw [hl] at hl'
  cases hl'
  obtain ⟨m', hm', r⟩ := hall _ hml
  cases hm'
  exact r

theorem dumped_span {L : Lib} {mem : MemberDump σ} {o : Obj σ} (h : AllDumped L mem o) (hc : o.cls = .event ∨ o.cls = .todo) :
    ∃ s, o.get "timespan".toList = .one (.span s) ∧ (∃ st r, dumpSpanBegin L o s st = .ok r) ∧
      ∃ st r, dumpSpanEnd L o s st = .ok r := by
  obtain ⟨st, r, hd⟩ := h _ (rows_span hc)
  exact dumpSpan_ok hd

theorem dumped_typed {L : Lib} {mem : MemberDump σ} {T : σ → Prop} {o : Obj σ} (h : AllDumped L mem o)
    (hT : ∀ m st r, MemberOf o m → mem m st = .ok r → T m) : Typed T o where
  one := fun a ks hr => (dumped_one h hr).imp id fun ⟨v, h1, h2, _⟩ => ⟨v, h1, h2⟩
  list := fun a ks hr => by
    obtain ⟨s, hs, hm, ha, rfl⟩ := convList hr
    obtain ⟨st, r, hd⟩ := h _ hs
    unfold Conv.dump at hd
    dsimp only at hd
    rw [hm, if_pos rfl] at hd
    rw [← ha]
    exact dumpMulti_ok hd
  members := fun a hr => by
    obtain ⟨-, l, hl, hall⟩ := dumped_member h hr
    refine ⟨l, hl, fun v hv => ?_⟩
    obtain ⟨m, rfl, st, r, hm⟩ := hall v hv
    exact ⟨m, rfl, hT m st r ⟨a, hr, l, hl, hv⟩ hm⟩
  span := fun hc => by
    obtain ⟨s, hs, -⟩ := dumped_span h hc
    exact ⟨s, hs⟩
  action := fun hc => by
    obtain ⟨st, r, hd⟩ := h _ (rows_action (c := o.cls) (by rw [hc]; decide))
    obtain ⟨⟨t, ht⟩, -⟩ := dumpAction_ok hd
    unfold Obj.action at ht
    rw [hc] at ht
    exact ⟨t, ht⟩

theorem dumped_faultless {L : Lib} {mem : MemberDump σ} {P : σ → PyErr → Prop} {o : Obj σ} (h : AllDumped L mem o)
    (hP : ∀ m st r e, MemberOf o m → mem m st = .ok r → ¬ P m e) (e : PyErr) : ¬ WriteFault L P o e := by
  intro hf
  cases hf with
  | number hr hv hb =>
    rcases dumped_one h hr with h1 | ⟨v, h1, -, -, h2, -⟩
    · rw [hv] at h1; cases h1
    · rw [hv] at h1
      cases h1
      exact Nat.not_le.2 (h2 _ rfl) hb
  | zone hd hu ht hc =>
    cases hd with
    | attr hr hv =>
      rcases dumped_one h hr with h1 | ⟨v, h1, -, -, -, h2⟩
      · rw [hv] at h1; cases h1
      · rw [hv] at h1
        cases h1
        exact h2 _ _ rfl hu ht hc
    | begin hcl hs hp hb =>
      obtain ⟨s, hs', ⟨st, r, h1⟩, -⟩ := dumped_span h hcl
      rw [hs] at hs'
      cases hs'
      exact (dumpSpanBegin_ok h1 hb).2 hp _ hu ht hc
    | «end» hcl hs hp hd he =>
      obtain ⟨s, hs', -, ⟨st, r, h1⟩⟩ := dumped_span h hcl
      rw [hs] at hs'
      cases hs'
      exact ((dumpSpanEnd_ok h1).2 _ hd he).2 hp _ hu ht hc
    | member _ hh => exact hh
  | params hr hv hp =>
    rcases dumped_one h hr with h1 | ⟨v, h1, -, h2, -⟩
    · rw [hv] at h1; cases h1
    · exact h2 _ _ hp
  | beginParams hcl hs hb hp =>
    obtain ⟨s, hs', ⟨st, r, h1⟩, -⟩ := dumped_span h hcl
    rw [hs] at hs'
    cases hs'
    exact (dumpSpanBegin_ok h1 hb).1 hp
  | durationParams hcl hs hd hp =>
    obtain ⟨s, hs', -, ⟨st, r, h1⟩⟩ := dumped_span h hcl
    rw [hs] at hs'
    cases hs'
    exact (dumpSpanEnd_ok h1).1 _ hd hp
  | endParams hcl hs hd he hp =>
    obtain ⟨s, hs', -, ⟨st, r, h1⟩⟩ := dumped_span h hcl
    rw [hs] at hs'
    cases hs'
    exact ((dumpSpanEnd_ok h1).2 _ hd he).1 hp
  | listParams hr hg hx hl =>
    obtain ⟨s, hs, hm, ha, rfl⟩ := convList hr
    obtain ⟨st, r, hd⟩ := h _ hs
    unfold Conv.dump at hd
    dsimp only at hd
    rw [hm, if_pos rfl] at hd
    rw [← ha] at hg hx
    obtain ⟨l, hl', hk⟩ := dumpMulti_ok hd
    rw [hg] at hl'
    cases hl'
    rcases dumpMulti_cases (L := L) (listConvs_of hs hm) hg hk st with ⟨_, _, _, _, he⟩ | ⟨hn, -⟩
    · rw [he] at hd
      cases hd
    · exact hn _ _ hx hl
  | actionParams hc hp =>
    obtain ⟨st, r, hd⟩ := h _ (rows_action hc)
    exact (dumpAction_ok hd).2 _ hp
  | memberParams hr hs => exact (dumped_member h hr).1 hs
  | member hm hp =>
    obtain ⟨st, r, hd⟩ := dumped_members h hm
    exact hP _ _ _ _ hm hd hp

theorem dumpObj_dumped {L : Lib} {mem : MemberDump σ} {o : Obj σ} {st : DState} {r : Item × DState}
    (h : dumpObj L mem o st = .ok r) : AllDumped L mem o := by
  unfold dumpObj at h
  obtain ⟨⟨is, st1⟩, h1, -⟩ := bind_ok_iff.1 h
  exact dumpConvs_ok h1

theorem calendar_convs : ∀ cv ∈ Cls.calendar.convs, cv ∈ calConvsBefore ∨ cv ∈ calConvsAfter := by decide +kernel

theorem dumpCalendar_dumped {L : Lib} {o : CalObj} (hc : o.cls = .calendar) {i : Item} (h : dumpCalendar L o = .ok i) :
    AllDumped L (dumpEntry L) o := by
  unfold dumpCalendar at h
  obtain ⟨⟨a, st1⟩, h1, h⟩ := bind_ok_iff.1 h
  obtain ⟨⟨b, st2⟩, h2, h⟩ := bind_ok_iff.1 h
  intro cv hcv
  rw [hc] at hcv
  rcases calendar_convs cv hcv with h | h
  · exact dumpConvs_ok h1 cv h
  · exact dumpConvs_ok h2 cv h

/-! ### The text -/

theorem serLine_total {w : Wrap} (hw : w.ok) (cl : ContentLine) : ∃ t, serLine w true cl = .ok t := by
  obtain ⟨ps, hp, -⟩ := physLines_folded w hw (serUnwrapped cl) (serUnwrapped_ne cl)
  unfold serLine
  rw [hp]
  exact ⟨_, rfl⟩

mutual
theorem serItem_total {w : Wrap} (hw : w.ok) : (i : Item) → ∃ t, serItem w i = .ok t
  | .line cl => by
    obtain ⟨t, ht⟩ := serLine_total hw cl
    exact ⟨t, by rw [serItem]; exact ht⟩
  | .cont name items => by
    obtain ⟨t, ht⟩ := serItems_total hw items
    rw [serItem, ht]
    exact ⟨_, rfl⟩
theorem serItems_total {w : Wrap} (hw : w.ok) : (is : List Item) → ∃ t, serItems w is = .ok t
  | [] => ⟨_, by rw [serItems]⟩
  | i :: is => by
    obtain ⟨a, ha⟩ := serItem_total hw i
    obtain ⟨b, hb⟩ := serItems_total hw is
    rw [serItems, ha, hb]
    exact ⟨_, rfl⟩
end

theorem serContainer_total {w : Wrap} (hw : w.ok) (b : Bool) (name : Str) (items : List Item) :
    ∃ t, serContainer w b name items = .ok t := by
  obtain ⟨t, ht⟩ := serItems_total hw items
  unfold serContainer
  rw [ht]
  exact ⟨_, rfl⟩

end Ics
