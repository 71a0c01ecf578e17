import Verif.Proofs.Requote

/-
Writing a component looks at quotation marks of parameter values only to keep them: components that differ only
in quotation marks are written as items that differ only in quotation marks.
-/
namespace Ics

variable {σ : Type}

/-- Both results are errors, the same one, or both are values that are related. -/
def OkRel {ε α β : Type} (R : α → β → Prop) : Except ε α → Except ε β → Prop
  | .ok a, .ok b => R a b
  | .error e, .error e' => e = e'
  | _, _ => False

theorem OkRel.bind {ε α β γ δ : Type} {R : α → β → Prop} {S : γ → δ → Prop} {x : Except ε α} {y : Except ε β}
    {f : α → Except ε γ} {g : β → Except ε δ} (h : OkRel R x y) (hf : ∀ a b, R a b → OkRel S (f a) (g b)) :
    OkRel S (x >>= f) (y >>= g) := by
  cases x <;> cases y
  · exact h
  · exact h.elim
  · exact h.elim
  · exact hf _ _ h

theorem OkRel.eq {ε α : Type} (x : Except ε α) : OkRel Eq x x := by cases x <;> rfl

variable (g : PVal → PVal) [hg : Requotes g]

omit hg in
/-- Parameters that differ only in quotation marks. -/
def PSame (p q : Params) : Prop := requoteParams g p = requoteParams g q

omit hg in
/-- Items that differ only in quotation marks. -/
def ISame (a b : List Item) : Prop := Item.requotes g a = Item.requotes g b

omit hg in
/-- What a step of writing returns, up to quotation marks. -/
def DSame (a b : List Item × DState) : Prop := ISame g a.1 b.1 ∧ a.2 = b.2

variable {g}

theorem PSame.set {p q : Params} (h : PSame g p q) (k : Str) (v : List PVal) : PSame g (dictSet p k v) (dictSet q k v) := by
  unfold PSame at h ⊢
  have e : ∀ p : Params, requoteParams g (dictSet p k v) = dictSet (requoteParams g p) k (v.map g) :=
    fun p => (dictSet_mapVals (List.map g) p k v).symm
  rw [e, e, h]

theorem PSame.erase {p q : Params} (h : PSame g p q) (k : Str) : PSame g (dictErase p k) (dictErase q k) := by
  unfold PSame at h ⊢
  rw [← dictErase_requote g, ← dictErase_requote g, h]

theorem PSame.update {p q x y : Params} (h : PSame g p q) (hx : PSame g x y) : PSame g (dictUpdate p x) (dictUpdate q y) := by
  have e : ∀ x p : Params, requoteParams g (dictUpdate p x) = dictUpdate (requoteParams g p) (requoteParams g x) := by
    intro x
    induction x with
    | nil => exact fun _ => rfl
    | cons kv x ih =>
      intro p
      show requoteParams g (dictUpdate (dictSet p kv.1 kv.2) x) = _
      rw [ih, show requoteParams g (dictSet p kv.1 kv.2) = _ from (dictSet_mapVals (List.map g) p kv.1 kv.2).symm]
      rfl
  unfold PSame at h hx ⊢
  rw [e, e, h, hx]

theorem pvalTexts_comp : pvalTexts ∘ List.map g = pvalTexts := funext fun l => pvalTexts_requote g l

theorem paramsEq_requote (p q : Params) : paramsEq (requoteParams g p) (requoteParams g q) = paramsEq p q := by
  unfold paramsEq
  rw [show (requoteParams g p).length = p.length from List.length_map .., show (requoteParams g q).length = q.length from List.length_map ..]
  congr 1
  rw [requoteParams, List.all_map]
  congr 1
  funext kv
  simp only [Function.comp]
  rw [pvalTexts_requote g, dictGet_requote g, Option.map_map, pvalTexts_comp]

theorem PSame.eq {p q p' q' : Params} (h : PSame g p q) (h' : PSame g p' q') : paramsEq p p' = paramsEq q q' := by
  rw [← paramsEq_requote (g := g) p, ← paramsEq_requote (g := g) q, show requoteParams g p = requoteParams g q from h,
    show requoteParams g p' = requoteParams g q' from h']

theorem mergeNext_requote (p : Params) : mergeNext (requoteParams g p) = mergeNext p := by
  unfold mergeNext
  rw [dictGet_requote g, Option.map_map, pvalTexts_comp]

theorem PSame.merge {p q : Params} (h : PSame g p q) : mergeNext p = mergeNext q := by
  rw [← mergeNext_requote (g := g) p, ← mergeNext_requote (g := g) q, show requoteParams g p = requoteParams g q from h]

theorem PSame.line {p q : Params} (h : PSame g p q) (n v : Str) : ISame g [.line (mkContentLine n p v)] [.line (mkContentLine n q v)] := by
  unfold ISame
  simp only [Item.requotes, Item.requote, ContentLine.requote, mkContentLine, show requoteParams g p = requoteParams g q from h]

theorem ISame.append {a b a' b' : List Item} (h : ISame g a b) (h' : ISame g a' b') : ISame g (a ++ a') (b ++ b') := by
  unfold ISame at h h' ⊢
  rw [Item.requotes_append g, Item.requotes_append g, h, h']

/-! ### Values -/

theorem serializeDt_quote (w : World) (d : DT) {p q : Params} (h : PSame g p q) (ctx : Ctx) :
    OkRel (fun r r' => r.1 = r'.1 ∧ PSame g r.2.1 r'.2.1 ∧ r.2.2 = r'.2.2) (serializeDt w d p ctx) (serializeDt w d q ctx) := by
  unfold serializeDt
  split
  · exact ⟨rfl, h, rfl⟩
  · split
    · exact ⟨rfl, h, rfl⟩
    · split
      · exact rfl
      · exact ⟨rfl, h, rfl⟩
      · split
        · exact rfl
        · exact ⟨rfl, h.set _ _, rfl⟩

variable (hi : ∀ v, g (g v) = g v)
include hi

theorem requoteParams_idem (p : Params) : PSame g (requoteParams g p) p := by
  simp only [PSame, requoteParams, List.map_map]
  refine List.map_congr_left fun kv _ => ?_
  simp only [Function.comp, List.map_map, hi]
  exact congrArg (Prod.mk kv.1) (List.map_congr_left fun v _ => hi v)

omit hi in
theorem accepts_quote (c : ValConv) (f : σ → σ) (v : Val σ) : c.accepts (v.requote g f) = c.accepts v := by
  cases c <;> cases v <;> rfl

omit hi in
theorem findConverter_quote (cs : List ValConv) (f : σ → σ) (v : Val σ) {p q : Params} (h : PSame g p q) :
    OkRel (fun r r' => r.1 = r'.1 ∧ PSame g r.2 r'.2) (findConverter cs p (v.requote g f)) (findConverter cs q v) := by
  unfold findConverter
  simp only [accepts_quote]
  split
  · rfl
  · split
    · exact ⟨rfl, h⟩
    · exact ⟨rfl, h.set _ _⟩

theorem serialize_quote (L : Lib) (c : ValConv) (f : σ → σ) (v : Val σ) {p q : Params} (h : PSame g p q) (ctx : Ctx) :
    OkRel (fun r r' => r.1 = r'.1 ∧ PSame g r.2.1 r'.2.1 ∧ r.2.2 = r'.2.2) (c.serialize L (v.requote g f) p ctx)
      (c.serialize L v q ctx) := by
  cases c <;> cases v
  case datetime.dt d => exact serializeDt_quote L.toWorld d h ctx
  case organizer.person a e x => exact ⟨rfl, h.update (requoteParams_idem hi x), rfl⟩
  case attendee.person a e x => exact ⟨rfl, h.update (requoteParams_idem hi x), rfl⟩
  case integer.int n =>
    simp only [ValConv.serialize, Val.requote]
    cases intSerialize n with
    | error e => rfl
    | ok s => exact ⟨rfl, h, rfl⟩
  all_goals first | rfl | exact ⟨rfl, h, rfl⟩

/-! ### Converters -/

theorem extraParamsOf_quote (f : σ → σ) (o : Obj σ) (k : Str) :
    OkRel (PSame g) ((o.requote g f).extraParamsOf k) (o.extraParamsOf k) := by
  unfold Obj.extraParamsOf
  rw [extra_requote g]
  cases dictGet? o.extraParams (extraKey k) with
  | none => rfl
  | some e =>
    cases e with
    | one p => exact requoteParams_idem hi p
    | many ps =>
      cases ps with
      | nil => rfl
      | cons p ps => rfl

theorem dumpSingle_quote (L : Lib) (s : AttrSpec) (f : σ → σ) (o : Obj σ) (st : DState) :
    OkRel (DSame g) (dumpSingle L s (o.requote g f) st) (dumpSingle L s o st) := by
  unfold dumpSingle
  rw [get_requote g]
  cases o.get s.attr with
  | none => exact ⟨rfl, rfl⟩
  | many l => rfl
  | one v =>
    refine (extraParamsOf_quote hi f o s.attr).bind fun p q h => ?_
    refine (findConverter_quote s.convs f v h).bind fun r r' h => ?_
    obtain ⟨c, p⟩ := r
    obtain ⟨c', p'⟩ := r'
    obtain ⟨h1, h⟩ := h
    simp only at h1 h
    subst h1
    refine (serialize_quote hi L c f v h st.ctx).bind fun r r' h => ?_
    obtain ⟨t, p, ctx⟩ := r
    obtain ⟨t', p', ctx'⟩ := r'
    obtain ⟨h1, h, h3⟩ := h
    simp only at h1 h h3
    subst h1
    subst h3
    exact ⟨h.line _ _, rfl⟩

theorem zipParams_quote (f : σ → σ) (vs : List (Val σ)) (e : Option ExtraVal) :
    OkRel (List.Forall₂ fun x y => x.1 = y.1.requote g f ∧ PSame g x.2 y.2) (zipParams (vs.map (Val.requote g f)) (e.map (ExtraVal.requote g)))
      (zipParams vs e) := by
  have h0 : List.Forall₂ (fun (x y : Val σ × Params) => x.1 = y.1.requote g f ∧ PSame g x.2 y.2)
      ((vs.map (Val.requote g f)).map fun v => (v, [])) (vs.map fun v => (v, [])) := by
    rw [List.forall₂_map_left_iff, List.forall₂_map_left_iff, List.forall₂_map_right_iff]
    exact List.forall₂_same.2 fun _ _ => ⟨rfl, rfl⟩
  unfold zipParams
  cases e with
  | none => exact h0
  | some e =>
    cases e with
    | one p =>
      simp only [Option.map_some, ExtraVal.requote, requoteParams_nil g]
      split
      · exact h0
      · rw [show (requoteParams g p).length = p.length from List.length_map .., List.length_map]
        split <;> rfl
    | many ps =>
      simp only [Option.map_some, ExtraVal.requote, List.map_eq_nil_iff, List.length_map]
      split
      · exact h0
      · split
        · rfl
        · show List.Forall₂ _ _ _
          rw [List.zip_map, List.forall₂_map_left_iff]
          exact List.forall₂_same.2 fun x _ => ⟨rfl, requoteParams_idem hi x.2⟩

theorem dumpMultiLoop_quote (L : Lib) (s : AttrSpec) (f : σ → σ) {l m : List (Val σ × Params)}
    (h : List.Forall₂ (fun x y => x.1 = y.1.requote g f ∧ PSame g x.2 y.2) l m) :
    ∀ (cur cur' : Option Params) (ts : List Str) (st : DState), Option.Rel (PSame g) cur cur' →
      OkRel (DSame g) (dumpMultiLoop L s l cur ts st) (dumpMultiLoop L s m cur' ts st) := by
  induction h with
  | nil =>
    intro cur cur' ts st hc
    rw [dumpMultiLoop, dumpMultiLoop]
    cases hc with
    | none => exact ⟨rfl, rfl⟩
    | some => rfl
  | @cons x y l m h _ ih =>
    intro cur cur' ts st hc
    obtain ⟨v', p⟩ := x
    obtain ⟨v, q⟩ := y
    obtain ⟨rfl, h⟩ := h
    simp only at h
    rw [dumpMultiLoop, dumpMultiLoop, h.merge]
    refine (findConverter_quote s.convs f v (h.erase _)).bind fun r r' h => ?_
    obtain ⟨c, p⟩ := r
    obtain ⟨c', p'⟩ := r'
    obtain ⟨h1, h⟩ := h
    simp only at h1 h
    subst h1
    refine (serialize_quote hi L c f v h st.ctx).bind fun r r' h => ?_
    obtain ⟨t, p, ctx⟩ := r
    obtain ⟨t', p', ctx'⟩ := r'
    obtain ⟨h1, h, h3⟩ := h
    simp only at h1 h h3
    subst h1
    subst h3
    have hs : checkSame cur p = checkSame cur' p' := by
      cases hc with
      | none => rfl
      | some hc => rw [checkSame, checkSame, hc.eq h]
    dsimp only
    rw [hs]
    refine (OkRel.eq _).bind fun _ _ _ => ?_
    split
    · refine ih _ _ _ _ (.some ?_)
      cases hc with
      | none => exact h
      | some hc => exact hc
    · refine (ih none none [] _ .none).bind fun r r' h' => ?_
      obtain ⟨is, st1⟩ := r
      obtain ⟨is', st2⟩ := r'
      obtain ⟨h1, h2⟩ := h'
      simp only at h1 h2
      subst h2
      exact ⟨(h.line _ _).append h1, rfl⟩

theorem dumpMulti_quote (L : Lib) (s : AttrSpec) (f : σ → σ) (o : Obj σ) (st : DState) :
    OkRel (DSame g) (dumpMulti L s (o.requote g f) st) (dumpMulti L s o st) := by
  unfold dumpMulti
  rw [get_requote g, extra_requote g]
  cases o.get s.attr with
  | none => rfl
  | one v => rfl
  | many l =>
    refine (zipParams_quote hi f l _).bind fun a b h => ?_
    exact dumpMultiLoop_quote hi L s f h _ _ _ _ .none

omit hi in
theorem spanParams_quote (s : Span) {p q : Params} (h : PSame g p q) : PSame g (spanParams s p) (spanParams s q) := by
  unfold spanParams
  split
  · exact h.set _ _
  · exact h

omit hi in
theorem dumpSpanValue_quote (L : Lib) (s : Span) (d : DT) {p q : Params} (h : PSame g p q) (ctx : Ctx) :
    OkRel (fun r r' => r.1 = r'.1 ∧ PSame g r.2.1 r'.2.1 ∧ r.2.2 = r'.2.2) (dumpSpanValue L s d p ctx) (dumpSpanValue L s d q ctx) := by
  unfold dumpSpanValue
  split
  · exact ⟨rfl, h, rfl⟩
  · exact serializeDt_quote _ d h ctx

theorem dumpSpanBegin_quote (L : Lib) (f : σ → σ) (o : Obj σ) (s : Span) (st : DState) :
    OkRel (DSame g) (dumpSpanBegin L (o.requote g f) s st) (dumpSpanBegin L o s st) := by
  unfold dumpSpanBegin
  split
  · exact ⟨rfl, rfl⟩
  · split
    · rfl
    · refine (extraParamsOf_quote hi f o _).bind fun p q h => ?_
      refine (dumpSpanValue_quote L s _ (spanParams_quote s h) st.ctx).bind fun r r' h => ?_
      obtain ⟨t, p, ctx⟩ := r
      obtain ⟨t', p', ctx'⟩ := r'
      obtain ⟨h1, h, h3⟩ := h
      simp only at h1 h h3
      subst h1
      subst h3
      exact ⟨h.line _ _, rfl⟩

theorem dumpSpanEnd_quote (L : Lib) (f : σ → σ) (o : Obj σ) (s : Span) (st : DState) :
    OkRel (DSame g) (dumpSpanEnd L (o.requote g f) s st) (dumpSpanEnd L o s st) := by
  unfold dumpSpanEnd
  split
  · refine (extraParamsOf_quote hi f o _).bind fun p q h => ?_
    exact ⟨h.line _ _, rfl⟩
  · refine (extraParamsOf_quote hi f o _).bind fun p q h => ?_
    refine (dumpSpanValue_quote L s _ (spanParams_quote s h) st.ctx).bind fun r r' h => ?_
    obtain ⟨t, p, ctx⟩ := r
    obtain ⟨t', p', ctx'⟩ := r'
    obtain ⟨h1, h, h3⟩ := h
    simp only at h1 h h3
    subst h1
    subst h3
    exact ⟨h.line _ _, rfl⟩
  · exact ⟨rfl, rfl⟩

theorem dumpSpan_quote (L : Lib) (f : σ → σ) (o : Obj σ) (st : DState) :
    OkRel (DSame g) (dumpSpan L (o.requote g f) st) (dumpSpan L o st) := by
  unfold dumpSpan
  rw [get_requote g]
  cases o.get "timespan".toList with
  | none => rfl
  | many l => rfl
  | one v =>
    cases v with
    | span s =>
      refine (dumpSpanBegin_quote hi L f o s st).bind fun r r' h => ?_
      obtain ⟨a, st1⟩ := r
      obtain ⟨a', st2⟩ := r'
      obtain ⟨h1, h2⟩ := h
      simp only at h1 h2
      subst h2
      refine (dumpSpanEnd_quote hi L f o s _).bind fun r r' h => ?_
      obtain ⟨b, st1⟩ := r
      obtain ⟨b', st2⟩ := r'
      obtain ⟨h3, h2⟩ := h
      simp only at h3 h2
      subst h2
      exact ⟨h1.append h3, rfl⟩
    | _ => rfl

theorem dumpAction_quote (f : σ → σ) (o : Obj σ) (st : DState) :
    OkRel (DSame g) (dumpAction (o.requote g f) st) (dumpAction o st) := by
  have ha : (o.requote g f).action = o.action.requote g f := by
    unfold Obj.action
    rw [show (o.requote g f).cls = o.cls from rfl, get_requote g]
    cases o.cls <;> rfl
  unfold dumpAction
  rw [ha, extra_requote g]
  cases o.action with
  | none => rfl
  | many l => rfl
  | one v =>
    cases v with
    | text t =>
      cases dictGet? o.extraParams "ACTION".toList with
      | none => exact ⟨rfl, rfl⟩
      | some e =>
        cases e with
        | one p => exact ⟨(requoteParams_idem hi p).line _ _, rfl⟩
        | many ps => rfl
    | _ => rfl

omit hi hg in
variable (g) in
/-- Members that differ only in quotation marks are written as items that differ only in that. -/
def MemQuote (f : σ → σ) (memd : MemberDump σ) : Prop :=
  ∀ m st, OkRel (fun r r' => r.1.requote g = r'.1.requote g ∧ r.2 = r'.2) (memd (f m) st) (memd m st)

omit hi hg in
theorem dumpMembers_quote {f : σ → σ} {memd : MemberDump σ} (hm : MemQuote g f memd) (l : List (Val σ)) (st : DState) :
    OkRel (DSame g) (dumpMembers memd (l.map (Val.requote g f)) st) (dumpMembers memd l st) := by
  induction l generalizing st with
  | nil => exact ⟨rfl, rfl⟩
  | cons v l ih =>
    cases v with
    | comp m =>
      refine (hm m st).bind fun r r' h => ?_
      obtain ⟨i, st1⟩ := r
      obtain ⟨i', st2⟩ := r'
      obtain ⟨h1, h2⟩ := h
      simp only at h1 h2
      subst h2
      refine (ih _).bind fun r r' h => ?_
      obtain ⟨b, st1⟩ := r
      obtain ⟨b', st2⟩ := r'
      obtain ⟨h3, h2⟩ := h
      simp only at h3 h2
      subst h2
      refine ⟨?_, rfl⟩
      unfold ISame at h3 ⊢
      simp only [Item.requotes, h1, h3]
    | _ => rfl

theorem dumpMember_quote {f : σ → σ} {memd : MemberDump σ} (hm : MemQuote g f memd) (k : Str) (o : Obj σ) (st : DState) :
    OkRel (DSame g) (dumpMember memd k (o.requote g f) st) (dumpMember memd k o st) := by
  unfold dumpMember
  rw [get_requote g, extra_requote g]
  have e : (Option.map (ExtraVal.requote g) (dictGet? o.extraParams (extraKey k))).map ExtraVal.truthy =
      (dictGet? o.extraParams (extraKey k)).map ExtraVal.truthy := by
    rw [Option.map_map]
    congr 1
    funext e
    cases e with
    | one p => simp only [Function.comp, ExtraVal.requote, ExtraVal.truthy, ne_eq, requoteParams_nil g]
    | many ps => simp only [Function.comp, ExtraVal.requote, ExtraVal.truthy, ne_eq, List.map_eq_nil_iff]
  rw [e]
  refine (OkRel.eq _).bind fun _ _ _ => ?_
  cases o.get k with
  | none => rfl
  | one v => rfl
  | many l => exact dumpMembers_quote hm l st

theorem conv_dump_quote (L : Lib) {f : σ → σ} {memd : MemberDump σ} (hm : MemQuote g f memd) (cv : Conv) (o : Obj σ) (st : DState) :
    OkRel (DSame g) (cv.dump L memd (o.requote g f) st) (cv.dump L memd o st) := by
  cases cv with
  | value s =>
    simp only [Conv.dump]
    split
    · exact dumpMulti_quote hi L s f o st
    · exact dumpSingle_quote hi L s f o st
  | member k n => exact dumpMember_quote hi hm k o st
  | timespan => exact dumpSpan_quote hi L f o st
  | alarmAction => exact dumpAction_quote hi f o st
  | calendarTimezone => exact ⟨rfl, rfl⟩

theorem dumpConvs_quote (L : Lib) {f : σ → σ} {memd : MemberDump σ} (hm : MemQuote g f memd) (cvs : List Conv) (o : Obj σ)
    (st : DState) : OkRel (DSame g) (dumpConvs L memd cvs (o.requote g f) st) (dumpConvs L memd cvs o st) := by
  induction cvs generalizing st with
  | nil => exact ⟨rfl, rfl⟩
  | cons cv cvs ih =>
    refine (conv_dump_quote hi L hm cv o st).bind fun r r' h => ?_
    obtain ⟨a, st1⟩ := r
    obtain ⟨a', st2⟩ := r'
    obtain ⟨h1, h2⟩ := h
    simp only at h1 h2
    subst h2
    refine (ih _).bind fun r r' h => ?_
    obtain ⟨b, st1⟩ := r
    obtain ⟨b', st2⟩ := r'
    obtain ⟨h3, h2⟩ := h
    simp only at h3 h2
    subst h2
    exact ⟨h1.append h3, rfl⟩

theorem requotes_idem : ∀ a : List Item, ISame g (Item.requotes g a) a := by
  intro a
  refine Item.requotes.induct (motive_1 := fun i => (i.requote g).requote g = i.requote g)
    (motive_2 := fun a => Item.requotes g (Item.requotes g a) = Item.requotes g a) ?_ ?_ ?_ ?_ a
  · intro cl
    simp only [Item.requote, ContentLine.requote]
    rw [show requoteParams g (requoteParams g cl.params) = _ from requoteParams_idem hi cl.params]
  · intro n is ih
    simp only [Item.requote, ih]
  · rfl
  · intro i is h1 h2
    simp only [Item.requotes, h1, h2]

theorem dumpObj_quote (L : Lib) {f : σ → σ} {memd : MemberDump σ} (hm : MemQuote g f memd) : MemQuote g (Obj.requote g f) (dumpObj L memd) := by
  intro o st
  refine (dumpConvs_quote hi L hm o.cls.convs o st).bind fun r r' h => ?_
  obtain ⟨a, st1⟩ := r
  obtain ⟨a', st2⟩ := r'
  obtain ⟨h1, h2⟩ := h
  simp only at h1 h2
  subst h2
  refine ⟨?_, rfl⟩
  show Item.cont o.extraName (Item.requotes g (a ++ Item.requotes g o.extra)) = Item.cont o.extraName (Item.requotes g (a' ++ o.extra))
  rw [show Item.requotes g (a ++ Item.requotes g o.extra) = _ from h1.append (requotes_idem hi o.extra)]

theorem dumpAlarm_quote (L : Lib) : MemQuote g (requoteAlarm g) (dumpAlarm L) :=
  dumpObj_quote hi L fun m => nomatch m

theorem dumpEntry_quote (L : Lib) : MemQuote g (requoteEntry g) (dumpEntry L) :=
  dumpObj_quote hi L (dumpAlarm_quote hi L)

/-- Calendars that differ only in quotation marks are written as items that differ only in that. -/
theorem dumpCalendar_quote (L : Lib) (o : CalObj) :
    OkRel (fun i j => i.requote g = j.requote g) (dumpCalendar L (requoteCalendar g o)) (dumpCalendar L o) := by
  refine (dumpConvs_quote hi L (dumpEntry_quote hi L) calConvsBefore o _).bind fun r r' h => ?_
  obtain ⟨a, st1⟩ := r
  obtain ⟨a', st2⟩ := r'
  obtain ⟨h1, h2⟩ := h
  simp only at h1 h2
  subst h2
  refine (dumpConvs_quote hi L (dumpEntry_quote hi L) calConvsAfter o _).bind fun r r' h => ?_
  obtain ⟨b, st1⟩ := r
  obtain ⟨b', st2⟩ := r'
  obtain ⟨h3, h2⟩ := h
  simp only at h3 h2
  subst h2
  refine (OkRel.eq (dumpZones L (st1.ctx.getD []))).bind fun z z' hz => ?_
  subst hz
  show Item.cont o.extraName (Item.requotes g (a ++ z ++ (b ++ Item.requotes g o.extra))) =
    Item.cont o.extraName (Item.requotes g (a' ++ z ++ (b' ++ o.extra)))
  rw [show Item.requotes g (a ++ z ++ (b ++ Item.requotes g o.extra)) = _ from
    (ISame.append (h1.append rfl) (h3.append (requotes_idem hi o.extra)))]

end Ics
