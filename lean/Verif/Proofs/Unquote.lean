import Verif.Spec.Unquote
import Verif.Proofs.Component

/-
Reading a component does not look at quotation marks: every function that reads commutes with removing
them.
-/
namespace Ics

variable {σ : Type}

/-! ### Dictionaries -/

/-- Apply a function to the values of a dictionary. -/
def mapVals {κ ν μ : Type} (g : ν → μ) (d : List (κ × ν)) : List (κ × μ) := d.map fun kv => (kv.1, g kv.2)

section
variable {κ ν μ : Type} [DecidableEq κ] (g : ν → μ)

theorem dictGet_mapVals (d : List (κ × ν)) (k : κ) : dictGet? (mapVals g d) k = (dictGet? d k).map g := by
  induction d with
  | nil => rfl
  | cons x d ih =>
    simp only [mapVals, List.map_cons, dictGet?] at ih ⊢
    split
    · rfl
    · exact ih

theorem dictErase_mapVals (d : List (κ × ν)) (k : κ) : dictErase (mapVals g d) k = mapVals g (dictErase d k) := by
  induction d with
  | nil => rfl
  | cons x d ih =>
    simp only [mapVals, List.map_cons, dictErase] at ih ⊢
    split
    · rfl
    · rw [ih]
      rfl

theorem dictSet_mapVals (d : List (κ × ν)) (k : κ) (v : ν) :
    dictSet (mapVals g d) k (g v) = mapVals g (dictSet d k v) := by
  induction d with
  | nil => rfl
  | cons x d ih =>
    simp only [mapVals, List.map_cons, dictSet] at ih ⊢
    split
    · rfl
    · rw [ih]
      rfl

theorem mapVals_eq_nil (d : List (κ × ν)) : mapVals g d = [] ↔ d = [] := List.map_eq_nil_iff

end

theorem unquoteParams_eq (p : Params) : unquoteParams p = mapVals (List.map fun v : PVal => ⟨false, v.text⟩) p := rfl

theorem dictGet_unquote (p : Params) (k : Str) :
    dictGet? (unquoteParams p) k = (dictGet? p k).map (List.map fun v : PVal => ⟨false, v.text⟩) :=
  dictGet_mapVals _ p k

theorem dictErase_unquote (p : Params) (k : Str) : dictErase (unquoteParams p) k = unquoteParams (dictErase p k) :=
  dictErase_mapVals _ p k

theorem dictSet_unquote (p : Params) (k : Str) (v : List PVal) (h : v.map (fun v : PVal => (⟨false, v.text⟩ : PVal)) = v) :
    dictSet (unquoteParams p) k v = unquoteParams (dictSet p k v) := by
  have := dictSet_mapVals (List.map fun v : PVal => (⟨false, v.text⟩ : PVal)) p k v
  rw [h] at this
  exact this

theorem unquoteParams_nil (p : Params) : unquoteParams p = [] ↔ p = [] := List.map_eq_nil_iff

theorem pvalTexts_unquote (l : List PVal) : pvalTexts (l.map fun v : PVal => (⟨false, v.text⟩ : PVal)) = pvalTexts l := by
  simp [pvalTexts]

/-! ### Sequences of operations -/

/-- A step of a sequence. -/
theorem nat_bind {ε α α' β β' : Type} {x : Except ε α} {x' : Except ε α'} {f : α → α'} {h : β → β'} {g : α → Except ε β}
    {g' : α' → Except ε β'} (hx : x' = x.map f) (hg : ∀ a, g' (f a) = (g a).map h) : (x' >>= g') = (x >>= g).map h := by
  subst hx
  cases x with
  | error e => rfl
  | ok a => exact hg a

theorem nat_id {ε α : Type} (x : Except ε α) : x = x.map id := by cases x <;> rfl

/-! ### Values -/

theorem prepareParams_unquote (convs : List ValConv) (p : Params) :
    prepareParams convs (unquoteParams p) = (prepareParams convs p).map fun r => (unquoteParams r.1, r.2) := by
  simp only [prepareParams, dictGet_unquote, dictErase_unquote]
  cases dictGet? p "VALUE".toList with
  | none => cases convs <;> rfl
  | some l =>
    match l with
    | [] => cases convs <;> rfl
    | [v] =>
      simp only [Option.map_some, List.map_cons, List.map_nil]
      cases findByType convs v.text <;> rfl
    | _ :: _ :: _ => rfl

theorem paramTz_unquote (p : Params) : paramTz (unquoteParams p) = paramTz p := by
  simp only [paramTz, dictGet_unquote]
  cases dictGet? p "TZID".toList with
  | none => rfl
  | some l =>
    match l with
    | [] => rfl
    | [v] => rfl
    | _ :: _ :: _ => rfl

theorem parseDt_unquote (w : World) (fs : List Nat) (v : Str) (p : Params) (ctx : Ctx) :
    parseDt w fs v (unquoteParams p) ctx =
      (parseDt w fs v p ctx).map fun r => (r.1, unquoteParams r.2.1, r.2.2) := by
  simp only [parseDt, paramTz_unquote, dictErase_unquote]
  split
  · rfl
  · split
    · rfl
    · split
      · rfl
      · split
        · rfl
        · split
          · rfl
          · split
            · split <;> rfl
            · split
              · rfl
              · split <;> rfl

theorem parseDate_unquote (w : World) (v : Str) (p : Params) (ctx : Ctx) :
    parseDate w v (unquoteParams p) ctx = (parseDate w v p ctx).map fun r => (r.1, unquoteParams r.2.1, r.2.2) := by
  simp only [parseDate, parseDt_unquote]
  cases parseDt w baseFormats v p ctx with
  | error e => rfl
  | ok r => rfl

theorem parse_unquote (L : Lib) (f : σ → σ) (c : ValConv) (v : Str) (p : Params) (ctx : Ctx) :
    c.parse (σ := σ) L v (unquoteParams p) ctx =
      (c.parse L v p ctx).map fun r => (r.1.unquote f, unquoteParams r.2.1, r.2.2) := by
  cases c <;> simp only [ValConv.parse]
  · cases unescapeText v <;> rfl
  · cases urlparse L.urlChecks v <;> rfl
  · cases b64decode v <;> rfl
  · rw [parseDt_unquote]
    cases parseDt L.toWorld datetimeFormats v p ctx <;> rfl
  · cases durationParse v <;> rfl
  · cases intParse v <;> rfl
  · cases boolParse v <;> rfl
  · simp only [geoParse]
    split
    · rfl
    · split <;> rfl
  · cases urlparse L.urlChecks v <;> rfl
  · cases urlparse L.urlChecks v <;> rfl

theorem setMerge_unquote (p : Params) (b : Bool) : setMerge (unquoteParams p) b = unquoteParams (setMerge p b) :=
  dictSet_unquote p _ _ rfl

theorem parseValues_unquote (L : Lib) (f : σ → σ) (c : ValConv) (vs : List Str) (p : Params) (ctx : Ctx) :
    parseValues (σ := σ) L c vs (unquoteParams p) ctx =
      (parseValues L c vs p ctx).map fun r => (r.1.map fun x => (x.1.unquote f, unquoteParams x.2), r.2) := by
  induction vs generalizing p ctx with
  | nil => rfl
  | cons v vs ih =>
    refine nat_bind (parse_unquote L f c v p ctx) fun r => ?_
    dsimp only
    rw [setMerge_unquote]
    refine nat_bind (ih _ _) fun r => ?_
    rfl

theorem markLast_unquote (f : σ → σ) (l : List (Val σ × Params)) :
    markLast (l.map fun x => (x.1.unquote f, unquoteParams x.2)) =
      (markLast l).map fun x => (x.1.unquote f, unquoteParams x.2) := by
  induction l with
  | nil => rfl
  | cons x l ih =>
    cases l with
    | nil =>
      simp only [List.map_cons, List.map_nil, markLast, setMerge_unquote]
    | cons y l =>
      simp only [List.map_cons, markLast] at ih ⊢
      rw [ih]

/-! ### Components -/

theorem get_unquote (f : σ → σ) (o : Obj σ) (k : Str) : (o.unquote f).get k = (o.get k).unquote f := by
  show (dictGet? (mapVals (AttrVal.unquote f) o.attrs) k).getD _ = _
  rw [dictGet_mapVals, Obj.get]
  cases dictGet? o.attrs k <;> rfl

theorem extra_unquote (f : σ → σ) (o : Obj σ) (k : Str) :
    dictGet? (o.unquote f).extraParams k = (dictGet? o.extraParams k).map ExtraVal.unquote :=
  dictGet_mapVals ExtraVal.unquote o.extraParams k

theorem setAttrs_unquote (f : σ → σ) (o : Obj σ) (k : Str) (v : AttrVal σ) :
    { o.unquote f with attrs := dictSet (o.unquote f).attrs k (v.unquote f) } =
      Obj.unquote f { o with attrs := dictSet o.attrs k v } := by
  simp only [Obj.unquote, Obj.mk.injEq, true_and, and_true]
  exact dictSet_mapVals (AttrVal.unquote f) o.attrs k v

theorem setExtras_unquote (f : σ → σ) (o : Obj σ) (k : Str) (v : ExtraVal) :
    { o.unquote f with extraParams := dictSet (o.unquote f).extraParams k v.unquote } =
      Obj.unquote f { o with extraParams := dictSet o.extraParams k v } := by
  simp only [Obj.unquote, Obj.mk.injEq, true_and]
  exact dictSet_mapVals ExtraVal.unquote o.extraParams k v

theorem setExtraParams_unquote (f : σ → σ) (o : Obj σ) (k : Str) (p : Params) :
    (o.unquote f).setExtraParams k (unquoteParams p) = (o.setExtraParams k p).unquote f := by
  unfold Obj.setExtraParams
  by_cases h : p = []
  · rw [if_pos h, if_pos ((unquoteParams_nil p).2 h)]
  · rw [if_neg h, if_neg fun e => h ((unquoteParams_nil p).1 e)]
    exact setExtras_unquote f o _ (.one p)

theorem appendExtraParams_unquote (f : σ → σ) (o : Obj σ) (k : Str) (p : Params) :
    (o.unquote f).appendExtraParams k (unquoteParams p) = (o.appendExtraParams k p).map (Obj.unquote f) := by
  simp only [Obj.appendExtraParams, extra_unquote]
  cases dictGet? o.extraParams (extraKey k) with
  | none => exact congrArg Except.ok (setExtras_unquote f o _ (.many [p]))
  | some e =>
    cases e with
    | one p' => rfl
    | many ps =>
      have := congrArg (Except.ok (ε := PyErr)) (setExtras_unquote f o (extraKey k) (.many (ps ++ [p])))
      rw [ExtraVal.unquote, List.map_append] at this
      exact this

theorem appendValue_unquote (f : σ → σ) (o : Obj σ) (k : Str) (v : Val σ) :
    (o.unquote f).appendValue k (v.unquote f) = (o.appendValue k v).map (Obj.unquote f) := by
  simp only [Obj.appendValue, get_unquote]
  cases o.get k with
  | none => exact congrArg Except.ok (setAttrs_unquote f o _ (.many [v]))
  | one _ => rfl
  | many l =>
    have := congrArg (Except.ok (ε := PyErr)) (setAttrs_unquote f o k (.many (l ++ [v])))
    rw [AttrVal.unquote, List.map_append] at this
    exact this

theorem appendAll_unquote (f : σ → σ) (k : Str) (l : List (Val σ × Params)) (o : Obj σ) :
    (o.unquote f).appendAll k (l.map fun x => (x.1.unquote f, unquoteParams x.2)) =
      (o.appendAll k l).map (Obj.unquote f) := by
  induction l generalizing o with
  | nil => rfl
  | cons x l ih =>
    refine nat_bind (appendExtraParams_unquote f o k x.2) fun o => ?_
    refine nat_bind (appendValue_unquote f o k x.1) fun o => ?_
    exact ih o

theorem check_unquote (L : Lib) (f : σ → σ) (c : Check) (v : AttrVal σ) :
    c.run L (v.unquote f) = (c.run L v).map (AttrVal.unquote f) := by
  cases v with
  | none => cases c <;> rfl
  | many l => cases c <;> rfl
  | one v =>
    cases v with
    | text s =>
      cases c <;> try rfl
      simp only [AttrVal.unquote, Val.unquote, Check.run]
      split <;> rfl
    | int n =>
      cases c <;> try rfl
      simp only [AttrVal.unquote, Val.unquote, Check.run]
      split <;> rfl
    | dt d =>
      cases c <;> try rfl
      all_goals
        simp only [AttrVal.unquote, Val.unquote, Check.run]
        cases L.astimezone d (.zone L.icsUtc) <;> rfl
    | span s =>
      cases c <;> try rfl
      simp only [AttrVal.unquote, Val.unquote, Check.run]
      cases L.validateTimespan _ s <;> rfl
    | person a e x =>
      cases c <;> try rfl
      cases a <;> rfl
    | _ => cases c <;> rfl

theorem setattr_unquote (L : Lib) (f : σ → σ) (o : Obj σ) (k : Str) (c : Check) (v : AttrVal σ) :
    (o.unquote f).setattr L k c (v.unquote f) = (o.setattr L k c v).map (Obj.unquote f) := by
  simp only [Obj.setattr, check_unquote]
  cases c.run L v with
  | error e => rfl
  | ok v => exact congrArg Except.ok (setAttrs_unquote f o k v)

theorem Item.unquotes_append (a b : List Item) : Item.unquotes (a ++ b) = Item.unquotes a ++ Item.unquotes b := by
  induction a with
  | nil => rfl
  | cons i a ih => simp [Item.unquotes, ih]

theorem Item.unquotes_eq (a : List Item) : Item.unquotes a = a.map Item.unquote := by
  induction a with
  | nil => rfl
  | cons i a ih => simp [Item.unquotes, ih]

theorem unquoteParams_idem (p : Params) : unquoteParams (unquoteParams p) = unquoteParams p := by
  simp only [unquoteParams, List.map_map]
  refine List.map_congr_left fun kv _ => ?_
  simp only [Function.comp, List.map_map]
  rfl

theorem unquotes_idem (a : List Item) : Item.unquotes (Item.unquotes a) = Item.unquotes a := by
  refine Item.unquotes.induct (motive_1 := fun i => i.unquote.unquote = i.unquote)
    (motive_2 := fun a => Item.unquotes (Item.unquotes a) = Item.unquotes a) ?_ ?_ ?_ ?_ a
  · intro cl
    simp only [Item.unquote]
    exact congrArg (fun p => Item.line ⟨cl.name, p, cl.value⟩) (unquoteParams_idem cl.params)
  · intro n is ih
    simp only [Item.unquote, ih]
  · rfl
  · intro i is h1 h2
    simp only [Item.unquotes, h1, h2]

theorem Item.name_unquote (i : Item) : i.unquote.name = i.name := by
  cases i with
  | line cl => simp only [Item.unquote, Item.name, ContentLine.unquote]
  | cont n is => simp only [Item.unquote, Item.name]

/-! ### The state while reading -/

/-- The state with the component unquoted. -/
def LState.unquote (f : σ → σ) (st : LState σ) : LState σ := { st with obj := st.obj.unquote f }

theorem populateMulti_unquote (L : Lib) (f : σ → σ) (s : AttrSpec) (cl : ContentLine) (st : LState σ) :
    populateMulti L s cl.unquote (st.unquote f) = (populateMulti L s cl st).map (LState.unquote f) := by
  refine nat_bind (prepareParams_unquote s.convs cl.params) fun r => ?_
  refine nat_bind (parseValues_unquote L f r.2 (r.2.split cl.value).items r.1 st.ctx) fun q => ?_
  refine nat_bind (nat_id _) fun _ => ?_
  rw [markLast_unquote]
  refine nat_bind (appendAll_unquote f s.attr (markLast q.1) st.obj) fun o => ?_
  rw [List.length_map]
  rfl

theorem populateSingle_unquote (L : Lib) (f : σ → σ) (s : AttrSpec) (cl : ContentLine) (st : LState σ) :
    populateSingle L s cl.unquote (st.unquote f) = (populateSingle L s cl st).map (LState.unquote f) := by
  refine nat_bind (nat_id _) fun _ => ?_
  refine nat_bind (prepareParams_unquote s.convs cl.params) fun r => ?_
  refine nat_bind (parse_unquote L f r.2 cl.value r.1 st.ctx) fun q => ?_
  refine nat_bind (f := Obj.unquote f) ?_ fun o => rfl
  rw [show (st.unquote f).obj = st.obj.unquote f from rfl, setExtraParams_unquote]
  exact setattr_unquote L f _ _ _ (.one q.1)

theorem parseSpanValue_unquote (L : Lib) (cl : ContentLine) (ctx : Ctx) :
    parseSpanValue L cl.unquote ctx = (parseSpanValue L cl ctx).map fun r => (r.1, r.2.1, unquoteParams r.2.2.1, r.2.2.2) := by
  have h1 : dictGet? cl.unquote.params "VALUE".toList = _ := dictGet_unquote cl.params "VALUE".toList
  have h2 : dictErase cl.unquote.params "VALUE".toList = _ := dictErase_unquote cl.params "VALUE".toList
  have h3 : cl.unquote.value = cl.value := rfl
  have h4 : ((dictGet? cl.unquote.params "VALUE".toList).map pvalTexts) = (dictGet? cl.params "VALUE".toList).map pvalTexts := by
    rw [h1, Option.map_map]
    congr 1
    funext l
    exact pvalTexts_unquote l
  unfold parseSpanValue
  dsimp only
  rw [h2, h3, h4, parseDt_unquote, parseDate_unquote]
  split
  · cases parseDt L.toWorld datetimeFormats cl.value (dictErase cl.params "VALUE".toList) ctx <;> rfl
  · split
    · cases parseDate L.toWorld cl.value (dictErase cl.params "VALUE".toList) ctx <;> rfl
    · rfl

theorem populateSpanTime_unquote (L : Lib) (f : σ → σ) (cl : ContentLine) (st : LState σ) :
    populateSpanTime L cl.unquote (st.unquote f) = (populateSpanTime L cl st).map (LState.unquote f) := by
  refine nat_bind (parseSpanValue_unquote L cl st.ctx) fun r => ?_
  refine nat_bind (nat_id _) fun _ => ?_
  dsimp only
  rw [show cl.unquote.name = cl.name from rfl, show (st.unquote f).obj = st.obj.unquote f from rfl,
    setExtraParams_unquote, setExtraParams_unquote]
  by_cases h : cl.name = "DTSTART".toList
  · rw [if_pos h, if_pos h]
    rfl
  · rw [if_neg h, if_neg h]
    rfl

theorem populateSpan_unquote (L : Lib) (f : σ → σ) (cl : ContentLine) (st : LState σ) :
    populateSpan L cl.unquote (st.unquote f) = (populateSpan L cl st).map (LState.unquote f) := by
  refine nat_bind (nat_id _) fun _ => ?_
  rw [show cl.unquote.name = cl.name from rfl]
  by_cases h : cl.name = "DURATION".toList
  · rw [if_pos h, if_pos h]
    refine nat_bind (nat_id _) fun d => ?_
    refine congrArg Except.ok ?_
    have := setExtraParams_unquote f st.obj "duration".toList cl.params
    exact congrArg (fun o : Obj σ => (⟨o, st.counts, _, st.ctx⟩ : LState σ)) this
  · rw [if_neg h, if_neg h]
    exact populateSpanTime_unquote L f cl { st with span := { st.span with seen := st.span.seen ++ [cl.name] } }

theorem populateAction_unquote (f : σ → σ) (cl : ContentLine) (st : LState σ) :
    populateAction cl.unquote (st.unquote f) = (populateAction cl st).map (LState.unquote f) := by
  unfold populateAction
  have e : cl.unquote.params = unquoteParams cl.params := rfl
  have e2 : (cl.unquote.params = []) = (cl.params = []) := by rw [e, unquoteParams_nil]
  rw [show (st.unquote f).obj.cls = st.obj.cls from rfl, show cl.unquote.value = cl.value from rfl]
  by_cases h : st.obj.cls ≠ alarmCls cl.value
  · rw [if_pos h, if_pos h]
    rfl
  · rw [if_neg h, if_neg h]
    by_cases h2 : cl.params = []
    · rw [if_pos h2, if_pos (e2.mpr h2)]
      rfl
    · rw [if_neg h2, if_neg (fun x => h2 (e2.mp x))]
      refine congrArg Except.ok ?_
      have := setExtras_unquote f st.obj "ACTION".toList (.one cl.params)
      exact congrArg (fun o : Obj σ => (⟨o, st.counts, st.span, st.ctx⟩ : LState σ)) this

/-- How a member is read does not depend on quotation marks. -/
def MemberNat (f : σ → σ) (mem : MemberLoad σ) : Prop :=
  ∀ n is ctx, mem n (Item.unquotes is) ctx = (mem n is ctx).map fun r => (f r.1, r.2)

theorem populateMember_unquote {f : σ → σ} {mem : MemberLoad σ} (hm : MemberNat f mem) (a n : Str) (is : List Item)
    (st : LState σ) :
    populateMember mem a n (Item.unquotes is) (st.unquote f) =
      (populateMember mem a n is st).map (LState.unquote f) := by
  refine nat_bind (hm n is st.ctx) fun r => ?_
  refine nat_bind (appendValue_unquote f st.obj a (.comp r.1)) fun o => ?_
  rfl

theorem map_pair (f : σ → σ) (x : Except PyErr (LState σ)) :
    (x.map (LState.unquote f)).map (fun st => (true, st)) =
      (x.map fun st => (true, st)).map fun r => (r.1, r.2.unquote f) := by
  cases x <;> rfl

theorem populate_unquote (L : Lib) {f : σ → σ} {mem : MemberLoad σ} (hm : MemberNat f mem) (cv : Conv) (i : Item)
    (st : LState σ) :
    cv.populate L mem i.unquote (st.unquote f) = (cv.populate L mem i st).map fun r => (r.1, r.2.unquote f) := by
  cases i with
  | line cl =>
    rw [Item.unquote]
    cases cv with
    | value s =>
      simp only [Conv.populate, populateMulti_unquote, populateSingle_unquote, ← map_pair]
      split <;> rfl
    | member a n => rfl
    | timespan =>
      simp only [Conv.populate, populateSpan_unquote, ← map_pair]
    | alarmAction =>
      simp only [Conv.populate, populateAction_unquote, ← map_pair]
    | calendarTimezone => rfl
  | cont n is =>
    rw [Item.unquote]
    cases cv with
    | value s => rfl
    | member a n' =>
      simp only [Conv.populate, populateMember_unquote hm, ← map_pair]
    | timespan => rfl
    | alarmAction => rfl
    | calendarTimezone => rfl

theorem populateConvs_unquote (L : Lib) {f : σ → σ} {mem : MemberLoad σ} (hm : MemberNat f mem) (i : Item)
    (cvs : List Conv) (b : Bool) (st : LState σ) :
    populateConvs L mem i.unquote cvs b (st.unquote f) =
      (populateConvs L mem i cvs b st).map fun r => (r.1, r.2.unquote f) := by
  induction cvs generalizing b st with
  | nil => rfl
  | cons cv cvs ih =>
    refine nat_bind (populate_unquote L hm cv i st) fun r => ?_
    exact ih _ _

theorem populateItem_unquote (L : Lib) {f : σ → σ} {mem : MemberLoad σ} (hm : MemberNat f mem) (i : Item)
    (st : LState σ) :
    populateItem L mem i.unquote (st.unquote f) = (populateItem L mem i st).map (LState.unquote f) := by
  unfold populateItem
  rw [Item.name_unquote]
  refine nat_bind (populateConvs_unquote L hm i _ false st) fun r => ?_
  dsimp only
  by_cases h : r.1 = true
  · rw [if_pos h, if_pos h]
    rfl
  · rw [if_neg h, if_neg h]
    refine congrArg Except.ok ?_
    simp only [LState.unquote, Obj.unquote, Item.unquotes_append, Item.unquotes]

theorem populateItems_unquote (L : Lib) {f : σ → σ} {mem : MemberLoad σ} (hm : MemberNat f mem) (is : List Item)
    (st : LState σ) :
    populateItems L mem (Item.unquotes is) (st.unquote f) = (populateItems L mem is st).map (LState.unquote f) := by
  induction is generalizing st with
  | nil => rfl
  | cons i is ih =>
    refine nat_bind (populateItem_unquote L hm i st) fun st => ?_
    exact ih st

theorem postSpan_unquote (L : Lib) (f : σ → σ) (st : LState σ) :
    postSpan L (st.unquote f) = (postSpan L st).map (LState.unquote f) := by
  refine nat_bind (nat_id _) fun s => ?_
  refine nat_bind (nat_id _) fun _ => ?_
  refine nat_bind (f := Obj.unquote f) ?_ fun o => rfl
  exact setattr_unquote L f st.obj _ _ (.one (.span s))

theorem post_unquote (L : Lib) (f : σ → σ) (cv : Conv) (st : LState σ) :
    cv.post L (st.unquote f) = (cv.post L st).map (LState.unquote f) := by
  cases cv with
  | value s =>
    simp only [Conv.post]
    show (if s.required && st.count s.attr == 0 then _ else _) = _
    split <;> rfl
  | timespan => exact postSpan_unquote L f st
  | _ => rfl

theorem postAll_unquote (L : Lib) (f : σ → σ) (cvs : List Conv) (st : LState σ) :
    postAll L cvs (st.unquote f) = (postAll L cvs st).map (LState.unquote f) := by
  induction cvs generalizing st with
  | nil => rfl
  | cons cv cvs ih =>
    refine nat_bind (post_unquote L f cv st) fun st => ?_
    exact ih st

theorem default_unquote (L : Lib) (f : σ → σ) (c : Cls) (cv : Conv) :
    mapVals (AttrVal.unquote f) (cv.default L c) = cv.default L c := by
  cases cv with
  | value s =>
    simp only [Conv.default, mapVals, List.map_cons, List.map_nil, defaultAttr]
    repeat' split
    all_goals rfl
  | _ => rfl

theorem newObj_unquote (L : Lib) (f : σ → σ) (c : Cls) : (newObj (σ := σ) L c).unquote f = newObj L c := by
  have : ∀ cvs : List Conv, mapVals (AttrVal.unquote f) (cvs.flatMap (Conv.default L c)) = cvs.flatMap (Conv.default L c) := by
    intro cvs
    induction cvs with
    | nil => rfl
    | cons cv cvs ih =>
      rw [List.flatMap_cons, mapVals, List.map_append]
      exact congrArg₂ _ (default_unquote L f c cv) ih
  simp only [newObj, Obj.unquote, Obj.mk.injEq, true_and]
  exact ⟨this c.convs, rfl, rfl⟩

theorem loadObj_unquote (L : Lib) {f : σ → σ} {mem : MemberLoad σ} (hm : MemberNat f mem) (c : Cls) (is : List Item)
    (ctx : Ctx) :
    loadObj L mem c (Item.unquotes is) ctx = (loadObj L mem c is ctx).map fun r => (r.1.unquote f, r.2) := by
  refine nat_bind (f := LState.unquote f) ?_ fun st => ?_
  · have := populateItems_unquote L hm is ⟨newObj L c, [], {}, ctx⟩
    rw [← this, LState.unquote]
    dsimp only
    rw [newObj_unquote]
  · refine nat_bind (postAll_unquote L f c.convs st) fun st => rfl

theorem oneItem_unquote (is : List Item) (n : Str) : oneItem (Item.unquotes is) n = (oneItem is n).map Item.unquote := by
  have : (Item.unquotes is).filter (fun i => i.name = n) = (is.filter fun i => i.name = n).map Item.unquote := by
    rw [Item.unquotes_eq, List.filter_map]
    congr 1
    apply List.filter_congr
    intro i _
    simp only [Function.comp, Item.name_unquote]
  simp only [oneItem, this]
  generalize is.filter (fun i => i.name = n) = l
  match l with
  | [] => rfl
  | [i] => rfl
  | _ :: _ :: _ => rfl

theorem loadAlarm_unquote (L : Lib) (is : List Item) (ctx : Ctx) :
    loadAlarm L (Item.unquotes is) ctx = (loadAlarm L is ctx).map fun r => (unquoteAlarm r.1, r.2) := by
  refine nat_bind (oneItem_unquote is _) fun i => ?_
  cases i with
  | cont n is => rw [Item.unquote]; rfl
  | line cl =>
    rw [Item.unquote]
    exact loadObj_unquote L (f := id) (fun _ _ _ => rfl) (alarmCls cl.value) is ctx

theorem loadEntry_unquote (L : Lib) (c : Cls) (is : List Item) (ctx : Ctx) :
    loadEntry L c (Item.unquotes is) ctx = (loadEntry L c is ctx).map fun r => (unquoteEntry r.1, r.2) :=
  loadObj_unquote L (f := unquoteAlarm) (fun _ is ctx => loadAlarm_unquote L is ctx) c is ctx

theorem loadCalMember_unquote (L : Lib) : MemberNat unquoteEntry (loadCalMember L) :=
  fun _ is ctx => loadEntry_unquote L _ is ctx

/-- Reading a VTIMEZONE does not depend on quotation marks. -/
def ZoneNat (L : Lib) (is : List Item) : Prop :=
  ∀ zis, .cont "VTIMEZONE".toList zis ∈ is → L.tzLoad (Item.unquotes zis) = L.tzLoad zis

theorem loadZones_unquote (L : Lib) (is : List Item) (h : ZoneNat L is) (avail : List (Str × Nat)) :
    loadZones L (Item.unquotes is) avail = loadZones L is avail := by
  induction is generalizing avail with
  | nil => rfl
  | cons i is ih =>
    have ih := fun a => ih (fun z hz => h z (List.mem_cons_of_mem _ hz)) a
    rw [Item.unquotes]
    cases i with
    | line cl =>
      rw [Item.unquote, loadZones, loadZones]
      exact ih _
    | cont n zis =>
      rw [Item.unquote, loadZones, loadZones]
      by_cases hn : n = "VTIMEZONE".toList
      · rw [if_pos hn, if_pos hn, h zis (by rw [hn]; exact List.mem_cons_self)]
        cases L.tzLoad zis with
        | error e => rfl
        | ok z => exact ih _
      · rw [if_neg hn, if_neg hn]
        exact ih _

theorem loadCalendar_unquote (L : Lib) (is : List Item) (h : ZoneNat L is) :
    loadCalendar L (Item.unquotes is) = (loadCalendar L is).map unquoteCalendar := by
  unfold loadCalendar
  rw [loadZones_unquote L is h]
  refine nat_bind (nat_id _) fun avail => ?_
  refine nat_bind (loadObj_unquote L (loadCalMember_unquote L) .calendar is (some avail)) fun r => ?_
  rfl

end Ics
