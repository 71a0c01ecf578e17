import Verif.Proofs.Unquote

/-
Reading a component looks at quotation marks of parameter values only to keep them: every function that reads
commutes with every change of the quotation marks.
-/
namespace Ics

variable {σ : Type}

/-- A change of the quotation marks of parameter values that leaves those alone that mark the lines of a list. -/
class Requotes (g : PVal → PVal) : Prop where
  text : ∀ v, (g v).text = v.text
  flag : ∀ b : Bool, g ⟨false, if b then "TRUE".toList else "FALSE".toList⟩ = ⟨false, if b then "TRUE".toList else "FALSE".toList⟩

/-- Parameters with other quotation marks. -/
def requoteParams (g : PVal → PVal) (p : Params) : Params := p.map fun kv => (kv.1, kv.2.map g)

/-- A line with other quotation marks. -/
def ContentLine.requote (g : PVal → PVal) (cl : ContentLine) : ContentLine := { cl with params := requoteParams g cl.params }

mutual
/-- An item with other quotation marks. -/
def Item.requote (g : PVal → PVal) : Item → Item
  | .line cl => .line (cl.requote g)
  | .cont n is => .cont n (Item.requotes g is)
/-- Items with other quotation marks. -/
def Item.requotes (g : PVal → PVal) : List Item → List Item
  | [] => []
  | i :: is => i.requote g :: Item.requotes g is
end

/-- A value with other quotation marks; `f` does the same for a member. -/
def Val.requote (g : PVal → PVal) (f : σ → σ) : Val σ → Val σ
  | .person a e x => .person a e (requoteParams g x)
  | .comp m => .comp (f m)
  | v => v

/-- The value of an attribute with other quotation marks. -/
def AttrVal.requote (g : PVal → PVal) (f : σ → σ) : AttrVal σ → AttrVal σ
  | .none => .none
  | .one v => .one (v.requote g f)
  | .many l => .many (l.map (Val.requote g f))

/-- Parameters with other quotation marks. -/
def ExtraVal.requote (g : PVal → PVal) : ExtraVal → ExtraVal
  | .one p => .one (requoteParams g p)
  | .many ps => .many (ps.map (requoteParams g))

/-- A component with other quotation marks. -/
def Obj.requote (g : PVal → PVal) (f : σ → σ) (o : Obj σ) : Obj σ where
  cls := o.cls
  attrs := o.attrs.map fun kv => (kv.1, kv.2.requote g f)
  extraName := o.extraName
  extra := Item.requotes g o.extra
  extraParams := o.extraParams.map fun kv => (kv.1, kv.2.requote g)

/-- An alarm with other quotation marks. -/
def requoteAlarm (g : PVal → PVal) (o : Alarm) : Alarm := o.requote g id

/-- An event or todo with other quotation marks. -/
def requoteEntry (g : PVal → PVal) (o : EntryObj) : EntryObj := o.requote g (requoteAlarm g)

/-- A calendar with other quotation marks. -/
def requoteCalendar (g : PVal → PVal) (o : CalObj) : CalObj := o.requote g (requoteEntry g)

variable (g : PVal → PVal) [hg : Requotes g]
include hg

/-! ### Parameters -/

theorem requoteParams_eq (p : Params) : (requoteParams g) p = mapVals (List.map g) p := rfl

theorem dictGet_requote (p : Params) (k : Str) :
    dictGet? ((requoteParams g) p) k = (dictGet? p k).map (List.map g) :=
  dictGet_mapVals _ p k

theorem dictErase_requote (p : Params) (k : Str) : dictErase ((requoteParams g) p) k = (requoteParams g) (dictErase p k) :=
  dictErase_mapVals _ p k

theorem dictSet_requote (p : Params) (k : Str) (v : List PVal) (h : v.map g = v) :
    dictSet ((requoteParams g) p) k v = (requoteParams g) (dictSet p k v) := by
  have := dictSet_mapVals (List.map g) p k v
  rw [h] at this
  exact this

theorem requoteParams_nil (p : Params) : (requoteParams g) p = [] ↔ p = [] := List.map_eq_nil_iff

theorem pvalTexts_requote (l : List PVal) : pvalTexts (l.map g) = pvalTexts l := by
  simp [pvalTexts, hg.text]

/-! ### Values -/

theorem prepareParams_requote (convs : List ValConv) (p : Params) :
    prepareParams convs ((requoteParams g) p) = (prepareParams convs p).map fun r => ((requoteParams g) r.1, r.2) := by
  simp only [prepareParams, (dictGet_requote g), (dictErase_requote g)]
  cases dictGet? p "VALUE".toList with
  | none => cases convs <;> rfl
  | some l =>
    match l with
    | [] => cases convs <;> rfl
    | [v] =>
      simp only [Option.map_some, List.map_cons, List.map_nil, hg.text]
      cases findByType convs v.text <;> rfl
    | _ :: _ :: _ => rfl

theorem paramTz_requote (p : Params) : paramTz ((requoteParams g) p) = paramTz p := by
  simp only [paramTz, (dictGet_requote g)]
  cases dictGet? p "TZID".toList with
  | none => rfl
  | some l =>
    match l with
    | [] => rfl
    | [v] => simp only [Option.map_some, List.map_cons, List.map_nil, hg.text]
    | _ :: _ :: _ => rfl

theorem parseDt_requote (w : World) (fs : List Nat) (v : Str) (p : Params) (ctx : Ctx) :
    parseDt w fs v ((requoteParams g) p) ctx =
      (parseDt w fs v p ctx).map fun r => (r.1, (requoteParams g) r.2.1, r.2.2) := by
  simp only [parseDt, (paramTz_requote g), (dictErase_requote g)]
  split
  · rfl
  · split
    · rfl
    · split
      · rfl
      · split
        · rfl
        · split
          · rfl
          · split
            · split <;> rfl
            · split
              · rfl
              · split <;> rfl

theorem parseDate_requote (w : World) (v : Str) (p : Params) (ctx : Ctx) :
    parseDate w v ((requoteParams g) p) ctx = (parseDate w v p ctx).map fun r => (r.1, (requoteParams g) r.2.1, r.2.2) := by
  simp only [parseDate, (parseDt_requote g)]
  cases parseDt w baseFormats v p ctx with
  | error e => rfl
  | ok r => rfl

theorem parse_requote (L : Lib) (f : σ → σ) (c : ValConv) (v : Str) (p : Params) (ctx : Ctx) :
    c.parse (σ := σ) L v ((requoteParams g) p) ctx =
      (c.parse L v p ctx).map fun r => (r.1.requote g f, (requoteParams g) r.2.1, r.2.2) := by
  cases c <;> simp only [ValConv.parse]
  · cases unescapeText v <;> rfl
  · cases urlparse L.urlChecks v <;> rfl
  · cases b64decode v <;> rfl
  · rw [(parseDt_requote g)]
    cases parseDt L.toWorld datetimeFormats v p ctx <;> rfl
  · cases durationParse v <;> rfl
  · cases intParse v <;> rfl
  · cases boolParse v <;> rfl
  · simp only [geoParse]
    split
    · rfl
    · split <;> rfl
  · cases urlparse L.urlChecks v <;> rfl
  · cases urlparse L.urlChecks v <;> rfl

theorem setMerge_requote (p : Params) (b : Bool) : setMerge ((requoteParams g) p) b = (requoteParams g) (setMerge p b) :=
  (dictSet_requote g) p _ _ (by cases b <;> exact congrArg (fun x => [x]) (hg.flag _))

theorem parseValues_requote (L : Lib) (f : σ → σ) (c : ValConv) (vs : List Str) (p : Params) (ctx : Ctx) :
    parseValues (σ := σ) L c vs ((requoteParams g) p) ctx =
      (parseValues L c vs p ctx).map fun r => (r.1.map fun x => (x.1.requote g f, (requoteParams g) x.2), r.2) := by
  induction vs generalizing p ctx with
  | nil => rfl
  | cons v vs ih =>
    refine nat_bind ((parse_requote g) L f c v p ctx) fun r => ?_
    dsimp only
    rw [(setMerge_requote g)]
    refine nat_bind (ih _ _) fun r => ?_
    rfl

theorem markLast_requote (f : σ → σ) (l : List (Val σ × Params)) :
    markLast (l.map fun x => (x.1.requote g f, (requoteParams g) x.2)) =
      (markLast l).map fun x => (x.1.requote g f, (requoteParams g) x.2) := by
  induction l with
  | nil => rfl
  | cons x l ih =>
    cases l with
    | nil =>
      simp only [List.map_cons, List.map_nil, markLast, (setMerge_requote g)]
    | cons y l =>
      simp only [List.map_cons, markLast] at ih ⊢
      rw [ih]

/-! ### Components -/

theorem get_requote (f : σ → σ) (o : Obj σ) (k : Str) : (o.requote g f).get k = (o.get k).requote g f := by
  show (dictGet? (mapVals ((AttrVal.requote g) f) o.attrs) k).getD _ = _
  rw [dictGet_mapVals, Obj.get]
  cases dictGet? o.attrs k <;> rfl

theorem extra_requote (f : σ → σ) (o : Obj σ) (k : Str) :
    dictGet? (o.requote g f).extraParams k = (dictGet? o.extraParams k).map (ExtraVal.requote g) :=
  dictGet_mapVals (ExtraVal.requote g) o.extraParams k

theorem setAttrs_requote (f : σ → σ) (o : Obj σ) (k : Str) (v : AttrVal σ) :
    { o.requote g f with attrs := dictSet (o.requote g f).attrs k (v.requote g f) } =
      (Obj.requote g) f { o with attrs := dictSet o.attrs k v } := by
  simp only [Obj.requote, Obj.mk.injEq, true_and, and_true]
  exact dictSet_mapVals ((AttrVal.requote g) f) o.attrs k v

theorem setExtras_requote (f : σ → σ) (o : Obj σ) (k : Str) (v : ExtraVal) :
    { o.requote g f with extraParams := dictSet (o.requote g f).extraParams k (v.requote g) } =
      (Obj.requote g) f { o with extraParams := dictSet o.extraParams k v } := by
  simp only [Obj.requote, Obj.mk.injEq, true_and]
  exact dictSet_mapVals (ExtraVal.requote g) o.extraParams k v

theorem setExtraParams_requote (f : σ → σ) (o : Obj σ) (k : Str) (p : Params) :
    (o.requote g f).setExtraParams k ((requoteParams g) p) = (o.setExtraParams k p).requote g f := by
  unfold Obj.setExtraParams
  by_cases h : p = []
  · rw [if_pos h, if_pos (((requoteParams_nil g) p).2 h)]
  · rw [if_neg h, if_neg fun e => h (((requoteParams_nil g) p).1 e)]
    exact (setExtras_requote g) f o _ (.one p)

theorem appendExtraParams_requote (f : σ → σ) (o : Obj σ) (k : Str) (p : Params) :
    (o.requote g f).appendExtraParams k ((requoteParams g) p) = (o.appendExtraParams k p).map ((Obj.requote g) f) := by
  simp only [Obj.appendExtraParams, (extra_requote g)]
  cases dictGet? o.extraParams (extraKey k) with
  | none => exact congrArg Except.ok ((setExtras_requote g) f o _ (.many [p]))
  | some e =>
    cases e with
    | one p' => rfl
    | many ps =>
      have := congrArg (Except.ok (ε := PyErr)) ((setExtras_requote g) f o (extraKey k) (.many (ps ++ [p])))
      rw [ExtraVal.requote, List.map_append] at this
      exact this

theorem appendValue_requote (f : σ → σ) (o : Obj σ) (k : Str) (v : Val σ) :
    (o.requote g f).appendValue k (v.requote g f) = (o.appendValue k v).map ((Obj.requote g) f) := by
  simp only [Obj.appendValue, (get_requote g)]
  cases o.get k with
  | none => exact congrArg Except.ok ((setAttrs_requote g) f o _ (.many [v]))
  | one _ => rfl
  | many l =>
    have := congrArg (Except.ok (ε := PyErr)) ((setAttrs_requote g) f o k (.many (l ++ [v])))
    rw [AttrVal.requote, List.map_append] at this
    exact this

theorem appendAll_requote (f : σ → σ) (k : Str) (l : List (Val σ × Params)) (o : Obj σ) :
    (o.requote g f).appendAll k (l.map fun x => (x.1.requote g f, (requoteParams g) x.2)) =
      (o.appendAll k l).map ((Obj.requote g) f) := by
  induction l generalizing o with
  | nil => rfl
  | cons x l ih =>
    refine nat_bind ((appendExtraParams_requote g) f o k x.2) fun o => ?_
    refine nat_bind ((appendValue_requote g) f o k x.1) fun o => ?_
    exact ih o

theorem check_requote (L : Lib) (f : σ → σ) (c : Check) (v : AttrVal σ) :
    c.run L (v.requote g f) = (c.run L v).map ((AttrVal.requote g) f) := by
  cases v with
  | none => cases c <;> rfl
  | many l => cases c <;> rfl
  | one v =>
    cases v with
    | text s =>
      cases c <;> try rfl
      simp only [AttrVal.requote, Val.requote, Check.run]
      split <;> rfl
    | int n =>
      cases c <;> try rfl
      simp only [AttrVal.requote, Val.requote, Check.run]
      split <;> rfl
    | dt d =>
      cases c <;> try rfl
      all_goals
        simp only [AttrVal.requote, Val.requote, Check.run]
        cases L.astimezone d (.zone L.icsUtc) <;> rfl
    | span s =>
      cases c <;> try rfl
      simp only [AttrVal.requote, Val.requote, Check.run]
      cases L.validateTimespan _ s <;> rfl
    | person a e x =>
      cases c <;> try rfl
      cases a <;> rfl
    | _ => cases c <;> rfl

theorem setattr_requote (L : Lib) (f : σ → σ) (o : Obj σ) (k : Str) (c : Check) (v : AttrVal σ) :
    (o.requote g f).setattr L k c (v.requote g f) = (o.setattr L k c v).map ((Obj.requote g) f) := by
  simp only [Obj.setattr, (check_requote g)]
  cases c.run L v with
  | error e => rfl
  | ok v => exact congrArg Except.ok ((setAttrs_requote g) f o k v)

theorem Item.requotes_append (a b : List Item) : (Item.requotes g) (a ++ b) = (Item.requotes g) a ++ (Item.requotes g) b := by
  induction a with
  | nil => rfl
  | cons i a ih => simp [Item.requotes, ih]

theorem Item.requotes_eq (a : List Item) : (Item.requotes g) a = a.map (Item.requote g) := by
  induction a with
  | nil => rfl
  | cons i a ih => simp [Item.requotes, ih]

theorem Item.name_requote (i : Item) : (i.requote g).name = i.name := by
  cases i with
  | line cl => simp only [Item.requote, Item.name, ContentLine.requote]
  | cont n is => simp only [Item.requote, Item.name]

/-! ### The state while reading -/

omit hg in
/-- The state with other quotation marks. -/
def LState.requote (f : σ → σ) (st : LState σ) : LState σ := { st with obj := st.obj.requote g f }

theorem populateMulti_requote (L : Lib) (f : σ → σ) (s : AttrSpec) (cl : ContentLine) (st : LState σ) :
    populateMulti L s (cl.requote g) (st.requote g f) = (populateMulti L s cl st).map ((LState.requote g) f) := by
  refine nat_bind ((prepareParams_requote g) s.convs cl.params) fun r => ?_
  refine nat_bind ((parseValues_requote g) L f r.2 (r.2.split cl.value).items r.1 st.ctx) fun q => ?_
  refine nat_bind (nat_id _) fun _ => ?_
  rw [(markLast_requote g)]
  refine nat_bind ((appendAll_requote g) f s.attr (markLast q.1) st.obj) fun o => ?_
  rw [List.length_map]
  rfl

theorem populateSingle_requote (L : Lib) (f : σ → σ) (s : AttrSpec) (cl : ContentLine) (st : LState σ) :
    populateSingle L s (cl.requote g) (st.requote g f) = (populateSingle L s cl st).map ((LState.requote g) f) := by
  refine nat_bind (nat_id _) fun _ => ?_
  refine nat_bind ((prepareParams_requote g) s.convs cl.params) fun r => ?_
  refine nat_bind ((parse_requote g) L f r.2 cl.value r.1 st.ctx) fun q => ?_
  refine nat_bind (f := (Obj.requote g) f) ?_ fun o => rfl
  rw [show (st.requote g f).obj = st.obj.requote g f from rfl, (setExtraParams_requote g)]
  exact (setattr_requote g) L f _ _ _ (.one q.1)

theorem parseSpanValue_requote (L : Lib) (cl : ContentLine) (ctx : Ctx) :
    parseSpanValue L (cl.requote g) ctx = (parseSpanValue L cl ctx).map fun r => (r.1, r.2.1, (requoteParams g) r.2.2.1, r.2.2.2) := by
  have h1 : dictGet? (cl.requote g).params "VALUE".toList = _ := (dictGet_requote g) cl.params "VALUE".toList
  have h2 : dictErase (cl.requote g).params "VALUE".toList = _ := (dictErase_requote g) cl.params "VALUE".toList
  have h3 : (cl.requote g).value = cl.value := rfl
  have h4 : ((dictGet? (cl.requote g).params "VALUE".toList).map pvalTexts) = (dictGet? cl.params "VALUE".toList).map pvalTexts := by
    rw [h1, Option.map_map]
    congr 1
    funext l
    exact (pvalTexts_requote g) l
  unfold parseSpanValue
  dsimp only
  rw [h2, h3, h4, (parseDt_requote g), (parseDate_requote g)]
  split
  · cases parseDt L.toWorld datetimeFormats cl.value (dictErase cl.params "VALUE".toList) ctx <;> rfl
  · split
    · cases parseDate L.toWorld cl.value (dictErase cl.params "VALUE".toList) ctx <;> rfl
    · rfl

theorem populateSpanTime_requote (L : Lib) (f : σ → σ) (cl : ContentLine) (st : LState σ) :
    populateSpanTime L (cl.requote g) (st.requote g f) = (populateSpanTime L cl st).map ((LState.requote g) f) := by
  refine nat_bind ((parseSpanValue_requote g) L cl st.ctx) fun r => ?_
  refine nat_bind (nat_id _) fun _ => ?_
  dsimp only
  rw [show (cl.requote g).name = cl.name from rfl, show (st.requote g f).obj = st.obj.requote g f from rfl,
    (setExtraParams_requote g), (setExtraParams_requote g)]
  by_cases h : cl.name = "DTSTART".toList
  · rw [if_pos h, if_pos h]
    rfl
  · rw [if_neg h, if_neg h]
    rfl

theorem populateSpan_requote (L : Lib) (f : σ → σ) (cl : ContentLine) (st : LState σ) :
    populateSpan L (cl.requote g) (st.requote g f) = (populateSpan L cl st).map ((LState.requote g) f) := by
  refine nat_bind (nat_id _) fun _ => ?_
  rw [show (cl.requote g).name = cl.name from rfl]
  by_cases h : cl.name = "DURATION".toList
  · rw [if_pos h, if_pos h]
    refine nat_bind (nat_id _) fun d => ?_
    refine congrArg Except.ok ?_
    have := (setExtraParams_requote g) f st.obj "duration".toList cl.params
    exact congrArg (fun o : Obj σ => (⟨o, st.counts, _, st.ctx⟩ : LState σ)) this
  · rw [if_neg h, if_neg h]
    exact (populateSpanTime_requote g) L f cl { st with span := { st.span with seen := st.span.seen ++ [cl.name] } }

theorem populateAction_requote (f : σ → σ) (cl : ContentLine) (st : LState σ) :
    populateAction (cl.requote g) (st.requote g f) = (populateAction cl st).map ((LState.requote g) f) := by
  unfold populateAction
  have e : (cl.requote g).params = (requoteParams g) cl.params := rfl
  have e2 : ((cl.requote g).params = []) = (cl.params = []) := by rw [e, (requoteParams_nil g)]
  rw [show (st.requote g f).obj.cls = st.obj.cls from rfl, show (cl.requote g).value = cl.value from rfl]
  by_cases h : st.obj.cls ≠ alarmCls cl.value
  · rw [if_pos h, if_pos h]
    rfl
  · rw [if_neg h, if_neg h]
    by_cases h2 : cl.params = []
    · rw [if_pos h2, if_pos (e2.mpr h2)]
      rfl
    · rw [if_neg h2, if_neg (fun x => h2 (e2.mp x))]
      refine congrArg Except.ok ?_
      have := (setExtras_requote g) f st.obj "ACTION".toList (.one cl.params)
      exact congrArg (fun o : Obj σ => (⟨o, st.counts, st.span, st.ctx⟩ : LState σ)) this

omit hg in
/-- How a member is read does not depend on quotation marks. -/
def MemberNatG (f : σ → σ) (mem : MemberLoad σ) : Prop :=
  ∀ n is ctx, mem n ((Item.requotes g) is) ctx = (mem n is ctx).map fun r => (f r.1, r.2)

theorem populateMember_requote {f : σ → σ} {mem : MemberLoad σ} (hm : MemberNatG g f mem) (a n : Str) (is : List Item)
    (st : LState σ) :
    populateMember mem a n ((Item.requotes g) is) (st.requote g f) =
      (populateMember mem a n is st).map ((LState.requote g) f) := by
  refine nat_bind (hm n is st.ctx) fun r => ?_
  refine nat_bind ((appendValue_requote g) f st.obj a (.comp r.1)) fun o => ?_
  rfl

theorem map_pairG (f : σ → σ) (x : Except PyErr (LState σ)) :
    (x.map ((LState.requote g) f)).map (fun st => (true, st)) =
      (x.map fun st => (true, st)).map fun r => (r.1, r.2.requote g f) := by
  cases x <;> rfl

theorem populate_requote (L : Lib) {f : σ → σ} {mem : MemberLoad σ} (hm : MemberNatG g f mem) (cv : Conv) (i : Item)
    (st : LState σ) :
    cv.populate L mem (i.requote g) (st.requote g f) = (cv.populate L mem i st).map fun r => (r.1, r.2.requote g f) := by
  cases i with
  | line cl =>
    rw [Item.requote]
    cases cv with
    | value s =>
      simp only [Conv.populate, (populateMulti_requote g), (populateSingle_requote g), ← map_pairG g]
      split <;> rfl
    | member a n => rfl
    | timespan =>
      simp only [Conv.populate, (populateSpan_requote g), ← map_pairG g]
    | alarmAction =>
      simp only [Conv.populate, (populateAction_requote g), ← map_pairG g]
    | calendarTimezone => rfl
  | cont n is =>
    rw [Item.requote]
    cases cv with
    | value s => rfl
    | member a n' =>
      simp only [Conv.populate, (populateMember_requote g) hm, ← map_pairG g]
    | timespan => rfl
    | alarmAction => rfl
    | calendarTimezone => rfl

theorem populateConvs_requote (L : Lib) {f : σ → σ} {mem : MemberLoad σ} (hm : MemberNatG g f mem) (i : Item)
    (cvs : List Conv) (b : Bool) (st : LState σ) :
    populateConvs L mem (i.requote g) cvs b (st.requote g f) =
      (populateConvs L mem i cvs b st).map fun r => (r.1, r.2.requote g f) := by
  induction cvs generalizing b st with
  | nil => rfl
  | cons cv cvs ih =>
    refine nat_bind ((populate_requote g) L hm cv i st) fun r => ?_
    exact ih _ _

theorem populateItem_requote (L : Lib) {f : σ → σ} {mem : MemberLoad σ} (hm : MemberNatG g f mem) (i : Item)
    (st : LState σ) :
    populateItem L mem (i.requote g) (st.requote g f) = (populateItem L mem i st).map ((LState.requote g) f) := by
  unfold populateItem
  rw [(Item.name_requote g)]
  refine nat_bind ((populateConvs_requote g) L hm i _ false st) fun r => ?_
  dsimp only
  by_cases h : r.1 = true
  · rw [if_pos h, if_pos h]
    rfl
  · rw [if_neg h, if_neg h]
    refine congrArg Except.ok ?_
    simp only [LState.requote, Obj.requote, (Item.requotes_append g), Item.requotes]

theorem populateItems_requote (L : Lib) {f : σ → σ} {mem : MemberLoad σ} (hm : MemberNatG g f mem) (is : List Item)
    (st : LState σ) :
    populateItems L mem ((Item.requotes g) is) (st.requote g f) = (populateItems L mem is st).map ((LState.requote g) f) := by
  induction is generalizing st with
  | nil => rfl
  | cons i is ih =>
    refine nat_bind ((populateItem_requote g) L hm i st) fun st => ?_
    exact ih st

theorem postSpan_requote (L : Lib) (f : σ → σ) (st : LState σ) :
    postSpan L (st.requote g f) = (postSpan L st).map ((LState.requote g) f) := by
  refine nat_bind (nat_id _) fun s => ?_
  refine nat_bind (nat_id _) fun _ => ?_
  refine nat_bind (f := (Obj.requote g) f) ?_ fun o => rfl
  exact (setattr_requote g) L f st.obj _ _ (.one (.span s))

theorem post_requote (L : Lib) (f : σ → σ) (cv : Conv) (st : LState σ) :
    cv.post L (st.requote g f) = (cv.post L st).map ((LState.requote g) f) := by
  cases cv with
  | value s =>
    simp only [Conv.post]
    show (if s.required && st.count s.attr == 0 then _ else _) = _
    split <;> rfl
  | timespan => exact (postSpan_requote g) L f st
  | _ => rfl

theorem postAll_requote (L : Lib) (f : σ → σ) (cvs : List Conv) (st : LState σ) :
    postAll L cvs (st.requote g f) = (postAll L cvs st).map ((LState.requote g) f) := by
  induction cvs generalizing st with
  | nil => rfl
  | cons cv cvs ih =>
    refine nat_bind ((post_requote g) L f cv st) fun st => ?_
    exact ih st

theorem default_requote (L : Lib) (f : σ → σ) (c : Cls) (cv : Conv) :
    mapVals ((AttrVal.requote g) f) (cv.default L c) = cv.default L c := by
  cases cv with
  | value s =>
    simp only [Conv.default, mapVals, List.map_cons, List.map_nil, defaultAttr]
    repeat' split
    all_goals rfl
  | _ => rfl

theorem newObj_requote (L : Lib) (f : σ → σ) (c : Cls) : (newObj (σ := σ) L c).requote g f = newObj L c := by
  have : ∀ cvs : List Conv, mapVals ((AttrVal.requote g) f) (cvs.flatMap (Conv.default L c)) = cvs.flatMap (Conv.default L c) := by
    intro cvs
    induction cvs with
    | nil => rfl
    | cons cv cvs ih =>
      rw [List.flatMap_cons, mapVals, List.map_append]
      exact congrArg₂ _ ((default_requote g) L f c cv) ih
  simp only [newObj, Obj.requote, Obj.mk.injEq, true_and]
  exact ⟨this c.convs, rfl, rfl⟩

theorem loadObj_requote (L : Lib) {f : σ → σ} {mem : MemberLoad σ} (hm : MemberNatG g f mem) (c : Cls) (is : List Item)
    (ctx : Ctx) :
    loadObj L mem c ((Item.requotes g) is) ctx = (loadObj L mem c is ctx).map fun r => (r.1.requote g f, r.2) := by
  refine nat_bind (f := (LState.requote g) f) ?_ fun st => ?_
  · have := (populateItems_requote g) L hm is ⟨newObj L c, [], {}, ctx⟩
    rw [← this, LState.requote]
    dsimp only
    rw [(newObj_requote g)]
  · refine nat_bind ((postAll_requote g) L f c.convs st) fun st => rfl

theorem oneItem_requote (is : List Item) (n : Str) : oneItem ((Item.requotes g) is) n = (oneItem is n).map (Item.requote g) := by
  have : ((Item.requotes g) is).filter (fun i => i.name = n) = (is.filter fun i => i.name = n).map (Item.requote g) := by
    rw [(Item.requotes_eq g), List.filter_map]
    congr 1
    apply List.filter_congr
    intro i _
    simp only [Function.comp, (Item.name_requote g)]
  simp only [oneItem, this]
  generalize is.filter (fun i => i.name = n) = l
  match l with
  | [] => rfl
  | [i] => rfl
  | _ :: _ :: _ => rfl

theorem loadAlarm_requote (L : Lib) (is : List Item) (ctx : Ctx) :
    loadAlarm L ((Item.requotes g) is) ctx = (loadAlarm L is ctx).map fun r => ((requoteAlarm g) r.1, r.2) := by
  refine nat_bind ((oneItem_requote g) is _) fun i => ?_
  cases i with
  | cont n is => rw [Item.requote]; rfl
  | line cl =>
    rw [Item.requote]
    exact (loadObj_requote g) L (f := id) (fun _ _ _ => rfl) (alarmCls cl.value) is ctx

theorem loadEntry_requote (L : Lib) (c : Cls) (is : List Item) (ctx : Ctx) :
    loadEntry L c ((Item.requotes g) is) ctx = (loadEntry L c is ctx).map fun r => ((requoteEntry g) r.1, r.2) :=
  (loadObj_requote g) L (f := (requoteAlarm g)) (fun _ is ctx => (loadAlarm_requote g) L is ctx) c is ctx

theorem loadCalMember_requote (L : Lib) : MemberNatG g (requoteEntry g) (loadCalMember L) :=
  fun _ is ctx => (loadEntry_requote g) L _ is ctx

omit hg in
/-- Reading a VTIMEZONE does not depend on quotation marks. -/
def ZoneNatG (L : Lib) (is : List Item) : Prop :=
  ∀ zis, .cont "VTIMEZONE".toList zis ∈ is → L.tzLoad ((Item.requotes g) zis) = L.tzLoad zis

theorem loadZones_requote (L : Lib) (is : List Item) (h : ZoneNatG g L is) (avail : List (Str × Nat)) :
    loadZones L ((Item.requotes g) is) avail = loadZones L is avail := by
  induction is generalizing avail with
  | nil => rfl
  | cons i is ih =>
    have ih := fun a => ih (fun z hz => h z (List.mem_cons_of_mem _ hz)) a
    rw [Item.requotes]
    cases i with
    | line cl =>
      rw [Item.requote, loadZones, loadZones]
      exact ih _
    | cont n zis =>
      rw [Item.requote, loadZones, loadZones]
      by_cases hn : n = "VTIMEZONE".toList
      · rw [if_pos hn, if_pos hn, h zis (by rw [hn]; exact List.mem_cons_self)]
        cases L.tzLoad zis with
        | error e => rfl
        | ok z => exact ih _
      · rw [if_neg hn, if_neg hn]
        exact ih _

theorem loadCalendar_requote (L : Lib) (is : List Item) (h : ZoneNatG g L is) :
    loadCalendar L ((Item.requotes g) is) = (loadCalendar L is).map (requoteCalendar g) := by
  unfold loadCalendar
  rw [(loadZones_requote g) L is h]
  refine nat_bind (nat_id _) fun avail => ?_
  refine nat_bind ((loadObj_requote g) L ((loadCalMember_requote g) L) .calendar is (some avail)) fun r => ?_
  rfl

end Ics
