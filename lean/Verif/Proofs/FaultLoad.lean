import Verif.Proofs.FaultSpan

/-
Which exceptions the loading of components raises.
-/
namespace Ics

variable {σ : Type}

/-! ### Facts about the tables of converters -/

/-- Does the check of an attribute expect what the value converter gives? -/
def checkFits : Check → ValConv → Bool
  | .any, _ => true
  | .status, .text => true
  | .utc, .datetime => true
  | .utcRequired, .datetime => true
  | .str, .text => true
  | .strOpt, .text => true
  | .organizerOpt, .organizer => true
  | .geo, .geo => true
  | .range _, .integer => true
  | .datetime, .datetime => true
  | .timedelta, .duration => true
  | .trigger, .duration => true
  | .trigger, .datetime => true
  | _, _ => false

/-- What holds for each attribute of a class. -/
def specFine (c : Cls) (s : AttrSpec) : Bool :=
  decide (s.ics ∈ propertyNames c) && !s.convs.isEmpty &&
    s.convs.all (fun v => (v != .datetime || decide (s.ics ∈ timeNames c)) &&
      (v != .duration || decide (s.ics ∈ durationNames c)) &&
      (if s.multi then v != .datetime && v != .duration else checkFits s.check v)) &&
    (!(s.check == .utc || s.check == .utcRequired) || decide (s.ics ∈ stampNames c))

/-- The attributes that are lists. -/
def manyAttrs (c : Cls) : List Str :=
  c.convs.filterMap fun
    | .value s => if s.multi then some s.attr else none
    | .member attr _ => some attr
    | _ => none

/-- The names under which the parameters of attributes that are no lists are kept. -/
def loneNames (c : Cls) : List Str :=
  c.convs.flatMap fun
    | .value s => if s.multi then [] else [s.attr]
    | .timespan => ["begin", "end", "due", "duration", "timespan"].map String.toList
    | .alarmAction => ["action".toList]
    | _ => []

/-- What holds for each converter of a class. -/
def convFine (c : Cls) : Conv → Bool
  | .value s => specFine c s
  | .member _ ics => decide (ics ∈ componentNames c)
  | .timespan => (c == .event || c == .todo) && Conv.timespan.names.all fun n => decide (n ∈ propertyNames c)
  | .alarmAction => decide ("ACTION".toList ∈ propertyNames c)
  | .calendarTimezone => true

theorem convs_fine (c : Cls) : c.convs.all (convFine c) = true := by cases c <;> decide +kernel

theorem lists_apart (c : Cls) :
    (manyAttrs c).all (fun a => (loneNames c).all fun b => a != b && extraKey a != extraKey b) = true := by
  cases c <;> decide +kernel

theorem lists_distinct (c : Cls) :
    (manyAttrs c).all (fun a => (manyAttrs c).all fun b => a == b || extraKey a != extraKey b) = true := by
  cases c <;> decide +kernel

theorem manyAttrs_mem {c : Cls} {a : Str} (h : a ∈ manyAttrs c) :
    (c = .calendar ∧ (a = "events".toList ∨ a = "todos".toList)) ∨
    ((c = .event ∨ c = .todo) ∧ (a = "alarms".toList ∨ a = "attach".toList)) ∨
    (c = .event ∧ (a = "attendees".toList ∨ a = "categories".toList)) ∨
    (c = .emailAlarm ∧ (a = "attendees".toList ∨ a = "attach".toList)) := by
  have : ∀ c, (manyAttrs c).all (fun a => decide ((c = .calendar ∧ (a = "events".toList ∨ a = "todos".toList)) ∨
    ((c = .event ∨ c = .todo) ∧ (a = "alarms".toList ∨ a = "attach".toList)) ∨
    (c = .event ∧ (a = "attendees".toList ∨ a = "categories".toList)) ∨
    (c = .emailAlarm ∧ (a = "attendees".toList ∨ a = "attach".toList)))) = true := by
    intro c
    cases c <;> decide +kernel
  exact of_decide_eq_true (List.all_eq_true.1 (this c) a h)

theorem defaults_fine (L : Lib) (c : Cls) {a : Str} (h : a ∈ manyAttrs c) : (newObj (σ := σ) L c).get a = .many [] := by
  rcases manyAttrs_mem h with ⟨rfl, rfl | rfl⟩ | ⟨rfl | rfl, rfl | rfl⟩ | ⟨rfl, rfl | rfl⟩ | ⟨rfl, rfl | rfl⟩ <;> rfl

/-! ### The invariant -/

/-- The attributes that are lists are lists, and so are their parameters. -/
structure ListsOk (c : Cls) (o : Obj σ) : Prop where
  cls : o.cls = c
  params : ∀ a ∈ manyAttrs c, ∀ p, dictGet? o.extraParams (extraKey a) ≠ some (.one p)
  attrs : ∀ a ∈ manyAttrs c, ∀ v, o.get a ≠ .one v

theorem apart {c : Cls} {a b : Str} (ha : a ∈ manyAttrs c) (hb : b ∈ loneNames c) : a ≠ b ∧ extraKey a ≠ extraKey b := by
  have := List.all_eq_true.1 (List.all_eq_true.1 (lists_apart c) a ha) b hb
  simpa using this

theorem ListsOk.newObj (L : Lib) (c : Cls) : ListsOk (σ := σ) c (newObj L c) where
  cls := rfl
  params a _ p := by
    show dictGet? [] _ ≠ _
    simp [dictGet?]
  attrs a ha v := by
    rw [defaults_fine L c ha]
    simp

theorem ListsOk.setExtraParams {c : Cls} {o : Obj σ} (h : ListsOk c o) {name : Str} (hn : name ∈ loneNames c) (p : Params) :
    ListsOk c (o.setExtraParams name p) := by
  unfold Obj.setExtraParams
  split
  · exact h
  · refine ⟨h.cls, fun a ha q => ?_, h.attrs⟩
    show dictGet? (dictSet o.extraParams _ _) _ ≠ _
    rw [dictGet_set_ne _ _ (apart ha hn).2]
    exact h.params a ha q

theorem ListsOk.setAttr {c : Cls} {o : Obj σ} (h : ListsOk c o) {name : Str} (hn : name ∈ loneNames c) (v : AttrVal σ) :
    ListsOk c { o with attrs := dictSet o.attrs name v } := by
  refine ⟨h.cls, h.params, fun a ha w => ?_⟩
  show (dictGet? (dictSet o.attrs name v) a).getD .none ≠ _
  rw [dictGet_set_ne _ _ (apart ha hn).1]
  exact h.attrs a ha w

theorem ListsOk.setParams {c : Cls} {o : Obj σ} (h : ListsOk c o) {a : Str} (ps : List Params) :
    ListsOk c { o with extraParams := dictSet o.extraParams (extraKey a) (.many ps) } := by
  refine ⟨h.cls, fun b hb q => ?_, h.attrs⟩
  show dictGet? (dictSet o.extraParams _ _) _ ≠ _
  rw [dictGet_set_eq]
  split
  · simp
  · exact h.params b hb q

theorem ListsOk.setList {c : Cls} {o : Obj σ} (h : ListsOk c o) {a : Str} (l : List (Val σ)) :
    ListsOk c { o with attrs := dictSet o.attrs a (.many l) } := by
  refine ⟨h.cls, h.params, fun b hb w => ?_⟩
  show (dictGet? (dictSet o.attrs a (.many l)) b).getD .none ≠ _
  rw [dictGet_set_eq]
  split
  · simp
  · exact h.attrs b hb w

theorem ListsOk.appendExtraParams {c : Cls} {o : Obj σ} (h : ListsOk c o) {a : Str} (ha : a ∈ manyAttrs c) (p : Params) :
    ∃ o', o.appendExtraParams a p = .ok o' ∧ ListsOk c o' := by
  unfold Obj.appendExtraParams
  split
  · exact ⟨_, rfl, h.setParams _⟩
  · exact ⟨_, rfl, h.setParams _⟩
  · rename_i q hq
    exact absurd hq (h.params a ha q)

theorem ListsOk.appendValue {c : Cls} {o : Obj σ} (h : ListsOk c o) {a : Str} (ha : a ∈ manyAttrs c) (v : Val σ) :
    ∃ o', o.appendValue a v = .ok o' ∧ ListsOk c o' := by
  unfold Obj.appendValue
  split
  · exact ⟨_, rfl, h.setList _⟩
  · exact ⟨_, rfl, h.setList _⟩
  · rename_i w hw
    exact absurd hw (h.attrs a ha w)

theorem ListsOk.appendAll {c : Cls} {a : Str} (ha : a ∈ manyAttrs c) : ∀ (l : List (Val σ × Params)) {o : Obj σ},
    ListsOk c o → ∃ o', o.appendAll a l = .ok o' ∧ ListsOk c o'
  | [], _, h => ⟨_, rfl, h⟩
  | (v, p) :: l, _, h => by
    obtain ⟨o1, e1, h1⟩ := h.appendExtraParams ha p
    obtain ⟨o2, e2, h2⟩ := h1.appendValue ha v
    obtain ⟨o3, e3, h3⟩ := ListsOk.appendAll ha l h2
    exact ⟨o3, by simp only [Obj.appendAll, e1, e2, bind, Except.bind, e3], h3⟩

/-- What a line DTSTART, DTEND or DUE was read as. -/
def ReadAs (cl : ContentLine) (x : DT) (prec : Option Precision) : Prop :=
  (prec = some .second ∧ ¬ IsDate cl ∧ (x.tz.isSome ↔ Zoned cl)) ∨
    (prec = some .day ∧ IsDate cl ∧ x.tz = none ∧ (stripped cl.value).length ∈ baseFormats ∧
      ∃ y m d, DateTimeText (stripped cl.value) y m d 0 0 0 ∧ x.wall = clock y m d 0 0 0)

/-- Where the entries of the timespan converter come from. -/
structure SpanOk (items : List Item) (sp : SpanCtx) : Prop where
  «begin» : ∀ x, sp.begin? = some x →
    ∃ cl, .line cl ∈ items ∧ cl.name = "DTSTART".toList ∧ ReadAs cl x sp.prec?
  «end» : ∀ x, sp.end? = some x →
    ∃ cl, .line cl ∈ items ∧ (cl.name = "DTEND".toList ∨ cl.name = "DUE".toList) ∧ ReadAs cl x sp.prec?
  prec : sp.prec? = none ∨ sp.prec? = some .day ∨ sp.prec? = some .second

/-- The state while the items of a component are read. -/
structure LoadOk (c : Cls) (items : List Item) (st : LState σ) : Prop where
  lists : ListsOk c st.obj
  ctx : ∃ d, st.ctx = some d
  span : SpanOk items st.span

theorem LoadOk.init (L : Lib) (c : Cls) (items : List Item) (d : List (Str × Nat)) :
    LoadOk (σ := σ) c items ⟨Ics.newObj L c, [], {}, some d⟩ where
  lists := .newObj L c
  ctx := ⟨d, rfl⟩
  span := ⟨fun _ h => (by cases h), fun _ h => (by cases h), .inl rfl⟩

/-! ### The converters -/

theorem prepareParams_value {convs : List ValConv} (hc : convs ≠ []) (p : Params) : OnlyValue (prepareParams convs p) := by
  unfold prepareParams
  dsimp only
  split
  · refine Raises.map ?_
    unfold findByType
    split
    · exact .ok _
    · exact .error rfl
  · exact .error rfl
  · cases convs with
    | nil => exact absurd rfl hc
    | cons c _ => exact .ok _

theorem prepareParams_ok {convs : List ValConv} {p p' : Params} {c : ValConv} (h : prepareParams convs p = .ok (p', c)) :
    c ∈ convs ∧ p' = dictErase p "VALUE".toList ∧
      ∀ q, dictGet? p "VALUE".toList = some [⟨q, "DATE-TIME".toList⟩] → c ≠ .duration := by
  unfold prepareParams at h
  dsimp only at h
  split at h
  · rename_i v hg
    obtain ⟨c', h1, h2⟩ := map_ok_iff.1 h
    injection h2 with e1 e2
    subst e1 e2
    unfold findByType at h1
    split at h1
    · rename_i c'' hf
      injection h1 with h1
      subst h1
      refine ⟨List.mem_of_find?_eq_some hf, rfl, fun q hq hc => ?_⟩
      rw [hg] at hq
      injection hq with hq
      injection hq with hq
      have := List.find?_some hf
      rw [hq, hc] at this
      exact absurd (of_decide_eq_true this) (by decide : ValConv.duration.icsType ≠ "DATE-TIME".toList)
    · exact absurd h1 (by simp)
  · exact absurd h (by simp)
  · cases convs with
    | nil => exact absurd h (by simp)
    | cons c' _ =>
      injection h with h
      injection h with e1 e2
      subst e1 e2
      rename_i hne _ _
      exact ⟨List.mem_cons_self .., rfl, fun q hq => absurd hq (hne _)⟩

theorem specFine_of {c : Cls} {s : AttrSpec} (h : .value s ∈ c.convs) : specFine c s = true :=
  List.all_eq_true.1 (convs_fine c) _ h

structure SpecFacts (c : Cls) (s : AttrSpec) : Prop where
  prop : s.ics ∈ propertyNames c
  ne : s.convs ≠ []
  time : ValConv.datetime ∈ s.convs → s.ics ∈ timeNames c
  dur : ValConv.duration ∈ s.convs → s.ics ∈ durationNames c
  fits : s.multi = false → ∀ v ∈ s.convs, checkFits s.check v = true
  multi : s.multi = true → ∀ v ∈ s.convs, v ≠ .datetime ∧ v ≠ .duration
  stamp : s.check = .utc ∨ s.check = .utcRequired → s.ics ∈ stampNames c

theorem specFacts {c : Cls} {s : AttrSpec} (h : .value s ∈ c.convs) : SpecFacts c s := by
  have h := specFine_of h
  unfold specFine at h
  simp only [Bool.and_eq_true, decide_eq_true_eq, List.all_eq_true, Bool.or_eq_true, bne_iff_ne, ne_eq,
    Bool.not_eq_true', Bool.not_eq_eq_eq_not, Bool.not_true, List.isEmpty_eq_false_iff] at h
  obtain ⟨⟨⟨h1, h2⟩, h3⟩, h4⟩ := h
  refine ⟨h1, h2, fun hm => ?_, fun hm => ?_, fun hs v hv => ?_, fun hs v hv => ?_, fun hc => ?_⟩
  · exact ((h3 _ hm).1.1).resolve_left (by simp)
  · exact ((h3 _ hm).1.2).resolve_left (by simp)
  · have := (h3 _ hv).2
    rwa [hs] at this
  · have := (h3 _ hv).2
    rw [if_pos hs] at this
    simpa using this
  · refine h4.resolve_left ?_
    rcases hc with hc | hc <;> simp [hc]

theorem mem_loneNames {c : Cls} {s : AttrSpec} (h : .value s ∈ c.convs) (hm : s.multi = false) : s.attr ∈ loneNames c :=
  List.mem_flatMap.2 ⟨_, h, by simp [hm]⟩

theorem mem_manyAttrs {c : Cls} {s : AttrSpec} (h : .value s ∈ c.convs) (hm : s.multi = true) : s.attr ∈ manyAttrs c :=
  List.mem_filterMap.2 ⟨_, h, by simp [hm]⟩

/-- The value that a value converter gives. -/
theorem parse_form {L : Lib} {c : ValConv} {value : Str} {p p' : Params} {ctx ctx' : Ctx} {v : Val σ}
    (h : c.parse L value p ctx = .ok (v, p', ctx')) :
    match c with
    | .text => ∃ s, v = .text s
    | .uri => ∃ u, v = .url u
    | .binary => ∃ b, v = .bytes b
    | .datetime => ∃ d q, v = .dt d ∧ parseDt L.toWorld datetimeFormats value p ctx = .ok (d, q, ctx')
    | .duration => ∃ d, v = .dur d
    | .integer => ∃ n, v = .int n
    | .boolean => ∃ b, v = .bool b
    | .geo => ∃ a b, v = .geo a b
    | .organizer => ∃ e x, v = .person false e x
    | .attendee => ∃ e x, v = .person true e x := by
  cases c <;> obtain ⟨r, hr, h⟩ := map_ok_iff.1 h <;> injection h with e1 e2 <;> injection e2 with e2 e3 <;>
    subst e1 e2 e3
  case datetime => exact ⟨_, _, rfl, hr⟩
  case geo =>
    unfold geoParse at hr
    split at hr
    · exact absurd hr (by simp)
    · split at hr
      · injection hr with hr
        exact ⟨_, _, hr.symm⟩
      · exact absurd hr (by simp)
  all_goals first | exact ⟨_, rfl⟩ | exact ⟨_, _, rfl⟩

/-- What a check raises for a value of the right type. -/
theorem check_raises {L : Lib} {c : ValConv} {value : Str} {p p' : Params} {ctx ctx' : Ctx} {v : Val σ} {chk : Check}
    (h : c.parse L value p ctx = .ok (v, p', ctx')) (hf : checkFits chk c = true) :
    Raises (fun e => e = .valueError ∨
      ((chk = .utc ∨ chk = .utcRequired) ∧ ∃ d q, parseDt L.toWorld datetimeFormats value p ctx = .ok (d, q, ctx') ∧
        L.astimezone d (.zone L.icsUtc) = .error e)) (chk.run L (.one v)) := by
  have hv := parse_form h
  cases c <;> cases chk <;> first | (exact absurd hf Bool.false_ne_true) | skip
  all_goals first | exact .ok _ | skip
  all_goals dsimp only at hv
  case text.status =>
    obtain ⟨s, rfl⟩ := hv
    exact .ite (fun _ => .ok _) fun _ => .error (.inl rfl)
  case text.str => obtain ⟨s, rfl⟩ := hv; exact .ok _
  case text.strOpt => obtain ⟨s, rfl⟩ := hv; exact .ok _
  case datetime.utc =>
    obtain ⟨d, q, rfl, hd⟩ := hv
    exact Raises.map fun e he => .inr ⟨.inl rfl, d, q, hd, he⟩
  case datetime.utcRequired =>
    obtain ⟨d, q, rfl, hd⟩ := hv
    exact Raises.map fun e he => .inr ⟨.inr rfl, d, q, hd, he⟩
  case datetime.datetime => obtain ⟨d, q, rfl, hd⟩ := hv; exact .ok _
  case datetime.trigger => obtain ⟨d, q, rfl, hd⟩ := hv; exact .ok _
  case duration.timedelta => obtain ⟨d, rfl⟩ := hv; exact .ok _
  case duration.trigger => obtain ⟨d, rfl⟩ := hv; exact .ok _
  case integer.range =>
    obtain ⟨n, rfl⟩ := hv
    exact .ite (fun _ => .ok _) fun _ => .error (.inl rfl)
  case geo.geo => obtain ⟨a, b, rfl⟩ := hv; exact .ok _
  case organizer.organizerOpt => obtain ⟨e, x, rfl⟩ := hv; exact .ok _

theorem parse_fault {L : Lib} {c : Cls} {items : List Item} {cl : ContentLine} {s : AttrSpec} (hs : .value s ∈ c.convs)
    (hi : .line cl ∈ items) (hn : cl.name = s.ics) {v : ValConv} (hv : v ∈ s.convs)
    (htt : TimeTrigger cl → v ≠ .duration) {value : Str}
    (hval : v = .datetime ∨ v = .duration → value = cl.value) (p : Params) (d : List (Str × Nat)) :
    Raises (Fault L c items) (v.parse (σ := σ) L value p (some d)) := by
  refine (parse_raises L v value p d).mono fun e h => ?_
  have hf := specFacts hs
  rcases h with rfl | ⟨rfl, rfl, h⟩ | ⟨rfl, ⟨rfl, h⟩ | ⟨rfl, w, h1, h2⟩⟩
  · exact .value
  · exact .empty hi (by rw [hn]; exact hf.time hv) (by rw [← hval (.inl rfl)]; exact h)
  · exact .noDuration hi (by rw [hn]; exact hf.dur hv) (fun h => htt h rfl) (by rw [← hval (.inr rfl)]; exact h)
  · exact .long hi (by rw [hn]; exact hf.dur hv) (fun h => htt h rfl) (by rw [← hval (.inr rfl)]; exact h1) h2

/-- The values of a line with several values. -/
theorem parseValues_raises {L : Lib} {v : ValConv} {P : PyErr → Prop}
    (h : ∀ value p d, Raises P (v.parse (σ := σ) L value p (some d))) : ∀ (vs : List Str) (p : Params) (d : List (Str × Nat)),
    Raises P (parseValues (σ := σ) L v vs p (some d)) ∧
      ∀ r ctx, parseValues (σ := σ) L v vs p (some d) = .ok (r, ctx) → ∃ d', ctx = some d'
  | [], p, d => ⟨.ok _, fun r ctx h => by injection h with h; injection h with _ h; exact ⟨d, h.symm⟩⟩
  | x :: xs, p, d => by
    constructor
    · unfold parseValues
      refine (h x p d).bind fun ⟨y, q, ctx⟩ hy => ?_
      obtain ⟨d', rfl⟩ := parse_some hy
      exact ((parseValues_raises h xs _ d').1).bind fun _ _ => .ok _
    · intro r ctx hr
      unfold parseValues at hr
      obtain ⟨⟨y, q, ctx1⟩, hy, hr⟩ := bind_ok_iff.1 hr
      obtain ⟨d', rfl⟩ := parse_some hy
      obtain ⟨⟨rest, ctx2⟩, hz, hr⟩ := bind_ok_iff.1 hr
      injection hr with hr
      injection hr with _ hr
      subst hr
      exact (parseValues_raises h xs _ d').2 _ _ hz

theorem splitTextFrom_err {e : PyErr} : ∀ {gs : List Str} {val : Str}, (splitTextFrom val gs).err = some e → e = .valueError
  | [], val, h => by
    unfold splitTextFrom at h
    split at h
    · injection h with h; exact h.symm
    · exact absurd h (by simp [Gen.yield, Gen.done])
  | g :: gs, val, h => by
    unfold splitTextFrom at h
    split at h
    · exact splitTextFrom_err h
    · exact splitTextFrom_err (val := g) (gs := gs) h

theorem split_err {v : ValConv} {s : Str} {e : PyErr} (h : (v.split s).err = some e) : e = .valueError := by
  have hd : ∀ l : List Str, (Gen.done l).err = some e → e = .valueError := fun l h => absurd h (by simp [Gen.done])
  cases v <;> first | exact hd _ h | skip
  unfold ValConv.split splitTextList at h
  dsimp only at h
  split at h
  · exact hd _ h
  · exact splitTextFrom_err h

theorem populateMulti_ok {L : Lib} {c : Cls} {items : List Item} {cl : ContentLine} {s : AttrSpec} {st : LState σ}
    (hs : .value s ∈ c.convs) (hm : s.multi = true) (hi : .line cl ∈ items) (hn : cl.name = s.ics)
    (h : LoadOk c items st) :
    Raises (Fault L c items) (populateMulti L s cl st) ∧
      ∀ st', populateMulti L s cl st = .ok st' → LoadOk c items st' := by
  have hf := specFacts hs
  obtain ⟨d, hd⟩ := h.ctx
  have hp : ∀ {v}, v ∈ s.convs → ∀ value p d, Raises (Fault L c items) (v.parse (σ := σ) L value p (some d)) :=
    fun {v} hv value p d => parse_fault hs hi hn hv (fun _ => (hf.multi hm v hv).2) (fun hc => absurd hc (by
      have := hf.multi hm v hv; simp [this.1, this.2])) p d
  unfold populateMulti
  rw [hd]
  constructor
  · refine ((prepareParams_value hf.ne _).mono fun e he => he ▸ .value).bind fun ⟨p, v⟩ hv => ?_
    have hv' := (prepareParams_ok hv).1
    refine ((parseValues_raises (hp hv') _ _ _).1).bind fun ⟨vals, ctx⟩ _ => ?_
    refine Raises.bind ?_ fun _ _ => Raises.bind ?_ fun _ _ => .ok _
    · intro e he
      unfold genEnd at he
      split at he
      · rename_i e' he'
        injection he with he
        rw [← he, split_err he']
        exact .value
      · cases he
    · obtain ⟨o', ho, -⟩ := h.lists.appendAll (mem_manyAttrs hs hm) (markLast vals)
      rw [ho]
      exact .ok _
  · intro st' hst
    obtain ⟨⟨p, v⟩, hv, hst⟩ := bind_ok_iff.1 hst
    have hv' := (prepareParams_ok hv).1
    obtain ⟨⟨vals, ctx⟩, hvals, hst⟩ := bind_ok_iff.1 hst
    obtain ⟨_, -, hst⟩ := bind_ok_iff.1 hst
    obtain ⟨o', ho, hl⟩ := h.lists.appendAll (mem_manyAttrs hs hm) (markLast vals)
    rw [ho] at hst
    injection hst with hst
    subst hst
    exact ⟨hl, (parseValues_raises (hp hv') _ _ _).2 _ _ hvals, h.span⟩

theorem populateSingle_ok {L : Lib} {c : Cls} {items : List Item} {cl : ContentLine} {s : AttrSpec} {st : LState σ}
    (hs : .value s ∈ c.convs) (hm : s.multi = false) (hi : .line cl ∈ items) (hn : cl.name = s.ics)
    (h : LoadOk c items st) :
    Raises (Fault L c items) (populateSingle L s cl st) ∧
      ∀ st', populateSingle L s cl st = .ok st' → LoadOk c items st' := by
  have hf := specFacts hs
  obtain ⟨d, hd⟩ := h.ctx
  unfold populateSingle
  rw [hd]
  constructor
  · refine ((raiseIf_value _).mono fun e he => he ▸ .value).bind fun _ _ => ?_
    refine ((prepareParams_value hf.ne _).mono fun e he => he ▸ .value).bind fun ⟨p, v⟩ hv => ?_
    obtain ⟨hv', rfl, htt⟩ := prepareParams_ok hv
    refine (parse_fault hs hi hn hv' (fun ⟨_, q, hq⟩ => htt q hq) (fun _ => rfl) _ d).bind fun ⟨x, q, ctx⟩ hx => ?_
    refine Raises.bind (Raises.map ((check_raises hx (hf.fits hm v hv')).mono fun e he => ?_)) fun _ _ => .ok _
    rcases he with rfl | ⟨hc, y, q, hy, he⟩
    · exact .value
    · obtain ⟨-, -, yy, m, dd, hh, n, sec, ht, hw, hfo, hz⟩ := parseDt_line (by decide) hy
      obtain ⟨rfl, hu⟩ := astimezone_raises _ _ _ e he
      refine .stamp (tz := y.tz) hi (by rw [hn]; exact hf.stamp hc) ht hz ?_
      dsimp only at hu ⊢
      rw [hw, hfo] at hu
      rcases hu with hu | hu
      · exact .inl (outOfYears_of hu)
      · exact .inr (outOfYears_of hu)
  · intro st' hst
    obtain ⟨_, -, hst⟩ := bind_ok_iff.1 hst
    obtain ⟨⟨p, v⟩, hv, hst⟩ := bind_ok_iff.1 hst
    obtain ⟨⟨x, q, ctx⟩, hx, hst⟩ := bind_ok_iff.1 hst
    obtain ⟨o, ho, hst⟩ := bind_ok_iff.1 hst
    obtain ⟨w, hw, ho⟩ := map_ok_iff.1 ho
    injection hst with hst
    subst hst ho
    exact ⟨(h.lists.setExtraParams (mem_loneNames hs hm) _).setAttr (mem_loneNames hs hm) _, parse_some hx, h.span⟩

/-! ### Time spans -/

theorem midnight (y m d : Nat) : clock y m d 0 0 0 - clock y m d 0 0 0 % dayUs = clock y m d 0 0 0 := by
  unfold clock
  simp only [dayUs]
  push_cast
  omega

theorem dateText_of {s : Str} {y m d h n x : Nat} (t : DateTimeText s y m d h n x) (hl : s.length ∈ baseFormats) :
    h = 0 ∧ n = 0 ∧ x = 0 := by
  cases t with
  | month hd => exact ⟨rfl, rfl, rfl⟩
  | day hd hds => exact ⟨rfl, rfl, rfl⟩
  | time hd hds hc ht =>
    exfalso
    obtain ⟨a, b, rfl⟩ := hds.cons
    cases ht <;> simp [baseFormats, four, two] at hl

theorem parseSpanValue_raises (L : Lib) (cl : ContentLine) (d : List (Str × Nat)) :
    Raises (fun e => e = .valueError ∨ (e = .indexError ∧ cl.value = [])) (parseSpanValue L cl (some d)) := by
  unfold parseSpanValue
  refine .ite (fun _ => (parseDt_raises _ _ _ _ _).map) fun _ => .ite (fun _ => Raises.map ?_) fun _ => .error (.inl rfl)
  unfold parseDate
  split
  · exact .ok _
  · rename_i e he
    exact .error (parseDt_raises _ _ _ _ _ e he)

theorem isDate_iff (cl : ContentLine) :
    ((dictGet? cl.params "VALUE".toList).map pvalTexts).getD ["DATE-TIME".toList] = ["DATE".toList] ↔ IsDate cl := by
  unfold IsDate
  generalize dictGet? cl.params "VALUE".toList = v
  cases v with
  | none => simp
  | some vs =>
    cases vs with
    | nil => simp [pvalTexts]
    | cons v vs =>
      cases vs with
      | nil =>
        obtain ⟨q, t⟩ := v
        simp [pvalTexts]
      | cons w vs => simp [pvalTexts]

theorem parseSpanValue_ok {L : Lib} {cl : ContentLine} {d : List (Str × Nat)} {x : DT} {prec : Precision} {p : Params}
    {ctx : Ctx} (h : parseSpanValue L cl (some d) = .ok (x, prec, p, ctx)) :
    (∃ d', ctx = some d') ∧ ReadAs cl x (some prec) ∧ (prec = .day ∨ prec = .second) := by
  unfold parseSpanValue at h
  dsimp only at h
  split at h
  · rename_i hty
    obtain ⟨⟨y, q, c⟩, hy, h⟩ := map_ok_iff.1 h
    injection h with e1 h
    injection h with e2 h
    injection h with e3 e4
    subst e1 e2 e3 e4
    obtain ⟨h1, -, -, -, -, -, -, -, -, -, -, hz⟩ := parseDt_line (by decide) hy
    refine ⟨h1, .inl ⟨rfl, ?_, hz⟩, .inr rfl⟩
    rw [← isDate_iff, hty]
    decide
  · split at h
    · rename_i hty
      obtain ⟨⟨y, q, c⟩, hy, h⟩ := map_ok_iff.1 h
      injection h with e1 h
      injection h with e2 h
      injection h with e3 e4
      subst e1 e2 e3 e4
      unfold parseDate at hy
      split at hy
      · rename_i x' p' ctx' hx
        injection hy with hy
        injection hy with e1 hy
        injection hy with e2 e3
        subst e1 e2 e3
        obtain ⟨h1, hf, yy, m, dd, hh, n, s, ht, hw, -, -⟩ := parseDt_line (by decide) hx
        rw [stripDt_eq] at hf
        obtain ⟨rfl, rfl, rfl⟩ := dateText_of ht hf
        refine ⟨h1, .inr ⟨rfl, (isDate_iff cl).1 hty, rfl, hf, yy, m, dd, ht, ?_⟩, .inl rfl⟩
        show x'.wall - x'.wall % dayUs = _
        rw [hw, midnight]
      · exact absurd hy (by simp)
    · exact absurd h (by simp)

theorem timespan_mem {c : Cls} (h : Conv.timespan ∈ c.convs) : c = .event ∨ c = .todo := by
  have := List.all_eq_true.1 (convs_fine c) _ h
  unfold convFine at this
  simp only [Bool.and_eq_true, Bool.or_eq_true, beq_iff_eq] at this
  exact this.1

theorem spanNames_lone {c : Cls} (h : Conv.timespan ∈ c.convs) {n : Str}
    (hn : n ∈ ["begin", "end", "due", "duration", "timespan"].map String.toList) : n ∈ loneNames c :=
  List.mem_flatMap.2 ⟨_, h, hn⟩

/-- The entries after a line. -/
theorem SpanOk.fixPrec {items : List Item} {sp : SpanCtx} {prec : Precision} (h : SpanOk items sp)
    (hp : sp.prec?.getD prec = prec) (hd : prec = .day ∨ prec = .second) :
    (∀ x, sp.begin? = some x → sp.prec? = some prec) ∧ (∀ x, sp.end? = some x → sp.prec? = some prec) ∧
      (some (sp.prec?.getD prec) = some prec) := by
  refine ⟨fun x hx => ?_, fun x hx => ?_, by rw [hp]⟩
  · obtain ⟨cl, -, -, ⟨h1, -⟩ | ⟨h1, -⟩⟩ := h.begin x hx <;> rw [h1] at hp ⊢ <;> exact congrArg some hp
  · obtain ⟨cl, -, -, ⟨h1, -⟩ | ⟨h1, -⟩⟩ := h.end x hx <;> rw [h1] at hp ⊢ <;> exact congrArg some hp

theorem populateSpan_ok {L : Lib} {c : Cls} {items : List Item} {cl : ContentLine} {st : LState σ}
    (hc : Conv.timespan ∈ c.convs) (hi : .line cl ∈ items) (hn : cl.name ∈ Conv.timespan.names) (h : LoadOk c items st) :
    Raises (Fault L c items) (populateSpan L cl st) ∧
      ∀ st', populateSpan L cl st = .ok st' → LoadOk c items st' := by
  have hcls := timespan_mem hc
  obtain ⟨d, hd⟩ := h.ctx
  have hnt : cl.name = "DURATION".toList → ¬ TimeTrigger cl := fun h1 ⟨h2, _⟩ => by
    rw [h1] at h2
    exact absurd h2 (by decide)
  have hdur : cl.name = "DURATION".toList → cl.name ∈ durationNames c := by
    rintro hn
    rw [hn]
    rcases hcls with rfl | rfl <;> decide
  have htime : cl.name ≠ "DURATION".toList → cl.name ∈ timeNames c ∧
      (cl.name = "DTSTART".toList ∨ cl.name = "DTEND".toList ∨ cl.name = "DUE".toList) := by
    intro hne
    have hn' : cl.name = "DTSTART".toList ∨ cl.name = "DTEND".toList ∨ cl.name = "DUE".toList := by
      have : cl.name ∈ ["DTSTART", "DTEND", "DUE", "DURATION"].map String.toList := hn
      simp only [List.map_cons, List.map_nil, List.mem_cons, List.not_mem_nil, or_false] at this
      rcases this with h | h | h | h
      · exact .inl h
      · exact .inr (.inl h)
      · exact .inr (.inr h)
      · exact absurd h hne
    refine ⟨?_, hn'⟩
    rcases hn' with h | h | h <;> rw [h] <;> rcases hcls with rfl | rfl <;> decide
  unfold populateSpan
  constructor
  · refine ((raiseIf_value _).mono fun e he => he ▸ .value).bind fun _ _ => ?_
    refine .ite (fun hn => ?_) fun hn => ?_
    · unfold populateSpanDuration
      refine Raises.bind ((durationParse_raises _).mono fun e he => ?_) fun _ _ => .ok _
      rcases he with rfl | ⟨rfl, he⟩ | ⟨rfl, v, h1, h2⟩
      · exact .value
      · exact .noDuration hi (hdur hn) (hnt hn) he
      · exact .long hi (hdur hn) (hnt hn) h1 h2
    · unfold populateSpanTime
      dsimp only
      rw [hd]
      refine Raises.bind ((parseSpanValue_raises L cl d).mono fun e he => ?_) fun ⟨x, prec, p, ctx⟩ _ => ?_
      · rcases he with rfl | ⟨rfl, he⟩
        · exact .value
        · exact .empty hi (htime hn).1 he
      · refine ((raiseIf_value _).mono fun e he => he ▸ .value).bind fun _ _ => ?_
        exact .ite (fun _ => .ok _) fun _ => .ok _
  · intro st' hst
    obtain ⟨_, -, hst⟩ := bind_ok_iff.1 hst
    split at hst
    · unfold populateSpanDuration at hst
      obtain ⟨us, -, hst⟩ := bind_ok_iff.1 hst
      injection hst with hst
      subst hst
      exact ⟨h.lists.setExtraParams (spanNames_lone hc (by decide)) _, h.ctx, h.span.begin, h.span.end, h.span.prec⟩
    · rename_i hne
      unfold populateSpanTime at hst
      dsimp only at hst
      rw [hd] at hst
      obtain ⟨⟨x, prec, p, ctx⟩, hx, hst⟩ := bind_ok_iff.1 hst
      obtain ⟨_, hr, hst⟩ := bind_ok_iff.1 hst
      obtain ⟨h1, h2, h3⟩ := parseSpanValue_ok hx
      have hp : st.span.prec?.getD prec = prec := by
        unfold raiseIf at hr
        split at hr
        · exact absurd hr (by simp)
        · rename_i hp; simpa using hp
      obtain ⟨hb, he, hs⟩ := h.span.fixPrec hp h3
      have hprec : some prec = none ∨ some prec = some .day ∨ some prec = some Precision.second := by
        rcases h3 with rfl | rfl
        · exact .inr (.inl rfl)
        · exact .inr (.inr rfl)
      split at hst
      · rename_i hnm
        injection hst with hst
        subst hst
        refine ⟨h.lists.setExtraParams (spanNames_lone hc (by decide)) _, h1, ?_, ?_, ?_⟩
        · intro y hy
          injection hy with hy
          subst hy
          refine ⟨cl, hi, hnm, ?_⟩
          rw [hs]
          exact h2
        · intro y hy
          obtain ⟨cl', g1, g2, g3⟩ := h.span.end y hy
          refine ⟨cl', g1, g2, ?_⟩
          rw [he y hy] at g3
          rw [hs]
          exact g3
        · rw [hs]
          exact hprec
      · rename_i hnm
        injection hst with hst
        subst hst
        refine ⟨h.lists.setExtraParams (spanNames_lone hc ?_) _, h1, ?_, ?_, ?_⟩
        · split <;> decide
        · intro y hy
          obtain ⟨cl', g1, g2, g3⟩ := h.span.begin y hy
          refine ⟨cl', g1, g2, ?_⟩
          rw [hb y hy] at g3
          rw [hs]
          exact g3
        · intro y hy
          injection hy with hy
          subst hy
          refine ⟨cl, hi, (htime hne).2.resolve_left hnm, ?_⟩
          rw [hs]
          exact h2
        · rw [hs]
          exact hprec

/-- What the state knows of the lines read so far. -/
structure Tracks (pre : List Item) (sp : SpanCtx) : Prop where
  seen : ∀ cl, .line cl ∈ pre → cl.name ∈ Conv.timespan.names → cl.name ∈ sp.seen
  «begin» : ∀ b, .line b ∈ pre → b.name = "DTSTART".toList → ∃ x, sp.begin? = some x ∧ ReadAs b x sp.prec?
  «end» : ∀ e, LastEnd pre e → ∃ x, sp.end? = some x ∧ ReadAs e x sp.prec?

theorem Tracks.nil : Tracks [] {} where
  seen _ h := absurd h (by simp)
  «begin» _ h := absurd h (by simp)
  «end» := by
    rintro e ⟨-, a, b, h, -⟩
    simp at h

theorem lastEnd_snoc {pre : List Item} {i : Item} {e : ContentLine} (h : LastEnd (pre ++ [i]) e) :
    (i = .line e ∧ IsEnd e) ∨ (LastEnd pre e ∧ ∀ cl, i = .line cl → ¬ IsEnd cl) := by
  obtain ⟨h1, a, b, h2, h3⟩ := h
  rcases List.eq_nil_or_concat b with rfl | ⟨b', j, rfl⟩
  · have := List.append_inj' h2 rfl
    refine .inl ⟨?_, h1⟩
    simpa using this.2
  · rw [List.concat_eq_append] at h2 h3
    have : pre ++ [i] = (a ++ .line e :: b') ++ [j] := by simpa using h2
    obtain ⟨g1, g2⟩ := List.append_inj' this rfl
    have g2 : i = j := by simpa using g2
    subst g2
    exact .inr ⟨⟨h1, a, b', g1, fun cl hcl => h3 cl (by simp [hcl])⟩, fun cl hcl => h3 cl (by simp [hcl])⟩

theorem exists_lastEnd : ∀ (items : List Item), (∃ cl, .line cl ∈ items ∧ IsEnd cl) → ∃ cl, LastEnd items cl
  | [], ⟨_, h, _⟩ => absurd h (by simp)
  | i :: is, ⟨cl, h1, h2⟩ => by
    by_cases h : ∃ cl, .line cl ∈ is ∧ IsEnd cl
    · obtain ⟨cl', g1, a, b, g2, g3⟩ := exists_lastEnd is h
      exact ⟨cl', g1, i :: a, b, by rw [g2]; rfl, g3⟩
    · have : i = .line cl := by
        rcases List.mem_cons.1 h1 with h1 | h1
        · exact h1.symm
        · exact absurd ⟨cl, h1, h2⟩ h
      subst this
      exact ⟨cl, h2, [], is, rfl, fun cl' h3 h4 => h ⟨cl', h3, h4⟩⟩

/-- An item that does not concern the time span. -/
theorem Tracks.other {pre : List Item} {sp : SpanCtx} {i : Item} (T : Tracks pre sp)
    (hn : ∀ cl, i = .line cl → cl.name ∉ Conv.timespan.names) : Tracks (pre ++ [i]) sp where
  seen cl h1 h2 := by
    rcases List.mem_append.1 h1 with h1 | h1
    · exact T.seen cl h1 h2
    · exact absurd h2 (hn cl (List.mem_singleton.1 h1).symm)
  «begin» b h1 h2 := by
    rcases List.mem_append.1 h1 with h1 | h1
    · exact T.begin b h1 h2
    · exact absurd (by rw [h2]; decide) (hn b (List.mem_singleton.1 h1).symm)
  «end» e he := by
    rcases lastEnd_snoc he with ⟨rfl, h⟩ | ⟨h, -⟩
    · refine absurd ?_ (hn e rfl)
      rcases h with h | h <;> rw [h] <;> decide
    · exact T.end e h

theorem ReadAs.prec {cl : ContentLine} {x : DT} {p : Option Precision} {q : Precision} (h : ReadAs cl x p)
    (hq : p.getD q = q) : ReadAs cl x (some q) := by
  have : p = some q := by
    rcases h with ⟨h, -⟩ | ⟨h, -⟩ <;> rw [h] at hq ⊢ <;> exact congrArg some hq
  rw [← this]
  exact h

theorem raiseIf_false {b : Bool} {u : Unit} (h : raiseIf b = .ok u) : b = false := by
  unfold raiseIf at h
  split at h
  · exact absurd h (by simp)
  · rename_i hb; simpa using hb

theorem populateSpan_tracks {L : Lib} {pre : List Item} {cl : ContentLine} {st st' : LState σ}
    (hn : cl.name ∈ Conv.timespan.names) (hctx : ∃ d, st.ctx = some d) (T : Tracks pre st.span)
    (hst : populateSpan L cl st = .ok st') : Tracks (pre ++ [.line cl]) st'.span := by
  obtain ⟨d, hd⟩ := hctx
  unfold populateSpan at hst
  obtain ⟨_, hr, hst⟩ := bind_ok_iff.1 hst
  have hseen : cl.name ∉ st.span.seen := by simpa using raiseIf_false hr
  have seen : ∀ cl', .line cl' ∈ pre ++ [.line cl] → cl'.name ∈ Conv.timespan.names →
      cl'.name ∈ st.span.seen ++ [cl.name] := by
    intro cl' h1 h2
    rcases List.mem_append.1 h1 with h1 | h1
    · exact List.mem_append_left _ (T.seen cl' h1 h2)
    · have : cl' = cl := by simpa using h1
      rw [this]
      simp
  split at hst
  · rename_i hdur
    unfold populateSpanDuration at hst
    obtain ⟨us, -, hst⟩ := bind_ok_iff.1 hst
    injection hst with hst
    subst hst
    refine ⟨seen, fun b h1 h2 => ?_, fun e he => ?_⟩
    · rcases List.mem_append.1 h1 with h1 | h1
      · exact T.begin b h1 h2
      · have : b = cl := by simpa using h1
        rw [this, hdur] at h2
        exact absurd h2 (by decide)
    · rcases lastEnd_snoc he with ⟨h1, h⟩ | ⟨h, -⟩
      · injection h1 with h1
        rw [← h1] at h
        rcases h with h | h <;> rw [hdur] at h <;> exact absurd h (by decide)
      · exact T.end e h
  · rename_i hdur
    unfold populateSpanTime at hst
    dsimp only at hst
    rw [hd] at hst
    obtain ⟨⟨x, prec, p, ctx⟩, hx, hst⟩ := bind_ok_iff.1 hst
    obtain ⟨_, hr, hst⟩ := bind_ok_iff.1 hst
    obtain ⟨h1, h2, h3⟩ := parseSpanValue_ok hx
    have hp : st.span.prec?.getD prec = prec := by simpa using raiseIf_false hr
    have hs : some (st.span.prec?.getD prec) = some prec := congrArg some hp
    split at hst
    · rename_i hnm
      injection hst with hst
      subst hst
      refine ⟨seen, fun b g1 g2 => ?_, fun e he => ?_⟩
      · rcases List.mem_append.1 g1 with g1 | g1
        · have := T.seen b g1 (by rw [g2]; decide)
          rw [g2, ← hnm] at this
          exact absurd this hseen
        · have : b = cl := by simpa using g1
          subst this
          exact ⟨x, rfl, by rw [hs]; exact h2⟩
      · rcases lastEnd_snoc he with ⟨g1, h⟩ | ⟨h, -⟩
        · injection g1 with g1
          rw [← g1] at h
          rcases h with h | h <;> rw [hnm] at h <;> exact absurd h (by decide)
        · obtain ⟨y, hy, hr⟩ := T.end e h
          exact ⟨y, hy, by rw [hs]; exact hr.prec hp⟩
    · rename_i hnm
      injection hst with hst
      subst hst
      refine ⟨seen, fun b g1 g2 => ?_, fun e he => ?_⟩
      · rcases List.mem_append.1 g1 with g1 | g1
        · obtain ⟨y, hy, hr⟩ := T.begin b g1 g2
          exact ⟨y, hy, by rw [hs]; exact hr.prec hp⟩
        · have : b = cl := by simpa using g1
          rw [this] at g2
          exact absurd g2 hnm
      · rcases lastEnd_snoc he with ⟨g1, h⟩ | ⟨h, hno⟩
        · injection g1 with g1
          subst g1
          exact ⟨x, rfl, by rw [hs]; exact h2⟩
        · refine absurd ?_ (hno cl rfl)
          have : cl.name ∈ ["DTSTART", "DTEND", "DUE", "DURATION"].map String.toList := hn
          simp only [List.map_cons, List.map_nil, List.mem_cons, List.not_mem_nil, or_false] at this
          rcases this with h | h | h | h
          · exact absurd h hnm
          · exact .inl h
          · exact .inr h
          · exact absurd h hdur

theorem populate_span {L : Lib} {mem : MemberLoad σ} {cv : Conv} (hne : cv ≠ .timespan) {i : Item} {st st' : LState σ}
    {b : Bool} (h : cv.populate L mem i st = .ok (b, st')) : st'.span = st.span := by
  have lift : ∀ {r : Except PyErr (LState σ)}, (∀ s, r = .ok s → s.span = st.span) →
      r.map (fun st => (true, st)) = .ok (b, st') → st'.span = st.span := by
    intro r h1 h2
    obtain ⟨s, e1, e2⟩ := map_ok_iff.1 h2
    injection e2 with _ e2
    subst e2
    exact h1 _ e1
  cases cv with
  | value s =>
    cases i with
    | cont _ _ => exact absurd h (by simp [Conv.populate])
    | line cl =>
      refine lift (r := if s.multi then populateMulti L s cl st else populateSingle L s cl st) (fun s' hs => ?_) h
      by_cases hm : s.multi = true
      · rw [if_pos hm] at hs
        unfold populateMulti at hs
        obtain ⟨⟨p, v⟩, -, hs⟩ := bind_ok_iff.1 hs
        obtain ⟨⟨vals, ctx⟩, -, hs⟩ := bind_ok_iff.1 hs
        obtain ⟨_, -, hs⟩ := bind_ok_iff.1 hs
        obtain ⟨_, -, hs⟩ := bind_ok_iff.1 hs
        injection hs with hs
        subst hs
        rfl
      · rw [if_neg hm] at hs
        unfold populateSingle at hs
        obtain ⟨_, -, hs⟩ := bind_ok_iff.1 hs
        obtain ⟨⟨p, v⟩, -, hs⟩ := bind_ok_iff.1 hs
        obtain ⟨⟨x, q, ctx⟩, -, hs⟩ := bind_ok_iff.1 hs
        obtain ⟨_, -, hs⟩ := bind_ok_iff.1 hs
        injection hs with hs
        subst hs
        rfl
  | member attr ics =>
    cases i with
    | line _ => exact absurd h (by simp [Conv.populate])
    | cont name is =>
      refine lift (r := populateMember mem attr name is st) (fun s' hs => ?_) h
      unfold populateMember at hs
      obtain ⟨⟨m, ctx⟩, -, hs⟩ := bind_ok_iff.1 hs
      obtain ⟨_, -, hs⟩ := bind_ok_iff.1 hs
      injection hs with hs
      subst hs
      rfl
  | timespan => exact absurd rfl hne
  | alarmAction =>
    cases i with
    | cont _ _ => exact absurd h (by simp [Conv.populate])
    | line cl =>
      refine lift (r := populateAction cl st) (fun s' hs => ?_) h
      unfold populateAction at hs
      split at hs
      · exact absurd hs (by simp)
      · split at hs <;> (injection hs with hs; subst hs; rfl)
  | calendarTimezone =>
    cases i <;> (injection h with h; injection h with _ h; subst h; rfl)

theorem populateConvs_span {L : Lib} {mem : MemberLoad σ} {i : Item} : ∀ (cvs : List Conv), Conv.timespan ∉ cvs →
    ∀ {b b' : Bool} {st st' : LState σ}, populateConvs L mem i cvs b st = .ok (b', st') → st'.span = st.span
  | [], _, b, b', st, st', h => by injection h with h; injection h with _ h; subst h; rfl
  | cv :: cvs, hn, b, b', st, st', h => by
    obtain ⟨⟨b1, st1⟩, e1, e2⟩ := bind_ok_iff.1 h
    rw [populateConvs_span cvs (fun h => hn (List.mem_cons_of_mem _ h)) e2]
    exact populate_span (fun h => hn (h ▸ List.mem_cons_self ..)) e1

theorem lookup_span {c : Cls} (hc : Conv.timespan ∈ c.convs) {name : Str} (hn : name ∈ Conv.timespan.names) :
    c.lookup name = [.timespan] := by
  have : name ∈ ["DTSTART", "DTEND", "DUE", "DURATION"].map String.toList := hn
  simp only [List.map_cons, List.map_nil, List.mem_cons, List.not_mem_nil, or_false] at this
  rcases timespan_mem hc with rfl | rfl <;> rcases this with rfl | rfl | rfl | rfl <;> decide +kernel

theorem populateItem_tracks {L : Lib} {c : Cls} {pre : List Item} {mem : MemberLoad σ} {i : Item} {st st' : LState σ}
    (hc : Conv.timespan ∈ c.convs) (hcls : st.obj.cls = c) (hctx : ∃ d, st.ctx = some d) (T : Tracks pre st.span)
    (hst : populateItem L mem i st = .ok st') : Tracks (pre ++ [i]) st'.span := by
  unfold populateItem at hst
  obtain ⟨⟨b, st1⟩, e1, e2⟩ := bind_ok_iff.1 hst
  have hsp : st'.span = st1.span := by
    dsimp only at e2
    split at e2 <;> (injection e2 with e2; subst e2; rfl)
  rw [hsp]
  by_cases hn : i.name ∈ Conv.timespan.names
  · rw [hcls, lookup_span hc hn] at e1
    obtain ⟨⟨b1, st2⟩, g1, g2⟩ := bind_ok_iff.1 e1
    injection g2 with g2
    injection g2 with _ g2
    subst g2
    cases i with
    | cont _ _ => exact absurd g1 (by simp [Conv.populate])
    | line cl =>
      obtain ⟨st3, k1, k2⟩ := map_ok_iff.1 g1
      injection k2 with _ k2
      subst k2
      exact populateSpan_tracks hn hctx T k1
  · have : st1.span = st.span := by
      refine populateConvs_span _ (fun h => hn ?_) e1
      unfold Cls.lookup at h
      exact of_decide_eq_true (List.mem_filter.1 h).2
    rw [this]
    exact T.other fun cl hcl => by rw [hcl] at hn; exact hn

theorem lastDay_text {s : Str} (t : DateTimeText s 9999 12 31 0 0 0) (hl : s.length ∈ baseFormats) :
    s = "99991231".toList := by
  generalize hy : 9999 = y at t
  generalize hm : 12 = m at t
  generalize hd : 31 = d at t
  cases t with
  | month _ => exact absurd hd (by omega)
  | day _ hds =>
    subst hy hm hd
    cases hds with
    | digits _ => decide
    | space h => omega
  | time _ hds hc ht =>
    exfalso
    obtain ⟨a, b, rfl⟩ := hds.cons
    cases ht <;> simp [baseFormats, four, two] at hl

theorem postSpan_ok {L : Lib} {c : Cls} {items : List Item} {st : LState σ} (hc : Conv.timespan ∈ c.convs)
    (h : LoadOk c items st) (T : st.span = {} ∨ Tracks items st.span) :
    Raises (Fault L c items) (postSpan L st) ∧ ∀ st', postSpan L st = .ok st' → LoadOk c items st' := by
  have hcls := timespan_mem hc
  have hpr : st.span.begin? = none ∨ st.span.prec?.getD (.other []) = .day ∨ st.span.prec?.getD (.other []) = .second := by
    cases hb : st.span.begin? with
    | none => exact .inl rfl
    | some x =>
      obtain ⟨cl, -, -, ⟨h1, -⟩ | ⟨h1, -⟩⟩ := h.span.begin x hb <;> rw [h1]
      · exact .inr (.inr rfl)
      · exact .inr (.inl rfl)
  unfold postSpan
  constructor
  · dsimp only
    refine Raises.bind ((mkSpan_raises hpr).mono fun e he => ?_) fun sp hsp => ?_
    · rcases he with rfl | ⟨b, en, hb, hen, he⟩
      · exact .value
      · obtain ⟨lb, ib, nb, rb⟩ := h.span.begin b hb
        obtain ⟨le, hle, re⟩ : ∃ le, LastEnd items le ∧ ReadAs le en st.span.prec? := by
          obtain ⟨le, ie, ne, -⟩ := h.span.end en hen
          obtain ⟨le', hle⟩ := exists_lastEnd items ⟨le, ie, ne⟩
          rcases T with T | T
          · dsimp only at hb
            rw [T] at hb
            cases hb
          · obtain ⟨y, hy, hr⟩ := T.end le' hle
            dsimp only at hen
            rw [hen] at hy
            injection hy with hy
            subst hy
            exact ⟨le', hle, hr⟩
        rcases rb with ⟨p1, d1, z1⟩ | ⟨p1, d1, z1, len1, y, m, d, t1, w1⟩
        · rcases re with ⟨p2, d2, z2⟩ | ⟨p2, -⟩
          · rcases he with ⟨rfl, he⟩ | ⟨rfl, hp, -⟩
            · exact .mixed hcls ib nb hle d1 d2 (by rw [← z1, ← z2]; exact he)
            · dsimp only at hp
              rw [p1] at hp
              exact absurd hp (by decide)
          · rw [p1] at p2
            exact absurd p2 (by decide)
        · rcases re with ⟨p2, -⟩ | ⟨p2, d2, z2, -⟩
          · rw [p1] at p2
            exact absurd p2 (by decide)
          · rcases he with ⟨rfl, he⟩ | ⟨rfl, -, hw⟩
            · rw [z1, z2] at he
              exact absurd he (by simp)
            · rw [w1] at hw
              obtain ⟨rfl, rfl, rfl⟩ := lastDay_of t1.bounds.1 hw
              exact .lastDay hcls ib nb hle d1 d2 (lastDay_text t1 len1)
    · refine ((raiseIf_value _).mono fun e he => he ▸ .value).bind fun _ _ => ?_
      have hv := mkSpan_ok.1 hsp
      obtain ⟨hv, rfl⟩ := hv
      refine Raises.bind ?_ fun _ _ => .ok _
      unfold Obj.setattr Check.run Env.validateTimespan isInstance
      simp only [decide_true, Bool.or_true, if_true]
      rw [hv]
      exact .ok _
  · intro st' hst
    dsimp only at hst
    obtain ⟨sp, -, hst⟩ := bind_ok_iff.1 hst
    obtain ⟨_, -, hst⟩ := bind_ok_iff.1 hst
    obtain ⟨o, ho, hst⟩ := bind_ok_iff.1 hst
    obtain ⟨v, -, ho⟩ := map_ok_iff.1 ho
    injection hst with hst
    subst hst ho
    exact ⟨h.lists.setAttr (spanNames_lone hc (by decide)) _, h.ctx, fun _ h => (by cases h), fun _ h => (by cases h),
      .inl rfl⟩

/-! ### Components -/

/-- What the members of a component raise, and they keep the context. -/
def MembersOk (c : Cls) (items : List Item) (P : PyErr → Prop) (mem : MemberLoad σ) : Prop :=
  ∀ name is d, .cont name is ∈ items → name ∈ componentNames c →
    Raises P (mem name is (some d)) ∧ ∀ m ctx, mem name is (some d) = .ok (m, ctx) → ∃ d', ctx = some d'

theorem populateAction_ok {c : Cls} {items : List Item} {cl : ContentLine} {st : LState σ} {P : PyErr → Prop}
    (hc : Conv.alarmAction ∈ c.convs) (hcl : c = alarmCls cl.value) (h : LoadOk c items st) :
    Raises P (populateAction cl st) ∧ ∀ st', populateAction cl st = .ok st' → LoadOk c items st' := by
  have hne : ¬ st.obj.cls ≠ alarmCls cl.value := by rw [h.lists.cls, hcl]; simp
  unfold populateAction
  rw [if_neg hne]
  constructor
  · exact .ite (fun _ => .ok _) fun _ => .ok _
  · intro st' hst
    split at hst
    · injection hst with hst; subst hst; exact h
    · injection hst with hst
      subst hst
      refine ⟨⟨h.lists.cls, fun a ha q => ?_, h.lists.attrs⟩, h.ctx, h.span⟩
      have := (apart ha (b := "action".toList) (List.mem_flatMap.2 ⟨_, hc, by decide⟩)).2
      show dictGet? (dictSet st.obj.extraParams "ACTION".toList (.one cl.params)) (extraKey a) ≠ _
      rw [dictGet_set_ne _ _ (by rwa [show extraKey "action".toList = "ACTION".toList by decide] at this)]
      exact h.lists.params a ha q

theorem populate_ok {L : Lib} {c : Cls} {items : List Item} {mem : MemberLoad σ} {P : PyErr → Prop}
    (hmem : MembersOk c items P mem)
    (hact : ∀ cl, .line cl ∈ items → cl.name = "ACTION".toList → Conv.alarmAction ∈ c.convs → c = alarmCls cl.value)
    {cv : Conv} (hcv : cv ∈ c.convs) {i : Item} (hi : i ∈ items) (hn : i.name ∈ cv.names) {st : LState σ}
    (h : LoadOk c items st) :
    Raises (fun e => Fault L c items e ∨ P e) (cv.populate L mem i st) ∧
      ∀ b st', cv.populate L mem i st = .ok (b, st') → LoadOk c items st' := by
  have lift : ∀ {r : Except PyErr (LState σ)}, Raises (Fault L c items) r ∧ (∀ st', r = .ok st' → LoadOk c items st') →
      Raises (fun e => Fault L c items e ∨ P e) (r.map fun st => (true, st)) ∧
        ∀ b st', r.map (fun st => (true, st)) = .ok (b, st') → LoadOk c items st' := by
    rintro r ⟨h1, h2⟩
    refine ⟨(h1.mono fun _ h => .inl h).map, fun b st' hst => ?_⟩
    obtain ⟨st1, e1, e2⟩ := map_ok_iff.1 hst
    injection e2 with _ e2
    subst e2
    exact h2 _ e1
  have wrong : WrongKind c i → ∀ {r : Except PyErr (Bool × LState σ)}, r = .error .assertionError →
      Raises (fun e => Fault L c items e ∨ P e) r ∧ ∀ b st', r = .ok (b, st') → LoadOk c items st' := by
    rintro hw r rfl
    exact ⟨.error (.inl (.kind hi hw)), fun _ _ h => (by cases h)⟩
  have hfine := List.all_eq_true.1 (convs_fine c) _ hcv
  cases cv with
  | value s =>
    have hn' : i.name = s.ics := by simpa [Conv.names] using hn
    cases i with
    | line cl =>
      refine lift (r := if s.multi then populateMulti L s cl st else populateSingle L s cl st) ?_
      by_cases hm : s.multi = true
      · rw [if_pos hm]
        exact populateMulti_ok hcv hm hi hn' h
      · rw [if_neg hm]
        exact populateSingle_ok hcv (by simpa using hm) hi hn' h
    | cont name is =>
      refine wrong ?_ rfl
      show name ∈ propertyNames c
      have : name = s.ics := hn'
      rw [this]
      exact (specFacts hcv).prop
  | member attr ics =>
    have hn' : i.name = ics := by simpa [Conv.names] using hn
    have hics : ics ∈ componentNames c := by simpa [convFine] using hfine
    have ha : attr ∈ manyAttrs c := List.mem_filterMap.2 ⟨_, hcv, rfl⟩
    cases i with
    | line cl =>
      refine wrong ?_ rfl
      show cl.name ∈ componentNames c
      have : cl.name = ics := hn'
      rw [this]
      exact hics
    | cont name is =>
      obtain ⟨d, hd⟩ := h.ctx
      have hname : name = ics := hn'
      obtain ⟨m1, m2⟩ := hmem name is d hi (by rw [hname]; exact hics)
      unfold Conv.populate populateMember
      rw [hd]
      constructor
      · refine Raises.map (Raises.bind (m1.mono fun _ h => .inr h) fun ⟨m, ctx⟩ _ => ?_)
        obtain ⟨o', ho, -⟩ := h.lists.appendValue ha (.comp m)
        dsimp only
        rw [ho]
        exact .ok _
      · intro b st' hst
        obtain ⟨st1, e1, e2⟩ := map_ok_iff.1 hst
        injection e2 with _ e2
        subst e2
        obtain ⟨⟨m, ctx⟩, hm, e1⟩ := bind_ok_iff.1 e1
        obtain ⟨o', ho, hl⟩ := h.lists.appendValue ha (.comp m)
        dsimp only at e1
        rw [ho] at e1
        injection e1 with e1
        subst e1
        exact ⟨hl, m2 _ _ hm, h.span⟩
  | timespan =>
    cases i with
    | line cl => exact lift (populateSpan_ok hcv hi hn h)
    | cont name is =>
      refine wrong ?_ rfl
      unfold convFine at hfine
      simp only [Bool.and_eq_true, List.all_eq_true, decide_eq_true_eq] at hfine
      exact hfine.2 _ hn
  | alarmAction =>
    cases i with
    | line cl =>
      have hn' : cl.name = "ACTION".toList := by simpa [Conv.names, Item.name] using hn
      exact lift (populateAction_ok hcv (hact cl hi hn' hcv) h)
    | cont name is =>
      refine wrong ?_ rfl
      have hn' : name = "ACTION".toList := by simpa [Conv.names, Item.name] using hn
      show name ∈ _
      rw [hn']
      simpa [convFine] using hfine
  | calendarTimezone =>
    cases i with
    | line cl => exact ⟨.ok _, fun b st' h' => by injection h' with h'; injection h' with _ h'; subst h'; exact h⟩
    | cont name is => exact ⟨.ok _, fun b st' h' => by injection h' with h'; injection h' with _ h'; subst h'; exact h⟩

section

variable {L : Lib} {c : Cls} {items : List Item} {mem : MemberLoad σ} {P : PyErr → Prop}
    (hmem : MembersOk c items P mem)
    (hact : ∀ cl, .line cl ∈ items → cl.name = "ACTION".toList → Conv.alarmAction ∈ c.convs → c = alarmCls cl.value)
include hmem hact

theorem populateConvs_ok {i : Item} (hi : i ∈ items) : ∀ (cvs : List Conv), (∀ cv ∈ cvs, cv ∈ c.convs ∧ i.name ∈ cv.names) →
    ∀ (b : Bool) {st : LState σ}, LoadOk c items st →
    Raises (fun e => Fault L c items e ∨ P e) (populateConvs L mem i cvs b st) ∧
      ∀ b' st', populateConvs L mem i cvs b st = .ok (b', st') → LoadOk c items st'
  | [], _, b, st, h => ⟨.ok _, fun b' st' h' => by injection h' with h'; injection h' with _ h'; subst h'; exact h⟩
  | cv :: cvs, hcv, b, st, h => by
    obtain ⟨h1, h2⟩ := hcv cv (List.mem_cons_self ..)
    obtain ⟨p1, p2⟩ := populate_ok (L := L) hmem hact h1 hi h2 h
    have ih := fun b st h => populateConvs_ok (i := i) hi cvs (fun cv' h' => hcv cv' (List.mem_cons_of_mem _ h')) b
      (st := st) h
    unfold populateConvs
    constructor
    · exact p1.bind fun ⟨b1, st1⟩ hst => (ih _ st1 (p2 _ _ hst)).1
    · intro b' st' hst
      obtain ⟨⟨b1, st1⟩, e1, e2⟩ := bind_ok_iff.1 hst
      exact (ih _ st1 (p2 _ _ e1)).2 _ _ e2

theorem populateItem_ok {i : Item} (hi : i ∈ items) {st : LState σ} (h : LoadOk c items st) :
    Raises (fun e => Fault L c items e ∨ P e) (populateItem L mem i st) ∧
      ∀ st', populateItem L mem i st = .ok st' → LoadOk c items st' := by
  have hl : ∀ cv ∈ st.obj.cls.lookup i.name, cv ∈ c.convs ∧ i.name ∈ cv.names := by
    intro cv hcv
    rw [h.lists.cls] at hcv
    unfold Cls.lookup at hcv
    obtain ⟨h1, h2⟩ := List.mem_filter.1 hcv
    exact ⟨h1, of_decide_eq_true h2⟩
  obtain ⟨p1, p2⟩ := populateConvs_ok (L := L) hmem hact hi _ hl false h
  unfold populateItem
  constructor
  · exact p1.bind fun ⟨b, st1⟩ _ => .ite (fun _ => .ok _) fun _ => .ok _
  · intro st' hst
    obtain ⟨⟨b, st1⟩, e1, e2⟩ := bind_ok_iff.1 hst
    have := p2 _ _ e1
    dsimp only at e2
    split at e2
    · injection e2 with e2; subst e2; exact this
    · injection e2 with e2
      subst e2
      exact ⟨⟨this.lists.cls, this.lists.params, this.lists.attrs⟩, this.ctx, this.span⟩

theorem populateItems_ok : ∀ (is : List Item), (∀ i ∈ is, i ∈ items) → ∀ {st : LState σ}, LoadOk c items st →
    Raises (fun e => Fault L c items e ∨ P e) (populateItems L mem is st) ∧
      ∀ st', populateItems L mem is st = .ok st' → LoadOk c items st'
  | [], _, st, h => ⟨.ok _, fun st' h' => by injection h' with h'; subst h'; exact h⟩
  | i :: is, hi, st, h => by
    obtain ⟨p1, p2⟩ := populateItem_ok (L := L) hmem hact (hi i (List.mem_cons_self ..)) h
    have ih := fun st h => populateItems_ok is (fun j hj => hi j (List.mem_cons_of_mem _ hj)) (st := st) h
    unfold populateItems
    constructor
    · exact p1.bind fun st1 hst => (ih st1 (p2 _ hst)).1
    · intro st' hst
      obtain ⟨st1, e1, e2⟩ := bind_ok_iff.1 hst
      exact (ih st1 (p2 _ e1)).2 _ e2

theorem populateItems_tracks (hc : Conv.timespan ∈ c.convs) : ∀ (is pre : List Item), (∀ i ∈ is, i ∈ items) →
    ∀ {st st' : LState σ}, LoadOk c items st → Tracks pre st.span → populateItems L mem is st = .ok st' →
    Tracks (pre ++ is) st'.span
  | [], pre, _, st, st', _, T, hst => by
    injection hst with hst
    subst hst
    simpa using T
  | i :: is, pre, hi, st, st', h, T, hst => by
    obtain ⟨st1, e1, e2⟩ := bind_ok_iff.1 hst
    have h1 := (populateItem_ok (L := L) hmem hact (hi i (List.mem_cons_self ..)) h).2 _ e1
    have := populateItems_tracks hc is (pre ++ [i]) (fun j hj => hi j (List.mem_cons_of_mem _ hj)) h1
      (populateItem_tracks hc h.lists.cls h.ctx T e1) e2
    simpa using this

end

theorem postAll_ok {L : Lib} {c : Cls} {items : List Item} : ∀ (cvs : List Conv), (∀ cv ∈ cvs, cv ∈ c.convs) →
    ∀ {st : LState σ}, LoadOk c items st → (Conv.timespan ∈ c.convs → st.span = {} ∨ Tracks items st.span) →
    Raises (Fault L c items) (postAll L cvs st) ∧ ∀ st', postAll L cvs st = .ok st' → LoadOk c items st'
  | [], _, st, h, _ => ⟨.ok _, fun st' h' => by injection h' with h'; subst h'; exact h⟩
  | cv :: cvs, hcv, st, h, T => by
    have hT : ∀ st', cv.post L st = .ok st' → Conv.timespan ∈ c.convs → st'.span = {} ∨ Tracks items st'.span := by
      intro st' hst hc
      cases cv with
      | value s =>
        unfold Conv.post at hst
        dsimp only at hst
        split at hst
        · exact absurd hst (by simp)
        · injection hst with hst; subst hst; exact T hc
      | timespan =>
        left
        unfold Conv.post postSpan at hst
        dsimp only at hst
        obtain ⟨_, -, hst⟩ := bind_ok_iff.1 hst
        obtain ⟨_, -, hst⟩ := bind_ok_iff.1 hst
        obtain ⟨_, -, hst⟩ := bind_ok_iff.1 hst
        injection hst with hst
        subst hst
        rfl
      | member _ _ => injection hst with hst; subst hst; exact T hc
      | alarmAction => injection hst with hst; subst hst; exact T hc
      | calendarTimezone => injection hst with hst; subst hst; exact T hc
    have hp : Raises (Fault L c items) (cv.post L st) ∧ ∀ st', cv.post L st = .ok st' → LoadOk c items st' := by
      cases cv with
      | value s =>
        unfold Conv.post
        constructor
        · exact .ite (fun _ => .error .value) fun _ => .ok _
        · intro st' hst
          dsimp only at hst
          split at hst
          · exact absurd hst (by simp)
          · injection hst with hst; subst hst; exact ⟨h.lists, h.ctx, h.span⟩
      | timespan => exact postSpan_ok (hcv _ (List.mem_cons_self ..)) h (T (hcv _ (List.mem_cons_self ..)))
      | member _ _ => exact ⟨.ok _, fun st' h' => by injection h' with h'; subst h'; exact h⟩
      | alarmAction => exact ⟨.ok _, fun st' h' => by injection h' with h'; subst h'; exact h⟩
      | calendarTimezone => exact ⟨.ok _, fun st' h' => by injection h' with h'; subst h'; exact h⟩
    have ih := fun (st : LState σ) (h : LoadOk c items st) hT =>
      postAll_ok (L := L) cvs (fun cv' h' => hcv cv' (List.mem_cons_of_mem _ h')) h hT
    unfold postAll
    constructor
    · exact hp.1.bind fun st1 hst => (ih st1 (hp.2 _ hst) (hT _ hst)).1
    · intro st' hst
      obtain ⟨st1, e1, e2⟩ := bind_ok_iff.1 hst
      exact (ih st1 (hp.2 _ e1) (hT _ e1)).2 _ e2

theorem loadObj_ok {L : Lib} {c : Cls} {items : List Item} {mem : MemberLoad σ} {P : PyErr → Prop}
    (hmem : MembersOk c items P mem)
    (hact : ∀ cl, .line cl ∈ items → cl.name = "ACTION".toList → Conv.alarmAction ∈ c.convs → c = alarmCls cl.value)
    (d : List (Str × Nat)) :
    Raises (fun e => Fault L c items e ∨ P e) (loadObj L mem c items (some d)) ∧
      ∀ o ctx, loadObj L mem c items (some d) = .ok (o, ctx) → ∃ d', ctx = some d' := by
  obtain ⟨p1, p2⟩ := populateItems_ok (L := L) hmem hact items (fun _ h => h) (.init L c items d)
  have hT : ∀ st1, populateItems L mem items ⟨newObj L c, [], {}, some d⟩ = .ok st1 → Conv.timespan ∈ c.convs →
      st1.span = {} ∨ Tracks items st1.span := fun st1 hst hc =>
    .inr (by simpa using populateItems_tracks hmem hact hc items [] (fun _ h => h) (.init L c items d) .nil hst)
  unfold loadObj
  constructor
  · refine p1.bind fun st1 hst => Raises.bind ?_ fun _ _ => .ok _
    exact (postAll_ok _ (fun _ h => h) (p2 _ hst) (hT _ hst)).1.mono fun _ h => .inl h
  · intro o ctx hst
    obtain ⟨st1, e1, hst⟩ := bind_ok_iff.1 hst
    obtain ⟨st2, e2, e3⟩ := bind_ok_iff.1 hst
    injection e3 with e3
    injection e3 with _ e3
    subst e3
    exact ((postAll_ok _ (fun _ h => h) (p2 _ e1) (hT _ e1)).2 _ e2).ctx

theorem alarmCls_class (s : Str) : ActionClass s (alarmCls s) := by
  unfold alarmCls
  split
  · rename_i h; subst h; exact .display
  · split
    · rename_i h; subst h; exact .audio
    · split
      · rename_i h; subst h; exact .none
      · split
        · rename_i h; subst h; exact .email
        · rename_i h1 h2 h3 h4
          refine .custom ?_
          simp only [List.map_cons, List.map_nil, List.mem_cons, List.not_mem_nil, or_false, not_or]
          exact ⟨h1, h2, h4, h3⟩

theorem loadAlarm_ok (L : Lib) (items : List Item) (d : List (Str × Nat)) :
    Raises (AlarmFault L items) (loadAlarm L items (some d)) ∧
      ∀ o ctx, loadAlarm L items (some d) = .ok (o, ctx) → ∃ d', ctx = some d' := by
  unfold loadAlarm oneItem
  have hmem : ∀ i, items.filter (fun i => i.name = "ACTION".toList) = [i] →
      i ∈ items ∧ i.name = "ACTION".toList ∧ ∀ j ∈ items, j.name = "ACTION".toList → j = i := by
    intro i hi
    have := List.mem_filter.1 (hi ▸ List.mem_cons_self .. : i ∈ items.filter fun i => i.name = "ACTION".toList)
    refine ⟨this.1, of_decide_eq_true this.2, fun j hj hn => ?_⟩
    have : j ∈ items.filter fun i => i.name = "ACTION".toList := List.mem_filter.2 ⟨hj, by simpa using hn⟩
    rw [hi] at this
    simpa using this
  split
  · rename_i i hi
    obtain ⟨h1, h2, h3⟩ := hmem i hi
    cases i with
    | line cl =>
      have key := loadObj_ok (σ := Empty) (L := L) (c := alarmCls cl.value) (items := items) (P := fun _ => False)
        (mem := fun _ _ _ => .error .notImplementedError) ?_ ?_ d
      · refine ⟨key.1.mono fun e h => ?_, key.2⟩
        exact .own h1 h2 (alarmCls_class _) (h.resolve_right id)
      · intro name is d _ hn
        have : ∀ s, componentNames (alarmCls s) = [] := by
          intro s
          have := alarmCls_class s
          generalize alarmCls s = k at this
          cases this <;> rfl
        rw [this] at hn
        cases hn
      · intro cl' hi' hn' _
        have := h3 _ hi' hn'
        injection this with this
        rw [this]
    | cont name is =>
      have hname : name = "ACTION".toList := h2
      subst hname
      exact ⟨.error (.action h1), fun _ _ h => (by cases h)⟩
  · exact ⟨.error .value, fun _ _ h => (by cases h)⟩

theorem loadEntry_ok (L : Lib) {c : Cls} (hc : c = .event ∨ c = .todo) (items : List Item) (d : List (Str × Nat)) :
    Raises (EntryFault L c items) (loadEntry L c items (some d)) ∧
      ∀ o ctx, loadEntry L c items (some d) = .ok (o, ctx) → ∃ d', ctx = some d' := by
  have key := loadObj_ok (L := L) (c := c) (items := items)
    (P := fun e => ∃ is, .cont "VALARM".toList is ∈ items ∧ AlarmFault L is e)
    (mem := fun _ items ctx => loadAlarm L items ctx) ?_ ?_ d
  · refine ⟨key.1.mono fun e h => ?_, key.2⟩
    rcases h with h | ⟨is, h1, h2⟩
    · exact .own h
    · exact .alarm h1 h2
  · intro name is d hi hn
    obtain ⟨h1, h2⟩ := loadAlarm_ok L is d
    refine ⟨h1.mono fun e h => ⟨is, ?_, h⟩, h2⟩
    have : name = "VALARM".toList := by rcases hc with rfl | rfl <;> simpa [componentNames] using hn
    rw [← this]
    exact hi
  · intro cl _ _ h
    exfalso
    rcases hc with rfl | rfl <;> exact absurd h (by decide)

theorem loadZones_raises (L : Lib) : ∀ (is : List Item) (avail : List (Str × Nat)),
    Raises (fun e => ∃ zis, .cont "VTIMEZONE".toList zis ∈ is ∧ L.tzLoad zis = .error e) (loadZones L is avail)
  | [], _ => .ok _
  | .line _ :: is, avail => (loadZones_raises L is avail).mono fun _ ⟨zis, h1, h2⟩ => ⟨zis, List.mem_cons_of_mem _ h1, h2⟩
  | .cont name zis :: is, avail => by
    unfold loadZones
    refine .ite (fun hn => ?_) fun _ =>
      (loadZones_raises L is avail).mono fun _ ⟨zis, h1, h2⟩ => ⟨zis, List.mem_cons_of_mem _ h1, h2⟩
    refine Raises.bind (fun e he => ⟨zis, ?_, he⟩) fun z _ =>
      (loadZones_raises L is _).mono fun _ ⟨zis, h1, h2⟩ => ⟨zis, List.mem_cons_of_mem _ h1, h2⟩
    rw [hn]
    exact List.mem_cons_self ..

theorem loadCalendar_raises (L : Lib) (items : List Item) : Raises (CalendarFault L items) (loadCalendar L items) := by
  unfold loadCalendar
  refine Raises.bind ((loadZones_raises L items []).mono fun e ⟨zis, h1, h2⟩ => .zone h1 h2) fun avail _ => ?_
  refine Raises.bind ?_ fun _ _ => .ok _
  have key := loadObj_ok (L := L) (c := .calendar) (items := items) (P := CalendarFault L items)
    (mem := loadCalMember L) ?_ ?_ avail
  · exact key.1.mono fun e h => h.elim (fun h => .own h) id
  · intro name is d hi hn
    simp only [componentNames, List.map_cons, List.map_nil, List.mem_cons, List.not_mem_nil, or_false] at hn
    unfold loadCalMember
    rcases hn with rfl | rfl
    · rw [if_neg (by decide)]
      obtain ⟨h1, h2⟩ := loadEntry_ok L (.inl rfl) is d
      exact ⟨h1.mono fun e h => .event hi h, h2⟩
    · rw [if_pos rfl]
      obtain ⟨h1, h2⟩ := loadEntry_ok L (.inr rfl) is d
      exact ⟨h1.mono fun e h => .todo hi h, h2⟩
  · intro cl _ _ h
    exact absurd h (by decide)

end Ics
