import Verif.Proofs.Stable

/-
Loading split into reading the lines, which depends on the time zones only, and storing what was read,
which does not depend on the time zones.
-/
namespace Ics

variable {σ α β : Type}

/-- The state while a component is populated, without the time zones. -/
structure Core (σ : Type) where
  obj : Obj σ
  counts : List (Str × Nat)
  span : SpanCtx

def LState.core (st : LState σ) : Core σ := ⟨st.obj, st.counts, st.span⟩

def Core.state (c : Core σ) (ctx : Ctx) : LState σ := ⟨c.obj, c.counts, c.span, ctx⟩

def Core.count (c : Core σ) (attr : Str) : Nat := (dictGet? c.counts attr).getD 0

/-- What was read from an item. -/
inductive Delta (σ : Type) where
  | single (v : Val σ) (p : Params)
  | multi (l : List (Val σ × Params))
  | member (m : σ)
  | spanTime (v : DT) (prec : Precision) (p : Params)
  | spanDur (d : Int)
  | unit

/-- Reading an item for a converter. -/
def readConv (L : Lib) (mem : MemberLoad σ) (cv : Conv) (item : Item) (ctx : Ctx) :
    Except PyErr (Delta σ × Ctx) :=
  match cv, item with
  | .value s, .line cl =>
    if s.multi then
      prepareParams s.convs cl.params >>= fun pc =>
      parseValues L pc.2 (pc.2.split cl.value).items pc.1 ctx >>= fun r =>
      genEnd (pc.2.split cl.value).err >>= fun _ => .ok (.multi (markLast r.1), r.2)
    else
      prepareParams s.convs cl.params >>= fun pc =>
      pc.2.parse L cl.value pc.1 ctx >>= fun r => .ok (.single r.1 r.2.1, r.2.2)
  | .member _ _, .cont name items => mem name items ctx >>= fun r => .ok (.member r.1, r.2)
  | .timespan, .line cl =>
    if cl.name = "DURATION".toList then durationParse cl.value >>= fun d => .ok (.spanDur d, ctx)
    else parseSpanValue L cl ctx >>= fun r => .ok (.spanTime r.1 r.2.1 r.2.2.1, r.2.2.2)
  | _, _ => .ok (.unit, ctx)

/-- What is checked before reading. -/
def preConv (cv : Conv) (item : Item) (c : Core σ) : Except PyErr Unit :=
  match cv, item with
  | .value s, .line _ => if s.multi then .ok () else raiseIf (decide (0 < c.count s.attr))
  | .value _, .cont _ _ => .error .assertionError
  | .member _ _, .cont _ _ => .ok ()
  | .member _ _, .line _ => .error .assertionError
  | .timespan, .line cl => raiseIf (decide (cl.name ∈ c.span.seen))
  | .timespan, .cont _ _ => .error .assertionError
  | .alarmAction, .line _ => .ok ()
  | .alarmAction, .cont _ _ => .error .assertionError
  | .calendarTimezone, _ => .ok ()

/-- Storing the value of a DTSTART, DTEND or DUE line. -/
def storeSpanTime (cl : ContentLine) (v : DT) (prec : Precision) (p : Params) (c : Core σ) :
    Except PyErr (Core σ) :=
  raiseIf (decide (c.span.prec?.getD prec ≠ prec)) >>= fun _ =>
  if cl.name = "DTSTART".toList then
    .ok { c with
      obj := c.obj.setExtraParams "begin".toList p
      span := { c.span with
        seen := c.span.seen ++ [cl.name]
        prec? := some (c.span.prec?.getD prec)
        begin? := some v } }
  else
    .ok { c with
      obj := c.obj.setExtraParams (if cl.name = "DUE".toList then "due".toList else "end".toList) p
      span := { c.span with
        seen := c.span.seen ++ [cl.name]
        prec? := some (c.span.prec?.getD prec)
        end? := some v
        endName? := some (if cl.name = "DUE".toList then .due else .end_) } }

/-- Storing the value of a DURATION line. -/
def storeSpanDur (cl : ContentLine) (d : Int) (c : Core σ) : Core σ :=
  { c with
    obj := c.obj.setExtraParams "duration".toList cl.params
    span := { c.span with seen := c.span.seen ++ [cl.name], dur? := some d } }

/-- Checking and storing the parameters of an ACTION line. -/
def storeAction (cl : ContentLine) (c : Core σ) : Except PyErr (Core σ) :=
  if c.obj.cls ≠ alarmCls cl.value then .error .assertionError
  else if cl.params = [] then .ok c
  else .ok { c with obj := { c.obj with
    extraParams := dictSet c.obj.extraParams "ACTION".toList (.one cl.params) } }

/-- Storing a single value. -/
def storeSingle (L : Lib) (s : AttrSpec) (v : Val σ) (p : Params) (c : Core σ) : Except PyErr (Core σ) :=
  ((c.obj.setExtraParams s.attr p).setattr L s.attr s.check (.one v)).map fun o =>
    { c with obj := o, counts := dictSet c.counts s.attr (c.count s.attr + 1) }

/-- Storing the values of a line. -/
def storeMulti (s : AttrSpec) (l : List (Val σ × Params)) (c : Core σ) : Except PyErr (Core σ) :=
  (c.obj.appendAll s.attr l).map fun o =>
    { c with obj := o, counts := dictSet c.counts s.attr (c.count s.attr + l.length) }

/-- Storing what was read from an item. -/
def storeConv (L : Lib) (cv : Conv) (item : Item) (d : Delta σ) (c : Core σ) : Except PyErr (Core σ) :=
  match cv, item, d with
  | .value s, .line _, .single v p => if s.multi then .error .assertionError else storeSingle L s v p c
  | .value s, .line _, .multi l => if s.multi then storeMulti s l c else .error .assertionError
  | .member attr _, .cont _ _, .member m => (c.obj.appendValue attr (.comp m)).map fun o => { c with obj := o }
  | .timespan, .line cl, .spanTime v prec p => storeSpanTime cl v prec p c
  | .timespan, .line cl, .spanDur d => .ok (storeSpanDur cl d c)
  | .alarmAction, .line cl, .unit => storeAction cl c
  | .calendarTimezone, _, .unit => .ok c
  | _, _, _ => .error .assertionError

theorem markLast_length (l : List (Val σ × Params)) : (markLast l).length = l.length := by
  induction l using markLast.induct with
  | case1 => rfl
  | case2 => rfl
  | case3 x y l ih => simpa [markLast] using ih

theorem populate_split (L : Lib) (mem : MemberLoad σ) (cv : Conv) (item : Item) (c : Core σ) (ctx : Ctx) :
    cv.populate L mem item (c.state ctx) =
      (preConv cv item c >>= fun _ =>
        readConv L mem cv item ctx >>= fun r =>
        storeConv L cv item r.1 c >>= fun c' => .ok (!tzLine cv item, c'.state r.2)) := by
  cases cv with
  | value s =>
    cases item with
    | cont n is => rfl
    | line cl =>
      simp only [Conv.populate, preConv, readConv]
      cases hm : s.multi with
      | true =>
        simp only [if_true, populateMulti]
        simp only [bind, Except.bind]
        cases prepareParams s.convs cl.params with
        | error e => rfl
        | ok pc =>
          obtain ⟨p, k⟩ := pc
          dsimp only [Core.state]
          cases parseValues (σ := σ) L k (k.split cl.value).items p ctx with
          | error e => rfl
          | ok r =>
            dsimp only
            cases genEnd (k.split cl.value).err with
            | error e => rfl
            | ok u =>
              simp only [storeConv, hm, if_true, storeMulti]
              cases Obj.appendAll s.attr (markLast r.1) c.obj with
              | error e => rfl
              | ok o =>
                rw [markLast_length]
                rfl
      | false =>
        simp only [Bool.false_eq_true, if_false, populateSingle]
        simp only [bind, Except.bind]
        have : (c.state ctx).count s.attr = c.count s.attr := rfl
        rw [this]
        cases raiseIf (decide (0 < c.count s.attr)) with
        | error e => rfl
        | ok u =>
          dsimp only
          cases prepareParams s.convs cl.params with
          | error e => rfl
          | ok pc =>
            obtain ⟨p, k⟩ := pc
            dsimp only [Core.state]
            cases k.parse (σ := σ) L cl.value p ctx with
            | error e => rfl
            | ok r =>
              obtain ⟨v, p, ctx'⟩ := r
              simp only [storeConv, hm, Bool.false_eq_true, if_false, storeSingle]
              cases (c.obj.setExtraParams s.attr p).setattr L s.attr s.check (.one v) with
              | error e => rfl
              | ok o => rfl
  | member attr n =>
    cases item with
    | line cl => rfl
    | cont name items =>
      simp only [Conv.populate, preConv, readConv, populateMember]
      simp only [bind, Except.bind]
      dsimp only [Core.state]
      cases mem name items ctx with
      | error e => rfl
      | ok r =>
        dsimp only [storeConv]
        cases c.obj.appendValue attr (.comp r.1) with
        | error e => rfl
        | ok o => rfl
  | timespan =>
    cases item with
    | cont n is => rfl
    | line cl =>
      simp only [Conv.populate, preConv, readConv, populateSpan]
      simp only [bind, Except.bind]
      have : (c.state ctx).span = c.span := rfl
      rw [this]
      cases raiseIf (decide (cl.name ∈ c.span.seen)) with
      | error e => rfl
      | ok u =>
        dsimp only
        by_cases hd : cl.name = "DURATION".toList
        · rw [if_pos hd, if_pos hd]
          unfold populateSpanDuration
          simp only [bind, Except.bind]
          cases durationParse cl.value with
          | error e => rfl
          | ok d => rfl
        · rw [if_neg hd, if_neg hd]
          unfold populateSpanTime
          simp only [bind, Except.bind]
          dsimp only [Core.state]
          cases parseSpanValue L cl ctx with
          | error e => rfl
          | ok r =>
            obtain ⟨v, prec, p, ctx'⟩ := r
            dsimp only [storeConv, storeSpanTime, bind, Except.bind]
            cases raiseIf (decide (c.span.prec?.getD prec ≠ prec)) with
            | error e => rfl
            | ok u =>
              dsimp only
              by_cases hs : cl.name = "DTSTART".toList
              · rw [if_pos hs, if_pos hs]
                rfl
              · rw [if_neg hs, if_neg hs]
                simp only [decide_eq_true_eq]
                rfl
  | alarmAction =>
    cases item with
    | cont n is => rfl
    | line cl =>
      have e : (c.state ctx).obj = c.obj := rfl
      simp only [Conv.populate, preConv, readConv, populateAction, storeConv, storeAction, bind, Except.bind, e]
      by_cases h1 : c.obj.cls ≠ alarmCls cl.value
      · rw [if_pos h1, if_pos h1]
        rfl
      · rw [if_neg h1, if_neg h1]
        by_cases h2 : cl.params = []
        · rw [if_pos h2, if_pos h2]
          rfl
        · rw [if_neg h2, if_neg h2]
          rfl
  | calendarTimezone => cases item <;> rfl

/-- Members are loaded in a way that depends on the zones only through their meaning. -/
def MemStable (L : Lib) (mem : MemberLoad σ) : Prop :=
  ∀ name items, Stable L.toWorld fun ctx => mem name items ctx

theorem readConv_stable {L : Lib} {mem : MemberLoad σ} (hm : MemStable L mem) (cv : Conv) (item : Item) :
    Stable L.toWorld fun ctx => readConv L mem cv item ctx := by
  cases cv with
  | value s =>
    cases item with
    | cont n is => exact Stable.ok _ _
    | line cl =>
      simp only [readConv]
      cases s.multi with
      | true =>
        simp only [if_true]
        cases prepareParams s.convs cl.params with
        | error e => exact Stable.error _ _
        | ok pc =>
          refine Stable.bind (parseValues_stable (σ := σ) L pc.2 (pc.2.split cl.value).items pc.1)
            (g := fun r ctx => genEnd (pc.2.split cl.value).err >>= fun _ =>
              (.ok (Delta.multi (markLast r), ctx) : Except PyErr (Delta σ × Ctx))) fun r => ?_
          cases genEnd (pc.2.split cl.value).err with
          | error e => exact Stable.error _ _
          | ok u => exact Stable.ok _ _
      | false =>
        simp only [Bool.false_eq_true, if_false]
        cases prepareParams s.convs cl.params with
        | error e => exact Stable.error _ _
        | ok pc =>
          refine ((parse_stable L pc.2 cl.value pc.1).map fun r => Delta.single r.1 r.2).congr fun ctx => ?_
          simp only [regroup, bind, Except.bind]
          cases pc.2.parse (σ := σ) L cl.value pc.1 ctx <;> rfl
  | member attr n =>
    cases item with
    | line cl => exact Stable.ok _ _
    | cont name items =>
      exact Stable.bind (hm name items) (g := fun m ctx => .ok (Delta.member m, ctx)) fun m => Stable.ok _ _
  | timespan =>
    cases item with
    | cont n is => exact Stable.ok _ _
    | line cl =>
      simp only [readConv]
      by_cases hd : cl.name = "DURATION".toList
      · simp only [if_pos hd]
        cases durationParse cl.value with
        | error e => exact Stable.error _ _
        | ok d => exact Stable.ok _ _
      · simp only [if_neg hd]
        refine ((parseSpanValue_stable L cl).map fun r => Delta.spanTime r.1 r.2.1 r.2.2).congr fun ctx => ?_
        simp only [bind, Except.bind]
        cases parseSpanValue L cl ctx <;> rfl
  | alarmAction => cases item <;> exact Stable.ok _ _
  | calendarTimezone => cases item <;> exact Stable.ok _ _

/-- What reading gives, for fixed zones. -/
abbrev Reading (σ : Type) := Conv → Item → Except PyErr (Delta σ)

/-- The readings for the zones of a context. -/
def IsReading (L : Lib) (mem : MemberLoad σ) (ρ : Str → Option Nat) (rd : Reading σ) : Prop :=
  ∀ cv item ctx, ctx.isSome → L.toWorld.resolve ctx = ρ →
    Outcome L.toWorld (rd cv item) ctx (readConv L mem cv item ctx)

theorem exists_reading {L : Lib} {mem : MemberLoad σ} (hm : MemStable L mem) (ρ : Str → Option Nat) :
    ∃ rd, IsReading L mem ρ rd := by
  choose r hr using fun cv item => readConv_stable hm cv item
  exact ⟨fun cv item => r cv item ρ, fun cv item ctx h1 h2 => h2 ▸ hr cv item ctx h1⟩

/-- Populating with a converter, without the zones. -/
def coreConv (L : Lib) (rd : Reading σ) (cv : Conv) (item : Item) (c : Core σ) : Except PyErr (Core σ) :=
  preConv cv item c >>= fun _ => rd cv item >>= fun d => storeConv L cv item d c

/-- The converters of one item. -/
def coreConvs (L : Lib) (rd : Reading σ) (item : Item) : List Conv → Core σ → Except PyErr (Core σ)
  | [], c => .ok c
  | cv :: cvs, c => coreConv L rd cv item c >>= coreConvs L rd item cvs

/-- An unhandled item is kept. -/
def Core.keep (c : Core σ) (item : Item) : Core σ :=
  if unhandled c.obj.cls item then { c with obj := { c.obj with extra := c.obj.extra ++ [item] } } else c

/-- One item. -/
def coreItem (L : Lib) (rd : Reading σ) (item : Item) (c : Core σ) : Except PyErr (Core σ) :=
  (coreConvs L rd item (c.obj.cls.lookup item.name) c).map fun c' => c'.keep item

/-- All items. -/
def coreItems (L : Lib) (rd : Reading σ) : List Item → Core σ → Except PyErr (Core σ)
  | [], c => .ok c
  | i :: is, c => coreItem L rd i c >>= coreItems L rd is

/-- `Outcome` for states. -/
def OutcomeSt (w : World) (x : Except PyErr (Core σ)) (ctx : Ctx) (y : Except PyErr (LState σ)) : Prop :=
  match x with
  | .error e => y = .error e
  | .ok c => ∃ ctx', y = .ok (c.state ctx') ∧ CtxRel w ctx ctx'

theorem populate_core {L : Lib} {mem : MemberLoad σ} {ρ : Str → Option Nat} {rd : Reading σ}
    (h : IsReading L mem ρ rd) (cv : Conv) (item : Item) (c : Core σ) {ctx : Ctx} (h1 : ctx.isSome)
    (h2 : L.toWorld.resolve ctx = ρ) :
    match coreConv L rd cv item c with
    | .error e => cv.populate L mem item (c.state ctx) = .error e
    | .ok c' => ∃ ctx', cv.populate L mem item (c.state ctx) = .ok (!tzLine cv item, c'.state ctx') ∧
        CtxRel L.toWorld ctx ctx' := by
  rw [populate_split]
  unfold coreConv
  simp only [bind, Except.bind]
  cases preConv cv item c with
  | error e => rfl
  | ok u =>
    dsimp only
    have k := h cv item ctx h1 h2
    unfold Outcome at k
    cases hr : rd cv item with
    | error e =>
      rw [hr] at k
      dsimp only at k ⊢
      rw [k]
    | ok d =>
      rw [hr] at k
      obtain ⟨ctx', k, hrel⟩ := k
      rw [k]
      dsimp only
      cases storeConv L cv item d c with
      | error e => rfl
      | ok c' => exact ⟨ctx', rfl, hrel⟩

theorem populateConvs_core {L : Lib} {mem : MemberLoad σ} {ρ : Str → Option Nat} {rd : Reading σ}
    (h : IsReading L mem ρ rd) (item : Item) (cvs : List Conv) (b : Bool) (c : Core σ) {ctx : Ctx}
    (h1 : ctx.isSome) (h2 : L.toWorld.resolve ctx = ρ) :
    match coreConvs L rd item cvs c with
    | .error e => populateConvs L mem item cvs b (c.state ctx) = .error e
    | .ok c' => ∃ ctx', populateConvs L mem item cvs b (c.state ctx) =
        .ok (b || cvs.any fun cv => !tzLine cv item, c'.state ctx') ∧ CtxRel L.toWorld ctx ctx' := by
  induction cvs generalizing b c ctx with
  | nil => exact ⟨ctx, by simp [populateConvs], .refl h1⟩
  | cons cv cvs ih =>
    simp only [coreConvs, populateConvs, bind, Except.bind]
    have k := populate_core h cv item c h1 h2
    cases hc : coreConv L rd cv item c with
    | error e =>
      rw [hc] at k
      dsimp only at k ⊢
      rw [k]
    | ok c1 =>
      rw [hc] at k
      obtain ⟨ctx1, k, hrel⟩ := k
      rw [k]
      dsimp only
      have i := ih (b || !tzLine cv item) c1 hrel.2.1 (hrel.2.2 ▸ h2)
      cases hc2 : coreConvs L rd item cvs c1 with
      | error e =>
        rw [hc2] at i
        exact i
      | ok c2 =>
        rw [hc2] at i
        obtain ⟨ctx2, i, hrel2⟩ := i
        refine ⟨ctx2, ?_, hrel.trans hrel2⟩
        rw [i, List.any_cons, Bool.or_assoc]

theorem coreConv_cls {L : Lib} {rd : Reading σ} {cv : Conv} {item : Item} {c c' : Core σ}
    (h : coreConv L rd cv item c = .ok c') : SameFrame c.obj c'.obj := by
  simp only [coreConv, bind_ok_iff] at h
  obtain ⟨_, _, d, _, h⟩ := h
  unfold storeConv at h
  split at h
  · split at h
    · cases h
    simp only [storeSingle, map_ok_iff] at h
    obtain ⟨o, ho, rfl⟩ := h
    exact (setExtraParams_frame _ _ _).trans (setattr_frame ho)
  · split at h
    swap
    · cases h
    simp only [storeMulti, map_ok_iff] at h
    obtain ⟨o, ho, rfl⟩ := h
    exact appendAll_frame ho
  · rw [map_ok_iff] at h
    obtain ⟨o, ho, rfl⟩ := h
    exact appendValue_frame ho
  · simp only [storeSpanTime, bind_ok_iff] at h
    obtain ⟨_, _, h⟩ := h
    split at h <;> cases h <;> exact setExtraParams_frame _ _ _
  · cases h
    exact setExtraParams_frame _ _ _
  · unfold storeAction at h
    split at h
    · cases h
    · split at h <;> cases h <;> exact ⟨rfl, rfl, rfl⟩
  · cases h
    exact .refl _
  · cases h

theorem coreConvs_cls {L : Lib} {rd : Reading σ} {item : Item} {cvs : List Conv} {c c' : Core σ}
    (h : coreConvs L rd item cvs c = .ok c') : SameFrame c.obj c'.obj := by
  induction cvs generalizing c with
  | nil => cases h; exact .refl _
  | cons cv cvs ih =>
    simp only [coreConvs, bind_ok_iff] at h
    obtain ⟨c1, h1, h2⟩ := h
    exact (coreConv_cls h1).trans (ih h2)

theorem keep_cls (c : Core σ) (item : Item) : (c.keep item).obj.cls = c.obj.cls := by
  unfold Core.keep
  split <;> rfl

theorem coreItem_cls {L : Lib} {rd : Reading σ} {item : Item} {c c' : Core σ}
    (h : coreItem L rd item c = .ok c') : c'.obj.cls = c.obj.cls := by
  rw [coreItem, map_ok_iff] at h
  obtain ⟨c1, h1, rfl⟩ := h
  rw [keep_cls]
  exact (coreConvs_cls h1).1

theorem coreItems_cls {L : Lib} {rd : Reading σ} {items : List Item} {c c' : Core σ}
    (h : coreItems L rd items c = .ok c') : c'.obj.cls = c.obj.cls := by
  induction items generalizing c with
  | nil => cases h; rfl
  | cons i is ih =>
    simp only [coreItems, bind_ok_iff] at h
    obtain ⟨c1, h1, h2⟩ := h
    exact (ih h2).trans (coreItem_cls h1)

theorem populateItem_core {L : Lib} {mem : MemberLoad σ} {ρ : Str → Option Nat} {rd : Reading σ}
    (h : IsReading L mem ρ rd) (item : Item) (c : Core σ) {ctx : Ctx} (h1 : ctx.isSome)
    (h2 : L.toWorld.resolve ctx = ρ) :
    OutcomeSt L.toWorld (coreItem L rd item c) ctx (populateItem L mem item (c.state ctx)) := by
  have k := populateConvs_core h item (c.obj.cls.lookup item.name) false c h1 h2
  simp only [coreItem, populateItem, bind, Except.bind, OutcomeSt]
  have e : (c.state ctx).obj.cls = c.obj.cls := rfl
  rw [e]
  cases hc : coreConvs L rd item (c.obj.cls.lookup item.name) c with
  | error e =>
    rw [hc] at k
    dsimp only [Except.map] at k ⊢
    rw [k]
  | ok c1 =>
    rw [hc] at k
    obtain ⟨ctx1, k, hrel⟩ := k
    dsimp only [Except.map]
    rw [k]
    refine ⟨ctx1, ?_, hrel⟩
    rw [Bool.false_or, consumed_iff]
    dsimp only
    unfold Core.keep
    rw [(coreConvs_cls hc).1]
    cases unhandled c.obj.cls item <;> rfl

theorem populateItems_core {L : Lib} {mem : MemberLoad σ} {ρ : Str → Option Nat} {rd : Reading σ}
    (h : IsReading L mem ρ rd) (items : List Item) (c : Core σ) {ctx : Ctx} (h1 : ctx.isSome)
    (h2 : L.toWorld.resolve ctx = ρ) :
    OutcomeSt L.toWorld (coreItems L rd items c) ctx (populateItems L mem items (c.state ctx)) := by
  induction items generalizing c ctx with
  | nil => exact ⟨ctx, rfl, .refl h1⟩
  | cons i is ih =>
    have k := populateItem_core h i c h1 h2
    simp only [coreItems, populateItems, bind, Except.bind]
    unfold OutcomeSt at k ⊢
    cases hc : coreItem L rd i c with
    | error e =>
      rw [hc] at k
      dsimp only at k ⊢
      rw [k]
    | ok c1 =>
      rw [hc] at k
      obtain ⟨ctx1, k, hrel⟩ := k
      rw [k]
      dsimp only
      have i2 := ih c1 hrel.2.1 (hrel.2.2 ▸ h2)
      unfold OutcomeSt at i2
      cases hc2 : coreItems L rd is c1 with
      | error e =>
        rw [hc2] at i2
        exact i2
      | ok c2 =>
        rw [hc2] at i2
        obtain ⟨ctx2, i2, hrel2⟩ := i2
        exact ⟨ctx2, i2, hrel.trans hrel2⟩

/-- Post-processing, without the zones. -/
def corePost (L : Lib) (cv : Conv) (c : Core σ) : Except PyErr (Core σ) :=
  (cv.post L (c.state none)).map LState.core

def corePostAll (L : Lib) : List Conv → Core σ → Except PyErr (Core σ)
  | [], c => .ok c
  | cv :: cvs, c => corePost L cv c >>= corePostAll L cvs

theorem post_core (L : Lib) (cv : Conv) (c : Core σ) (ctx : Ctx) :
    cv.post L (c.state ctx) = (corePost L cv c).map fun c' => c'.state ctx := by
  unfold corePost Conv.post
  cases cv with
  | value s =>
    have e : (c.state ctx).count s.attr = c.count s.attr := rfl
    have e' : (c.state none).count s.attr = c.count s.attr := rfl
    dsimp only
    rw [e, e']
    cases (s.required && c.count s.attr == 0) <;> rfl
  | timespan =>
    simp only [postSpan, bind, Except.bind]
    have e : (c.state ctx).span = c.span := rfl
    have e' : (c.state none).span = c.span := rfl
    have f : (c.state ctx).obj = c.obj := rfl
    have f' : (c.state none).obj = c.obj := rfl
    rw [e, e', f, f']
    cases L.mkSpan ⟨c.obj.cls.spanCls, c.span.begin?, c.span.end?, c.span.dur?, c.span.prec?.getD (.other [])⟩ with
    | error e => rfl
    | ok s =>
      dsimp only
      cases raiseIf (decide (c.span.endName?.getD c.obj.cls.spanCls.endName ≠ c.obj.cls.spanCls.endName)) with
      | error e => rfl
      | ok u =>
        dsimp only
        cases c.obj.setattr L "timespan".toList (.timespan c.obj.cls.spanCls) (.one (.span s)) <;> rfl
  | member a b => rfl
  | alarmAction => rfl
  | calendarTimezone => rfl

theorem postAll_core (L : Lib) (cvs : List Conv) (c : Core σ) (ctx : Ctx) :
    postAll L cvs (c.state ctx) = (corePostAll L cvs c).map fun c' => c'.state ctx := by
  induction cvs generalizing c with
  | nil => rfl
  | cons cv cvs ih =>
    simp only [postAll, corePostAll, post_core, bind, Except.bind]
    cases corePost L cv c with
    | error e => rfl
    | ok c1 => exact ih c1

/-- A new component. -/
def Core.new (L : Lib) (c : Cls) : Core σ := ⟨newObj L c, [], {}⟩

/-- Loading, without the zones. -/
def coreLoad (L : Lib) (rd : Reading σ) (c : Cls) (items : List Item) : Except PyErr (Obj σ) :=
  coreItems L rd items (.new L c) >>= fun k => (corePostAll L c.convs k).map Core.obj

theorem loadObj_core {L : Lib} {mem : MemberLoad σ} {ρ : Str → Option Nat} {rd : Reading σ}
    (h : IsReading L mem ρ rd) (c : Cls) (items : List Item) {ctx : Ctx} (h1 : ctx.isSome)
    (h2 : L.toWorld.resolve ctx = ρ) :
    Outcome L.toWorld (coreLoad L rd c items) ctx (loadObj L mem c items ctx) := by
  have k := populateItems_core h items (.new L c) h1 h2
  simp only [coreLoad, loadObj, bind, Except.bind]
  unfold OutcomeSt at k
  unfold Outcome
  have e : (⟨newObj L c, [], {}, ctx⟩ : LState σ) = (Core.new L c).state ctx := rfl
  rw [e]
  cases hc : coreItems L rd items (.new L c) with
  | error e =>
    rw [hc] at k
    dsimp only at k ⊢
    rw [k]
  | ok c1 =>
    rw [hc] at k
    obtain ⟨ctx1, k, hrel⟩ := k
    rw [k]
    dsimp only
    rw [postAll_core]
    cases corePostAll L c.convs c1 with
    | error e => rfl
    | ok c2 => exact ⟨ctx1, rfl, hrel⟩

theorem loadObj_stable {L : Lib} {mem : MemberLoad σ} (hm : MemStable L mem) (c : Cls) (items : List Item) :
    Stable L.toWorld fun ctx => loadObj L mem c items ctx := by
  choose rd hrd using fun ρ => exists_reading hm ρ
  exact ⟨fun ρ => coreLoad L (rd ρ) c items, fun ctx hc => loadObj_core (hrd _) c items hc rfl⟩

theorem loadAlarm_stable (L : Lib) (items : List Item) :
    Stable L.toWorld fun ctx => loadAlarm L items ctx := by
  unfold loadAlarm
  cases oneItem items "ACTION".toList with
  | error e => exact Stable.error _ _
  | ok i =>
    cases i with
    | cont n is => exact Stable.error _ _
    | line cl => exact loadObj_stable (fun _ _ => Stable.error _ _) _ _

theorem loadEntry_stable (L : Lib) (c : Cls) (items : List Item) :
    Stable L.toWorld fun ctx => loadEntry L c items ctx :=
  loadObj_stable (fun _ items => loadAlarm_stable L items) _ _

theorem loadCalMember_stable (L : Lib) : MemStable L (loadCalMember L) :=
  fun _ items => loadEntry_stable L _ items

end Ics
