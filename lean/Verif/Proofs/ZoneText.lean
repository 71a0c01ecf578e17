import Verif.Spec.ZoneText
import Verif.Proofs.ReadZone
import Verif.Proofs.Unquote
import Verif.Proofs.CalText

/-
Time zones as text.
-/
namespace Ics

/-! ### Reading a VTIMEZONE does not look at quotation marks, except in recurrence lines -/

/-- The parameters of the attributes without quotation marks. -/
def unquoteExtras (d : List (Str × ExtraVal)) : List (Str × ExtraVal) := mapVals ExtraVal.unquote d

theorem prepareOne_unquote (ty : Str) (p : Params) :
    prepareOne ty (unquoteParams p) = (prepareOne ty p).map unquoteParams := by
  simp only [prepareOne, dictGet_unquote, dictErase_unquote]
  cases dictGet? p "VALUE".toList with
  | none => rfl
  | some l =>
    match l with
    | [] => rfl
    | [v] =>
      simp only [Option.map_some, List.map_cons, List.map_nil]
      split <;> rfl
    | _ :: _ :: _ => rfl

theorem setExtra_unquote (d : List (Str × ExtraVal)) (k : Str) (p : Params) :
    setExtra (unquoteExtras d) k (unquoteParams p) = unquoteExtras (setExtra d k p) := by
  unfold setExtra
  by_cases h : p = []
  · rw [if_pos h, if_pos ((unquoteParams_nil p).2 h)]
  · rw [if_neg h, if_neg fun e => h ((unquoteParams_nil p).1 e)]
    exact dictSet_mapVals ExtraVal.unquote d k (.one p)

theorem populateField_unquote {α : Type} {name ty : Str} {parse : Str → Params → Except PyErr (α × Params)}
    {parse' : Str → Except PyErr α} (hp : ∀ s p, parse s p = (parse' s).map fun v => (v, p)) (cl : ContentLine)
    (cur : Option α) (params : List (Str × ExtraVal)) :
    populateField name ty parse cl.unquote cur (unquoteExtras params) =
      (populateField name ty parse cl cur params).map fun f => ⟨f.value, unquoteExtras f.params⟩ := by
  unfold populateField
  refine nat_bind (nat_id _) fun _ => ?_
  refine nat_bind (prepareOne_unquote ty cl.params) fun p => ?_
  refine nat_bind (f := fun r => (r.1, unquoteParams r.2)) ?_ fun r => ?_
  · rw [hp, hp]
    show (parse' cl.value).map _ = _
    cases parse' cl.value <;> rfl
  · show Except.ok _ = Except.ok _
    rw [setExtra_unquote]

/-- An observance while it is read, without quotation marks. -/
def ObsState.unquote (st : ObsState) : ObsState :=
  { st with
    lines := st.lines.map ContentLine.unquote
    extra := Item.unquotes st.extra
    extraParams := unquoteExtras st.extraParams }

theorem populateObsLine_unquote (cl : ContentLine) (st : ObsState) :
    populateObsLine cl.unquote st.unquote = (populateObsLine cl st).map ObsState.unquote := by
  unfold populateObsLine
  have hn : cl.unquote.name = cl.name := rfl
  rw [hn]
  split
  · exact nat_bind (populateField_unquote parseOffsetField_eq cl st.offsetFrom st.extraParams) fun f => rfl
  split
  · exact nat_bind (populateField_unquote parseOffsetField_eq cl st.offsetTo st.extraParams) fun f => rfl
  split
  · show Except.ok _ = Except.ok _
    simp only [ObsState.unquote, List.map_append, List.map_cons, List.map_nil]
  split
  · exact nat_bind (populateField_unquote parseTextField_eq cl st.tzname st.extraParams) fun f => rfl
  split
  · exact nat_bind (populateField_unquote parseTextField_eq cl st.comment st.extraParams) fun f => rfl
  · show Except.ok _ = Except.ok _
    simp only [ObsState.unquote, Item.unquotes_append]
    rfl

theorem populateObsItem_unquote (i : Item) (st : ObsState) :
    populateObsItem i.unquote st.unquote = (populateObsItem i st).map ObsState.unquote := by
  cases i with
  | line cl =>
    rw [Item.unquote]
    exact populateObsLine_unquote cl st
  | cont n is =>
    rw [Item.unquote]
    unfold populateObsItem
    dsimp only
    split
    · rfl
    · show Except.ok _ = Except.ok _
      simp only [ObsState.unquote, Item.unquotes_append]
      rw [Item.unquotes_eq [_]]
      simp only [List.map_cons, List.map_nil, Item.unquote]

theorem populateObs_unquote (is : List Item) (st : ObsState) :
    populateObs (Item.unquotes is) st.unquote = (populateObs is st).map ObsState.unquote := by
  induction is generalizing st with
  | nil => rfl
  | cons i is ih =>
    rw [Item.unquotes, populateObs, populateObs]
    exact nat_bind (populateObsItem_unquote i st) ih

/-- The recurrence lines have no parameters. -/
def PlainObs (is : List Item) : Prop := ∀ cl, .line cl ∈ is → cl.name ∈ recurNames → cl.params = []

/-- The recurrence lines of all observances have no parameters. -/
def PlainTz (is : List Item) : Prop :=
  ∀ n js, .cont n js ∈ is → n = obsName false ∨ n = obsName true → PlainObs js

theorem unquote_plain {cl : ContentLine} (h : cl.params = []) : cl.unquote = cl := by
  obtain ⟨n, p, v⟩ := cl
  dsimp only at h
  subst h
  rfl

theorem loadObs_unquote (w : Wrap) (R : RRuleStr) (e : Env) (avail : List (Str × Nat)) (b : Bool) {is : List Item}
    (h : PlainObs is) :
    loadObs w R e avail b (Item.unquotes is) = (loadObs w R e avail b is).map unquoteObs := by
  unfold loadObs
  have h0 := populateObs_unquote is {}
  rw [show ObsState.unquote {} = {} from rfl] at h0
  rw [h0]
  cases hp : populateObs is {} with
  | error x => rfl
  | ok st =>
    show finishObs w R e avail b st.unquote = (finishObs w R e avail b st).map unquoteObs
    have hl : st.lines.map ContentLine.unquote = st.lines := by
      have hi := (obsInv_items hp).lines
      refine (List.map_congr_left (g := id) fun cl hcl => ?_).trans (List.map_id _)
      have hm : Item.line cl ∈ recurLines is := by
        rw [hi]
        exact List.mem_map_of_mem hcl
      obtain ⟨h1, h2⟩ := List.mem_filter.1 hm
      exact unquote_plain (h cl h1 (of_decide_eq_true h2))
    unfold finishObs
    refine nat_bind (nat_id _) fun a => ?_
    refine nat_bind (nat_id _) fun b' => ?_
    rw [show st.unquote.lines = st.lines from hl]
    refine nat_bind (nat_id _) fun rs => ?_
    rfl

/-- A time zone while it is read, without quotation marks. -/
def TzState.unquote (st : TzState) : TzState :=
  { st with
    observances := st.observances.map unquoteObs
    extra := Item.unquotes st.extra
    extraParams := unquoteExtras st.extraParams }

theorem populateTzLine_unquote (L : Lib) (cl : ContentLine) (st : TzState) :
    populateTzLine L cl.unquote st.unquote = (populateTzLine L cl st).map TzState.unquote := by
  unfold populateTzLine
  have hn : cl.unquote.name = cl.name := rfl
  rw [hn]
  split
  · exact nat_bind (populateField_unquote parseTextField_eq cl st.tzid st.extraParams) fun f => rfl
  split
  · rfl
  split
  · exact nat_bind (populateField_unquote (parseUrlField_eq L) cl st.tzurl st.extraParams) fun f => rfl
  split
  · refine nat_bind (nat_id _) fun _ => ?_
    refine nat_bind (prepareOne_unquote _ cl.params) fun p => ?_
    refine nat_bind (parseDt_unquote L.toWorld datetimeFormats cl.value p (some st.avail)) fun r => ?_
    show Except.ok _ = Except.ok _
    simp only [TzState.unquote, setExtra_unquote]
  · show Except.ok _ = Except.ok _
    simp only [TzState.unquote, Item.unquotes_append]
    rfl

theorem populateTzItem_unquote (L : Lib) (w : Wrap) (R : RRuleStr) (i : Item)
    (h : ∀ n js, i = .cont n js → n = obsName false ∨ n = obsName true → PlainObs js) (st : TzState) :
    populateTzItem L w R i.unquote st.unquote = (populateTzItem L w R i st).map TzState.unquote := by
  cases i with
  | line cl =>
    rw [Item.unquote]
    exact populateTzLine_unquote L cl st
  | cont n is =>
    rw [Item.unquote]
    unfold populateTzItem
    dsimp only
    split
    · rename_i hn
      refine nat_bind (loadObs_unquote w R L.toEnv st.avail false (h n is rfl (.inl hn))) fun o => ?_
      show Except.ok _ = Except.ok _
      simp only [TzState.unquote, List.map_append, List.map_cons, List.map_nil]
    split
    · rename_i hn
      refine nat_bind (loadObs_unquote w R L.toEnv st.avail true (h n is rfl (.inr hn))) fun o => ?_
      show Except.ok _ = Except.ok _
      simp only [TzState.unquote, List.map_append, List.map_cons, List.map_nil]
    split
    · rfl
    · show Except.ok _ = Except.ok _
      simp only [TzState.unquote, Item.unquotes_append]
      rw [Item.unquotes_eq [_]]
      simp only [List.map_cons, List.map_nil, Item.unquote]

theorem populateTz_unquote (L : Lib) (w : Wrap) (R : RRuleStr) (is : List Item) (h : PlainTz is) (st : TzState) :
    populateTz L w R (Item.unquotes is) st.unquote = (populateTz L w R is st).map TzState.unquote := by
  induction is generalizing st with
  | nil => rfl
  | cons i is ih =>
    rw [Item.unquotes, populateTz, populateTz]
    refine nat_bind (populateTzItem_unquote L w R i (fun n js e => h n js (e ▸ List.mem_cons_self)) st)
      (ih fun n js hm => h n js (List.mem_cons_of_mem _ hm))

theorem loadTimezone_unquote (L : Lib) (w : Wrap) (R : RRuleStr) (is : List Item) (h : PlainTz is) :
    loadTimezone L w R (Item.unquotes is) = (loadTimezone L w R is).map unquoteTz := by
  unfold loadTimezone
  refine nat_bind (f := TzState.unquote) ?_ fun st => ?_
  · exact populateTz_unquote L w R is h {}
  refine nat_bind (nat_id _) fun _ => ?_
  refine nat_bind (nat_id _) fun _ => ?_
  rfl

/-! ### Items that differ only in quotation marks -/

theorem plainObs_of {a b : List Item} (h : Item.unquotes a = Item.unquotes b) (hb : PlainObs b) : PlainObs a := by
  intro cl hm hn
  have hm' : (Item.line cl).unquote ∈ Item.unquotes b := by
    rw [← h, Item.unquotes_eq]
    exact List.mem_map_of_mem hm
  rw [Item.unquotes_eq] at hm'
  obtain ⟨i, hi, e⟩ := List.mem_map.1 hm'
  cases i with
  | cont n js =>
    rw [Item.unquote, Item.unquote] at e
    cases e
  | line cl' =>
    rw [Item.unquote, Item.unquote] at e
    have e := Item.line.inj e
    have e1 : cl'.unquote.name = cl.unquote.name := congrArg ContentLine.name e
    have e2 : cl'.unquote.params = cl.unquote.params := congrArg ContentLine.params e
    have e1 : cl'.name = cl.name := e1
    have e2 : unquoteParams cl'.params = unquoteParams cl.params := e2
    rw [hb cl' hi (e1 ▸ hn)] at e2
    exact (unquoteParams_nil _).1 e2.symm

theorem plainTz_of {a b : List Item} (h : Item.unquotes a = Item.unquotes b) (hb : PlainTz b) : PlainTz a := by
  intro n js hm hn
  have hm' : (Item.cont n js).unquote ∈ Item.unquotes b := by
    rw [← h, Item.unquotes_eq]
    exact List.mem_map_of_mem hm
  rw [Item.unquotes_eq] at hm'
  obtain ⟨i, hi, e⟩ := List.mem_map.1 hm'
  cases i with
  | line cl =>
    rw [Item.unquote, Item.unquote] at e
    cases e
  | cont n' js' =>
    rw [Item.unquote, Item.unquote] at e
    have e1 := (Item.cont.inj e).1
    have e2 := (Item.cont.inj e).2
    subst e1
    exact plainObs_of e2.symm (hb _ _ hi hn)

/-! ### What is written -/

theorem recur_plain {L : Lib} {rd ed : List DT} {start : DT} {vs xs : List Str} :
    ∀ cl ∈ ruleLines L start vs xs rd ed, cl.params = [] := by
  intro cl hcl
  unfold ruleLines at hcl
  simp only [List.mem_append, List.mem_map] at hcl
  rcases hcl with (((h | ⟨_, _, rfl⟩) | ⟨_, _, rfl⟩) | ⟨_, _, rfl⟩) | ⟨_, _, rfl⟩
  · split at h
    · exact absurd h List.not_mem_nil
    · rw [List.mem_singleton.1 h]
      rfl
  all_goals rfl

theorem dumpObs_plain {L : Lib} {w : Wrap} {R : RRuleStr} {f : RuleSet → RuleSet} {o : ObsObj} (h : RepObs L w R f o) {n : Str} {is : List Item}
    (hd : dumpObs L o = .ok (.cont n is)) : PlainObs is := by
  obtain ⟨start, vs, xs, rd, ed, text, rs', hs, hv, hx, hr, he, _⟩ := h.rules
  unfold dumpObs at hd
  simp only [bind_ok_iff] at hd
  obtain ⟨a, ha, b, hb, c, hc, d, hd', e, he', hi⟩ := hd
  cases hi
  rw [dumpRules_ok hs hv hx hr he] at hc
  cases hc
  intro cl hm hn
  have fld : ∀ {key name : Str} {t : Option Str} {js : List Item}, dumpField o.extraParams key name t = .ok js →
      upper name ∉ recurNames → Item.line cl ∉ js := fun h1 h2 hm => h2 (dumpField_shape h1 _ hm ▸ hn)
  simp only [List.mem_append] at hm
  rcases hm with ((((hm | hm) | hm) | hm) | hm) | hm
  · exact absurd hm (fld ha (by decide))
  · exact absurd hm (fld hb (by decide))
  · obtain ⟨cl', h1, h2⟩ := List.mem_map.1 hm
    cases h2
    exact recur_plain _ h1
  · exact absurd hm (fld hd' (by decide))
  · exact absurd hm (fld he' (by decide))
  · exfalso
    obtain ⟨k, hk, e⟩ := List.mem_map.1 hn
    refine h.extra _ hm k ?_ e.symm
    revert hk
    unfold obsKnown
    simp only [List.mem_cons, List.not_mem_nil, or_false]
    tauto

theorem dumpObservances_mem {L : Lib} {os : List ObsObj} {is : List Item} (h : dumpObservances L os = .ok is) :
    ∀ i ∈ is, ∃ o ∈ os, dumpObs L o = .ok i := by
  induction os generalizing is with
  | nil =>
    cases h
    exact fun _ h => absurd h List.not_mem_nil
  | cons o os ih =>
    simp only [dumpObservances, bind_ok_iff] at h
    obtain ⟨i, h1, js, h2, h⟩ := h
    cases h
    intro j hj
    rcases List.mem_cons.1 hj with rfl | hj
    · exact ⟨o, List.mem_cons_self, h1⟩
    · obtain ⟨o', h3, h4⟩ := ih h2 j hj
      exact ⟨o', List.mem_cons_of_mem _ h3, h4⟩

theorem dumpField_line {d : List (Str × ExtraVal)} {key name : Str} {t : Option Str} {is : List Item}
    (h : dumpField d key name t = .ok is) : ∀ i ∈ is, ∃ cl, i = .line cl := by
  unfold dumpField at h
  split at h
  · cases h
    exact fun _ h => absurd h List.not_mem_nil
  · rw [bind_ok_iff] at h
    obtain ⟨p, _, h⟩ := h
    cases h
    intro i hi
    exact ⟨_, List.mem_singleton.1 hi⟩

theorem dumpLastModified_line {L : Lib} {o : TzObj} {is : List Item} (h : dumpLastModified L o = .ok is) :
    ∀ i ∈ is, ∃ cl, i = .line cl := by
  unfold dumpLastModified at h
  split at h
  · cases h
    exact fun _ h => absurd h List.not_mem_nil
  · simp only [bind_ok_iff] at h
    obtain ⟨p, _, ⟨t, p', c⟩, _, h⟩ := h
    cases h
    intro i hi
    exact ⟨_, List.mem_singleton.1 hi⟩

theorem dumpTimezone_plain {L : Lib} {w : Wrap} {R : RRuleStr} {f : RuleSet → RuleSet} {z : TzObj} (h : RepTz L w R f z) {n : Str} {is : List Item}
    (hd : dumpTimezone L z = .ok (.cont n is)) : PlainTz is := by
  unfold dumpTimezone at hd
  simp only [bind_ok_iff] at hd
  obtain ⟨a, ha, _, _, b, hb, c, hc, d, hd', hi⟩ := hd
  cases hi
  intro m js hm hn
  simp only [List.mem_append] at hm
  rcases hm with (((hm | hm) | hm) | hm) | hm
  · obtain ⟨cl, e⟩ := dumpField_line ha _ hm
    cases e
  · obtain ⟨o, ho, hx⟩ := dumpObservances_mem hb _ hm
    exact dumpObs_plain (h.observances o ho) hx
  · obtain ⟨cl, e⟩ := dumpField_line hc _ hm
    cases e
  · obtain ⟨cl, e⟩ := dumpLastModified_line hd' _ hm
    cases e
  · exfalso
    rcases hn with rfl | rfl
    · exact h.extra _ hm "STANDARD" (by decide) rfl
    · exact h.extra _ hm "DAYLIGHT" (by decide) rfl

/-! ### What is written can be written as text -/

theorem extraOf_writable {d : List (Str × ExtraVal)} (h : ∀ k p, dictGet? d k = some (.one p) → WritableParams p) {k : Str}
    {p : Params} (he : extraOf d k = .ok p) : WritableParams p := by
  unfold extraOf at he
  split at he
  · cases he
    exact writableParams_nil
  · rename_i hp
    cases he
    exact h _ _ hp
  · cases he
    exact writableParams_nil
  · cases he

theorem dumpField_writable {d : List (Str × ExtraVal)} (h : ∀ k p, dictGet? d k = some (.one p) → WritableParams p)
    {key name : Str} {t : Option Str} {is : List Item} (hn : nameOk name = true) (ht : ∀ s, t = some s → NoBreak s)
    (hd : dumpField d key name t = .ok is) : WritableTrees is := by
  unfold dumpField at hd
  split at hd
  · cases hd
    exact writableTrees_nil
  · rw [bind_ok_iff] at hd
    obtain ⟨p, hp, hd⟩ := hd
    cases hd
    exact writableTrees_one (writable_line hn (extraOf_writable h hp) (ht _ rfl))

theorem noBreak_offset (us : Int) : NoBreak (utcOffsetSerialize us) := by
  have hp : ∀ n, NoBreak (pad2 n) := fun n => noBreak_digits (pad2_isDigit n)
  unfold utcOffsetSerialize
  dsimp only
  refine noBreak_cons (by split <;> decide) (noBreak_append (noBreak_append (hp _) (hp _)) ?_)
  split
  · exact hp _
  · exact noBreak_nil

theorem writableTrees_lines {l : List ContentLine} (h : ∀ cl ∈ l, WritableItemLine cl) : WritableTrees (l.map .line) := by
  induction l with
  | nil => exact writableTrees_nil
  | cons cl l ih =>
    rw [List.map_cons, WritableTrees, WritableTree]
    exact ⟨h cl List.mem_cons_self, ih fun c hc => h c (List.mem_cons_of_mem _ hc)⟩

theorem plainLine_writable {name : String} {v : Str} (hu : upper name.toList = name.toList) (hn : nameOk name.toList = true)
    (hv : NoBreak v) : WritableItemLine ⟨name.toList, [], v⟩ := by
  have := writable_line hn writableParams_nil hv
  unfold mkContentLine at this
  rw [hu] at this
  exact this

theorem forall2_noBreak {start : DT} {rs : List RRule} {vs : List Str} (h : List.Forall₂ (RuleText start) rs vs) :
    ∀ v ∈ vs, NoBreak v := by
  intro v hv
  obtain ⟨r, _, h⟩ := forall₂_mem h v hv
  exact h.2.1

theorem ruleLines_writable {L : Lib} {start : DT} {vs xs : List Str} {rd ed : List DT} (hv : ∀ v ∈ vs, NoBreak v)
    (hx : ∀ v ∈ xs, NoBreak v) : ∀ cl ∈ ruleLines L start vs xs rd ed, WritableItemLine cl := by
  intro cl hcl
  unfold ruleLines at hcl
  simp only [List.mem_append, List.mem_map] at hcl
  rcases hcl with (((h | ⟨v, hm, rfl⟩) | ⟨v, hm, rfl⟩) | ⟨_, _, rfl⟩) | ⟨_, _, rfl⟩
  · split at h
    · exact absurd h List.not_mem_nil
    · rw [List.mem_singleton.1 h]
      exact plainLine_writable (by decide) (by decide) (noBreak_datetime _ _)
  · exact plainLine_writable (by decide) (by decide) (hv v hm)
  · exact plainLine_writable (by decide) (by decide) (hx v hm)
  · exact plainLine_writable (by decide) (by decide) (noBreak_datetime _ _)
  · exact plainLine_writable (by decide) (by decide) (noBreak_datetime _ _)

theorem noBreak_escape? {t : Option Str} (s : Str) (h : t.map escapeText = some s) : NoBreak s := by
  cases t with
  | none => cases h
  | some t =>
    cases h
    exact noBreak_escape t

theorem obsName_writable (b : Bool) : WritableName (obsName b) := by
  cases b
  · exact ⟨by decide, by decide, by decide, by decide⟩
  · exact ⟨by decide, by decide, by decide, by decide⟩

theorem dumpObs_writable {L : Lib} {w : Wrap} {R : RRuleStr} {f : RuleSet → RuleSet} {o : ObsObj} (h : RepObs L w R f o)
    (hw : WritableRest o.extra o.extraParams) {i : Item} (hd : dumpObs L o = .ok i) : WritableTree i := by
  obtain ⟨start, vs, xs, rd, ed, text, rs', hs, hv, hx, hr, he, _⟩ := h.rules
  unfold dumpObs at hd
  simp only [bind_ok_iff] at hd
  obtain ⟨a, ha, b, hb, c, hc, d, hd', e, he', hi⟩ := hd
  cases hi
  rw [dumpRules_ok hs hv hx hr he] at hc
  cases hc
  rw [WritableTree]
  refine ⟨obsName_writable _, ?_⟩
  refine writableTrees_append (writableTrees_append (writableTrees_append (writableTrees_append
    (writableTrees_append ?_ ?_) ?_) ?_) ?_) hw.extra
  · exact dumpField_writable hw.params (by decide) (fun s e => by cases e; exact noBreak_offset _) ha
  · exact dumpField_writable hw.params (by decide) (fun s e => by cases e; exact noBreak_offset _) hb
  · exact writableTrees_lines (ruleLines_writable (forall2_noBreak hv) (forall2_noBreak hx))
  · exact dumpField_writable hw.params (by decide) noBreak_escape? hd'
  · exact dumpField_writable hw.params (by decide) noBreak_escape? he'

theorem serializeDt_noBreak {W : World} {d : DT} {p q : Params} {ctx ctx' : Ctx} {t : Str}
    (h : serializeDt W d p ctx = .ok (t, q, ctx')) : NoBreak t := by
  unfold serializeDt at h
  split at h
  · cases h
    exact noBreak_append (noBreak_datetime _ _) ⟨by decide, by decide⟩
  split at h
  · cases h
    exact noBreak_datetime _ _
  · split at h
    · cases h
    · cases h
      exact noBreak_datetime _ _
    · split at h
      · cases h
      · cases h
        exact noBreak_datetime _ _

theorem writableTrees_all {is : List Item} (h : ∀ i ∈ is, WritableTree i) : WritableTrees is := by
  induction is with
  | nil => exact writableTrees_nil
  | cons i is ih =>
    rw [WritableTrees]
    exact ⟨h i List.mem_cons_self, ih fun j hj => h j (List.mem_cons_of_mem _ hj)⟩

theorem dumpTimezone_writable {L : Lib} {w : Wrap} {R : RRuleStr} (hU : UtcOk L) {f : RuleSet → RuleSet} {z : TzObj} (h : RepTz L w R f z)
    (hw : WritableTz z) {i : Item} (hd : dumpTimezone L z = .ok i) : WritableTree i := by
  unfold dumpTimezone at hd
  simp only [bind_ok_iff] at hd
  obtain ⟨a, ha, _, _, b, hb, c, hc, d, hd', hi⟩ := hd
  cases hi
  rw [WritableTree]
  refine ⟨⟨by decide, by decide, by decide, by decide⟩, ?_⟩
  refine writableTrees_append (writableTrees_append (writableTrees_append (writableTrees_append ?_ ?_) ?_) ?_) hw.rest.extra
  · exact dumpField_writable hw.rest.params (by decide) (fun s e => by cases e; exact noBreak_escape _) ha
  · refine writableTrees_all fun i hi => ?_
    obtain ⟨o, ho, hx⟩ := dumpObservances_mem hb _ hi
    exact dumpObs_writable (h.observances o ho) (hw.observances o ho) hx
  · refine dumpField_writable hw.rest.params (by decide) (fun s e => ?_) hc
    cases hu : z.tzurl with
    | none =>
      rw [hu] at e
      cases e
    | some u =>
      rw [hu] at e
      cases e
      exact hw.url u hu
  · unfold dumpLastModified at hd'
    split at hd'
    · cases hd'
      exact writableTrees_nil
    · rename_i m hm
      simp only [bind_ok_iff] at hd'
      obtain ⟨p, hp, ⟨t, p', c⟩, ht, hd'⟩ := hd'
      cases hd'
      obtain ⟨hz, hr⟩ := h.modified m hm
      have hb := serializeDt_noBreak ht
      obtain ⟨t', ht', _⟩ := utc_back hU hz hr
      rw [ht'] at ht
      cases ht
      exact writableTrees_one (writable_line (by decide) (extraOf_writable hw.rest.params hp) hb)

/-! ### A time zone survives as text -/

theorem sameObs_unquote {f : RuleSet → RuleSet} {a b : ObsObj} (h : SameObs f a b) : SameObs f (unquoteObs a) (unquoteObs b) :=
  ⟨h.isDst, h.offsetFrom, h.offsetTo, h.rules, h.tzname, h.comment, congrArg Item.unquotes h.extra, fun k => by
    have e : ∀ d : List (Str × ExtraVal), dictGet? (d.map fun kv => (kv.1, kv.2.unquote)) k = (dictGet? d k).map ExtraVal.unquote :=
      fun d => dictGet_mapVals ExtraVal.unquote d k
    show dictGet? (a.extraParams.map _) k = dictGet? (b.extraParams.map _) k
    rw [e, e, h.params]⟩

theorem sameTz_unquote {f : RuleSet → RuleSet} {a b : TzObj} (h : SameTz f a b) : EqTz f a b :=
  ⟨h.tzid, by
    show List.Forall₂ (SameObs f) (a.observances.map unquoteObs) (b.observances.map unquoteObs)
    rw [List.forall₂_map_left_iff, List.forall₂_map_right_iff]
    exact h.observances.imp fun _ _ => sameObs_unquote, h.tzurl, h.lastModified, congrArg Item.unquotes h.extra, fun k => by
    have e : ∀ d : List (Str × ExtraVal), dictGet? (d.map fun kv => (kv.1, kv.2.unquote)) k = (dictGet? d k).map ExtraVal.unquote :=
      fun d => dictGet_mapVals ExtraVal.unquote d k
    show dictGet? (a.extraParams.map _) k = dictGet? (b.extraParams.map _) k
    rw [e, e, h.params]⟩

/-- What was written for a time zone, read up to quotation marks, is the same time zone. -/
theorem timezone_trip {L : Lib} {w : Wrap} {R : RRuleStr} (hU : UtcOk L) {f : RuleSet → RuleSet} {z : TzObj} (h : RepTz L w R f z) :
    ∃ is, dumpTimezone L z = .ok (.cont "VTIMEZONE".toList is) ∧
      (WritableTz z → WritableTree (.cont "VTIMEZONE".toList is)) ∧
      ∀ is', Item.unquotes is' = Item.unquotes is → ∃ z', loadTimezone L w R is' = .ok z' ∧ EqTz f z z' := by
  obtain ⟨is, z', h1, h2, h3⟩ := timezone_roundtrip hU h
  have hp := dumpTimezone_plain h h1
  refine ⟨is, h1, fun hw => dumpTimezone_writable hU h hw h1, fun is' he => ?_⟩
  have e1 := loadTimezone_unquote L w R is' (plainTz_of he hp)
  rw [he, loadTimezone_unquote L w R is hp, h2] at e1
  cases hl : loadTimezone L w R is' with
  | error e =>
    rw [hl] at e1
    cases e1
  | ok z2 =>
    rw [hl] at e1
    have e2 : unquoteTz z' = unquoteTz z2 := Except.ok.inj e1
    refine ⟨z2, rfl, ?_⟩
    unfold EqTz
    rw [← e2]
    exact sameTz_unquote h3

theorem zoneTrip_of {L : Lib} {w : Wrap} {R : RRuleStr} (hU : UtcOk L) {zs : List (Str × Nat)} {zone : Nat → TzObj}
    {f : RuleSet → RuleSet} {intern : TzObj → Nat} (hL : ZoneLib L w R f zs zone intern)
    (h : ∀ name n, dictGet? zs name = some n → RepTz L w R f (zone n) ∧ WritableTz (zone n)) :
    ∀ name n, dictGet? zs name = some n → ZoneTrip L n := by
  intro name n hn
  obtain ⟨h1, h2⟩ := h name n hn
  obtain ⟨is, k1, k2, k3⟩ := timezone_trip hU h1
  refine ⟨is, by rw [hL.dump, k1], k2 h2, fun is' he => ?_⟩
  obtain ⟨z', g1, g2⟩ := k3 is' he
  rw [hL.load, g1]
  exact congrArg Except.ok (hL.same name n hn z' g2)

end Ics
