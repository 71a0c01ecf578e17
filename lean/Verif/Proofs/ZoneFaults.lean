import Verif.Proofs.FaultSpan
import Verif.Proofs.ReadZone
import Verif.Proofs.Tree
import Verif.Spec.ZoneFaults

/-
Which exceptions reading a VTIMEZONE raises.
-/
namespace Ics

/-! ### Fields -/

theorem prepareOne_value (ty : Str) (p : Params) : OnlyValue (prepareOne ty p) := by
  unfold prepareOne
  dsimp only
  split
  · exact .ite (fun _ => .ok _) fun _ => .error rfl
  · exact .error rfl
  · exact .ok _

theorem populateField_value {α : Type} {name ty : Str} {parse : Str → Params → Except PyErr (α × Params)}
    (hp : ∀ s p, OnlyValue (parse s p)) (cl : ContentLine) (cur : Option α) (params : List (Str × ExtraVal)) :
    OnlyValue (populateField name ty parse cl cur params) := by
  unfold populateField
  exact (raiseIf_value _).bind fun _ _ => (prepareOne_value _ _).bind fun _ _ => (hp _ _).bind fun _ _ => .ok _

theorem parseOffsetField_value (s : Str) (p : Params) : OnlyValue (parseOffsetField s p) :=
  Raises.map fun e h => C76_offset_errors s e h

theorem parseTextField_value (s : Str) (p : Params) : OnlyValue (parseTextField s p) := (unescapeText_value s).map

theorem parseUrlField_value (L : Lib) (s : Str) (p : Params) : OnlyValue (parseUrlField L s p) := (urlparse_value _ s).map

theorem required_value {α : Type} (v : Option α) : OnlyValue (required v) := by
  cases v with
  | none => exact .error rfl
  | some v => exact .ok _

/-! ### Dates -/

theorem lt_raises (e : Env) (a b : DT) : Raises (fun x => x = .typeError ∧ (a.tz.isSome ↔ ¬ b.tz.isSome)) (e.lt a b) := by
  unfold Env.lt Env.cmp
  exact (sub_raises e a b).map

theorem mixed_of {l : List DT} {a b : DT} (ha : a ∈ l) (hb : b ∈ l) (h : a.tz.isSome ↔ ¬ b.tz.isSome) : MixedZones l := by
  by_cases h1 : a.tz.isSome
  · exact ⟨⟨a, ha, h1⟩, b, hb, by simpa using h.1 h1⟩
  · refine ⟨⟨b, hb, ?_⟩, a, ha, by simpa using h1⟩
    by_cases h2 : b.tz.isSome
    · exact h2
    · exact absurd (h.2 h2) h1

theorem insertDt_raises (e : Env) (x : DT) (l : List DT) :
    Raises (fun y => y = .typeError ∧ MixedZones (x :: l)) (insertDt e x l) := by
  have key : ∀ l' : List DT, (∀ d ∈ l', d ∈ l) → Raises (fun y => y = .typeError ∧ MixedZones (x :: l)) (insertDt e x l') := by
    intro l'
    induction l' with
    | nil => exact fun _ => .ok _
    | cons y ys ih =>
      intro hl
      unfold insertDt
      refine Raises.bind ((lt_raises e x y).mono fun z hz => ⟨hz.1, mixed_of List.mem_cons_self
        (List.mem_cons_of_mem _ (hl y List.mem_cons_self)) hz.2⟩) fun b _ => ?_
      exact .ite (fun _ => .ok _) fun _ => (ih fun d hd => hl d (List.mem_cons_of_mem _ hd)).bind fun _ _ => .ok _
  exact key l fun _ h => h

theorem sortDts_raises (e : Env) (xs acc : List DT) :
    Raises (fun y => y = .typeError ∧ MixedZones (acc ++ xs)) (sortDts e acc xs) := by
  induction xs generalizing acc with
  | nil => exact .ok _
  | cons x xs ih =>
    unfold sortDts
    have sub : ∀ {l m : List DT}, (∀ d ∈ l, d ∈ m) → MixedZones l → MixedZones m :=
      fun h ⟨⟨a, ha, h1⟩, b, hb, h2⟩ => ⟨⟨a, h a ha, h1⟩, b, h b hb, h2⟩
    refine Raises.bind ((insertDt_raises e x acc).mono fun y hy => ⟨hy.1, sub ?_ hy.2⟩) fun acc' ha => ?_
    · intro d hd
      rcases List.mem_cons.1 hd with rfl | hd
      · simp
      · exact List.mem_append_left _ hd
    · refine (ih acc').mono fun y hy => ⟨hy.1, sub (fun d hd => ?_) hy.2⟩
      rcases List.mem_append.1 hd with hd | hd
      · rcases (insertDt_mem ha d).1 hd with rfl | hd
        · simp
        · exact List.mem_append_left _ hd
      · exact List.mem_append_right _ (List.mem_cons_of_mem _ hd)

theorem normDates_raises (e : Env) (l : List DT) : Raises (fun y => y = .typeError ∧ MixedZones l) (normDates e l) :=
  (sortDts_raises e l []).map

/-! ### Observances -/

theorem recurText_ok {w : Wrap} (hw : w.ok) (l : List ContentLine) : ∃ t, recurText w l = .ok t := by
  induction l with
  | nil => exact ⟨_, rfl⟩
  | cons cl l ih =>
    obtain ⟨t, ht⟩ := ih
    obtain ⟨ps, h1, -⟩ := physLines_folded w hw (serUnwrapped cl ++ crlf)
      (fun e => serUnwrapped_ne cl (List.append_eq_nil_iff.1 e).1)
    unfold recurText serText
    rw [ht, if_pos rfl, h1]
    exact ⟨_, rfl⟩

theorem recurrenceLines_eq {items : List Item} {ls : List ContentLine} (h : recurLines items = ls.map .line) :
    recurrenceLines items = ls := by
  induction items generalizing ls with
  | nil =>
    cases ls with
    | nil => rfl
    | cons _ _ => cases h
  | cons i is ih =>
    unfold recurLines at h
    unfold recurrenceLines
    by_cases hi : i.name ∈ recurrenceNames
    · rw [List.filter_cons_of_pos (by exact decide_eq_true hi)] at h
      cases ls with
      | nil => cases h
      | cons l ls =>
        rw [List.map_cons] at h
        injection h with h1 h2
        subst h1
        rw [List.filterMap_cons]
        have : l.name ∈ recurrenceNames := hi
        dsimp only
        rw [if_pos this]
        exact congrArg _ (ih h2)
    · rw [List.filter_cons_of_neg (by intro h; exact hi (of_decide_eq_true h))] at h
      rw [List.filterMap_cons]
      cases i with
      | line cl =>
        have : cl.name ∉ recurrenceNames := hi
        dsimp only
        rw [if_neg this]
        exact ih h
      | cont n is' => exact ih h

theorem populateObsItem_raises {w : Wrap} {R : RRuleStr} {items : List Item} {i : Item} (hi : i ∈ items) (st : ObsState) :
    Raises (ObsFault w R items) (populateObsItem i st) := by
  have hv : ∀ {α : Type} {r : Except PyErr α}, OnlyValue r → Raises (ObsFault w R items) r :=
    fun h => h.mono fun e he => he ▸ .value
  cases i with
  | line cl =>
    unfold populateObsItem populateObsLine
    refine .ite (fun _ => (hv (populateField_value parseOffsetField_value _ _ _)).bind fun _ _ => .ok _) fun _ => ?_
    refine .ite (fun _ => (hv (populateField_value parseOffsetField_value _ _ _)).bind fun _ _ => .ok _) fun _ => ?_
    refine .ite (fun _ => .ok _) fun _ => ?_
    refine .ite (fun _ => (hv (populateField_value parseTextField_value _ _ _)).bind fun _ _ => .ok _) fun _ => ?_
    exact .ite (fun _ => (hv (populateField_value parseTextField_value _ _ _)).bind fun _ _ => .ok _) fun _ => .ok _
  | cont n is =>
    unfold populateObsItem
    refine .ite (fun hn => .error (.kind hi ?_)) fun _ => .ok _
    have h1 : ∀ k ∈ obsNames, k ∈ observanceNames := by decide
    have h2 : ∀ k ∈ recurNames, k ∈ observanceNames := by decide
    exact hn.elim (h1 n) (h2 n)

theorem populateObs_raises {w : Wrap} {R : RRuleStr} {items is : List Item} (hi : ∀ i ∈ is, i ∈ items) (st : ObsState) :
    Raises (ObsFault w R items) (populateObs is st) := by
  induction is generalizing st with
  | nil => exact .ok _
  | cons i is ih =>
    exact (populateObsItem_raises (hi i List.mem_cons_self) st).bind fun st' _ =>
      ih (fun j hj => hi j (List.mem_cons_of_mem _ hj)) st'

theorem loadObs_raises {w : Wrap} (hw : w.ok) (R : RRuleStr) (e : Env) (avail : List (Str × Nat)) (b : Bool)
    (items : List Item) : Raises (ObsFault w R items) (loadObs w R e avail b items) := by
  have hv : ∀ {α : Type} {r : Except PyErr α}, OnlyValue r → Raises (ObsFault w R items) r :=
    fun h => h.mono fun e he => he ▸ .value
  unfold loadObs
  refine (populateObs_raises (fun _ h => h) _).bind fun st hst => ?_
  have hl := recurrenceLines_eq (obsInv_items hst).lines
  unfold finishObs
  refine (hv (required_value _)).bind fun _ _ => (hv (required_value _)).bind fun _ _ => Raises.bind ?_ fun _ _ => .ok _
  unfold readRules
  refine .ite (fun h => .error (.noRules (by rw [hl, h]))) fun _ => ?_
  obtain ⟨t, ht⟩ := recurText_ok hw st.lines
  refine Raises.bind (by rw [ht]; exact .ok _) fun text htext => ?_
  have htext' : recurText w (recurrenceLines items) = .ok text := by rw [hl, htext]
  refine Raises.bind (fun x hx => .rules htext' hx) fun rs hrs => ?_
  refine ((normDates_raises e rs.rdate).mono fun x hx => hx.1 ▸ .mixed htext' hrs (.inl hx.2)).bind fun _ _ => ?_
  exact ((normDates_raises e rs.exdate).mono fun x hx => hx.1 ▸ .mixed htext' hrs (.inr hx.2)).bind fun _ _ => .ok _

/-! ### Time zones -/

/-- The time of change so far comes from a line. -/
def ModifiedFrom (items : List Item) (d : Option DT) : Prop :=
  ∀ x, d = some x → ∃ cl, .line cl ∈ items ∧ cl.name = "LAST-MODIFIED".toList ∧
    ∃ y m d h n s, DateTimeText (stripped cl.value) y m d h n s ∧ x.wall = clock y m d h n s ∧ x.fold = false ∧
      (x.tz.isSome ↔ Zoned cl)

theorem populateTzItem_raises {L : Lib} {w : Wrap} (hw : w.ok) {R : RRuleStr} {items : List Item} {i : Item} (hi : i ∈ items)
    (st : TzState) : Raises (ZoneFault L w R items) (populateTzItem L w R i st) := by
  have hv : ∀ {α : Type} {r : Except PyErr α}, OnlyValue r → Raises (ZoneFault L w R items) r :=
    fun h => h.mono fun e he => he ▸ .value
  cases i with
  | line cl =>
    unfold populateTzItem populateTzLine
    refine .ite (fun _ => (hv (populateField_value parseTextField_value _ _ _)).bind fun _ _ => .ok _) fun _ => ?_
    refine .ite (fun h => .error (.kindLine hi h)) fun _ => ?_
    refine .ite (fun _ => (hv (populateField_value (parseUrlField_value L) _ _ _)).bind fun _ _ => .ok _) fun _ => ?_
    refine .ite (fun hn => ?_) fun _ => .ok _
    refine (hv (raiseIf_value _)).bind fun _ _ => (hv (prepareOne_value _ _)).bind fun p _ => ?_
    refine ((parseDt_raises _ _ _ _ _).mono fun e he => ?_).bind fun _ _ => .ok _
    rcases he with rfl | ⟨rfl, he⟩
    · exact .value
    · exact .empty hi hn he
  | cont n is =>
    unfold populateTzItem
    refine .ite (fun hn => ((loadObs_raises hw R _ _ _ is).mono fun e he => .observance hi (.inl hn) he).bind fun _ _ => .ok _)
      fun _ => ?_
    refine .ite (fun hn => ((loadObs_raises hw R _ _ _ is).mono fun e he => .observance hi (.inr hn) he).bind fun _ _ => .ok _)
      fun _ => ?_
    exact .ite (fun hn => .error (.kind hi hn)) fun _ => .ok _

theorem populateTzItem_modified {L : Lib} {w : Wrap} {R : RRuleStr} {items : List Item} {i : Item} (hi : i ∈ items)
    {st st' : TzState} (h : ModifiedFrom items st.lastModified) (he : populateTzItem L w R i st = .ok st') :
    ModifiedFrom items st'.lastModified := by
  cases i with
  | line cl =>
    unfold populateTzItem populateTzLine at he
    dsimp only at he
    by_cases h1 : cl.name = "TZID".toList
    · rw [if_pos h1, bind_ok_iff] at he
      obtain ⟨f, -, he⟩ := he
      injection he with he
      subst he
      exact h
    rw [if_neg h1] at he
    by_cases h2 : cl.name = obsName false ∨ cl.name = obsName true
    · rw [if_pos h2] at he
      cases he
    rw [if_neg h2] at he
    by_cases h3 : cl.name = "TZURL".toList
    · rw [if_pos h3, bind_ok_iff] at he
      obtain ⟨f, -, he⟩ := he
      injection he with he
      subst he
      exact h
    rw [if_neg h3] at he
    by_cases h4 : cl.name = "LAST-MODIFIED".toList
    · rw [if_pos h4, bind_ok_iff] at he
      obtain ⟨_, -, he⟩ := he
      rw [bind_ok_iff] at he
      obtain ⟨p, hp, he⟩ := he
      rw [bind_ok_iff] at he
      obtain ⟨⟨d, q, ctx⟩, hd, he⟩ := he
      injection he with he
      subst he
      rw [prepareOne_params hp] at hd
      obtain ⟨-, -, hx⟩ := parseDt_line (by decide) hd
      intro x hx'
      injection hx' with hx'
      subst hx'
      exact ⟨cl, hi, h4, hx⟩
    rw [if_neg h4] at he
    injection he with he
    subst he
    exact h
  | cont n is =>
    unfold populateTzItem at he
    dsimp only at he
    by_cases h1 : n = obsName false
    · rw [if_pos h1, bind_ok_iff] at he
      obtain ⟨o, -, he⟩ := he
      injection he with he
      subst he
      exact h
    rw [if_neg h1] at he
    by_cases h2 : n = obsName true
    · rw [if_pos h2, bind_ok_iff] at he
      obtain ⟨o, -, he⟩ := he
      injection he with he
      subst he
      exact h
    rw [if_neg h2] at he
    by_cases h3 : n ∈ tzNames
    · rw [if_pos h3] at he
      cases he
    rw [if_neg h3] at he
    injection he with he
    subst he
    exact h

theorem populateTz_raises {L : Lib} {w : Wrap} (hw : w.ok) {R : RRuleStr} {items is : List Item} (hi : ∀ i ∈ is, i ∈ items)
    {st : TzState} (h : ModifiedFrom items st.lastModified) :
    Raises (ZoneFault L w R items) (populateTz L w R is st) ∧
      ∀ st', populateTz L w R is st = .ok st' → ModifiedFrom items st'.lastModified := by
  induction is generalizing st with
  | nil => exact ⟨.ok _, fun st' hs => by injection hs with hs; subst hs; exact h⟩
  | cons i is ih =>
    unfold populateTz
    have hm := hi i List.mem_cons_self
    refine ⟨(populateTzItem_raises hw hm st).bind fun st1 h1 =>
      (ih (fun j hj => hi j (List.mem_cons_of_mem _ hj)) (populateTzItem_modified hm h h1)).1, fun st' hs => ?_⟩
    obtain ⟨st1, h1, h2⟩ := bind_ok_iff.1 hs
    exact (ih (fun j hj => hi j (List.mem_cons_of_mem _ hj)) (populateTzItem_modified hm h h1)).2 st' h2

theorem loadTimezone_raises {w : Wrap} (hw : w.ok) (L : Lib) (R : RRuleStr) (items : List Item) :
    Raises (ZoneFault L w R items) (loadTimezone L w R items) := by
  have hv : ∀ {α : Type} {r : Except PyErr α}, OnlyValue r → Raises (ZoneFault L w R items) r :=
    fun h => h.mono fun e he => he ▸ .value
  obtain ⟨h1, h2⟩ := populateTz_raises (L := L) hw (R := R) (items := items) (fun _ h => h) (st := {})
    (fun x hx => by cases hx)
  unfold loadTimezone
  refine h1.bind fun st hst => (hv (required_value _)).bind fun _ _ => Raises.bind ?_ fun _ _ => .ok _
  cases hm : st.lastModified with
  | none => exact .ok _
  | some x =>
    obtain ⟨cl, hi, hn, y, m, d, h, n, s, ht, hwall, hfo, hz⟩ := h2 st hst x hm
    refine Raises.map fun e he => ?_
    obtain ⟨rfl, hu⟩ := astimezone_raises _ _ _ e he
    refine .stamp (tz := x.tz) hi hn ht hz ?_
    dsimp only at hu ⊢
    rw [hwall, hfo] at hu
    rcases hu with hu | hu
    · exact .inl (outOfYears_of hu)
    · exact .inr (outOfYears_of hu)

/-! ### What is accepted -/

theorem linesOf_of {name : String} {items : List Item} {cl : ContentLine}
    (h : items.filter (fun i => i.name = name.toList) = [.line cl]) : linesOf name.toList items = [cl] := by
  have key : ∀ (is : List Item) (ls : List ContentLine), is.filter (fun i => i.name = name.toList) = ls.map .line →
      linesOf name.toList is = ls := by
    intro is
    induction is with
    | nil =>
      intro ls h
      cases ls with
      | nil => rfl
      | cons _ _ => cases h
    | cons i is ih =>
      intro ls h
      unfold linesOf
      by_cases hi : i.name = name.toList
      · rw [List.filter_cons_of_pos (by exact decide_eq_true hi)] at h
        cases ls with
        | nil => cases h
        | cons l ls =>
          rw [List.map_cons] at h
          injection h with h1 h2
          subst h1
          rw [List.filterMap_cons]
          have : l.name = name.toList := hi
          dsimp only
          rw [if_pos this]
          exact congrArg _ (ih ls h2)
      · rw [List.filter_cons_of_neg (by intro h; exact hi (of_decide_eq_true h))] at h
        rw [List.filterMap_cons]
        cases i with
        | line cl =>
          have : cl.name ≠ name.toList := hi
          dsimp only
          rw [if_neg this]
          exact ih ls h
        | cont n is' => exact ih ls h
  exact key items [cl] h

theorem linesOf_none {name : String} {items : List Item} (h : ∀ i ∈ items, i.name ≠ name.toList) :
    linesOf name.toList items = [] := by
  unfold linesOf
  rw [List.filterMap_eq_nil_iff]
  intro i hi
  cases i with
  | line cl => exact if_neg (h _ hi)
  | cont n is => rfl

section
variable {α : Type} {items : List Item} {name : String} {parse : Str → Except PyErr α} {v : Option α} {params : Option ExtraVal}

theorem FromLine.atMost (h : FromLine items name parse v params) : (linesOf name.toList items).length ≤ 1 := by
  cases v with
  | none => rw [linesOf_none h.1]; exact Nat.zero_le _
  | some v =>
    obtain ⟨cl, h1, -, -⟩ := h
    rw [linesOf_of h1]
    exact Nat.le_refl _

theorem FromLine.noComponent (h : FromLine items name parse v params) {is : List Item} :
    Item.cont name.toList is ∉ items := by
  intro hm
  cases v with
  | none => exact h.1 _ hm rfl
  | some v =>
    obtain ⟨cl, h1, -, -⟩ := h
    have : Item.cont name.toList is ∈ items.filter (fun i => i.name = name.toList) :=
      List.mem_filter.2 ⟨hm, decide_eq_true rfl⟩
    rw [h1] at this
    cases List.mem_singleton.1 this

end

theorem readObs_fine {w : Wrap} {R : RRuleStr} {e : Env} {avail : List (Str × Nat)} {items : List Item} {o : ObsObj}
    (h : ReadObs w R e avail items o) : FineObservance items := by
  have hr : ∀ i ∈ recurLines items, ∃ cl, i = Item.line cl := by
    obtain ⟨cls, _, _, he, _⟩ := h.rules.read
    intro i hi
    rw [he] at hi
    obtain ⟨cl, _, e⟩ := List.mem_map.1 hi
    exact ⟨cl, e.symm⟩
  refine ⟨?_, ?_, ?_, ?_, h.tzname.atMost, h.comment.atMost⟩
  · intro n is hm hn
    have : ∀ k ∈ observanceNames, k = "TZOFFSETFROM".toList ∨ k = "TZOFFSETTO".toList ∨ k = "TZNAME".toList ∨
        k = "COMMENT".toList ∨ k ∈ recurrenceNames := by decide
    rcases this n hn with rfl | rfl | rfl | rfl | hk
    · exact h.offsetFrom.noComponent hm
    · exact h.offsetTo.noComponent hm
    · exact h.tzname.noComponent hm
    · exact h.comment.noComponent hm
    · obtain ⟨cl, hcl⟩ := hr _ (List.mem_filter.2 ⟨hm, decide_eq_true hk⟩)
      cases hcl
  · intro hn
    refine h.rules.some ?_
    unfold recurLines
    rw [List.filter_eq_nil_iff]
    intro i hi hd
    have hk : i.name ∈ recurrenceNames := of_decide_eq_true hd
    obtain ⟨cl, rfl⟩ := hr i (List.mem_filter.2 ⟨hi, hd⟩)
    have : cl ∈ recurrenceLines items := List.mem_filterMap.2 ⟨_, hi, by dsimp only; exact if_pos hk⟩
    rw [hn] at this
    cases this
  · obtain ⟨cl, h1, h2, -⟩ := h.offsetFrom
    obtain ⟨v, hv, -⟩ := (C76_offset _ _).1 h2
    exact ⟨cl, v, linesOf_of h1, hv⟩
  · obtain ⟨cl, h1, h2, -⟩ := h.offsetTo
    obtain ⟨v, hv, -⟩ := (C76_offset _ _).1 h2
    exact ⟨cl, v, linesOf_of h1, hv⟩

/-- There is at most one item of the name LAST-MODIFIED, and it is a line with a time. -/
def ModifiedOnce (items : List Item) (d : Option DT) : Prop :=
  match d with
  | none => ∀ i ∈ items, i.name ≠ "LAST-MODIFIED".toList
  | some _ => ∃ cl, items.filter (fun i => i.name = "LAST-MODIFIED".toList) = [.line cl] ∧
      ∃ y m d h n s, DateTimeText (stripped cl.value) y m d h n s

theorem ModifiedOnce.other {items : List Item} {d : Option DT} (h : ModifiedOnce items d) {i : Item}
    (hi : i.name ≠ "LAST-MODIFIED".toList) : ModifiedOnce (items ++ [i]) d := by
  cases d with
  | none =>
    intro j hj
    rcases List.mem_append.1 hj with hj | hj
    · exact h j hj
    · rw [List.mem_singleton.1 hj]
      exact hi
  | some v =>
    obtain ⟨cl, h1, h2⟩ := h
    refine ⟨cl, ?_, h2⟩
    rw [List.filter_append, h1, List.filter_cons_of_neg (by intro h; exact hi (of_decide_eq_true h))]
    rfl

theorem populateTzItem_once {L : Lib} {w : Wrap} {R : RRuleStr} {items : List Item} {i : Item}
    {st st' : TzState} (h : ModifiedOnce items st.lastModified) (he : populateTzItem L w R i st = .ok st') :
    ModifiedOnce (items ++ [i]) st'.lastModified := by
  cases i with
  | line cl =>
    have nm : (Item.line cl).name = cl.name := rfl
    unfold populateTzItem populateTzLine at he
    dsimp only at he
    by_cases h1 : cl.name = "TZID".toList
    · rw [if_pos h1, bind_ok_iff] at he
      obtain ⟨f, -, he⟩ := he
      injection he with he
      subst he
      exact h.other (by rw [nm, h1]; decide)
    rw [if_neg h1] at he
    by_cases h2 : cl.name = obsName false ∨ cl.name = obsName true
    · rw [if_pos h2] at he
      cases he
    rw [if_neg h2] at he
    by_cases h3 : cl.name = "TZURL".toList
    · rw [if_pos h3, bind_ok_iff] at he
      obtain ⟨f, -, he⟩ := he
      injection he with he
      subst he
      exact h.other (by rw [nm, h3]; decide)
    rw [if_neg h3] at he
    by_cases h4 : cl.name = "LAST-MODIFIED".toList
    · rw [if_pos h4, bind_ok_iff] at he
      obtain ⟨_, h0, he⟩ := he
      rw [bind_ok_iff] at he
      obtain ⟨p, hp, he⟩ := he
      rw [bind_ok_iff] at he
      obtain ⟨⟨d, q, ctx⟩, hd, he⟩ := he
      injection he with he
      subst he
      rw [prepareOne_params hp] at hd
      obtain ⟨-, -, y, m, dd, hh, n, s, ht, -⟩ := parseDt_line (by decide) hd
      cases hl : st.lastModified with
      | some _ => rw [hl] at h0; cases h0
      | none =>
        rw [hl] at h
        refine ⟨cl, ?_, y, m, dd, hh, n, s, ht⟩
        rw [List.filter_append, filter_none h, List.filter_cons_of_pos (by exact decide_eq_true h4)]
        rfl
    rw [if_neg h4] at he
    injection he with he
    subst he
    exact h.other h4
  | cont n is =>
    have nm : (Item.cont n is).name = n := rfl
    unfold populateTzItem at he
    dsimp only at he
    by_cases h1 : n = obsName false
    · rw [if_pos h1, bind_ok_iff] at he
      obtain ⟨o, -, he⟩ := he
      injection he with he
      subst he
      exact h.other (by rw [nm, h1]; decide)
    rw [if_neg h1] at he
    by_cases h2 : n = obsName true
    · rw [if_pos h2, bind_ok_iff] at he
      obtain ⟨o, -, he⟩ := he
      injection he with he
      subst he
      exact h.other (by rw [nm, h2]; decide)
    rw [if_neg h2] at he
    by_cases h3 : n ∈ tzNames
    · rw [if_pos h3] at he
      cases he
    rw [if_neg h3] at he
    injection he with he
    subst he
    exact h.other fun e => h3 (by rw [nm] at e; rw [e]; decide)

theorem populateTz_once {L : Lib} {w : Wrap} {R : RRuleStr} {items : List Item} {st : TzState}
    (h : populateTz L w R items {} = .ok st) : ModifiedOnce items st.lastModified := by
  induction items using List.reverseRecOn generalizing st with
  | nil =>
    cases h
    exact fun _ h => absurd h List.not_mem_nil
  | append_singleton is i ih =>
    rw [populateTz_append, bind_ok_iff] at h
    obtain ⟨st1, h1, h2⟩ := h
    rw [populateTz, bind_ok_iff] at h2
    obtain ⟨st2, h2, h3⟩ := h2
    cases h3
    exact populateTzItem_once (ih h1) h2

theorem loadTimezone_fine {L : Lib} {w : Wrap} {R : RRuleStr} {items : List Item} {z : TzObj}
    (h : loadTimezone L w R items = .ok z) : FineZone items := by
  have hr := loadTimezone_inv h
  unfold loadTimezone at h
  obtain ⟨st, h1, -⟩ := bind_ok_iff.1 h
  have hm := populateTz_once h1
  have hob : ∀ i ∈ items, i.name ∈ ["STANDARD", "DAYLIGHT"].map String.toList → ∃ o, ObsItem w R L.toEnv i o := by
    intro i hi hn
    have := hr.observances
    obtain ⟨o, -, ho⟩ := forall2_mem this (List.mem_filter.2 ⟨hi, decide_eq_true hn⟩)
    exact ⟨o, ho⟩
  refine ⟨?_, ?_, ?_, hr.tzurl.atMost, ?_, ?_⟩
  · intro cl hi
    have : cl.name ∉ ["STANDARD", "DAYLIGHT"].map String.toList := by
      intro hn
      obtain ⟨o, is, _, ho, -⟩ := hob _ hi hn
      cases ho
    exact ⟨fun e => this (by rw [e]; decide), fun e => this (by rw [e]; decide)⟩
  · intro n is hi hn
    have : ∀ k ∈ ["TZID", "TZURL", "LAST-MODIFIED"].map String.toList, k = "TZID".toList ∨ k = "TZURL".toList ∨
      k = "LAST-MODIFIED".toList := by decide
    rcases this n hn with rfl | rfl | rfl
    · exact hr.tzid.noComponent hi
    · exact hr.tzurl.noComponent hi
    · cases hl : st.lastModified with
      | none => rw [hl] at hm; exact hm _ hi rfl
      | some _ =>
        rw [hl] at hm
        obtain ⟨cl, hf, -⟩ := hm
        have : Item.cont "LAST-MODIFIED".toList is ∈ items.filter (fun i => i.name = "LAST-MODIFIED".toList) :=
          List.mem_filter.2 ⟨hi, decide_eq_true rfl⟩
        rw [hf] at this
        cases List.mem_singleton.1 this
  · obtain ⟨cl, h1, -⟩ := hr.tzid
    exact ⟨cl, linesOf_of h1⟩
  · cases hl : st.lastModified with
    | none =>
      rw [hl] at hm
      rw [linesOf_none hm]
      exact ⟨Nat.zero_le _, fun _ h => by cases h⟩
    | some _ =>
      rw [hl] at hm
      obtain ⟨cl, hf, ht⟩ := hm
      rw [linesOf_of hf]
      exact ⟨Nat.le_refl _, fun cl' h => by rw [List.mem_singleton.1 h]; exact ht⟩
  · intro n is hi hn
    obtain ⟨o, is', _, ho, hf⟩ := hob _ hi (by
      show n ∈ _
      rcases hn with rfl | rfl <;> decide)
    injection ho with _ ho
    subst ho
    exact readObs_fine hf

/-- The dates of the rules raise exactly if they are mixed. -/
theorem insertDt_mixed {e : Env} {x y : DT} {ys : List DT} (h : x.tz.isSome ↔ ¬ y.tz.isSome) :
    insertDt e x (y :: ys) = .error .typeError := by
  have : e.lt x y = .error .typeError := by
    unfold Env.lt Env.cmp Env.sub Env.utcoffset
    cases hx : x.tz with
    | none =>
      cases hy : y.tz with
      | none => rw [hx, hy] at h; simp at h
      | some t => rfl
    | some t =>
      cases hy : y.tz with
      | none => rfl
      | some t' => rw [hx, hy] at h; simp at h
  unfold insertDt
  rw [this]
  rfl

theorem sortDts_mixed {e : Env} {xs acc l : List DT} (ha : ¬ MixedZones acc) (h : sortDts e acc xs = .ok l) :
    ¬ MixedZones (acc ++ xs) := by
  induction xs generalizing acc with
  | nil => rwa [List.append_nil]
  | cons x xs ih =>
    unfold sortDts at h
    obtain ⟨acc', h1, h2⟩ := bind_ok_iff.1 h
    have hm := insertDt_mem h1
    have hsame : ∀ y ∈ acc, x.tz.isSome = y.tz.isSome := by
      intro y hy
      cases acc with
      | nil => cases hy
      | cons a as =>
        have hxa : x.tz.isSome = a.tz.isSome := by
          by_contra hne
          rw [insertDt_mixed (by cases hx : x.tz.isSome <;> cases hy : a.tz.isSome <;> simp_all)] at h1
          cases h1
        rw [hxa]
        by_contra hne
        exact ha (mixed_of List.mem_cons_self hy (by cases hx : a.tz.isSome <;> cases hy : y.tz.isSome <;> simp_all))
    have ha' : ¬ MixedZones acc' := by
      rintro ⟨⟨a, ha1, ha2⟩, b, hb1, hb2⟩
      rcases (hm a).1 ha1 with rfl | ha1
      · rcases (hm b).1 hb1 with rfl | hb1
        · rw [hb2] at ha2; cases ha2
        · have := hsame b hb1
          rw [ha2, hb2] at this
          cases this
      · rcases (hm b).1 hb1 with rfl | hb1
        · have := hsame a ha1
          rw [ha2, hb2] at this
          cases this
        · exact ha ⟨⟨a, ha1, ha2⟩, b, hb1, hb2⟩
    have hi := ih ha' h2
    intro ⟨⟨a, ha1, ha2⟩, b, hb1, hb2⟩
    have mv : ∀ d, d ∈ acc ++ x :: xs → d ∈ acc' ++ xs := by
      intro d hd
      rcases List.mem_append.1 hd with hd | hd
      · exact List.mem_append_left _ ((hm d).2 (.inr hd))
      · rcases List.mem_cons.1 hd with hd | hd
        · exact List.mem_append_left _ ((hm d).2 (.inl hd))
        · exact List.mem_append_right _ hd
    exact hi ⟨⟨a, mv a ha1, ha2⟩, b, mv b hb1, hb2⟩

theorem normDates_iff (e : Env) (l : List DT) : (∃ m, normDates e l = .ok m) ↔ ¬ MixedZones l := by
  constructor
  · rintro ⟨m, h⟩
    unfold normDates at h
    obtain ⟨s, hs, -⟩ := map_ok_iff.1 h
    exact sortDts_mixed (acc := []) (fun ⟨⟨a, ha, _⟩, _⟩ => by cases ha) hs
  · intro h
    cases hn : normDates e l with
    | ok m => exact ⟨m, rfl⟩
    | error x => exact absurd (normDates_raises e l x hn).2 h

end Ics
