import Verif.Proofs.Vtimezone
import Mathlib.Data.List.Induction

/-
What is known about a time zone that was read.
-/
namespace Ics

theorem dictGet_setExtra (d : List (Str × ExtraVal)) (k k' : Str) (p : Params) :
    dictGet? (setExtra d k p) k' = if k' = k ∧ p ≠ [] then some (.one p) else dictGet? d k' := by
  unfold setExtra
  by_cases h : p = []
  · rw [if_pos h, if_neg (fun e => e.2 h)]
  · rw [if_neg h, dictGet_set_eq]
    by_cases e : k' = k
    · rw [if_pos e, if_pos ⟨e, h⟩]
    · rw [if_neg e, if_neg fun h => e h.1]

section
variable {α : Type} {items : List Item} {name : String} {parse : Str → Except PyErr α} {v : Option α} {params : Option ExtraVal}

theorem FromLine.other (h : FromLine items name parse v params) {i : Item} (hi : i.name ≠ name.toList) :
    FromLine (items ++ [i]) name parse v params := by
  cases v with
  | none =>
    refine ⟨fun j hj => ?_, h.2⟩
    rcases List.mem_append.1 hj with hj | hj
    · exact h.1 j hj
    · rw [List.mem_singleton.1 hj]
      exact hi
  | some v =>
    obtain ⟨cl, h1, h2, h3⟩ := h
    refine ⟨cl, ?_, h2, h3⟩
    rw [List.filter_append, h1, List.filter_cons_of_neg (by simpa using hi)]
    rfl

theorem filter_none (h : ∀ i ∈ items, i.name ≠ name.toList) : items.filter (fun i => i.name = name.toList) = [] :=
  List.filter_eq_nil_iff.2 fun i hi => by simpa using h i hi

theorem FromLine.here (h : FromLine items name parse none params) {cl : ContentLine} (hn : cl.name = name.toList) {v : α}
    (hv : parse cl.value = .ok v) : FromLine (items ++ [.line cl]) name parse (some v) (keptParams ["VALUE"] cl.params) := by
  refine ⟨cl, ?_, hv, rfl⟩
  rw [List.filter_append, filter_none h.1, List.filter_cons_of_pos (by
    have : (Item.line cl).name = name.toList := hn
    simpa using this)]
  rfl

end

theorem prepareOne_params {ty : Str} {p q : Params} (h : prepareOne ty p = .ok q) : q = dictErase p "VALUE".toList := by
  unfold prepareOne at h
  dsimp only at h
  split at h
  · split at h
    · exact (Except.ok.inj h).symm
    · cases h
  · cases h
  · exact (Except.ok.inj h).symm

/-- What populating a single value does. -/
theorem populateField_inv {α : Type} {name ty : Str} {parse : Str → Params → Except PyErr (α × Params)} {parse' : Str → Except PyErr α}
    (hp : ∀ s p, parse s p = (parse' s).map fun v => (v, p)) {cl : ContentLine} {cur : Option α}
    {params : List (Str × ExtraVal)} {f : Field α} (h : populateField name ty parse cl cur params = .ok f) :
    cur = none ∧ ∃ v, f.value = some v ∧ parse' cl.value = .ok v ∧
      f.params = setExtra params name (dictErase cl.params "VALUE".toList) := by
  unfold populateField at h
  rw [bind_ok_iff] at h
  obtain ⟨_, h1, h⟩ := h
  rw [bind_ok_iff] at h
  obtain ⟨p, h2, h⟩ := h
  rw [bind_ok_iff] at h
  obtain ⟨⟨v, q⟩, h3, h⟩ := h
  have hc : cur = none := by
    cases cur with
    | none => rfl
    | some _ => cases h1
  rw [hp] at h3
  cases hv : parse' cl.value with
  | error e =>
    rw [hv] at h3
    cases h3
  | ok v' =>
    rw [hv] at h3
    cases h3
    cases h
    refine ⟨hc, v, rfl, rfl, ?_⟩
    rw [prepareOne_params h2]

theorem FromLine.store {α : Type} {items : List Item} {name : String} {parse : Str → Except PyErr α} {d : List (Str × ExtraVal)}
    (h : FromLine items name parse none (dictGet? d name.toList)) {cl : ContentLine} (hn : cl.name = name.toList) {v : α}
    (hv : parse cl.value = .ok v) : FromLine (items ++ [.line cl]) name parse (some v)
      (dictGet? (setExtra d name.toList (dictErase cl.params "VALUE".toList)) name.toList) := by
  have := h.here hn hv
  have e : dictGet? (setExtra d name.toList (dictErase cl.params "VALUE".toList)) name.toList =
      keptParams ["VALUE"] cl.params := by
    rw [dictGet_setExtra]
    unfold keptParams
    dsimp only [List.foldl]
    by_cases e : dictErase cl.params "VALUE".toList = []
    · rw [if_neg (fun h => h.2 e), if_pos e]
      exact h.2
    · rw [if_pos ⟨rfl, e⟩, if_neg e]
  rw [e]
  exact this

theorem FromLine.skip {α : Type} {items : List Item} {name : String} {parse : Str → Except PyErr α} {v : Option α}
    {d : List (Str × ExtraVal)} (h : FromLine items name parse v (dictGet? d name.toList)) {i : Item} {k : Str} {p : Params}
    (hi : i.name ≠ name.toList) (hk : name.toList ≠ k) :
    FromLine (items ++ [i]) name parse v (dictGet? (setExtra d k p) name.toList) := by
  rw [dictGet_setExtra, if_neg fun h => hk h.1]
  exact h.other hi

/-! ### Observances -/

/-- The invariant of populating an observance. -/
structure ObsInv (items : List Item) (st : ObsState) : Prop where
  offsetFrom : FromLine items "TZOFFSETFROM" utcOffsetParse st.offsetFrom (dictGet? st.extraParams "TZOFFSETFROM".toList)
  offsetTo : FromLine items "TZOFFSETTO" utcOffsetParse st.offsetTo (dictGet? st.extraParams "TZOFFSETTO".toList)
  tzname : FromLine items "TZNAME" unescapeText st.tzname (dictGet? st.extraParams "TZNAME".toList)
  comment : FromLine items "COMMENT" unescapeText st.comment (dictGet? st.extraParams "COMMENT".toList)
  lines : recurLines items = st.lines.map .line
  extra : st.extra = unknownItems obsKnown items

theorem recurLines_snoc_of {items : List Item} {i : Item} (h : i.name ∈ recurNames) :
    recurLines (items ++ [i]) = recurLines items ++ [i] := by
  unfold recurLines
  rw [List.filter_append, List.filter_cons_of_pos (by exact decide_eq_true h)]
  rfl

theorem recurLines_snoc_not {items : List Item} {i : Item} (h : i.name ∉ recurNames) :
    recurLines (items ++ [i]) = recurLines items := by
  unfold recurLines
  rw [List.filter_append, List.filter_cons_of_neg (by
    intro e
    exact h (of_decide_eq_true e)), List.filter_nil, List.append_nil]

theorem unknown_snoc_of {known : List String} {items : List Item} {i : Item} (h : i.name ∉ known.map String.toList) :
    unknownItems known (items ++ [i]) = unknownItems known items ++ [i] := by
  unfold unknownItems
  rw [List.filter_append, List.filter_cons_of_pos (by exact decide_eq_true h)]
  rfl

theorem unknown_snoc_not {known : List String} {items : List Item} {i : Item} (h : i.name ∈ known.map String.toList) :
    unknownItems known (items ++ [i]) = unknownItems known items := by
  unfold unknownItems
  rw [List.filter_append, List.filter_cons_of_neg (by
    intro e
    exact (of_decide_eq_true e) h), List.filter_nil, List.append_nil]

theorem parseOffsetField_eq (s : Str) (p : Params) : parseOffsetField s p = (utcOffsetParse s).map fun v => (v, p) := rfl
theorem parseTextField_eq (s : Str) (p : Params) : parseTextField s p = (unescapeText s).map fun v => (v, p) := rfl
theorem parseUrlField_eq (L : Lib) (s : Str) (p : Params) :
    parseUrlField L s p = (urlparse L.urlChecks s).map fun v => (v, p) := rfl

theorem obsInv_line {items : List Item} {st st' : ObsState} (h : ObsInv items st) {cl : ContentLine}
    (he : populateObsLine cl st = .ok st') : ObsInv (items ++ [.line cl]) st' := by
  have nm : (Item.line cl).name = cl.name := rfl
  unfold populateObsLine at he
  by_cases h1 : cl.name = "TZOFFSETFROM".toList
  · rw [if_pos h1, bind_ok_iff] at he
    obtain ⟨f, hf, he⟩ := he
    obtain ⟨hc, v, e1, e2, e3⟩ := populateField_inv parseOffsetField_eq hf
    cases he
    rw [h1] at e3
    refine ⟨?_, ?_, ?_, ?_, ?_, ?_⟩
    · have h0 := h.offsetFrom
      rw [hc] at h0
      dsimp only
      rw [e1, e3]
      exact h0.store h1 e2
    · dsimp only
      rw [e3]
      exact h.offsetTo.skip (by rw [nm, h1]; decide) (by decide)
    · dsimp only
      rw [e3]
      exact h.tzname.skip (by rw [nm, h1]; decide) (by decide)
    · dsimp only
      rw [e3]
      exact h.comment.skip (by rw [nm, h1]; decide) (by decide)
    · rw [recurLines_snoc_not (by rw [nm, h1]; decide)]
      exact h.lines
    · rw [unknown_snoc_not (by rw [nm, h1]; decide)]
      exact h.extra
  rw [if_neg h1] at he
  by_cases h2 : cl.name = "TZOFFSETTO".toList
  · rw [if_pos h2, bind_ok_iff] at he
    obtain ⟨f, hf, he⟩ := he
    obtain ⟨hc, v, e1, e2, e3⟩ := populateField_inv parseOffsetField_eq hf
    cases he
    rw [h2] at e3
    refine ⟨?_, ?_, ?_, ?_, ?_, ?_⟩
    · dsimp only
      rw [e3]
      exact h.offsetFrom.skip (by rw [nm, h2]; decide) (by decide)
    · have h0 := h.offsetTo
      rw [hc] at h0
      dsimp only
      rw [e1, e3]
      exact h0.store h2 e2
    · dsimp only
      rw [e3]
      exact h.tzname.skip (by rw [nm, h2]; decide) (by decide)
    · dsimp only
      rw [e3]
      exact h.comment.skip (by rw [nm, h2]; decide) (by decide)
    · rw [recurLines_snoc_not (by rw [nm, h2]; decide)]
      exact h.lines
    · rw [unknown_snoc_not (by rw [nm, h2]; decide)]
      exact h.extra
  rw [if_neg h2] at he
  by_cases h3 : cl.name ∈ recurNames
  · rw [if_pos h3] at he
    cases he
    have hne : ∀ k ∈ ["TZOFFSETFROM", "TZOFFSETTO", "TZNAME", "COMMENT"], cl.name ≠ k.toList := by
      intro k hk e
      rw [e] at h3
      have : ∀ k ∈ ["TZOFFSETFROM", "TZOFFSETTO", "TZNAME", "COMMENT"], k.toList ∉ recurNames := by decide
      exact this k hk h3
    refine ⟨h.offsetFrom.other (hne _ (by decide)), h.offsetTo.other (hne _ (by decide)), h.tzname.other (hne _ (by decide)),
      h.comment.other (hne _ (by decide)), ?_, ?_⟩
    · rw [recurLines_snoc_of (by exact h3), h.lines]
      simp
    · rw [unknown_snoc_not (by
        have : ∀ k ∈ recurNames, k ∈ obsKnown.map String.toList := by decide
        exact this _ h3)]
      exact h.extra
  rw [if_neg h3] at he
  by_cases h4 : cl.name = "TZNAME".toList
  · rw [if_pos h4, bind_ok_iff] at he
    obtain ⟨f, hf, he⟩ := he
    obtain ⟨hc, v, e1, e2, e3⟩ := populateField_inv parseTextField_eq hf
    cases he
    rw [h4] at e3
    refine ⟨?_, ?_, ?_, ?_, ?_, ?_⟩
    · dsimp only
      rw [e3]
      exact h.offsetFrom.skip (by rw [nm, h4]; decide) (by decide)
    · dsimp only
      rw [e3]
      exact h.offsetTo.skip (by rw [nm, h4]; decide) (by decide)
    · have h0 := h.tzname
      rw [hc] at h0
      dsimp only
      rw [e1, e3]
      exact h0.store h4 e2
    · dsimp only
      rw [e3]
      exact h.comment.skip (by rw [nm, h4]; decide) (by decide)
    · rw [recurLines_snoc_not (by rw [nm, h4]; decide)]
      exact h.lines
    · rw [unknown_snoc_not (by rw [nm, h4]; decide)]
      exact h.extra
  rw [if_neg h4] at he
  by_cases h5 : cl.name = "COMMENT".toList
  · rw [if_pos h5, bind_ok_iff] at he
    obtain ⟨f, hf, he⟩ := he
    obtain ⟨hc, v, e1, e2, e3⟩ := populateField_inv parseTextField_eq hf
    cases he
    rw [h5] at e3
    refine ⟨?_, ?_, ?_, ?_, ?_, ?_⟩
    · dsimp only
      rw [e3]
      exact h.offsetFrom.skip (by rw [nm, h5]; decide) (by decide)
    · dsimp only
      rw [e3]
      exact h.offsetTo.skip (by rw [nm, h5]; decide) (by decide)
    · dsimp only
      rw [e3]
      exact h.tzname.skip (by rw [nm, h5]; decide) (by decide)
    · have h0 := h.comment
      rw [hc] at h0
      dsimp only
      rw [e1, e3]
      exact h0.store h5 e2
    · rw [recurLines_snoc_not (by rw [nm, h5]; decide)]
      exact h.lines
    · rw [unknown_snoc_not (by rw [nm, h5]; decide)]
      exact h.extra
  rw [if_neg h5] at he
  cases he
  refine ⟨h.offsetFrom.other h1, h.offsetTo.other h2, h.tzname.other h4, h.comment.other h5, ?_, ?_⟩
  · rw [recurLines_snoc_not (by exact h3)]
    exact h.lines
  · have hk : cl.name ∉ obsKnown.map String.toList := by
      intro hm
      have : ∀ k ∈ obsKnown.map String.toList, k = "TZOFFSETFROM".toList ∨ k = "TZOFFSETTO".toList ∨ k ∈ recurNames ∨
          k = "TZNAME".toList ∨ k = "COMMENT".toList := by decide
      rcases this _ hm with e | e | e | e | e
      exacts [h1 e, h2 e, h3 e, h4 e, h5 e]
    rw [unknown_snoc_of (by exact hk), ← h.extra]

theorem obsInv_item {items : List Item} {st st' : ObsState} (h : ObsInv items st) {i : Item}
    (he : populateObsItem i st = .ok st') : ObsInv (items ++ [i]) st' := by
  cases i with
  | line cl => exact obsInv_line h he
  | cont n is =>
    unfold populateObsItem at he
    dsimp only at he
    split at he
    · cases he
    · rename_i hn
      cases he
      have h1 : n ∉ obsNames := fun e => hn (Or.inl e)
      have h2 : n ∉ recurNames := fun e => hn (Or.inr e)
      have hne : ∀ k ∈ ["TZOFFSETFROM", "TZOFFSETTO", "TZNAME", "COMMENT"], n ≠ k.toList := fun k hk e =>
        h1 (e ▸ List.mem_map_of_mem hk)
      refine ⟨h.offsetFrom.other (hne _ (by decide)), h.offsetTo.other (hne _ (by decide)), h.tzname.other (hne _ (by decide)),
        h.comment.other (hne _ (by decide)), ?_, ?_⟩
      · rw [recurLines_snoc_not (by exact h2)]
        exact h.lines
      · have hk : n ∉ obsKnown.map String.toList := by
          intro hm
          have : ∀ k ∈ obsKnown.map String.toList, k ∈ obsNames ∨ k ∈ recurNames := by decide
          exact hn (this n hm)
        rw [unknown_snoc_of (by exact hk), ← h.extra]

theorem obsInv_items {items : List Item} {st : ObsState} (h : populateObs items {} = .ok st) : ObsInv items st := by
  induction items using List.reverseRecOn generalizing st with
  | nil =>
    cases h
    have hn : ∀ i ∈ ([] : List Item), ∀ k : String, i.name ≠ k.toList := fun _ h => absurd h List.not_mem_nil
    exact ⟨⟨fun i hi => hn i hi _, rfl⟩, ⟨fun i hi => hn i hi _, rfl⟩, ⟨fun i hi => hn i hi _, rfl⟩,
      ⟨fun i hi => hn i hi _, rfl⟩, rfl, rfl⟩
  | append_singleton is i ih =>
    rw [populateObs_append, bind_ok_iff] at h
    obtain ⟨st1, h1, h2⟩ := h
    rw [populateObs, bind_ok_iff] at h2
    obtain ⟨st2, h2, h3⟩ := h2
    cases h3
    exact obsInv_item (ih h1) h2

/-! ### Dates -/

theorem insertDt_mem {e : Env} {x : DT} {l l' : List DT} (h : insertDt e x l = .ok l') : ∀ d, d ∈ l' ↔ d = x ∨ d ∈ l := by
  induction l generalizing l' with
  | nil => cases h; simp
  | cons y ys ih =>
    unfold insertDt at h
    rw [bind_ok_iff] at h
    obtain ⟨b, _, h⟩ := h
    split at h
    · cases h
      simp
    · rw [bind_ok_iff] at h
      obtain ⟨m, h1, h2⟩ := h
      cases h2
      intro d
      rw [List.mem_cons, ih h1, List.mem_cons]
      tauto

theorem sortDts_mem {e : Env} {xs acc l : List DT} (h : sortDts e acc xs = .ok l) : ∀ d, d ∈ l ↔ d ∈ acc ∨ d ∈ xs := by
  induction xs generalizing acc with
  | nil => cases h; simp
  | cons x xs ih =>
    unfold sortDts at h
    rw [bind_ok_iff] at h
    obtain ⟨m, h1, h2⟩ := h
    intro d
    rw [ih h2, insertDt_mem h1, List.mem_cons]
    tauto

theorem uniqueFrom_dates (e : Env) (l : List DT) (k : DT) : DatesOf e (k :: uniqueFrom e k l) (k :: l) := by
  induction l generalizing k with
  | nil =>
    exact ⟨fun _ h => h, fun d h => ⟨d, h, Or.inl rfl⟩⟩
  | cons y ys ih =>
    unfold uniqueFrom
    by_cases h : e.eq k y = true
    · rw [if_pos h]
      obtain ⟨h1, h2⟩ := ih k
      refine ⟨fun d hd => ?_, fun d hd => ?_⟩
      · rcases List.mem_cons.1 (h1 d hd) with e | e
        · rw [e]; exact List.mem_cons_self
        · exact List.mem_cons_of_mem _ (List.mem_cons_of_mem _ e)
      · rcases List.mem_cons.1 hd with e | e
        · exact ⟨k, List.mem_cons_self, Or.inl e.symm⟩
        · rcases List.mem_cons.1 e with e | e
          · exact ⟨k, List.mem_cons_self, Or.inr (e ▸ h)⟩
          · exact h2 d (List.mem_cons_of_mem _ e)
    · rw [if_neg h]
      obtain ⟨h1, h2⟩ := ih y
      refine ⟨fun d hd => ?_, fun d hd => ?_⟩
      · rcases List.mem_cons.1 hd with e | e
        · rw [e]; exact List.mem_cons_self
        · exact List.mem_cons_of_mem _ (h1 d e)
      · rcases List.mem_cons.1 hd with e | e
        · exact ⟨k, List.mem_cons_self, Or.inl e.symm⟩
        · obtain ⟨d', h3, h4⟩ := h2 d e
          exact ⟨d', List.mem_cons_of_mem _ h3, h4⟩

theorem normDates_dates {e : Env} {l m : List DT} (h : normDates e l = .ok m) : DatesOf e m l := by
  unfold normDates at h
  cases hs : sortDts e [] l with
  | error x => rw [hs] at h; cases h
  | ok s =>
    rw [hs] at h
    cases h
    have hm : ∀ d, d ∈ s ↔ d ∈ l := fun d => by rw [sortDts_mem hs]; simp
    have : DatesOf e (uniqueJustseen e s) s := by
      cases s with
      | nil => exact ⟨fun _ h => h, fun d h => ⟨d, h, Or.inl rfl⟩⟩
      | cons k s => exact uniqueFrom_dates e s k
    exact ⟨fun d hd => (hm d).1 (this.1 d hd), fun d hd => this.2 d ((hm d).2 hd)⟩

theorem readRules_inv {w : Wrap} {R : RRuleStr} {e : Env} {avail : List (Str × Nat)} {lines : List ContentLine} {rs : RuleSet}
    (h : readRules w R e avail lines = .ok rs) : ReadRules w R e avail (lines.map .line) rs := by
  unfold readRules at h
  split at h
  · cases h
  · rename_i hne
    rw [bind_ok_iff] at h
    obtain ⟨text, h1, h⟩ := h
    rw [bind_ok_iff] at h
    obtain ⟨rs', h2, h⟩ := h
    rw [bind_ok_iff] at h
    obtain ⟨rd, h3, h⟩ := h
    rw [bind_ok_iff] at h
    obtain ⟨ed, h4, h⟩ := h
    cases h
    exact ⟨fun e => hne (List.map_eq_nil_iff.1 e), lines, text, rs', rfl, h1, h2, rfl, rfl, normDates_dates h3,
      normDates_dates h4⟩

theorem loadObs_inv {w : Wrap} {R : RRuleStr} {e : Env} {avail : List (Str × Nat)} {b : Bool} {items : List Item} {o : ObsObj}
    (h : loadObs w R e avail b items = .ok o) : o.isDst = b ∧ ReadObs w R e avail items o := by
  unfold loadObs at h
  rw [bind_ok_iff] at h
  obtain ⟨st, h1, h⟩ := h
  have inv := obsInv_items h1
  unfold finishObs at h
  rw [bind_ok_iff] at h
  obtain ⟨f, h2, h⟩ := h
  rw [bind_ok_iff] at h
  obtain ⟨t, h3, h⟩ := h
  rw [bind_ok_iff] at h
  obtain ⟨rs, h4, h⟩ := h
  cases h
  have hf : st.offsetFrom = some f := by
    cases hs : st.offsetFrom with
    | none => rw [hs] at h2; cases h2
    | some v => rw [hs] at h2; cases h2; rfl
  have ht : st.offsetTo = some t := by
    cases hs : st.offsetTo with
    | none => rw [hs] at h3; cases h3
    | some v => rw [hs] at h3; cases h3; rfl
  refine ⟨rfl, hf ▸ inv.offsetFrom, ht ▸ inv.offsetTo, inv.tzname, inv.comment, ?_, inv.extra⟩
  rw [inv.lines]
  exact readRules_inv h4

/-! ### Time zones -/

/-- The STANDARD and DAYLIGHT containers. -/
def obsItems (items : List Item) : List Item :=
  items.filter fun i => i.name ∈ ["STANDARD", "DAYLIGHT"].map String.toList

/-- The invariant of populating a time zone. -/
structure TzInv (L : Lib) (w : Wrap) (R : RRuleStr) (items : List Item) (st : TzState) : Prop where
  tzid : FromLine items "TZID" unescapeText st.tzid (dictGet? st.extraParams "TZID".toList)
  tzurl : FromLine items "TZURL" (urlparse L.urlChecks) st.tzurl (dictGet? st.extraParams "TZURL".toList)
  observances : List.Forall₂ (ObsItem w R L.toEnv) (obsItems items) st.observances
  extra : st.extra = unknownItems tzKnown items

theorem obsItems_snoc_not {items : List Item} {i : Item} (h : i.name ∉ ["STANDARD", "DAYLIGHT"].map String.toList) :
    obsItems (items ++ [i]) = obsItems items := by
  unfold obsItems
  rw [List.filter_append, List.filter_cons_of_neg (by
    intro e
    exact h (of_decide_eq_true e)), List.filter_nil, List.append_nil]

theorem obsItems_snoc_of {items : List Item} {i : Item} (h : i.name ∈ ["STANDARD", "DAYLIGHT"].map String.toList) :
    obsItems (items ++ [i]) = obsItems items ++ [i] := by
  unfold obsItems
  rw [List.filter_append, List.filter_cons_of_pos (by exact decide_eq_true h)]
  rfl

theorem tzInv_line {L : Lib} {w : Wrap} {R : RRuleStr} {items : List Item} {st st' : TzState} (h : TzInv L w R items st)
    {cl : ContentLine} (he : populateTzLine L cl st = .ok st') : TzInv L w R (items ++ [.line cl]) st' := by
  have nm : (Item.line cl).name = cl.name := rfl
  unfold populateTzLine at he
  by_cases h1 : cl.name = "TZID".toList
  · rw [if_pos h1, bind_ok_iff] at he
    obtain ⟨f, hf, he⟩ := he
    obtain ⟨hc, v, e1, e2, e3⟩ := populateField_inv parseTextField_eq hf
    cases he
    rw [h1] at e3
    refine ⟨?_, ?_, ?_, ?_⟩
    · have h0 := h.tzid
      rw [hc] at h0
      dsimp only
      rw [e1, e3]
      exact h0.store h1 e2
    · dsimp only
      rw [e3]
      exact h.tzurl.skip (by rw [nm, h1]; decide) (by decide)
    · rw [obsItems_snoc_not (by rw [nm, h1]; decide)]
      exact h.observances
    · rw [unknown_snoc_not (by rw [nm, h1]; decide)]
      exact h.extra
  rw [if_neg h1] at he
  by_cases h2 : cl.name = obsName false ∨ cl.name = obsName true
  · rw [if_pos h2] at he
    cases he
  rw [if_neg h2] at he
  have hob : cl.name ∉ ["STANDARD", "DAYLIGHT"].map String.toList := by
    intro hm
    have : ∀ k ∈ ["STANDARD", "DAYLIGHT"].map String.toList, k = obsName false ∨ k = obsName true := by decide
    exact h2 (this _ hm)
  by_cases h3 : cl.name = "TZURL".toList
  · rw [if_pos h3, bind_ok_iff] at he
    obtain ⟨f, hf, he⟩ := he
    obtain ⟨hc, v, e1, e2, e3⟩ := populateField_inv (parseUrlField_eq L) hf
    cases he
    rw [h3] at e3
    refine ⟨?_, ?_, ?_, ?_⟩
    · dsimp only
      rw [e3]
      exact h.tzid.skip (by rw [nm, h3]; decide) (by decide)
    · have h0 := h.tzurl
      rw [hc] at h0
      dsimp only
      rw [e1, e3]
      exact h0.store h3 e2
    · rw [obsItems_snoc_not (by exact hob)]
      exact h.observances
    · rw [unknown_snoc_not (by rw [nm, h3]; decide)]
      exact h.extra
  rw [if_neg h3] at he
  by_cases h4 : cl.name = "LAST-MODIFIED".toList
  · rw [if_pos h4, bind_ok_iff] at he
    obtain ⟨_, _, he⟩ := he
    rw [bind_ok_iff] at he
    obtain ⟨p, _, he⟩ := he
    rw [bind_ok_iff] at he
    obtain ⟨⟨d, q, ctx⟩, _, he⟩ := he
    cases he
    refine ⟨?_, ?_, ?_, ?_⟩
    · exact h.tzid.skip (by rw [nm, h4]; decide) (by decide)
    · exact h.tzurl.skip (by rw [nm, h4]; decide) (by decide)
    · rw [obsItems_snoc_not (by exact hob)]
      exact h.observances
    · rw [unknown_snoc_not (by rw [nm, h4]; decide)]
      exact h.extra
  rw [if_neg h4] at he
  cases he
  refine ⟨h.tzid.other h1, h.tzurl.other h3, ?_, ?_⟩
  · rw [obsItems_snoc_not (by exact hob)]
    exact h.observances
  · have hk : cl.name ∉ tzKnown.map String.toList := by
      intro hm
      have : ∀ k ∈ tzKnown.map String.toList, k = "TZID".toList ∨ (k = obsName false ∨ k = obsName true) ∨
          k = "TZURL".toList ∨ k = "LAST-MODIFIED".toList := by decide
      rcases this _ hm with e | e | e | e
      exacts [h1 e, h2 e, h3 e, h4 e]
    rw [unknown_snoc_of (by exact hk), ← h.extra]

theorem tzInv_obs {L : Lib} {w : Wrap} {R : RRuleStr} {items : List Item} {st : TzState} (h : TzInv L w R items st)
    {b : Bool} {is : List Item} {o : ObsObj} (he : loadObs w R L.toEnv st.avail b is = .ok o) :
    TzInv L w R (items ++ [.cont (obsName b) is]) { st with observances := st.observances ++ [o] } := by
  obtain ⟨h1, h2⟩ := loadObs_inv he
  have nm : (Item.cont (obsName b) is).name = obsName b := rfl
  have hne : ∀ b, obsName b ≠ "TZID".toList ∧ obsName b ≠ "TZURL".toList ∧
      obsName b ∈ ["STANDARD", "DAYLIGHT"].map String.toList ∧ obsName b ∈ tzKnown.map String.toList := by decide
  obtain ⟨n1, n2, n3, n4⟩ := hne b
  refine ⟨h.tzid.other n1, h.tzurl.other n2, ?_, ?_⟩
  · rw [obsItems_snoc_of (by exact n3)]
    refine List.rel_append h.observances (.cons ⟨is, st.avail, ?_, h2⟩ .nil)
    rw [h1]
    rfl
  · rw [unknown_snoc_not (by exact n4)]
    exact h.extra

theorem tzInv_item {L : Lib} {w : Wrap} {R : RRuleStr} {items : List Item} {st st' : TzState} (h : TzInv L w R items st)
    {i : Item} (he : populateTzItem L w R i st = .ok st') : TzInv L w R (items ++ [i]) st' := by
  cases i with
  | line cl => exact tzInv_line h he
  | cont n is =>
    unfold populateTzItem at he
    dsimp only at he
    by_cases h1 : n = obsName false
    · rw [if_pos h1, bind_ok_iff] at he
      obtain ⟨o, ho, he⟩ := he
      cases he
      rw [h1]
      exact tzInv_obs h ho
    rw [if_neg h1] at he
    by_cases h2 : n = obsName true
    · rw [if_pos h2, bind_ok_iff] at he
      obtain ⟨o, ho, he⟩ := he
      cases he
      rw [h2]
      exact tzInv_obs h ho
    rw [if_neg h2] at he
    by_cases h3 : n ∈ tzNames
    · rw [if_pos h3] at he
      cases he
    rw [if_neg h3] at he
    cases he
    have hne : ∀ k ∈ ["TZID", "TZURL", "LAST-MODIFIED"], n ≠ k.toList := fun k hk e =>
      h3 (e ▸ List.mem_map_of_mem hk)
    refine ⟨h.tzid.other (hne _ (by decide)), h.tzurl.other (hne _ (by decide)), ?_, ?_⟩
    · rw [obsItems_snoc_not]
      · exact h.observances
      · intro hm
        have : ∀ k ∈ ["STANDARD", "DAYLIGHT"].map String.toList, k = obsName false ∨ k = obsName true := by decide
        exact (this _ hm).elim h1 h2
    · have hk : n ∉ tzKnown.map String.toList := by
        intro hm
        have : ∀ k ∈ tzKnown.map String.toList, k = obsName false ∨ k = obsName true ∨ k ∈ tzNames := by decide
        rcases this _ hm with e | e | e
        exacts [h1 e, h2 e, h3 e]
      rw [unknown_snoc_of (by exact hk), ← h.extra]

theorem tzInv_items {L : Lib} {w : Wrap} {R : RRuleStr} {items : List Item} {st : TzState}
    (h : populateTz L w R items {} = .ok st) : TzInv L w R items st := by
  induction items using List.reverseRecOn generalizing st with
  | nil =>
    cases h
    have hn : ∀ i ∈ ([] : List Item), ∀ k : String, i.name ≠ k.toList := fun _ h => absurd h List.not_mem_nil
    exact ⟨⟨fun i hi => hn i hi _, rfl⟩, ⟨fun i hi => hn i hi _, rfl⟩, .nil, rfl⟩
  | append_singleton is i ih =>
    rw [populateTz_append, bind_ok_iff] at h
    obtain ⟨st1, h1, h2⟩ := h
    rw [populateTz, bind_ok_iff] at h2
    obtain ⟨st2, h2, h3⟩ := h2
    cases h3
    exact tzInv_item (ih h1) h2

theorem loadTimezone_inv {L : Lib} {w : Wrap} {R : RRuleStr} {items : List Item} {z : TzObj}
    (h : loadTimezone L w R items = .ok z) : ReadTz L w R items z := by
  unfold loadTimezone at h
  rw [bind_ok_iff] at h
  obtain ⟨st, h1, h⟩ := h
  have inv := tzInv_items h1
  rw [bind_ok_iff] at h
  obtain ⟨t, h2, h⟩ := h
  rw [bind_ok_iff] at h
  obtain ⟨m, h3, h⟩ := h
  cases h
  have ht : st.tzid = some t := by
    cases hs : st.tzid with
    | none => rw [hs] at h2; cases h2
    | some v => rw [hs] at h2; cases h2; rfl
  exact ⟨ht ▸ inv.tzid, inv.tzurl, inv.observances, inv.extra⟩

/-! ### Facts about writing -/

theorem dumpField_shape {d : List (Str × ExtraVal)} {key name : Str} {t : Option Str} {is : List Item}
    (h : dumpField d key name t = .ok is) : ∀ i ∈ is, i.name = upper name := by
  unfold dumpField at h
  split at h
  · cases h
    exact fun _ h => absurd h List.not_mem_nil
  · rw [bind_ok_iff] at h
    obtain ⟨p, _, h⟩ := h
    cases h
    intro i hi
    rw [List.mem_singleton.1 hi]
    rfl

theorem dumpField_other {d : List (Str × ExtraVal)} {key name : Str} {t : Option Str} {is : List Item} {l : List Str}
    (h : dumpField d key name t = .ok is) (hn : upper name ∉ l) : is.filter (fun i => i.name ∈ l) = [] := by
  rw [List.filter_eq_nil_iff]
  intro i hi e
  rw [dumpField_shape h i hi] at e
  exact hn (of_decide_eq_true e)

theorem dumpObs_empty {L : Lib} {o : ObsObj} {n : Str} {items : List Item} (he : o.rules = ⟨[], [], [], []⟩)
    (h : dumpObs L o = .ok (.cont n items)) :
    ∃ a b c d, dumpField o.extraParams "TZOFFSETFROM".toList "TZOFFSETFROM".toList (some (utcOffsetSerialize o.offsetFrom)) = .ok a ∧
      dumpField o.extraParams "TZOFFSETTO".toList "TZOFFSETTO".toList (some (utcOffsetSerialize o.offsetTo)) = .ok b ∧
      dumpField o.extraParams "TZNAME".toList "TZNAME".toList (o.tzname.map escapeText) = .ok c ∧
      dumpField o.extraParams "COMMENT".toList "COMMENT".toList (o.comment.map escapeText) = .ok d ∧
      items = a ++ b ++ c ++ d ++ o.extra := by
  unfold dumpObs at h
  have hr : dumpRules L o.rules = .ok [] := by
    rw [he]
    rfl
  rw [hr] at h
  simp only [bind_ok_iff] at h
  obtain ⟨a, ha, b, hb, c, hc, d, hd, e, he, h⟩ := h
  cases hc
  cases h
  exact ⟨a, b, d, e, ha, hb, hd, he, by simp⟩

theorem dumpDates_names {L : Lib} {name : Str} {l : List DT} {is : List Item} (h : dumpDates L name l = .ok is) :
    ∀ i ∈ is, i.name = upper name := by
  induction l generalizing is with
  | nil =>
    cases h
    exact fun _ h => absurd h List.not_mem_nil
  | cons d ds ih =>
    unfold dumpDates at h
    simp only [bind_ok_iff] at h
    obtain ⟨⟨t, p, c⟩, _, js, hj, h⟩ := h
    cases h
    intro i hi
    rcases List.mem_cons.1 hi with rfl | hi
    · rfl
    · exact ih hj i hi

theorem dumpDtstart_same {L : Lib} {rs : List RRule} {c : DT} {is : List Item} (h : dumpDtstart L rs (some c) = .ok is) :
    ∀ r ∈ rs, ∀ d, r.dtstart = some d → L.eq c d = true := by
  induction rs with
  | nil => exact fun _ h => absurd h List.not_mem_nil
  | cons r rs ih =>
    intro r' hr' d hd
    unfold dumpDtstart at h
    cases hs : r.dtstart with
    | none =>
      rw [hs] at h
      dsimp only at h
      rcases List.mem_cons.1 hr' with rfl | hr'
      · rw [hs] at hd
        cases hd
      · exact ih h r' hr' d hd
    | some d' =>
      rw [hs] at h
      dsimp only at h
      split at h
      · rename_i he
        rcases List.mem_cons.1 hr' with rfl | hr'
        · rw [hs] at hd
          cases hd
          exact he
        · exact ih h r' hr' d hd
      · cases h

theorem dumpDtstart_one {L : Lib} {rs : List RRule} {is : List Item} (h : dumpDtstart L rs none = .ok is) :
    ∃ c, ∀ r ∈ rs, ∀ d, r.dtstart = some d → d = c ∨ L.eq c d = true := by
  induction rs generalizing is with
  | nil => exact ⟨⟨0, false, none⟩, fun _ h => absurd h List.not_mem_nil⟩
  | cons r rs ih =>
    unfold dumpDtstart at h
    cases hs : r.dtstart with
    | none =>
      rw [hs] at h
      dsimp only at h
      obtain ⟨c, hc⟩ := ih h
      refine ⟨c, fun r' hr' d hd => ?_⟩
      rcases List.mem_cons.1 hr' with rfl | hr'
      · rw [hs] at hd
        cases hd
      · exact hc r' hr' d hd
    | some d' =>
      rw [hs] at h
      dsimp only at h
      simp only [bind_ok_iff] at h
      obtain ⟨_, _, js, hj, _⟩ := h
      refine ⟨d', fun r' hr' d hd => ?_⟩
      rcases List.mem_cons.1 hr' with rfl | hr'
      · rw [hs] at hd
        cases hd
        exact Or.inl rfl
      · exact Or.inr (dumpDtstart_same hj r' hr' d hd)

theorem forall2_mem {α β : Type} {R : α → β → Prop} {l : List α} {m : List β} (h : List.Forall₂ R l m) {a : α} (ha : a ∈ l) :
    ∃ b ∈ m, R a b := by
  induction h with
  | nil => exact absurd ha List.not_mem_nil
  | cons h _ ih =>
    rcases List.mem_cons.1 ha with rfl | ha
    · exact ⟨_, List.mem_cons_self, h⟩
    · obtain ⟨b, hb, hr⟩ := ih ha
      exact ⟨b, List.mem_cons_of_mem _ hb, hr⟩

end Ics
