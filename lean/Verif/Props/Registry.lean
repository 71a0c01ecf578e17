import Verif.Model.Vtimezone
import Verif.Proofs.Registry

/-
C68: the converters of a class follow from the definition of the class.
-/
namespace Ics

/-! ### Sorting -/

/-- C68: the converters are used in the order of their priority, those with the highest first; converters with
the same priority keep the order in which the attributes are defined, and none is lost or doubled. -/
theorem C68_sorted (l : List Derived) : (sortConverters l).Perm l ∧
    (sortConverters l).Pairwise (fun a b => b.priority ≤ a.priority) ∧
    ∀ p, (sortConverters l).filter (fun x => x.priority = p) = l.filter fun x => x.priority = p := by
  unfold sortConverters
  induction l with
  | nil => exact ⟨.refl _, .nil, fun _ => rfl⟩
  | cons d l ih =>
    refine ⟨(insertConv_perm d _).trans (ih.1.cons d), insertConv_sorted d ih.2.1, fun p => ?_⟩
    rw [List.foldr_cons, insertConv_stable, List.filter_cons, ih.2.2 p, List.filter_cons]

/-! ### Looking up names -/

/-- C68: a line or container is given to exactly those converters that handle its name, in their order. -/
theorem C68_lookup (ds : List Derived) (name : Str) :
    (dictGet? (buildLookup ds []) name).getD [] = ds.filter fun d => name ∈ d.names :=
  buildLookup_get name ds []

/-! ### The classes of components -/

/-- C68: `initialize_converters` succeeds, and for every class of components the converters that it finds from
the type annotations and the metadata, in their order, are those that the model of components uses
(`Cls.convs`); so are those that it finds for a name (`Cls.lookup`). -/
theorem C68_tables : ∃ r, initializeConverters = .ok r ∧ ∀ c : Cls, ∃ m, dictGet? r.metas c.typeName = some m ∧
    m.name = c.icsName ∧ List.Forall₂ SameConverter m.converters c.convs ∧
    ∀ name, List.Forall₂ SameConverter ((dictGet? (buildLookup m.converters []) name).getD []) (c.lookup name) := by
  have h : (initializeConverters.toOption.map fun r => ([.calendar, .event, .todo, .audioAlarm, .customAlarm, .displayAlarm,
      .emailAlarm, .noneAlarm] : List Cls).all fun c => (dictGet? r.metas c.typeName).any fun m =>
        decide (m.name = c.icsName) && decide (List.Forall₂ SameConverter m.converters c.convs)) = some true := by
    decide +kernel
  cases hr : initializeConverters with
  | error e =>
    rw [hr] at h
    cases h
  | ok r =>
    rw [hr] at h
    refine ⟨r, rfl, fun c => ?_⟩
    have h := List.all_eq_true.1 (Option.some.inj h) c (by cases c <;> decide)
    cases hm : dictGet? r.metas c.typeName with
    | none =>
      rw [hm] at h
      cases h
    | some m =>
      rw [hm] at h
      have h : (decide (m.name = c.icsName) && decide (List.Forall₂ SameConverter m.converters c.convs)) = true := h
      rw [Bool.and_eq_true, decide_eq_true_iff, decide_eq_true_iff] at h
      refine ⟨m, rfl, h.1, h.2, fun name => ?_⟩
      rw [C68_lookup]
      unfold Cls.lookup
      have := h.2
      generalize m.converters = ds at this
      generalize c.convs = cvs at this
      induction this with
      | nil => exact .nil
      | @cons d cv ds cvs h1 _ ih =>
        rw [List.filter_cons, List.filter_cons, sameConverter_names h1]
        split
        · exact .cons h1 ih
        · exact ih

/-- C68 for time zones: what `initialize_converters` finds for the two classes of observances and for `Timezone`; the
names are those that the model of time zones reads (`obsNames`, `recurNames`, `tzNames`). -/
theorem C68_zones : ∃ r, initializeConverters = .ok r ∧
    (∀ t ∈ [TypeName.standard, .daylight], (dictGet? r.metas t).map (fun m => m.converters.map Derived.summary) =
      some [⟨"tzoffsetfrom".toList, ["TZOFFSETFROM".toList], some ["UTC-OFFSET"], false, true⟩,
        ⟨"tzoffsetto".toList, ["TZOFFSETTO".toList], some ["UTC-OFFSET"], false, true⟩,
        ⟨"rrule".toList, recurNames, none, false, true⟩,
        ⟨"tzname".toList, ["TZNAME".toList], some ["TEXT"], false, false⟩,
        ⟨"comment".toList, ["COMMENT".toList], some ["TEXT"], false, false⟩]) ∧
    (dictGet? r.metas .timezone).map (fun m => m.converters.map Derived.summary) =
      some [⟨"tzid".toList, ["TZID".toList], some ["TEXT"], false, true⟩,
        ⟨"observances".toList, [obsName false, obsName true], none, true, false⟩,
        ⟨"tzurl".toList, ["TZURL".toList], some ["URI"], false, false⟩,
        ⟨"last_modified".toList, ["LAST-MODIFIED".toList], some ["DATE-TIME"], false, false⟩] ∧
    obsNames = ["TZOFFSETFROM".toList, "TZOFFSETTO".toList, "TZNAME".toList, "COMMENT".toList] ∧
    tzNames = ["TZID".toList, "TZURL".toList, "LAST-MODIFIED".toList] := by
  obtain ⟨r, hr, -⟩ := C68_tables
  refine ⟨r, hr, ?_, ?_, by decide, by decide⟩
  · have h : initializeConverters.toOption.map (fun r => [TypeName.standard, .daylight].map fun t =>
        (dictGet? r.metas t).map fun m => m.converters.map Derived.summary) = some ([TypeName.standard, .daylight].map fun _ =>
      some [⟨"tzoffsetfrom".toList, ["TZOFFSETFROM".toList], some ["UTC-OFFSET"], false, true⟩,
        ⟨"tzoffsetto".toList, ["TZOFFSETTO".toList], some ["UTC-OFFSET"], false, true⟩,
        ⟨"rrule".toList, recurNames, none, false, true⟩,
        ⟨"tzname".toList, ["TZNAME".toList], some ["TEXT"], false, false⟩,
        ⟨"comment".toList, ["COMMENT".toList], some ["TEXT"], false, false⟩]) := by decide +kernel
    rw [hr] at h
    exact List.map_inj_left.1 (Option.some.inj h)
  · have h : (initializeConverters.toOption.map fun r => (dictGet? r.metas .timezone).map fun m =>
        m.converters.map Derived.summary) = some (some
      [⟨"tzid".toList, ["TZID".toList], some ["TEXT"], false, true⟩,
        ⟨"observances".toList, [obsName false, obsName true], none, true, false⟩,
        ⟨"tzurl".toList, ["TZURL".toList], some ["URI"], false, false⟩,
        ⟨"last_modified".toList, ["LAST-MODIFIED".toList], some ["DATE-TIME"], false, false⟩]) := by decide +kernel
    rw [hr] at h
    exact Option.some.inj h

/-! ### Any class -/

/-- C68 for any definition of a class: if the converters of a class are found, every attribute has exactly one of
them, except those that are to be ignored, which have none.  Alarms and calendars have one more (that has no
attribute). -/
theorem C68_attributes (r : Registry) (k : MetaKind) (as : List AttrDecl) (ds : List Derived)
    (h : findConverters r k as = .ok ds) :
    (ds.map fun d => d.attr).Perm ((as.filter fun a => Converted a).map AttrDecl.name ++
      if k = .alarm ∨ k = .calendar then [[]] else []) := by
  have key : ∀ (as : List AttrDecl) ds, attrConverters r as = .ok ds →
      ds.map (fun d => d.attr) = (as.filter fun a => Converted a).map AttrDecl.name := by
    intro as
    induction as with
    | nil =>
      intro ds h
      cases h
      rfl
    | cons a as ih =>
      intro ds h
      simp only [attrConverters, bind, Except.bind] at h
      split at h
      · cases h
      · rename_i d hd
        split at h
        · cases h
        · rename_i ds' hds
          injection h with h
          subst h
          rw [List.map_append, ih ds' hds, List.filter_cons]
          unfold getConverterFor at hd
          split at hd
          · rename_i hi
            have : ¬Converted a := fun hc => (ignore_iff a).2 hc hi
            injection hd with hd
            subst hd
            simp only [this, decide_false, Bool.false_eq_true, if_false]
            rfl
          · rename_i hi
            have : Converted a := (ignore_iff a).1 hi
            simp only [this, decide_true, if_true]
            simp only [bind, Except.bind] at hd
            split at hd
            · cases hd
            · split at hd
              · injection hd with hd
                subst hd
                rfl
              · split at hd
                · cases hd
                · injection hd with hd
                  subst hd
                  rfl
  unfold findConverters at h
  simp only [bind, Except.bind] at h
  split at h
  · cases h
  · rename_i ds' hds
    rw [← key as ds' hds]
    cases k <;> injection h with h <;> subst h
    · refine ((C68_sorted _).1.map _).trans ?_
      simp
    · refine ((C68_sorted _).1.map _).trans ?_
      simp
    · refine ((C68_sorted _).1.map _).trans ?_
      rw [List.map_append]
      simpa using ((C68_sorted ds').1.map fun d => d.attr).append_right [[]]
    · refine ((C68_sorted _).1.map _).trans ?_
      simp

/-- C68: what counts as the type of the values: the types of a union without `None`, the class itself, and for a
list those of its element.  A list in a list is refused. -/
theorem C68_types (e : PyType) :
    (∀ t, unwrapType (.cls t) = .ok (false, [.cls t])) ∧
    (∀ args, (∃ t ∈ args, t ≠ .none) → unwrapType (.union args) = .ok (false, args.filter PyType.notNone)) ∧
    (∀ vs, unwrapType e = .ok (false, vs) → unwrapType (.list e) = .ok (true, vs)) ∧
    (∀ vs, unwrapType e = .ok (true, vs) → unwrapType (.list e) = .error .assertionError) := by
  refine ⟨fun t => rfl, fun args h => ?_, fun vs h => ?_, fun vs h => ?_⟩
  · obtain ⟨t, ht, hn⟩ := h
    have hm : t ∈ args.filter PyType.notNone := List.mem_filter.2 ⟨ht, by cases t <;> first | rfl | exact absurd rfl hn⟩
    unfold unwrapType
    cases hf : args.filter PyType.notNone with
    | nil =>
      rw [hf] at hm
      cases hm
    | cons x l => rfl
  · simp only [unwrapType, h, bind, Except.bind]
    rfl
  · simp only [unwrapType, h, bind, Except.bind]
    rfl

/-- C68: an attribute of a class, or a list of them (`ics_type` in the metadata counts before the annotation), gets a
converter if and only if something is registered for that class, and is refused with a `ValueError` otherwise, whatever was registered before.  The converter is for a list if
the attribute is one, and required if the metadata say so or, without them, if it must be given to `__init__`; the
name is that in the metadata, or else that of the attribute in upper case with `-` for `_`. -/
theorem C68_registered (r : Registry) (a : AttrDecl) (t : TypeName) (ty : PyType) (hc : Converted a)
    (hi : a.icsType = some ty ∨ (a.icsType = none ∧ a.type = some ty))
    (ht : ty = .cls t ∨ ty = .list (.cls t) ∨ ty = optional t) :
    (r.Has t → ∃ d, getConverterFor r a = .ok (some d) ∧ d.attr = a.name ∧
      (d.multi = true ↔ ty = .list (.cls t)) ∧
      (d.required = true ↔ a.required = some true ∨ (a.required = none ∧ a.init = true ∧ a.hasDefault = false)) ∧
      (∀ n, a.icsName = some n → n ≠ [] → d.ics = n) ∧
      (a.icsName = none → '-' ∉ upper a.name → (upper a.name).head? ≠ some '_' → (upper a.name).getLast? ≠ some '_' →
        d.ics = (upper a.name).map fun c => if c = '_' then '-' else c) ∧
      (∀ p, a.priority = some p → d.priority = p)) ∧
    (¬r.Has t → getConverterFor r a = .error .valueError) := by
  obtain ⟨multi, hm, he⟩ : ∃ multi, (multi = true ↔ ty = .list (.cls t)) ∧
      extractAttrType a = .ok (multi, [.cls t]) := by
    have he : extractAttrType a = unwrapType ty := by
      unfold extractAttrType
      rcases hi with hi | ⟨hi, hj⟩
      · rw [hi]
        rfl
      · rw [hi, hj]
        rfl
    rw [he]
    rcases ht with rfl | rfl | rfl
    · exact ⟨false, ⟨nofun, nofun⟩, rfl⟩
    · exact ⟨true, ⟨fun _ => rfl, fun _ => rfl⟩, rfl⟩
    · exact ⟨false, ⟨nofun, nofun⟩, rfl⟩
  unfold getConverterFor
  rw [if_neg ((ignore_iff a).2 hc), he]
  simp only [bind, Except.bind, specialKind]
  unfold Registry.Has
  cases h1 : dictGet? r.metas t with
  | some m => exact ⟨fun _ => ⟨_, rfl, rfl, hm, derived_required .., derived_name _ _ _, derived_upper _ _ _, derived_priority _ _ _⟩, fun h => absurd (.inl rfl) h⟩
  | none =>
    cases h2 : dictGet? r.attrs t with
    | some k => exact ⟨fun _ => ⟨_, rfl, rfl, hm, derived_required .., derived_name _ _ _, derived_upper _ _ _, derived_priority _ _ _⟩, fun h => absurd (.inr (.inl rfl)) h⟩
    | none =>
      simp only [valueConverters]
      cases h3 : dictGet? r.values t with
      | some c => exact ⟨fun _ => ⟨_, rfl, rfl, hm, derived_required .., derived_name _ _ _, derived_upper _ _ _, derived_priority _ _ _⟩, fun h => absurd (.inr (.inr rfl)) h⟩
      | none => exact ⟨fun h => by simp at h, fun _ => rfl⟩

/-- C68: without a priority in the metadata, the converter of a time span has the priority 1000 and every other has the
priority 0; together with `C68_sorted`, the time span is handled before attributes without a priority, wherever it
is defined. -/
theorem C68_priority (r : Registry) (a : AttrDecl) (d : Derived) (h : getConverterFor r a = .ok (some d)) :
    (∀ p, a.priority = some p → d.priority = p) ∧
    (a.priority = none → (d.kind = .timespan → d.priority = 1000) ∧ (d.kind ≠ .timespan → d.priority = 0)) := by
  have key : ∀ m k, d = mkDerived a m k → (∀ p, a.priority = some p → d.priority = p) ∧
      (a.priority = none → (d.kind = .timespan → d.priority = 1000) ∧ (d.kind ≠ .timespan → d.priority = 0)) := by
    rintro m k rfl
    refine ⟨fun p hp => by simp [mkDerived, hp], fun hp => ?_⟩
    cases k <;> simp [mkDerived, hp, DKind.defaultPriority]
  unfold getConverterFor at h
  split at h
  · cases h
  · simp only [bind, Except.bind] at h
    split at h
    · cases h
    · split at h
      · injection h with h
        injection h with h
        exact key _ _ h.symm
      · split at h
        · cases h
        · injection h with h
          injection h with h
          exact key _ _ h.symm

/-- C68: creating a value converter never takes a type away from a converter that has it; assigning to
`ValueConverter.BY_TYPE` does.  No other type is affected. -/
theorem C68_values (r : Registry) (c : VConv) (t : TypeName) :
    (∃ r', RegStep.run r (.value c) = .ok r' ∧
      dictGet? r'.values c.pythonType = some ((dictGet? r.values c.pythonType).getD c) ∧
      ∀ t', t' ≠ c.pythonType → dictGet? r'.values t' = dictGet? r.values t') ∧
    (∃ r', RegStep.run r (.valueType t c) = .ok r' ∧ dictGet? r'.values t = some c ∧
      ∀ t', t' ≠ t → dictGet? r'.values t' = dictGet? r.values t') := by
  refine ⟨⟨_, rfl, ?_, fun t' h => ?_⟩, _, rfl, by simp [dictGet_set_eq], fun t' h => dictGet_set_ne _ _ h⟩
  · unfold dictSetDefault
    cases hg : dictGet? r.values c.pythonType with
    | some x => simp [hg]
    | none => simp [dictGet_set_eq]
  · unfold dictSetDefault
    split
    · rfl
    · exact dictGet_set_ne _ _ h

/-- C68: the order of registration matters ("order is very important here"): before the alarms are registered, neither
events nor todos can be, and before events are, calendars cannot, whatever else is registered. -/
theorem C68_order (r r' : Registry) (name : Str) :
    (¬r.Has .baseAlarm → RegStep.run r (.component .event .plain name eventDecls) ≠ .ok r' ∧
      RegStep.run r (.component .todo .plain name todoDecls) ≠ .ok r') ∧
    (¬r.Has .event → RegStep.run r (.component .calendar .calendar name calendarDecls) ≠ .ok r') := by
  have key : ∀ (t t' : TypeName) (k : MetaKind) (as : List AttrDecl) (a : AttrDecl), a ∈ as → Converted a →
      a.icsType = none → a.type = some (.list (.cls t)) → ¬r.Has t → RegStep.run r (.component t' k name as) ≠ .ok r' := by
    intro t t' k as a ha hc hi ht hn he
    have h1 := (C68_registered r a t _ hc (.inr ⟨hi, ht⟩) (.inr (.inl rfl))).2 hn
    simp only [RegStep.run, findConverters, bind, Except.bind] at he
    have h2 : ∀ ds, attrConverters r as ≠ .ok ds :=
      attrConverters_error (a := a) (fun d hd => by rw [h1] at hd; cases hd) ha
    cases h3 : attrConverters r as with
    | ok ds => exact h2 ds h3
    | error e =>
      rw [h3] at he
      cases he
  refine ⟨fun h => ⟨?_, ?_⟩, fun h => ?_⟩
  · exact key .baseAlarm _ _ _ { name := "alarms".toList, type := some (.list (.cls .baseAlarm)), check := .list }
      (by simp [eventDecls, entryDecls]) (.inr ⟨rfl, rfl⟩) rfl rfl h
  · exact key .baseAlarm _ _ _ { name := "alarms".toList, type := some (.list (.cls .baseAlarm)), check := .list }
      (by simp [todoDecls, entryDecls]) (.inr ⟨rfl, rfl⟩) rfl rfl h
  · exact key .event _ _ _ { name := "events".toList, type := some (.list (.cls .event)), priority := some (-100), check := .list }
      (by simp [calendarDecls]) (.inr ⟨rfl, rfl⟩) rfl rfl h

/-- An optional list is not recognised as a list and refused, whatever is registered. -/
theorem C68_optional_list_fails (r : Registry) (a : AttrDecl) (e : PyType) (hc : Converted a) (hi : a.icsType = none)
    (ht : a.type = some (.union [.list e, .none])) : getConverterFor r a = .error .valueError := by
  unfold getConverterFor
  rw [if_neg ((ignore_iff a).2 hc)]
  unfold extractAttrType
  rw [hi, ht]
  rfl

/-! ### Examples -/

/-- Three converters are sorted by priority, the two with the same priority in the order given. -/
example : (sortConverters [{ kind := .timespan, attr := "a".toList }, { kind := .recurrence, attr := "b".toList, priority := 5 },
    { kind := .observances, attr := "c".toList }]).map (fun d => d.attr) = ["b".toList, "a".toList, "c".toList] := by decide +kernel

/-- A `DTSTART` line is given to the recurrence and to the timespan, in their order. -/
example : ((dictGet? (buildLookup [{ kind := .value [.text], ics := "X".toList, attr := "a".toList },
    { kind := .recurrence, attr := "b".toList }, { kind := .timespan, attr := "c".toList }] []) "DTSTART".toList).getD []).map
    (fun d => d.attr) = ["b".toList, "c".toList] := by decide +kernel

/-- The hypotheses of `C68_registered`, `C68_order` and `C68_optional_list_fails` can be met. -/
example : Converted { name := "alarms".toList, type := some (.list (.cls .baseAlarm)) } ∧ ¬Registry.Has {} .baseAlarm ∧
    Registry.Has { values := [(.str, .text)] } .str ∧
    Converted { name := "x".toList, type := some (.union [.list (.cls .str), .none]) } := by
  refine ⟨.inr ⟨rfl, rfl⟩, ?_, .inr (.inr rfl), .inr ⟨rfl, rfl⟩⟩
  simp [Registry.Has, dictGet?]

/-- The name of `last_modified`. -/
example : '-' ∉ upper "last_modified".toList ∧ (upper "last_modified".toList).head? ≠ some '_' ∧
    (upper "last_modified".toList).getLast? ≠ some '_' ∧
    ((upper "last_modified".toList).map fun c => if c = '_' then '-' else c) = "LAST-MODIFIED".toList := by decide +kernel

/-- `C68_attributes` for the attributes of an alarm. -/
example : ((runSteps valueSteps {} >>= fun r => findConverters r .alarm alarmDecls).toOption.map fun ds =>
    ds.map fun d => d.attr) = some [[], "trigger".toList, "repeat".toList, "duration".toList] := by decide +kernel

/-- `Optional[List[Union[URL, None]]]` and `List[Union[URL, None]]`. -/
example : ((unwrapType (.list (.union [.cls .url, .none]))).toOption.map fun x => x.1) = some true ∧
    ((unwrapType (.union [.list (.cls .url), .none])).toOption.map fun x => x.1) = some false := by
  decide +kernel

/-- `ics_type` in the metadata replaces an annotation without a converter. -/
example : ∃ d, getConverterFor { values := [(.str, .text)] }
    { name := "x".toList, type := some (.cls .dict), icsType := some (.list (.cls .str)) } = .ok (some d) ∧ d.multi = true := ⟨_, rfl, rfl⟩

/-- The second converter for `str` does not replace the first, an assignment does. -/
example : (runSteps [.value .rawText, .value .text] {}).toOption.map (fun r => dictGet? r.values .str) = some (some .rawText) ∧
    (runSteps [.value .rawText, .valueType .str .text] {}).toOption.map (fun r => dictGet? r.values .str) = some (some .text) := by
  decide

end Ics
