import Verif.Proofs.Clone

/-
C44: clone() is an exact copy.
-/
namespace Ics

/-- C44: the clone of a component whose attributes have been let through by their converters and validators
(which C47 is about) has the same class and the same attributes. -/
theorem C44_attributes {σ : Type} (L : Lib) (o : Obj σ)
    (h : ∀ p ∈ o.cls.attrChecks, ∃ u, p.2.run L u = .ok (o.get p.1)) :
    ∃ o', o.clone L = .ok o' ∧ o'.cls = o.cls ∧ ∀ a ∈ o.cls.attrChecks.map Prod.fst, o'.get a = o.get a := by
  have h1 := cloneAttrs_ok L o o.cls.attrChecks fun p hp => by
    obtain ⟨u, hu⟩ := h p hp
    exact check_idem L _ _ _ hu
  refine ⟨⟨o.cls, o.cls.attrChecks.map fun p => (p.1, o.get p.1), o.cls.icsName, [], []⟩, ?_, rfl, ?_⟩
  · unfold Obj.clone
    rw [h1]
    rfl
  · intro a ha
    show (dictGet? (o.cls.attrChecks.map fun p => (p.1, o.get p.1)) a).getD AttrVal.none = _
    rw [dictGet_map _ _ _ ha]
    rfl

/-- C44 for components: the clone equals the component if and only if `extra` and `extra_params` are those of
a new component, that is empty.  (Python's `==` compares class, attributes, `extra` and `extra_params`.)
Missing: a component with extra lines or parameters is not equal to its clone, they are left out. -/
theorem C44_component_partial {σ : Type} (L : Lib) (o : Obj σ)
    (h : ∀ p ∈ o.cls.attrChecks, ∃ u, p.2.run L u = .ok (o.get p.1)) :
    ∃ o', o.clone L = .ok o' ∧
      ((o'.cls = o.cls ∧ (∀ a ∈ o.cls.attrChecks.map Prod.fst, o'.get a = o.get a) ∧
          (o'.extraName = o.extraName ∧ o'.extra = o.extra) ∧ o'.extraParams = o.extraParams) ↔
        (o.extraName = o.cls.icsName ∧ o.extra = []) ∧ o.extraParams = []) := by
  obtain ⟨o', h1, h2, h3⟩ := C44_attributes L o h
  refine ⟨o', h1, ?_⟩
  have he : o'.extraName = o.cls.icsName ∧ o'.extra = [] ∧ o'.extraParams = [] := by
    unfold Obj.clone at h1
    cases ha : cloneAttrs L o o.cls.attrChecks with
    | error e => rw [ha] at h1; cases h1
    | ok a => rw [ha] at h1; cases h1; exact ⟨rfl, rfl, rfl⟩
  rw [he.1, he.2.1, he.2.2]
  constructor
  · rintro ⟨-, -, ⟨e1, e2⟩, e3⟩
    exact ⟨⟨e1.symm, e2.symm⟩, e3.symm⟩
  · rintro ⟨⟨e1, e2⟩, e3⟩
    exact ⟨h2, h3, ⟨e1.symm, e2.symm⟩, e3.symm⟩

/-- C44 is false of components with extra lines or parameters: every clone is without them. -/
theorem C44_extra_fails {σ : Type} (L : Lib) (o o' : Obj σ) (h : o.clone L = .ok o')
    (he : o.extra ≠ [] ∨ o.extraParams ≠ []) : o' ≠ o := by
  rintro rfl
  unfold Obj.clone at h
  cases ha : cloneAttrs L o' o'.cls.attrChecks with
  | error e => rw [ha] at h; cases h
  | ok a =>
    rw [ha] at h
    have h : (⟨o'.cls, a, o'.cls.icsName, [], []⟩ : Obj σ) = o' := Except.ok.inj h
    rcases he with he | he
    · exact he (congrArg Obj.extra h).symm
    · exact he (congrArg Obj.extraParams h).symm

/-- C44: a new display alarm equals its clone (an instance of `C44_component_partial`). -/
example (L : Lib) : (newObj (σ := Unit) L .displayAlarm).clone L = .ok (newObj L .displayAlarm) := rfl

/-- C44: with an extra line it does not. -/
example (L : Lib) :
    let o : Obj Unit := { newObj L .displayAlarm with extra := [.line ⟨"X-A".toList, [], "b".toList⟩] }
    o.clone L = .ok (newObj L .displayAlarm) ∧ (newObj (σ := Unit) L .displayAlarm) ≠ o :=
  ⟨rfl, fun h => nomatch congrArg Obj.extra h⟩

/-- C44 for containers: `clone(deep=True)` has the same value as the container, and the mutable objects the
two have in common are exactly those inside of nested containers.  (`n` is the number of the next new object.) -/
theorem C44_deep_shared (n : Nat) (id l : Nat) (name : Str) (is : List HItem)
    (hn : ∀ x ∈ (HItem.cont id l name is).objects, x < n) (hu : (HItem.cont id l name is).upperNames) :
    ((HItem.cont id l name is).deepClone n).1.same (.cont id l name is) ∧
    ∀ x, (x ∈ ((HItem.cont id l name is).deepClone n).1.objects ∧ x ∈ (HItem.cont id l name is).objects) ↔
      ∃ i ∈ is, x ∈ HItem.objectss i.inner := by
  refine ⟨⟨hu.1, cloneItems_same _ is hu.2⟩, fun x => ?_⟩
  obtain ⟨h1, h2⟩ := cloneItems_objects (n + 2) is
  constructor
  · rintro ⟨hx, ho⟩
    have hlt := hn x ho
    rcases List.mem_cons.1 hx with rfl | hx
    · omega
    · rcases List.mem_cons.1 hx with rfl | hx
      · omega
      · rcases h1 x hx with h | h
        · omega
        · exact h
  · rintro ⟨i, hi, hx⟩
    refine ⟨List.mem_cons_of_mem _ (List.mem_cons_of_mem _ (h2 i hi x hx)), ?_⟩
    refine List.mem_cons_of_mem _ (List.mem_cons_of_mem _ ((mem_objectss x is).2 ⟨i, hi, ?_⟩))
    exact (clone_inner n i x hx).2

/-- C44 for containers without nested containers: `clone(deep=True)` shares no mutable object with the
original.  Missing: nested containers, see `C44_nested_fails`. -/
theorem C44_deep_partial (n : Nat) (id l : Nat) (name : Str) (is : List HItem)
    (hn : ∀ x ∈ (HItem.cont id l name is).objects, x < n) (hu : (HItem.cont id l name is).upperNames)
    (hf : ∀ i ∈ is, i.inner = []) :
    ((HItem.cont id l name is).deepClone n).1.same (.cont id l name is) ∧
    ∀ x ∈ ((HItem.cont id l name is).deepClone n).1.objects, x ∉ (HItem.cont id l name is).objects := by
  obtain ⟨h1, h2⟩ := C44_deep_shared n id l name is hn hu
  refine ⟨h1, fun x hx ho => ?_⟩
  obtain ⟨i, hi, hx⟩ := (h2 x).1 ⟨hx, ho⟩
  rw [hf i hi] at hx
  exact absurd hx List.not_mem_nil

/-- C44 is false of nested containers: whatever is inside of one is shared. -/
theorem C44_nested_fails (n : Nat) (id l id' l' : Nat) (name name' : Str) (i : HItem) :
    ∃ x, x ∈ ((HItem.cont id l name [.cont id' l' name' [i]]).deepClone n).1.objects ∧
      x ∈ (HItem.cont id l name [.cont id' l' name' [i]]).objects := by
  obtain ⟨x, hx⟩ : ∃ x, x ∈ i.objects := by
    cases i with
    | line a b c d e => exact ⟨a, List.mem_cons_self⟩
    | cont a b c d => exact ⟨a, List.mem_cons_self⟩
  refine ⟨x, ?_, ?_⟩ <;> simp [HItem.deepClone, cloneItems, HItem.clone, HItem.objects, HItem.objectss, hx]

/-- An event in a calendar, with identities (used in examples). -/
def exTree : HItem :=
  .cont 0 1 "VCALENDAR".toList
    [.line 2 3 "VERSION".toList [] "2.0".toList,
      .cont 4 5 "VEVENT".toList [.line 6 7 "SUMMARY".toList [("LANGUAGE".toList, .list 8 [⟨false, "en".toList⟩])] "a".toList]]

/-- C44: the copy of a calendar shares the lines of its events; the copy of an event shares nothing. -/
example : (exTree.deepClone 9).1.objects = [9, 10, 11, 12, 13, 14, 6, 7, 8] ∧
    ((HItem.cont 4 5 "VEVENT".toList [.line 6 7 "SUMMARY".toList [("LANGUAGE".toList, .list 8 [])] []]).deepClone 9).1.objects =
      [9, 10, 11, 12, 13] := by decide +kernel

end Ics
