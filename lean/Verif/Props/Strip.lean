import Verif.Spec.Strip
import Verif.Proofs.Strip
import Verif.Props.CalendarTrip

/-
C67: `strip_extras` removes what was asked for and nothing else.
-/
namespace Ics

variable {σ : Type}

theorem asked_iff (all : Bool) (x : Option Bool) : x.getD all = true ↔ Asked all x := by
  unfold Asked
  cases x with
  | none => simp
  | some b => simp

/-- C67: `strip_extras` fails with a `ValueError` exactly if nothing is to be removed, and never otherwise. -/
theorem C67_refused (a : StripArgs) (o : Obj σ) (e : PyErr) : stripExtras a o = .error e ↔
    e = .valueError ∧ ¬Asked a.allExtras a.extraProperties ∧ ¬Asked a.allExtras a.extraParams ∧
      ¬Asked a.allExtras a.propertyMerging := by
  rw [← asked_iff, ← asked_iff, ← asked_iff]
  unfold stripExtras
  cases a.extraProperties.getD a.allExtras <;> cases a.extraParams.getD a.allExtras <;>
    cases a.propertyMerging.getD a.allExtras <;> simp [eq_comm]

/-- C67: the class and the attributes stay as they are, all unknown items are removed or none is, and the
parameters are all removed, or only those that say which values share a line, or none. -/
theorem C67_effect (a : StripArgs) (o o' : Obj σ) (h : stripExtras a o = .ok o') (hu : MarksUnique o) :
    o'.cls = o.cls ∧ o'.attrs = o.attrs ∧ o'.extraName = o.extraName ∧
    (Asked a.allExtras a.extraProperties → o'.extra = []) ∧
    (¬Asked a.allExtras a.extraProperties → o'.extra = o.extra) ∧
    (Asked a.allExtras a.extraParams → o'.extraParams = []) ∧
    (¬Asked a.allExtras a.extraParams → ¬Asked a.allExtras a.propertyMerging → o'.extraParams = o.extraParams) ∧
    (¬Asked a.allExtras a.extraParams → Asked a.allExtras a.propertyMerging →
      List.Forall₂ (fun x y => x.1 = y.1 ∧ WithoutMarks x.2 y.2) o.extraParams o'.extraParams) := by
  have marks : List.Forall₂ (fun x y : Str × ExtraVal => x.1 = y.1 ∧ WithoutMarks x.2 y.2) o.extraParams
      (o.extraParams.map fun kv => (kv.1, kv.2.stripMerge)) := by
    rw [List.forall₂_map_right_iff]
    refine List.forall₂_same.2 fun x hx => ⟨rfl, ?_⟩
    obtain ⟨k, e⟩ := x
    cases e with
    | one p => exact rfl
    | many ps =>
      change List.Forall₂ WithoutMark ps (ps.map fun p => dictErase p mergeKey)
      rw [List.forall₂_map_right_iff]
      refine List.forall₂_same.2 fun p hp j => ?_
      exact dictGet_erase (hu k ps hx p hp) mergeKey j
  rw [← asked_iff, ← asked_iff, ← asked_iff]
  unfold stripExtras stripParams at h
  generalize a.extraProperties.getD a.allExtras = x at *
  generalize a.extraParams.getD a.allExtras = y at *
  generalize a.propertyMerging.getD a.allExtras = z at *
  cases x <;> cases y <;> cases z <;>
    simp only [Bool.or_false, Bool.false_or, Bool.or_true, Bool.true_or, Bool.not_true, Bool.not_false, Bool.false_eq_true,
      if_true, if_false, Except.ok.injEq, reduceCtorEq] at h <;> subst h <;>
    simp only [Bool.false_eq_true, not_true_eq_false, not_false_eq_true, forall_const, true_and, and_true, false_implies,
      marks]

/-- C67: doing it again changes nothing. -/
theorem C67_again (a : StripArgs) (o o' : Obj σ) (h : stripExtras a o = .ok o') (hu : MarksUnique o) :
    stripExtras a o' = .ok o' := by
  have twice : (o.extraParams.map fun kv => (kv.1, kv.2.stripMerge)).map (fun kv => (kv.1, kv.2.stripMerge)) =
      o.extraParams.map fun kv => (kv.1, kv.2.stripMerge) := by
    rw [List.map_map]
    refine List.map_congr_left fun x hx => ?_
    obtain ⟨k, e⟩ := x
    cases e with
    | one p => rfl
    | many ps =>
      change (k, ExtraVal.many ((ps.map fun p => dictErase p mergeKey).map fun p => dictErase p mergeKey)) =
        (k, .many (ps.map fun p => dictErase p mergeKey))
      rw [List.map_map]
      refine congrArg (fun q => (k, ExtraVal.many q)) (List.map_congr_left fun p hp => ?_)
      exact dictErase_absent _ _ ((dictGet_erase (hu k ps hx p hp) mergeKey mergeKey).trans (if_pos rfl))
  unfold stripExtras stripParams at h ⊢
  generalize a.extraProperties.getD a.allExtras = x at *
  generalize a.extraParams.getD a.allExtras = y at *
  generalize a.propertyMerging.getD a.allExtras = z at *
  cases x <;> cases y <;> cases z <;>
    simp only [Bool.or_false, Bool.false_or, Bool.or_true, Bool.true_or, Bool.not_true, Bool.not_false, Bool.false_eq_true,
      if_true, if_false, Except.ok.injEq, reduceCtorEq] at h ⊢ <;> subst h <;> first | rfl | simp only [twice]

/-- C67: if the marks or all parameters were removed, every value of a list is written on a line of its own. -/
theorem C67_own_lines (L : Lib) (a : StripArgs) (o o' : Obj σ) (h : stripExtras a o = .ok o') (hu : MarksUnique o)
    (ha : Asked a.allExtras a.extraParams ∨ Asked a.allExtras a.propertyMerging)
    (s : AttrSpec) (st st' : DState) (is : List Item) (hd : dumpMulti L s o' st = .ok (is, st'))
    (values : List (Val σ)) (hv : o.get s.attr = .many values) : is.length = values.length := by
  obtain ⟨h1, h2, -, -, -, h3, h4, h5⟩ := C67_effect a o o' h hu
  have hv' : o'.get s.attr = .many values := by
    rw [← hv]
    unfold Obj.get
    rw [h2]
  have hn : ∀ ps, dictGet? o'.extraParams (extraKey s.attr) = some (.many ps) → ∀ p ∈ ps, mergeNext p = false := by
    intro ps hps p hp
    by_cases hy : Asked a.allExtras a.extraParams
    · rw [h3 hy] at hps
      cases hps
    · have hz := ha.resolve_left hy
      have h6 := h5 hy hz
      obtain ⟨x, hx, -, hw⟩ := forall₂_mem h6 _ (mem_of_dictGet hps)
      obtain ⟨k, e⟩ := x
      cases e with
      | one q => exact hw.elim
      | many qs =>
        obtain ⟨q, hq, hw⟩ := forall₂_mem (show List.Forall₂ WithoutMark qs ps from hw) p hp
        unfold mergeNext
        rw [hw mergeKey]
        rfl
  unfold dumpMulti at hd
  rw [hv'] at hd
  simp only at hd
  cases he : dictGet? o'.extraParams (extraKey s.attr) with
  | none =>
    rw [he] at hd
    have := dumpMultiLoop_own (L := L) (s := s) (fun x hx => by
      obtain ⟨v, -, rfl⟩ := List.mem_map.1 hx
      rfl) hd
    rw [this, List.length_map]
  | some e =>
    rw [he] at hd
    cases e with
    | one p =>
      simp only [zipParams] at hd
      split at hd
      · have := dumpMultiLoop_own (L := L) (s := s) (fun x hx => by
          obtain ⟨v, -, rfl⟩ := List.mem_map.1 hx
          rfl) hd
        rw [this, List.length_map]
      · split at hd <;> cases hd
    | many ps =>
      simp only [zipParams] at hd
      split at hd
      · have := dumpMultiLoop_own (L := L) (s := s) (fun x hx => by
          obtain ⟨v, -, rfl⟩ := List.mem_map.1 hx
          rfl) hd
        rw [this, List.length_map]
      · split at hd
        · cases hd
        · rename_i hl
          have := dumpMultiLoop_own (L := L) (s := s) (fun x hx => hn ps he x.2 (List.of_mem_zip hx).2) hd
          rw [this, List.length_zip, not_not.1 hl, Nat.min_self]

/-- What was stripped is written like a representable component with the same attributes and unknown items. -/
theorem strip_rep {L : Lib} {zs : List (Str × Nat)} {M : Str → σ → Prop} {a : StripArgs} {o o' : Obj σ}
    (h : stripExtras a o = .ok o') (ho : RepObj L zs M o) : ∃ o₁ : Obj σ, RepObj L zs M o₁ ∧ o₁.cls = o.cls ∧
      o₁.attrs = o.attrs ∧ o₁.extraName = o'.extraName ∧ o₁.extra = o'.extra ∧
      ∀ memd cvs, (∀ cv ∈ cvs, cv ∈ o.cls.convs) → ∀ st, dumpConvs L memd cvs o' st = dumpConvs L memd cvs o₁ st := by
  have key : ∀ p : Obj σ, RepObj L zs M p → p.cls = o.cls → p.attrs = o.attrs → ∀ y z,
      ∃ o₁ : Obj σ, RepObj L zs M o₁ ∧ o₁.cls = o.cls ∧ o₁.attrs = o.attrs ∧ o₁.extraName = p.extraName ∧
        o₁.extra = p.extra ∧ ∀ memd cvs, (∀ cv ∈ cvs, cv ∈ o.cls.convs) → ∀ st,
          dumpConvs L memd cvs { p with extraParams := stripParams y z p.extraParams } st = dumpConvs L memd cvs o₁ st := by
    intro p hp hc ha y z
    cases y with
    | true => exact ⟨{ p with extraParams := [] }, repObj_noParams hp, hc, ha, rfl, rfl, fun _ _ _ _ => rfl⟩
    | false =>
      cases z with
      | false => exact ⟨p, hp, hc, ha, rfl, rfl, fun _ _ _ _ => rfl⟩
      | true => exact ⟨p.ownLines, repObj_own hp, hc, ha, rfl, rfl, fun memd cvs hcv st =>
          dumpConvs_own hp cvs (fun cv h => hc ▸ hcv cv h) st⟩
  unfold stripExtras at h
  simp only at h
  split at h
  · cases h
  · split at h
    · cases h
      exact key { o with extra := [] } (repObj_extra ho) rfl rfl _ _
    · cases h
      exact key o ho rfl rfl _ _

/-- C67: an event or todo that can be written and read back (see C41) can be written and read back after
`strip_extras`, too, and nothing is lost but what was removed: its attributes are still the same.  (Of the
alarms in it nothing is removed at all.) -/
theorem C67_entry (L : Lib) (hU : UtcOk L) (zs : List (Str × Nat)) (a : StripArgs) (o o' : EntryObj)
    (h : stripExtras a o = .ok o') (ho : RepEntry L zs o) :
    ∃ items used, dumpEntry L o' { ctx := some [] } = .ok (.cont o.cls.icsName items, { ctx := some used }) ∧
      ∀ zones, (∀ n z, dictGet? used n = some z → Knows L zones n z) →
        ∃ r ctx', loadEntry L o.cls items (some zones) = .ok (r, ctx') ∧ KeptAttrs L (SameAlarm L) o r ∧
          r.extra = o'.extra := by
  obtain ⟨o₁, h1, h2, h3, h4, h5, h6⟩ := strip_rep h ho.2
  have hc : o'.cls = o.cls := by
    unfold stripExtras at h
    simp only at h
    split at h
    · cases h
    · cases h
      dsimp only
      split <;> rfl
  obtain ⟨items, used, k1, -, k3⟩ := C41_roundtrip_partial L hU zs o₁ ⟨by rw [h2]; exact ho.1, h1⟩
  rw [h2] at k1 k3
  refine ⟨items, used, ?_, fun zones hz => ?_⟩
  · rw [← k1]
    unfold dumpEntry dumpObj
    rw [hc, h2, h6 _ _ fun _ h => h, h4, h5]
  · obtain ⟨r, ctx', k4, k5⟩ := k3 zones hz
    refine ⟨r, ctx', k4, ⟨h2.symm.trans k5.cls, fun k hk => ?_⟩, ?_⟩
    · have := k5.attrs k (by rw [h2]; exact hk)
      unfold Obj.get at this ⊢
      rw [h3] at this
      exact this
    · rw [← k5.extra, h5]

/-- C67 for calendars (of the events and todos in it nothing is removed). -/
theorem C67_calendar (L : Lib) (hU : UtcOk L) (zs : List (Str × Nat)) (a : StripArgs) (o o' : CalObj)
    (h : stripExtras a o = .ok o') (ho : RepCalendar L zs o)
    (hz : ∀ n z, dictGet? zs n = some z →
      ∃ is, L.tzDump z = .ok (.cont "VTIMEZONE".toList is) ∧ L.tzLoad is = .ok z) :
    ∃ i r, dumpCalendar L o' = .ok i ∧ loadCalendarItem L i = .ok r ∧ KeptAttrs L (SameEntry L) o r ∧
      r.extra = o'.extra := by
  obtain ⟨o₁, h1, h2, h3, h4, h5, h6⟩ := strip_rep h ho.2
  obtain ⟨i, r, k1, k2, k5⟩ := C56_roundtrip L hU zs o₁ ⟨by rw [h2]; exact ho.1, h1⟩ hz
  have hcv : o.cls.convs = calConvsBefore ++ calConvsAfter := by
    rw [ho.1]
    exact (List.takeWhile_append_dropWhile).symm
  refine ⟨i, r, ?_, k2, ⟨h2.symm.trans k5.cls, fun k hk => ?_⟩, ?_⟩
  · rw [← k1]
    unfold dumpCalendar
    simp only [h6 _ calConvsBefore (fun cv h => hcv ▸ List.mem_append_left _ h),
      h6 _ calConvsAfter (fun cv h => hcv ▸ List.mem_append_right _ h), h4, h5]
  · have := k5.attrs k (by rw [h2]; exact hk)
    unfold Obj.get at this ⊢
    rw [h3] at this
    exact this
  · rw [← k5.extra, h5]

/-! ### Examples -/

/-- An event with two categories on one line, an unknown line and a parameter. -/
def exStripped : Obj Alarm :=
  { (newObj exLib .event : Obj Alarm) with
    extra := [exLine "X-A" "1"]
    extraParams := [("SUMMARY".toList, .one [("X-B".toList, [⟨false, "2".toList⟩])]),
      ("CATEGORIES".toList, .many [[(mergeKey, [⟨false, "TRUE".toList⟩])],
        [(mergeKey, [⟨false, "FALSE".toList⟩]), ("X-C".toList, [⟨false, "3".toList⟩])]])] }

example : MarksUnique exStripped := by
  intro k ps h p hp
  rcases List.mem_cons.1 h with h | h
  · cases h
  · cases List.mem_singleton.1 h
    revert p
    decide

/-- Only the marks are removed. -/
example : (stripExtras { propertyMerging := some true } exStripped).toOption.map (fun o => (o.extra, o.extraParams)) =
    some ([exLine "X-A" "1"], [("SUMMARY".toList, .one [("X-B".toList, [⟨false, "2".toList⟩])]),
      ("CATEGORIES".toList, .many [[], [("X-C".toList, [⟨false, "3".toList⟩])]])]) := by decide +kernel

/-- Everything but the unknown items is removed. -/
example : (stripExtras { allExtras := true, extraProperties := some false } exStripped).toOption.map
    (fun o => (o.extra, o.extraParams)) = some ([exLine "X-A" "1"], []) := by decide +kernel

/-- Nothing is to be removed. -/
example : (stripExtras {} exStripped).toOption.isSome = false ∧
    ¬Asked false none ∧ Asked true none ∧ ¬Asked true (some false) := by
  refine ⟨by decide +kernel, ?_, ?_, ?_⟩ <;> simp [Asked]

/-- `C67_entry` and `C67_calendar` apply to the event of `Props.RoundTrip` and to the calendar of
`Props.CalendarTrip`. -/
example : (∃ o', stripExtras { allExtras := true } exEventObj = .ok o' ∧ RepEntry exLib [("X/Y".toList, 1)] exEventObj) ∧
    ∃ o', stripExtras { propertyMerging := some true } exCalRep = .ok o' ∧ RepCalendar exLib [("X/Y".toList, 1)] exCalRep :=
  ⟨⟨_, rfl, exEventObj_rep⟩, ⟨_, rfl, exCalRep_rep⟩⟩

end Ics
