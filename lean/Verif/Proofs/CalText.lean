import Verif.Model.CalendarText
import Verif.Proofs.Unquote
import Verif.Proofs.Writable
import Verif.Props.Tree

/-
Calendars as text.
-/
namespace Ics

variable {σ : Type}

/-! ### Equal components stay equal without quotation marks -/

theorem sameVal_unquote {L : Lib} {R : σ → σ → Prop} {f : σ → σ} (hf : ∀ a b, R a b → R (f a) (f b)) {v w : Val σ}
    (h : SameVal L R v w) : SameVal L R (v.unquote f) (w.unquote f) := by
  cases h with
  | same => exact .same _
  | dt h => exact .dt h
  | span h => exact .span h
  | comp h => exact .comp (hf _ _ h)

theorem sameAttr_unquote {L : Lib} {R : σ → σ → Prop} {f : σ → σ} (hf : ∀ a b, R a b → R (f a) (f b)) {v w : AttrVal σ}
    (h : SameAttr L R v w) : SameAttr L R (v.unquote f) (w.unquote f) := by
  cases h with
  | none => exact .none
  | one h => exact .one (sameVal_unquote hf h)
  | many h =>
    refine .many ?_
    rw [List.forall₂_map_left_iff, List.forall₂_map_right_iff]
    exact h.imp fun _ _ => sameVal_unquote hf

/-- `SameObj` with the parameters of the lists compared without quotation marks. -/
theorem sameObj_unquote {L : Lib} {R : σ → σ → Prop} {f : σ → σ} (hf : ∀ a b, R a b → R (f a) (f b)) {a b : Obj σ}
    (h : SameObj L R a b) : SameObj L R (a.unquote f) (b.unquote f) := by
  refine ⟨h.cls, h.extraName, congrArg Item.unquotes h.extra, fun k hk => ?_, fun k hk => ?_, fun k hk ps hps => ?_,
    fun k hk hn => ?_⟩
  · rw [get_unquote, get_unquote]
    exact sameAttr_unquote hf (h.attrs k hk)
  · rw [extra_unquote, extra_unquote, h.params k hk]
  · rw [extra_unquote] at hps ⊢
    cases e : dictGet? a.extraParams k.toUpper.toList with
    | none =>
      rw [e] at hps
      cases hps
    | some x =>
      rw [e] at hps
      cases x with
      | one p => cases hps
      | many qs =>
        rw [h.listParams k hk qs e]
        exact hps
  · rw [extra_unquote] at hn ⊢
    have hn := Option.map_eq_none_iff.1 hn
    rcases h.newParams k hk hn with e | ⟨l, e1, e2⟩
    · rw [e]
      exact .inl rfl
    · refine .inr ⟨l.map (Val.unquote f), ?_, ?_⟩
      · rw [get_unquote, e1]
        rfl
      · rw [e2]
        show some (ExtraVal.many _) = _
        rw [List.map_map, List.map_map]
        rfl

theorem sameCalendar_unquote {L : Lib} {a b : CalObj} (h : SameCalendar L a b) :
    SameCalendar L (unquoteCalendar a) (unquoteCalendar b) :=
  sameObj_unquote (fun _ _ h => sameObj_unquote (fun _ _ h => sameObj_unquote (fun _ _ h => h.elim) h) h) h

/-! ### Writing and reading a calendar -/

/-- What was written, read up to quotation marks, is loaded as the same calendar. -/
theorem cal_load {L : Lib} (hU : UtcOk L) {zs : List (Str × Nat)} {o : CalObj} (h : RepCalendar L zs o)
    (hz : ∀ n z, dictGet? zs n = some z → ZoneTrip L z) :
    ∃ items, dumpCalendar L o = .ok (.cont "VCALENDAR".toList items) ∧
      (WritableCalendar L o → WritableTree (.cont "VCALENDAR".toList items)) ∧
      ∀ i, i.unquote = (Item.cont "VCALENDAR".toList items).unquote → ∃ is o', i = .cont "VCALENDAR".toList is ∧
        loadCalendarItem L i = .ok o' ∧ SameCalendar L (unquoteCalendar o) (unquoteCalendar o') := by
  obtain ⟨items, o', h1, h2, h3, h4, h5⟩ := rt_calendar hU h fun n z hn => by
    obtain ⟨is, k1, _, k2⟩ := hz n z hn
    exact ⟨is, k1, k2 is rfl⟩
  refine ⟨items, h1, fun ho => dumpCalendar_writable o (fun a st b st' ha hb n z hm i hi => ?_) ho h1, fun i h6 => ?_⟩
  · obtain ⟨is, k1, k2, _⟩ := hz n z (h5 a st b st' ha hb n z hm)
    rw [k1] at hi
    cases hi
    exact k2
  have hnat : ∀ is, Item.unquotes is = Item.unquotes items → ZoneNat L is := by
    intro is he zis hm
    have hm' : (Item.cont "VTIMEZONE".toList zis).unquote ∈ Item.unquotes items := by
      rw [← he, Item.unquotes_eq]
      exact List.mem_map_of_mem hm
    rw [Item.unquotes_eq] at hm'
    obtain ⟨i, hi, e⟩ := List.mem_map.1 hm'
    cases i with
    | line cl =>
      rw [Item.unquote, Item.unquote] at e
      cases e
    | cont n zis' =>
      rw [Item.unquote, Item.unquote] at e
      have hn := (Item.cont.inj e).1
      have e2 := (Item.cont.inj e).2
      subst hn
      obtain ⟨n, z, g1, g2⟩ := h4 zis' hi
      obtain ⟨is', k1, _, k3⟩ := hz n z g1
      rw [g2] at k1
      cases k1
      rw [k3 _ e2.symm, k3 _ (by rw [e2]; exact unquotes_idem _)]
  cases i with
  | line cl =>
    rw [Item.unquote, Item.unquote] at h6
    cases h6
  | cont n is =>
    rw [Item.unquote, Item.unquote] at h6
    have hn : n = "VCALENDAR".toList := (Item.cont.inj h6).1
    have hi : Item.unquotes is = Item.unquotes items := (Item.cont.inj h6).2
    subst hn
    have e1 := loadCalendar_unquote L is (hnat is hi)
    rw [hi, loadCalendar_unquote L items (hnat items rfl), h2] at e1
    cases hl2 : loadCalendar L is with
    | error e =>
      rw [hl2] at e1
      cases e1
    | ok o2 =>
      rw [hl2] at e1
      have e2 : unquoteCalendar o' = unquoteCalendar o2 := Except.ok.inj e1
      refine ⟨is, o2, rfl, ?_, ?_⟩
      · have : (if "VCALENDAR".toList = "VCALENDAR".toList then loadCalendar L is else .error .valueError) = .ok o2 := by
          rw [if_pos rfl]
          exact hl2
        exact this
      · rw [← e2]
        exact sameCalendar_unquote h3

theorem cal_text {L : Lib} (hU : UtcOk L) {zs : List (Str × Nat)} {o : CalObj} (h : RepCalendar L zs o)
    (hz : ∀ n z, dictGet? zs n = some z → ZoneTrip L z) (ho : WritableCalendar L o) (w : Wrap) (hw : match w with | .none => True | .width _ W => 1 ≤ W) :
    ∃ txt o', serializeCalendar L w o = .ok txt ∧ calendarOfString L txt = .ok o' ∧
      SameCalendar L (unquoteCalendar o) (unquoteCalendar o') := by
  obtain ⟨items, h1, hwr, h2⟩ := cal_load hU h hz
  obtain ⟨txt, i, h4, h5, h6⟩ := C08_roundtrip w hw false _ items (hwr ho)
  obtain ⟨is, o', rfl, h7, h8⟩ := h2 i h6
  refine ⟨txt, o', ?_, ?_, h8⟩
  · unfold serializeCalendar
    rw [h1]
    exact h4
  · unfold calendarOfString calendarOfItems
    rw [h5]
    simp only [Gen.done]
    rw [h7]
    rfl

/-! ### Several calendars -/

/-- Several trees in one text. -/
theorem trees_roundtrip (w : Wrap) (hw : w.ok) (is : List Item) (h : WritableTrees is) :
    ∃ txt, serItems w is = .ok txt ∧ stringToContainers txt = Gen.done (normItems is) := by
  obtain ⟨doc, h1, h2, h3⟩ := serItems_doc w hw is (fun cl hcl => (flat_parses is h cl hcl).2)
  have hnl : ∀ p ∈ doc.flatMap Prod.snd, ∀ c ∈ p, isNl c = false := by
    intro p hp
    obtain ⟨q, hq, hp⟩ := List.mem_flatMap.1 hp
    exact folded_nonl (h3 q hq).1 (h3 q hq).2 p hp
  refine ⟨_, h1, ?_⟩
  rw [stringToContainers, linesToContainers, unfold_crlf _ hnl, unfold_doc _ h3, h2, linesToContentlines]
  simp only [Gen.done]
  rw [parseEach_ser _ (fun cl hcl => (flat_parses is h cl hcl).1), flat_normItems]
  have := toContainersF_flat (normItems is) (treesOk_norm is h) (flatItems (normItems is)).length (le_refl _)
  simpa [toContainers, Gen.done] using this

theorem serItems_texts (w : Wrap) (is : List Item) (txt : Str) (h : serItems w is = .ok txt)
    (hc : ∀ i ∈ is, ∃ n js, i = .cont n js) :
    ∃ ts : List Str, List.Forall₂ (fun i t => ∃ n js, i = .cont n js ∧ serContainer w false n js = .ok t) is ts ∧
      txt = ts.flatMap (· ++ crlf) := by
  induction is generalizing txt with
  | nil =>
    rw [serItems] at h
    cases h
    exact ⟨[], .nil, rfl⟩
  | cons i is ih =>
    obtain ⟨n, js, rfl⟩ := hc i List.mem_cons_self
    rw [serItems, serItem] at h
    simp only [bind_ok_iff] at h
    obtain ⟨a, ⟨body, hb, ha⟩, b, h2, h⟩ := h
    cases ha
    cases h
    obtain ⟨ts, h3, rfl⟩ := ih b h2 fun i hi => hc i (List.mem_cons_of_mem _ hi)
    refine ⟨("BEGIN:".toList ++ n ++ crlf ++ body ++ "END:".toList ++ n) :: ts, .cons ⟨n, js, rfl, ?_⟩ h3, ?_⟩
    · unfold serContainer
      rw [hb]
      show Except.ok _ = Except.ok _
      congr 1
      simp
    · simp [List.flatMap_cons]

theorem normItems_eq (is : List Item) : normItems is = is.map normItem := by
  induction is with
  | nil => rfl
  | cons i is ih => rw [normItems, ih]; rfl

end Ics
