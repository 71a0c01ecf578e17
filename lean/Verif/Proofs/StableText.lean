import Verif.Proofs.SameDump
import Verif.Proofs.DumpQuote
import Verif.Proofs.CalText

/-
A calendar that was written and read is written as the same text again.
-/
namespace Ics

/-- The quotation marks that a value has after it was written and read. -/
def normQuote (v : PVal) : PVal := ⟨v.quoted || needsQuote v.text, v.text⟩

instance : Requotes normQuote where
  text _ := rfl
  flag b := by cases b <;> decide

theorem normQuote_idem (v : PVal) : normQuote (normQuote v) = normQuote v := by
  unfold normQuote
  simp

/-! ### Lines that were written and read -/

theorem normLine_requote {cl : ContentLine} (h : WritableLine cl) : normLine cl = cl.requote normQuote := by
  simp only [normLine, mkContentLine, ContentLine.requote, h.upperName, normParams, requoteParams]
  congr 1
  apply List.map_congr_left
  intro p hp
  simp only [Prod.mk.injEq, true_and]
  apply List.map_congr_left
  intro v hv
  have := h.nocr p hp v hv
  simp only [normPVal, normQuote, PVal.mk.injEq, true_and]
  apply List.filter_eq_self.2
  intro c hc
  simp only [ne_eq, decide_eq_true_eq]
  rintro rfl; exact this hc

mutual
theorem normItem_requote : ∀ i : Item, WritableTree i → normItem i = i.requote normQuote
  | .line cl, h => by
    rw [WritableTree] at h
    rw [normItem, Item.requote, normLine_requote h.toWritableLine]
  | .cont n is, h => by
    rw [WritableTree] at h
    rw [normItem, Item.requote, normItems_requote is h.2]
theorem normItems_requote : ∀ is : List Item, WritableTrees is → normItems is = Item.requotes normQuote is
  | [], _ => rfl
  | i :: is, h => by
    rw [WritableTrees] at h
    rw [normItems, Item.requotes, normItem_requote i h.1, normItems_requote is h.2]
end

/-! ### Items with the same text -/

theorem serPVal_quote (v : PVal) : serPVal (normQuote v) = serPVal v := by
  unfold serPVal normQuote
  simp

theorem serPVals_quote : ∀ vs : List PVal, serPVals (vs.map normQuote) = serPVals vs
  | [] => rfl
  | [v] => serPVal_quote v
  | v :: w :: vs => by
    have ih := serPVals_quote (w :: vs)
    show serPVal (normQuote v) ++ ',' :: serPVals ((w :: vs).map normQuote) = serPVal v ++ ',' :: serPVals (w :: vs)
    rw [ih, serPVal_quote]

theorem serParams_quote : ∀ p : Params, serParams (requoteParams normQuote p) = serParams p
  | [] => rfl
  | kv :: p => by
    have ih := serParams_quote p
    show serParams ((kv.1, kv.2.map normQuote) :: requoteParams normQuote p) = serParams ((kv.1, kv.2) :: p)
    rw [serParams, serParams, ih, serPVals_quote]

theorem serUnwrapped_quote (cl : ContentLine) : serUnwrapped (cl.requote normQuote) = serUnwrapped cl := by
  unfold serUnwrapped
  rw [show (cl.requote normQuote).params = requoteParams normQuote cl.params from rfl, serParams_quote]
  rfl

mutual
theorem serItem_quote (w : Wrap) : ∀ i : Item, serItem w (i.requote normQuote) = serItem w i
  | .line cl => by
    rw [Item.requote, serItem, serItem, serLine, serLine, serUnwrapped_quote]
  | .cont n is => by
    rw [Item.requote, serItem, serItem, serItems_quote w is]
theorem serItems_quote (w : Wrap) : ∀ is : List Item, serItems w (Item.requotes normQuote is) = serItems w is
  | [] => rfl
  | i :: is => by
    rw [Item.requotes, serItems, serItems, serItem_quote w i, serItems_quote w is]
end

theorem serItems_eq {is js : List Item} (h : Item.requotes normQuote is = Item.requotes normQuote js) (w : Wrap) :
    serItems w is = serItems w js := by
  rw [← serItems_quote, h, serItems_quote]

/-- Calendars that differ only in quotation marks which are written anyway have the same text. -/
theorem serializeCalendar_quote (L : Lib) (w : Wrap) (o : CalObj) :
    serializeCalendar L w (requoteCalendar normQuote o) = serializeCalendar L w o := by
  unfold serializeCalendar
  have := dumpCalendar_quote (g := normQuote) normQuote_idem L o
  cases h1 : dumpCalendar L (requoteCalendar normQuote o) <;> cases h2 : dumpCalendar L o <;> rw [h1, h2] at this
  · cases this
    rfl
  · exact this.elim
  · exact this.elim
  · rename_i i j
    have this : i.requote normQuote = j.requote normQuote := this
    cases i with
    | line cl =>
      cases j with
      | line cl' => rfl
      | cont n js =>
        rw [Item.requote, Item.requote] at this
        cases this
    | cont n is =>
      cases j with
      | line cl' =>
        rw [Item.requote, Item.requote] at this
        cases this
      | cont n' js =>
        rw [Item.requote, Item.requote] at this
        have hn := (Item.cont.inj this).1
        have hj := (Item.cont.inj this).2
        subst hn
        show serContainer w false n is = serContainer w false n js
        unfold serContainer
        rw [serItems_eq hj]

theorem serializeCalendar_same {L : Lib} {zs : List (Str × Nat)} {a b : CalObj} (h : SameCalendar L a b)
    (ha : RepCalendar L zs a) (w : Wrap) : serializeCalendar L w a = serializeCalendar L w b := by
  unfold serializeCalendar
  rw [dumpCalendar_same h ha]

/-! ### Writing, reading and writing again -/

mutual
theorem unquote_requote (g : PVal → PVal) [hg : Requotes g] : ∀ i : Item, (i.requote g).unquote = i.unquote
  | .line cl => by
    rw [Item.requote, Item.unquote, Item.unquote]
    simp only [ContentLine.unquote, ContentLine.requote, requoteParams, List.map_map, Item.line.injEq, ContentLine.mk.injEq,
      true_and, and_true]
    refine List.map_congr_left fun kv _ => ?_
    simp only [Function.comp, List.map_map, Prod.mk.injEq, true_and]
    refine List.map_congr_left fun v _ => ?_
    simp only [Function.comp, hg.text]
  | .cont n is => by
    rw [Item.requote, Item.unquote, Item.unquote, unquotes_requotes g is]
theorem unquotes_requotes (g : PVal → PVal) [hg : Requotes g] : ∀ is : List Item, Item.unquotes (Item.requotes g is) = Item.unquotes is
  | [] => rfl
  | i :: is => by
    rw [Item.requotes, Item.unquotes, Item.unquotes, unquote_requote g i, unquotes_requotes g is]
end

theorem cal_stable {L : Lib} (hU : UtcOk L) {zs : List (Str × Nat)} {o : CalObj} (h : RepCalendar L zs o)
    (hz : ∀ n z, dictGet? zs n = some z → ZoneTrip L z) (ho : WritableCalendar L o) (w : Wrap)
    (hw : match w with | .none => True | .width _ W => 1 ≤ W) :
    ∃ txt o', serializeCalendar L w o = .ok txt ∧ calendarOfString L txt = .ok o' ∧
      ∀ w', serializeCalendar L w' o' = serializeCalendar L w' o := by
  obtain ⟨items, o1, h1, h2, h3, h4, h5⟩ := rt_calendar hU h fun n z hn => by
    obtain ⟨is, k1, _, k2⟩ := hz n z hn
    exact ⟨is, k1, k2 is rfl⟩
  have hwr : WritableTree (.cont "VCALENDAR".toList items) := by
    refine dumpCalendar_writable o (fun a st b st' ha hb n z hm i hi => ?_) ho h1
    obtain ⟨is, k1, k2, _⟩ := hz n z (h5 a st b st' ha hb n z hm)
    rw [k1] at hi
    cases hi
    exact k2
  have hw' : w.ok := by cases w <;> exact hw
  obtain ⟨txt, t1, t2⟩ := container_roundtrip w hw' false _ items hwr
  have hnat : ZoneNatG normQuote L items := by
    intro zis hm
    obtain ⟨n, z, g1, g2⟩ := h4 zis hm
    obtain ⟨is', k1, _, k3⟩ := hz n z g1
    rw [g2] at k1
    cases k1
    rw [k3 _ rfl, k3 _ (unquotes_requotes normQuote zis)]
  have hl := loadCalendar_requote normQuote L items hnat
  rw [h2] at hl
  refine ⟨txt, requoteCalendar normQuote o1, ?_, ?_, fun w' => ?_⟩
  · unfold serializeCalendar
    rw [h1]
    exact t1
  · unfold calendarOfString calendarOfItems
    rw [t2]
    simp only [Gen.done]
    rw [normItem_requote _ hwr, Item.requote]
    have : loadCalendarItem L (.cont "VCALENDAR".toList (Item.requotes normQuote items)) = .ok (requoteCalendar normQuote o1) := by
      show (if "VCALENDAR".toList = "VCALENDAR".toList then loadCalendar L (Item.requotes normQuote items) else .error .valueError) = _
      rw [if_pos rfl]
      exact hl
    rw [this]
    rfl
  · rw [serializeCalendar_quote, serializeCalendar_same h3 h]

end Ics
