import Verif.Proofs.ReadText
import Verif.Props.SameTimeline

/-
C94: the values of the events and todos of a calendar that was read are those that the lines say, and the lines of a
calendar that was written say its values.
-/
namespace Ics

/-- C94: the text that a value is read as is the one that it stands for; other values are not accepted. -/
theorem C94_text (v t : Str) : unescapeText v = .ok t ↔ TextSays v t := unescape_iff_says v t

/-- C94: exactly the words for yes and no, in any case, are read as truth values. -/
theorem C94_bool (v : Str) (b : Bool) : boolParse v = .ok b ↔ BoolSays v b := bool_iff v b

/-- C94: exactly the texts that say a number are read as it, if they have at most 4300 digits. -/
theorem C94_int (v : Str) (n : Int) :
    intParse v = .ok n ↔ IntSays v n ∧ (v.filter fun c => '0' ≤ c ∧ c ≤ '9').length ≤ 4300 := int_iff v n

/-- C94: times, texts, time stamps, numbers, truth values and categories of the events and todos of a calendar that was read
are those that the lines of the components say, one component for each in the same order. -/
theorem C94_read (L : Lib) (hU : UtcOk L) (items : List Item) (o : CalObj) (h : loadCalendar L items = .ok o) :
    (∃ evs : List EntryObj, o.get "events".toList = .many (evs.map .comp) ∧
      List.Forall₂ (EventFrom L items) (named "VEVENT" items) evs) ∧
    (∃ tds : List EntryObj, o.get "todos".toList = .many (tds.map .comp) ∧
      List.Forall₂ (TodoFrom L items) (named "VTODO" items) tds) := by
  simp only [loadCalendar, bind_ok_iff] at h
  obtain ⟨zones, hz, ⟨o', ctx'⟩, h, e⟩ := h
  obtain rfl : o' = o := by cases e; rfl
  constructor
  · obtain ⟨ms, h1, h2⟩ := load_member (loadCalMember_stable L) rfl h
      (a := "events".toList) (n := "VEVENT".toList) (by decide)
    refine ⟨ms, h1, h2.imp ?_⟩
    rintro i m ⟨is, ctx2, rfl, hm⟩
    exact ⟨entry_readFrom hz (.inl rfl) hm, is, rfl, entry_texts hU hz (.inl rfl) hm, event_texts hm⟩
  · obtain ⟨ms, h1, h2⟩ := load_member (loadCalMember_stable L) rfl h
      (a := "todos".toList) (n := "VTODO".toList) (by decide)
    refine ⟨ms, h1, h2.imp ?_⟩
    rintro i m ⟨is, ctx2, rfl, hm⟩
    exact ⟨entry_readFrom hz (.inr rfl) hm, is, rfl, entry_texts hU hz (.inr rfl) hm, todo_texts hz hm⟩

theorem same_text {L : Lib} {a b : EntryObj} (h : SameEntry L (unquoteEntry a) (unquoteEntry b)) {k : String}
    (hk : k ∈ allAttrs a.cls) (hb : b.get k.toList = .none ∨ ∃ t, b.get k.toList = .one (.text t)) :
    a.get k.toList = b.get k.toList := by
  have h1 := h.attrs k hk
  unfold unquoteEntry at h1
  rw [get_unquote, get_unquote] at h1
  generalize a.get k.toList = x at h1
  rcases hb with hb | ⟨t, hb⟩ <;> rw [hb] at h1 ⊢
  · cases x <;> first | rfl | cases h1
  · cases x with
    | none => cases h1
    | many l => cases h1
    | one v =>
      cases h1 with
      | one h1 =>
        cases v <;> first | cases h1
        rfl

theorem Given.text {items : List Item} {name : String} {m v : AttrVal Alarm} {P : ContentLine → AttrVal Alarm → Prop}
    (hP : ∀ cl v, P cl v → ∃ t, v = .one (.text t)) (h : Given items name P m v) (hm : m = .none ∨ ∃ t, m = .one (.text t)) :
    v = .none ∨ ∃ t, v = .one (.text t) := by
  cases h with
  | missing _ h => rw [h]; exact hm
  | line _ _ _ h => exact .inr (hP _ _ h)

theorem texts_of_same {L : Lib} {Z : Str → Nat → Prop} {is : List Item} {a b : EntryObj} (hc : a.cls = .event ∨ a.cls = .todo)
    (h : SameEntry L (unquoteEntry a) (unquoteEntry b)) (hb : ValuesSaid L Z is b) : TextsSaid L is a := by
  have hs : ∀ cl (v : AttrVal Alarm), SaysText cl v → ∃ t, v = .one (.text t) := fun cl v ⟨t, _, h⟩ => ⟨t, h⟩
  have hs' : ∀ cl v, SaysStatus cl v → ∃ t, v = .one (.text t) := fun cl v ⟨t, _, _, h⟩ => ⟨_, h⟩
  have hk : ∀ k ∈ ["summary", "description", "location", "uid", "status"], k ∈ allAttrs a.cls := by
    rcases hc with hc | hc <;> rw [hc] <;> decide
  refine ⟨?_, ?_, ?_, ?_, ?_⟩
  · rw [same_text h (hk _ (by decide)) (hb.summary.text hs (.inl rfl))]; exact hb.summary
  · rw [same_text h (hk _ (by decide)) (hb.description.text hs (.inl rfl))]; exact hb.description
  · rw [same_text h (hk _ (by decide)) (hb.location.text hs (.inl rfl))]; exact hb.location
  · rw [same_text h (hk _ (by decide)) (hb.uid.text hs (.inr ⟨_, rfl⟩))]; exact hb.uid
  · rw [same_text h (hk _ (by decide)) (hb.status.text hs' (.inl rfl))]; exact hb.status

theorem forall₂_both {α β γ : Type} {R : α → β → Prop} {S : γ → β → Prop} {T : α → γ → Prop}
    (hT : ∀ a b c, R a b → S c b → T a c) {as : List α} {bs : List β} {cs : List γ} (h : List.Forall₂ R as bs)
    (k : List.Forall₂ S cs bs) : List.Forall₂ T as cs := by
  induction h generalizing cs with
  | nil => cases k; exact .nil
  | cons h _ ih =>
    cases k with
    | cons k1 k2 => exact .cons (hT _ _ _ h k1) (ih k2)

/-- C94: the text of a calendar is one VCALENDAR whose lines say the values of its events and todos, in the same order. -/
theorem C94_written (L : Lib) (hU : UtcOk L) (zs : List (Str × Nat)) (o : CalObj) (h : RepCalendar L zs o)
    (hz : ∀ n z, dictGet? zs n = some z → ZoneTrip L z) (ho : WritableCalendar L o)
    (w : Wrap) (hw : match w with | .none => True | .width _ W => 1 ≤ W) :
    ∃ txt items, serializeCalendar L w o = .ok txt ∧ stringToContainers txt = Gen.done [.cont "VCALENDAR".toList items] ∧
      (∃ evs : List EntryObj, o.get "events".toList = .many (evs.map .comp) ∧
        List.Forall₂ (Says L (EventFrom L items)) (named "VEVENT" items) evs) ∧
      ∃ tds : List EntryObj, o.get "todos".toList = .many (tds.map .comp) ∧
        List.Forall₂ (Says L (TodoFrom L items)) (named "VTODO" items) tds := by
  obtain ⟨txt, o', h1, h2, h3⟩ := C57_roundtrip L hU zs o h hz ho w hw
  obtain ⟨items, h4, h5⟩ := C58_one L txt o' h2
  obtain ⟨⟨evs', e1, e2⟩, tds', t1, t2⟩ := C94_read L hU items o' h5
  refine ⟨txt, items, h1, h4, ?_, ?_⟩
  · obtain ⟨evs, evs2, g1, g2, g3⟩ := same_members h h3 (.inl ⟨rfl, rfl, rfl⟩)
    rw [e1] at g2
    obtain rfl : evs' = evs2 := comp_injective g2
    refine ⟨evs, g1, forall₂_both ?_ e2 g3⟩
    rintro i b a hi ⟨hc, -, hs⟩
    obtain ⟨is, rfl, hv, -⟩ := hi.2
    exact ⟨⟨b, hi, hs⟩, _, is, rfl, texts_of_same (.inl hc) hs hv⟩
  · obtain ⟨tds, tds2, g1, g2, g3⟩ := same_members h h3 (.inr ⟨rfl, rfl, rfl⟩)
    rw [t1] at g2
    obtain rfl : tds' = tds2 := comp_injective g2
    refine ⟨tds, g1, forall₂_both ?_ t2 g3⟩
    rintro i b a hi ⟨hc, -, hs⟩
    obtain ⟨is, rfl, hv, -⟩ := hi.2
    exact ⟨⟨b, hi, hs⟩, _, is, rfl, texts_of_same (.inr hc) hs hv⟩

/-! ### Disagreements with RFC 5545 -/

theorem given_line {items : List Item} {name : String} {P : ContentLine → AttrVal Alarm → Prop} {m v : AttrVal Alarm}
    (h : Given items name P m v) {cl : ContentLine} (hc : .line cl ∈ items) (hn : cl.name = name.toList) : P cl v := by
  cases h with
  | missing h => exact absurd hn (h _ hc)
  | @line before after cl' e h1 h2 h3 =>
    rw [e] at hc
    rcases List.mem_append.1 hc with hc | hc
    · exact absurd hn (h2 _ (List.mem_append_left _ hc))
    · rcases List.mem_cons.1 hc with hc | hc
      · cases hc; exact h3
      · exact absurd hn (h2 _ (List.mem_append_right _ hc))

theorem mem_named {n : String} {items is : List Item} (hi : .cont n.toList is ∈ items) : .cont n.toList is ∈ named n items := by
  unfold named
  rw [List.mem_filter]
  exact ⟨hi, by simp [Item.name]⟩

theorem says_plain {v t : Str} (h : TextSays v t) (hv : '\\' ∉ v) : t = v := by
  induction h with
  | nil => rfl
  | plain _ _ ih => rw [ih fun hm => hv (List.mem_cons_of_mem _ hm)]
  | escaped => exact absurd List.mem_cons_self hv
  | newline => exact absurd List.mem_cons_self hv
  | «return» => exact absurd List.mem_cons_self hv

/-- Three of the four statuses that RFC 5545 section 3.8.1.11 has for todos are not accepted. -/
theorem C94_status_fails (L : Lib) (hU : UtcOk L) (items is : List Item) (hi : .cont "VTODO".toList is ∈ items)
    (st : String) (hst : st ∈ ["NEEDS-ACTION", "COMPLETED", "IN-PROCESS"]) (p : Params)
    (hl : .line ⟨"STATUS".toList, p, st.toList⟩ ∈ is) (o : CalObj) : loadCalendar L items ≠ .ok o := by
  intro h
  obtain ⟨-, tds, -, h2⟩ := C94_read L hU items o h
  obtain ⟨td, -, -, is', e, h3, -⟩ := forall₂_mem h2.flip (.cont "VTODO".toList is)
    (mem_named hi)
  injection e with _ e
  subst e
  obtain ⟨t, h4, h5, -⟩ := given_line h3.status hl rfl
  simp only [List.mem_cons, List.not_mem_nil, or_false] at hst
  have h6 : t = st.toList := says_plain h4 (by rcases hst with rfl | rfl | rfl <;> decide +kernel)
  rw [h6] at h5
  clear hl h4 h6
  rcases hst with rfl | rfl | rfl
  · exact absurd h5 (by decide +kernel)
  · exact absurd h5 (by decide +kernel)
  · exact absurd h5 (by decide +kernel)

theorem says_no_comma {v t : Str} (h : TextSays v t) {a b : Str} {c : Char} (hc : c = ',' ∨ c = ';') (ha : '\\' ∉ a) :
    v ≠ a ++ c :: b := by
  intro e
  induction a generalizing v t with
  | nil =>
    rw [List.nil_append] at e
    subst e
    cases h with
    | plain h => rcases hc with rfl | rfl <;> exact absurd h (by decide)
    | escaped => rcases hc with h | h <;> exact absurd h (by decide)
    | newline => rcases hc with h | h <;> exact absurd h (by decide)
    | «return» => rcases hc with h | h <;> exact absurd h (by decide)
  | cons x a ih =>
    rw [List.cons_append] at e
    cases h with
    | nil => cases e
    | plain _ h =>
      injection e with e1 e2
      exact ih h (fun hm => ha (List.mem_cons_of_mem _ hm)) e2
    | escaped => injection e with e1 e2; exact ha (e1 ▸ List.mem_cons_self)
    | newline => injection e with e1 e2; exact ha (e1 ▸ List.mem_cons_self)
    | «return» => injection e with e1 e2; exact ha (e1 ▸ List.mem_cons_self)

/-- A URL with a comma or a semicolon, which RFC 5545 section 3.8.4.6 allows, is not accepted unless it is marked by
`VALUE=URI`. -/
theorem C94_url_fails (L : Lib) (hU : UtcOk L) (items is : List Item) (hi : .cont "VEVENT".toList is ∈ items)
    (a b : Str) (c : Char) (hc : c = ',' ∨ c = ';') (ha : '\\' ∉ a) (p : Params) (hp : dictGet? p "VALUE".toList = none)
    (hl : .line ⟨"URL".toList, p, a ++ c :: b⟩ ∈ is) (o : CalObj) : loadCalendar L items ≠ .ok o := by
  intro h
  obtain ⟨⟨evs, -, h2⟩, -⟩ := C94_read L hU items o h
  obtain ⟨ev, -, -, is', e, h3, -⟩ := forall₂_mem h2.flip (.cont "VEVENT".toList is)
    (mem_named hi)
  injection e with _ e
  subst e
  rcases given_line h3.url hl rfl with ⟨⟨q, hq⟩, -⟩ | ⟨-, t, ht, -⟩
  · simp only at hq
    rw [hp] at hq
    cases hq
  · exact says_no_comma ht hc ha rfl

/-! ### Examples -/

/-- Escaped characters. -/
example : TextSays "a\\, b\\Nc".toList "a, b\nc".toList := .plain (by decide) (.escaped (by decide) (.plain (by decide)
  (.plain (by decide) (.newline (.inr rfl) (.plain (by decide) .nil)))))

/-- A number with a sign, white space and an underscore. -/
example : IntSays " +1_0".toList 10 :=
  .plus (a := [' ']) (v := ['1', '_', '0']) (b := [])
    (fun c hc => by rw [List.mem_singleton.1 hc]; exact List.mem_cons_self) (fun c hc => absurd hc List.not_mem_nil)
    (.underscore (v := ['1']) (.digit (by decide)) (by decide))

/-- The text of `Props.Accepted`, which has an event and a todo, is read. -/
example : UtcOk exLib ∧ ∃ o, loadCalendar exLib exTextItems = .ok o ∧ (named "VEVENT" exTextItems).length = 1 ∧
    (named "VTODO" exTextItems).length = 1 := by
  obtain ⟨o, h, -⟩ := exText_accepted
  obtain ⟨is, h1, h2⟩ := C58_one exLib exText o h
  rw [exText_items] at h1
  injection h1 with h1
  injection h1 with h1
  injection h1 with h1 h3
  rw [← h3] at h2
  exact ⟨exLib_utc, o, h2, by decide +kernel, by decide +kernel⟩

/-- The summary of its event is what the line says. -/
example : ∃ v : AttrVal Alarm, Given exEventItems "SUMMARY" SaysText .none v ∧ v = .one (.text "Party, again".toList) := by
  refine ⟨_, .line (before := exEventItems.take 1) (after := exEventItems.drop 2)
    (cl := ⟨"SUMMARY".toList, [("language".toList, [⟨true, "en".toList⟩])], "Party\\, again".toList⟩) rfl rfl
    (by decide +kernel) ⟨_, ?_, rfl⟩, rfl⟩
  exact (C94_text _ _).1 (by decide +kernel)

/-- The calendar of `Props.CalendarTrip` can be written. -/
example : UtcOk exLib ∧ RepCalendar exLib [("X/Y".toList, 1)] exCalRep ∧ WritableCalendar exLib exCalRep ∧
    ∀ n z, dictGet? [("X/Y".toList, 1)] n = some z → ZoneTrip exLib z :=
  ⟨exLib_utc, exCalRep_rep, exCalRep_writable, exZoneTrip⟩

/-- A todo that needs action, and an event with a URL with a comma. -/
example : ∃ items is, .cont "VTODO".toList is ∈ items ∧ .line ⟨"STATUS".toList, [], "NEEDS-ACTION".toList⟩ ∈ is ∧
    loadCalendar exLib items = .error .valueError :=
  ⟨[exLine "VERSION" "2.0", exLine "PRODID" "x", .cont "VTODO".toList [exLine "STATUS" "NEEDS-ACTION"]],
    [exLine "STATUS" "NEEDS-ACTION"], by simp, by simp [exLine], by
      have key : (match loadCalendar exLib [exLine "VERSION" "2.0", exLine "PRODID" "x",
          .cont "VTODO".toList [exLine "STATUS" "NEEDS-ACTION"]] with
        | .error e => some e
        | .ok _ => none) = some PyErr.valueError := by decide +kernel
      split at key
      · rename_i e he; rw [he]; exact congrArg _ (Option.some.inj key)
      · cases key⟩

example : ∃ items is, .cont "VEVENT".toList is ∈ items ∧ .line ⟨"URL".toList, [], "http://a/?".toList ++ ',' :: "b".toList⟩ ∈ is ∧
    loadCalendar exLib items = .error .valueError :=
  ⟨[exLine "VERSION" "2.0", exLine "PRODID" "x", .cont "VEVENT".toList [exLine "URL" "http://a/?,b"]],
    [exLine "URL" "http://a/?,b"], by simp, by simp [exLine], by
      have key : (match loadCalendar exLib [exLine "VERSION" "2.0", exLine "PRODID" "x",
          .cont "VEVENT".toList [exLine "URL" "http://a/?,b"]] with
        | .error e => some e
        | .ok _ => none) = some PyErr.valueError := by decide +kernel
      split at key
      · rename_i e he; rw [he]; exact congrArg _ (Option.some.inj key)
      · cases key⟩

/-- A number with a sign, an underscore and white space around it; and words for yes and no. -/
example : IntSays " +1_0\t".toList 10 ∧ BoolSays "on".toList true ∧ BoolSays "No".toList false ∧ ¬ BoolSays "maybe".toList true :=
  ⟨((int_iff _ _).1 (by decide +kernel)).1, by unfold BoolSays; decide, by unfold BoolSays; decide, by unfold BoolSays; decide⟩

end Ics
