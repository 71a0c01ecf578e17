import Verif.Proofs.Parsed
import Verif.Proofs.Grammar

/-!
Lines and trees that survive being written and parsed are writable.
-/
namespace Ics

theorem paramsText_names {s : Str} {ps : List (Str × List PVal)} (h : ParamsText s ps) :
    ∀ p ∈ ps, NoDelim p.1 ∧ '=' ∉ p.1 := by
  induction h with
  | nil => exact fun _ h => absurd h List.not_mem_nil
  | more h1 h2 _ _ ih =>
    intro p hp
    rcases List.mem_cons.1 hp with rfl | hp
    · exact ⟨h1, h2⟩
    · exact ih p hp

theorem mergedParams_keys (ps : List (Str × List PVal)) : (mergedParams ps).map Prod.fst = firstMentioned ps := by
  unfold mergedParams
  rw [List.map_map]
  conv => rhs; rw [← List.map_id (firstMentioned ps)]
  rfl

/-- Names in a parsed line have no delimiters, and no parameter is there twice. -/
theorem parseLine_names {l : Str} {cl : ContentLine} (h : parseLine l = .ok cl) :
    upper cl.name = cl.name ∧ (∀ c ∈ cl.name, c ≠ ':' ∧ c ≠ ';') ∧
      (∀ k ∈ cl.params.map Prod.fst, ∀ c ∈ k, c ≠ '=' ∧ c ≠ ':' ∧ c ≠ ';') ∧ (cl.params.map Prod.fst).Nodup := by
  obtain ⟨name, ps, value, ⟨hn, p, hp, -⟩, rfl⟩ := line_sound h
  refine ⟨upper_upper _, fun c hc => ⟨?_, ?_⟩, ?_, ?_⟩
  · rintro rfl
    exact hn.1 (mem_upper_delim hc (by decide))
  · rintro rfl
    exact hn.2 (mem_upper_delim hc (by decide))
  · show ∀ k ∈ (mergedParams ps).map Prod.fst, _
    rw [mergedParams_keys]
    intro k hk
    obtain ⟨q, hq, rfl⟩ := List.mem_map.1 (List.mem_reverse.1 (List.mem_dedup.1 (List.mem_reverse.1 hk)))
    obtain ⟨h1, h2⟩ := paramsText_names hp q hq
    intro c hc
    refine ⟨?_, ?_, ?_⟩ <;> rintro rfl
    · exact h2 hc
    · exact h1.1 hc
    · exact h1.2 hc
  · show ((mergedParams ps).map Prod.fst).Nodup
    rw [mergedParams_keys]
    exact List.nodup_reverse.2 (List.nodup_dedup _)

theorem unquote_keys (cl : ContentLine) : cl.unquote.params.map Prod.fst = cl.params.map Prod.fst := by
  unfold ContentLine.unquote
  rw [List.map_map]
  rfl

theorem filter_cr_eq {s : Str} (h : s.filter (· ≠ '\r') = s) : '\r' ∉ s := by
  rw [← h]
  intro hm
  have := (List.mem_filter.1 hm).2
  simp at this

/-- What parsing needs of the names is enough to know that all parameters have values. -/
theorem lastOk_of_parse {cl cl' : ContentLine} (h : parseLine (serUnwrapped cl) = .ok cl')
    (hn : ∀ c ∈ cl.name, c ≠ ':' ∧ c ≠ ';') (hp : ∀ p ∈ cl.params, ∀ c ∈ p.1, c ≠ '=' ∧ c ≠ ':' ∧ c ≠ ';') :
    ∀ p ∈ cl.params, PnameOk p.1 ∧ LastOk p.2 := by
  have hn' : ∀ c ∈ cl.name, isDelim c = false := fun c hc => by
    have := hn c hc; simp [isDelim, this.1, this.2]
  have hp' : ∀ p ∈ cl.params, PnameOk p.1 := fun p hp' =>
    ⟨fun hc => (hp p hp' _ hc).1 rfl, fun c hc => by
      have := hp p hp' c hc; simp [isDelim, this.2.1, this.2.2]⟩
  refine fun p hpp => ⟨hp' p hpp, Classical.byContradiction fun hb => ?_⟩
  rw [parseLine_ser_bad cl hn' hp' ⟨p, hpp, hb⟩] at h
  cases h

theorem vals_of_lastOk {vs : List PVal} (h : LastOk vs) :
    ∃ init last, vs = init ++ [last] ∧ (last.quoted = true ∨ last.text ≠ []) := by
  obtain ⟨ws, v, h1, h2⟩ := h
  refine ⟨ws, v, h1, ?_⟩
  cases hq : v.quoted with
  | true => exact .inl rfl
  | false =>
    refine .inr fun ht => h2 ?_
    unfold serPVal
    rw [hq, ht]
    rfl

/-- A line that survives being written and parsed is writable. -/
theorem writable_of_roundtrip {cl cl' : ContentLine} (h : parseLine (serUnwrapped cl) = .ok cl')
    (he : cl'.unquote = cl.unquote) : WritableLine cl := by
  obtain ⟨h1, h2, h3, h4⟩ := parseLine_names h
  have hname : cl'.name = cl.name := (congrArg ContentLine.name he :)
  have hkeys : cl'.params.map Prod.fst = cl.params.map Prod.fst := by
    rw [← unquote_keys, he, unquote_keys]
  rw [hname] at h1 h2
  rw [hkeys] at h3 h4
  have hp : ∀ p ∈ cl.params, ∀ c ∈ p.1, c ≠ '=' ∧ c ≠ ':' ∧ c ≠ ';' := fun p hp =>
    h3 p.1 (List.mem_map_of_mem hp)
  have hl := lastOk_of_parse h h2 hp
  refine ⟨h1, h2, hp, h4, fun p hp => vals_of_lastOk (hl p hp).2, ?_⟩
  have e := parseLine_ser cl (fun c hc => by have := h2 c hc; simp [isDelim, this.1, this.2]) hl h4
  rw [h] at e
  have e := Except.ok.inj e
  rw [e] at he
  have he : (mkContentLine cl.name (normParams cl.params) cl.value).unquote.params = cl.unquote.params := by rw [he]
  have he : (normParams cl.params).map (fun p => (p.1, p.2.map fun v => (⟨false, v.text⟩ : PVal))) =
    cl.params.map fun p => (p.1, p.2.map fun v => ⟨false, v.text⟩) := he
  unfold normParams at he
  rw [List.map_map] at he
  intro p hpm v hv
  have h5 := List.map_inj_left.1 he p hpm
  simp only [Function.comp, Prod.mk.injEq, true_and, List.map_map] at h5
  have h6 := List.map_inj_left.1 h5 v hv
  simp only [Function.comp, normPVal, PVal.mk.injEq, true_and] at h6
  exact filter_cr_eq h6

/-! ### Trees -/

/-- A line that equals a parsed line. -/
theorem parsed_unquote {cl cl' : ContentLine} (h : WritableItemLine cl') (he : cl'.unquote = cl.unquote) :
    (∀ c ∈ cl.name, c ≠ ':' ∧ c ≠ ';') ∧ (∀ p ∈ cl.params, ∀ c ∈ p.1, c ≠ '=' ∧ c ≠ ':' ∧ c ≠ ';') ∧
      LogicalOk (serUnwrapped cl) := by
  have hname : cl'.name = cl.name := (congrArg ContentLine.name he :)
  have hval : cl'.value = cl.value := (congrArg ContentLine.value he :)
  have hkeys : cl'.params.map Prod.fst = cl.params.map Prod.fst := by
    rw [← unquote_keys, he, unquote_keys]
  have hk : ∀ p ∈ cl.params, ∃ q ∈ cl'.params, q.1 = p.1 := fun p hp => by
    have := List.mem_map_of_mem (f := Prod.fst) hp
    rw [← hkeys] at this
    exact List.mem_map.1 this
  refine ⟨hname ▸ h.name, fun p hp => ?_, serUnwrapped_logical (hname ▸ h.nameBreak) (fun p hp => ?_)
    (hval ▸ h.valueBreak) (hname ▸ h.noIndent)⟩
  · obtain ⟨q, hq, e⟩ := hk p hp
    rw [← e]
    exact h.pnames q hq
  · obtain ⟨q, hq, e⟩ := hk p hp
    rw [← e]
    exact h.pnameBreak q hq

/-- A line that equals a parsed line and whose parameters have values is writable. -/
theorem writable_unquote {cl cl' : ContentLine} (h : WritableItemLine cl') (he : cl'.unquote = cl.unquote)
    (hl : ∀ p ∈ cl.params, LastOk p.2) : WritableItemLine cl := by
  have hname : cl'.name = cl.name := (congrArg ContentLine.name he :)
  have hval : cl'.value = cl.value := (congrArg ContentLine.value he :)
  have hkeys : cl'.params.map Prod.fst = cl.params.map Prod.fst := by
    rw [← unquote_keys, he, unquote_keys]
  have hk : ∀ p ∈ cl.params, ∃ q ∈ cl'.params, q.1 = p.1 ∧ q.2.map (·.text) = p.2.map (·.text) := fun p hp => by
    have hm : (p.1, p.2.map fun v => (⟨false, v.text⟩ : PVal)) ∈ cl.unquote.params :=
      List.mem_map.2 ⟨p, hp, rfl⟩
    rw [← he] at hm
    obtain ⟨q, hq, e⟩ := List.mem_map.1 hm
    refine ⟨q, hq, (congrArg Prod.fst e :), ?_⟩
    have e := congrArg (fun x : Str × List PVal => x.2.map (·.text)) e
    simp only [List.map_map] at e
    exact e
  refine ⟨⟨hname ▸ h.upperName, (parsed_unquote h he).1, (parsed_unquote h he).2.1, hkeys ▸ h.distinct,
    fun p hp => vals_of_lastOk (hl p hp), fun p hp v hv hc => ?_⟩, hname ▸ h.notBegin, hname ▸ h.notEnd,
    hname ▸ h.nameBreak, fun p hp => ?_, hval ▸ h.valueBreak, hname ▸ h.noIndent⟩
  · obtain ⟨q, hq, -, e⟩ := hk p hp
    have hm := List.mem_map_of_mem (f := fun v : PVal => v.text) hv
    rw [← e] at hm
    obtain ⟨u, hu, eu⟩ := List.mem_map.1 hm
    exact h.nocr q hq u hu (by rw [eu]; exact hc)
  · obtain ⟨q, hq, e, -⟩ := hk p hp
    rw [← e]
    exact h.pnameBreak q hq

mutual
theorem tree_logical : ∀ i i' : Item, WritableTree i' → i'.unquote = i.unquote →
    ∀ cl ∈ flatItem i, LogicalOk (serUnwrapped cl)
  | .line cl, .line cl', h, he, x, hx => by
    rw [WritableTree] at h
    rw [Item.unquote, Item.unquote] at he
    simp only [flatItem, List.mem_singleton] at hx
    subst hx
    exact (parsed_unquote h (Item.line.inj he)).2.2
  | .line cl, .cont n' is', _, he, _, _ => by
    rw [Item.unquote, Item.unquote] at he
    cases he
  | .cont n is, .line cl', _, he, _, _ => by
    rw [Item.unquote, Item.unquote] at he
    cases he
  | .cont n is, .cont n' is', h, he, x, hx => by
    rw [WritableTree] at h
    rw [Item.unquote, Item.unquote] at he
    obtain ⟨e1, e2⟩ := Item.cont.inj he
    simp only [flatItem, List.mem_cons, List.mem_append, List.not_mem_nil, or_false] at hx
    have hb := e1 ▸ h.1.noBreak
    rcases hx with rfl | hx | rfl
    · exact serUnwrapped_logical (by constructor <;> (dsimp only; decide)) (by simp) hb (by dsimp only; decide)
    · exact trees_logical is is' h.2 e2 x hx
    · exact serUnwrapped_logical (by constructor <;> (dsimp only; decide)) (by simp) hb (by dsimp only; decide)
theorem trees_logical : ∀ is is' : List Item, WritableTrees is' → Item.unquotes is' = Item.unquotes is →
    ∀ cl ∈ flatItems is, LogicalOk (serUnwrapped cl)
  | [], _, _, _, x, hx => by simp [flatItems] at hx
  | i :: is, [], _, he, _, _ => by
    rw [Item.unquotes, Item.unquotes] at he
    cases he
  | i :: is, i' :: is', h, he, x, hx => by
    rw [WritableTrees] at h
    rw [Item.unquotes, Item.unquotes] at he
    obtain ⟨e1, e2⟩ := List.cons.inj he
    simp only [flatItems, List.mem_append] at hx
    rcases hx with hx | hx
    · exact tree_logical i i' h.1 e1 x hx
    · exact trees_logical is is' h.2 e2 x hx
end

mutual
theorem tree_writable : ∀ i i' : Item, WritableTree i' → i'.unquote = i.unquote →
    (∀ cl ∈ flatItem i, ∃ cl', parseLine (serUnwrapped cl) = .ok cl') → WritableTree i
  | .line cl, .line cl', h, he, hx => by
    rw [WritableTree] at h
    rw [Item.unquote, Item.unquote] at he
    have he := Item.line.inj he
    obtain ⟨c, hc⟩ := hx cl (by simp [flatItem])
    rw [WritableTree]
    obtain ⟨h1, h2, -⟩ := parsed_unquote h he
    exact writable_unquote h he fun p hp => (lastOk_of_parse hc h1 h2 p hp).2
  | .line cl, .cont n' is', _, he, _ => by
    rw [Item.unquote, Item.unquote] at he
    cases he
  | .cont n is, .line cl', _, he, _ => by
    rw [Item.unquote, Item.unquote] at he
    cases he
  | .cont n is, .cont n' is', h, he, hx => by
    rw [WritableTree] at h
    rw [Item.unquote, Item.unquote] at he
    obtain ⟨e1, e2⟩ := Item.cont.inj he
    rw [WritableTree]
    exact ⟨e1 ▸ h.1, trees_writable is is' h.2 e2 fun cl hcl => hx cl (by simp [flatItem, hcl])⟩
theorem trees_writable : ∀ is is' : List Item, WritableTrees is' → Item.unquotes is' = Item.unquotes is →
    (∀ cl ∈ flatItems is, ∃ cl', parseLine (serUnwrapped cl) = .ok cl') → WritableTrees is
  | [], _, _, _, _ => by rw [WritableTrees]; trivial
  | i :: is, [], _, he, _ => by
    rw [Item.unquotes, Item.unquotes] at he
    cases he
  | i :: is, i' :: is', h, he, hx => by
    rw [WritableTrees] at h
    rw [Item.unquotes, Item.unquotes] at he
    obtain ⟨e1, e2⟩ := List.cons.inj he
    rw [WritableTrees]
    exact ⟨tree_writable i i' h.1 e1 fun cl hcl => hx cl (by simp [flatItems, hcl]),
      trees_writable is is' h.2 e2 fun cl hcl => hx cl (by simp [flatItems, hcl])⟩
end

theorem parseEach_none {ls : List Str} {err : Option PyErr} (h : (parseEach err ls).err = none) :
    ∀ l ∈ ls, ∃ cl, parseLine l = .ok cl := by
  induction ls with
  | nil => exact fun _ h => absurd h List.not_mem_nil
  | cons l ls ih =>
    unfold parseEach at h
    cases hp : parseLine l with
    | error e => rw [hp] at h; cases h
    | ok cl =>
      rw [hp] at h
      intro x hx
      rcases List.mem_cons.1 hx with rfl | hx
      · exact ⟨cl, hp⟩
      · exact ih h x hx

/-- A container that survives being written and parsed is writable. -/
theorem tree_of_roundtrip {w : Wrap} (hw : w.ok) {newline : Bool} {n : Str} {is : List Item} {txt : Str} {t : Item}
    (h : serContainer w newline n is = .ok txt) (hp : stringToContainers txt = Gen.done [t])
    (he : t.unquote = (Item.cont n is).unquote) : WritableTree (.cont n is) := by
  have ht : WritableTree t := item_good (txt := txt) (by rw [hp]; exact List.mem_singleton.2 rfl) fun cl e => by
    rw [e, Item.unquote, Item.unquote] at he
    cases he
  obtain ⟨txt', h1, h2⟩ := unfold_container w hw newline n is (tree_logical _ t ht he)
  rw [h] at h1
  cases Except.ok.inj h1
  refine tree_writable _ t ht he fun cl hcl => ?_
  have herr : (stringToContainers txt).err = none := by rw [hp]; rfl
  rw [stringToContainers, linesToContainers, h2, toContainers] at herr
  have := ((toContainersF_spec _ _ _ (Nat.le_refl _)).1 herr).1
  exact parseEach_none this _ (List.mem_map_of_mem hcl)

end Ics
