import Verif.Proofs.Rrule

/-
C71: recurrence rules are equal if they say the same, and equal rules have equal hashes.
-/
namespace Ics

variable {α : Type}

/-- C71: two rules are equal exactly if they have equal values under every name, whatever the order. -/
theorem C71_eq (H : Hashing α) (a b : PyRule α) (ha : a.Dict) (hb : b.Dict) :
    ruleEq H a (some b) = true ↔ SameRule H a b := by
  unfold ruleEq SameRule
  rw [dictEqBy_iff (uniqueKeys_ruleDict a) (uniqueKeys_ruleDict b)]
  simp only [ruleDict_value ha, ruleDict_value hb]

/-- C71: nothing but a rule is equal to a rule, nothing but a set of rules to a set of rules. -/
theorem C71_other (H : Hashing α) (a : PyRule α) (s : PyRuleSet α) :
    ruleEq H a none = false ∧ ruleSetEq H s none = false := ⟨rfl, rfl⟩

theorem SameRule.refl {H : Hashing α} (h : H.Lawful) (a : PyRule α) : SameRule H a a := by
  intro k
  cases a.value k with
  | none => trivial
  | some v => exact h.refl v

theorem SameRule.symm {H : Hashing α} (h : H.Lawful) {a b : PyRule α} (hab : SameRule H a b) : SameRule H b a := by
  intro k
  have := hab k
  cases ea : a.value k <;> cases eb : b.value k <;> rw [ea, eb] at this
  · trivial
  · exact this.elim
  · exact this.elim
  · exact h.symm _ _ this

theorem SameRule.trans {H : Hashing α} (h : H.Lawful) {a b c : PyRule α} (hab : SameRule H a b) (hbc : SameRule H b c) :
    SameRule H a c := by
  intro k
  have h1 := hab k
  have h2 := hbc k
  cases ea : a.value k <;> cases eb : b.value k <;> cases ec : c.value k <;> rw [ea, eb] at h1 <;> rw [eb, ec] at h2
  · trivial
  · exact h2.elim
  · exact h1.elim
  · exact h1.elim
  · exact h1.elim
  · exact h1.elim
  · exact h2.elim
  · exact h.trans _ _ _ h1 h2

/-- C71: equality of rules is an equivalence, if that of their values is. -/
theorem C71_equivalence (H : Hashing α) (h : H.Lawful) (a b c : PyRule α) (ha : a.Dict) (hb : b.Dict) (hc : c.Dict) :
    ruleEq H a (some a) = true ∧ ruleEq H a (some b) = ruleEq H b (some a) ∧
      (ruleEq H a (some b) = true → ruleEq H b (some c) = true → ruleEq H a (some c) = true) := by
  refine ⟨(C71_eq H a a ha ha).2 (.refl h a), ?_, ?_⟩
  · rw [Bool.eq_iff_iff, C71_eq H a b ha hb, C71_eq H b a hb ha]
    exact ⟨.symm h, .symm h⟩
  · rw [C71_eq H a b ha hb, C71_eq H b c hb hc, C71_eq H a c ha hc]
    exact .trans h

/-- C71: two sets of rules are equal exactly if they have the same rules and dates in the same order. -/
theorem C71_set_eq (H : Hashing α) (s t : PyRuleSet α) (hs : s.Dicts) (ht : t.Dicts) :
    ruleSetEq H s (some t) = true ↔
      Pointwise (SameRule H) s.rrule t.rrule ∧ Pointwise (fun x y => H.eq x y = true) s.rdate t.rdate ∧
      Pointwise (SameRule H) s.exrule t.exrule ∧ Pointwise (fun x y => H.eq x y = true) s.exdate t.exdate := by
  have key : ∀ a b : List (PyRule α), (∀ r ∈ a, r.Dict) → (∀ r ∈ b, r.Dict) →
      (listEqBy (fun x y => ruleEq H x (some y)) a b = true ↔ Pointwise (SameRule H) a b) := by
    intro a b ha hb
    rw [listEqBy_iff]
    exact ⟨fun h => h.mono fun x hx y hy => (C71_eq H x y (ha x hx) (hb y hy)).1,
      fun h => h.mono fun x hx y hy => (C71_eq H x y (ha x hx) (hb y hy)).2⟩
  simp only [ruleSetEq, Bool.and_eq_true, key _ _ hs.1 ht.1, key _ _ hs.2 ht.2, listEqBy_iff, and_assoc]

theorem ruleHash_congr {H : Hashing α} (h : H.Lawful) {a b : PyRule α} (ha : a.Dict) (hb : b.Dict)
    (hab : SameRule H a b) (hk : a.original.map Prod.fst = b.original.map Prod.fst) : ruleHash H a = ruleHash H b := by
  have hkeys : (ruleDict a).map Prod.fst = (ruleDict b).map Prod.fst := keys_dictUpdate rfl hk
  have hlen : (ruleDict a).length = (ruleDict b).length := by simpa using congrArg List.length hkeys
  unfold ruleHash hashAll
  rw [mapM_congr]
  refine ⟨hlen, fun i h1 h2 => ?_⟩
  have e : (ruleDict a)[i].1 = (ruleDict b)[i].1 := by
    have : ((ruleDict a).map Prod.fst)[i]? = ((ruleDict b).map Prod.fst)[i]? := by rw [hkeys]
    simpa [h1, h2] using this
  have hv := hab (ruleDict a)[i].1
  have ga : dictGet? (ruleDict a) (ruleDict a)[i].1 = some (ruleDict a)[i].2 :=
    dictGet_of_mem (uniqueKeys_ruleDict a) (List.getElem_mem h1)
  have gb : dictGet? (ruleDict b) (ruleDict a)[i].1 = some (ruleDict b)[i].2 := by
    rw [e]
    exact dictGet_of_mem (uniqueKeys_ruleDict b) (List.getElem_mem h2)
  rw [← ruleDict_value ha, ← ruleDict_value hb, ga, gb] at hv
  dsimp only
  rw [e, h.hash _ _ hv]

/-- C71: equal rules have equal hashes, if their arguments were given in the same order.

Missing for the full claim: `_original_rule` in another order, see `C71_hash_fails`. -/
theorem C71_hash_partial (H : Hashing α) (h : H.Lawful) (a b : PyRule α) (ha : a.Dict) (hb : b.Dict)
    (hab : ruleEq H a (some b) = true) (hk : a.original.map Prod.fst = b.original.map Prod.fst) :
    ruleHash H a = ruleHash H b :=
  ruleHash_congr h ha hb ((C71_eq H a b ha hb).1 hab) hk

/-- C71: equal sets of rules have equal hashes, under the same condition on their rules. -/
theorem C71_set_hash_partial (H : Hashing α) (h : H.Lawful) (s t : PyRuleSet α) (hs : s.Dicts) (ht : t.Dicts)
    (hst : ruleSetEq H s (some t) = true)
    (hk : ∀ r ∈ s.rrule ++ s.exrule, ∀ r' ∈ t.rrule ++ t.exrule, SameRule H r r' →
      r.original.map Prod.fst = r'.original.map Prod.fst) :
    ruleSetHash H s = ruleSetHash H t := by
  obtain ⟨h1, h2, h3, h4⟩ := (C71_set_eq H s t hs ht).1 hst
  have e1 : hashAll H (ruleHash H) s.rrule = hashAll H (ruleHash H) t.rrule := by
    unfold hashAll
    rw [mapM_congr (h1.mono fun x hx y hy hxy => ?_)]
    exact ruleHash_congr h (hs.1 x hx) (ht.1 y hy) hxy
      (hk x (List.mem_append_left _ hx) y (List.mem_append_left _ hy) hxy)
  have e3 : hashAll H (ruleHash H) s.exrule = hashAll H (ruleHash H) t.exrule := by
    unfold hashAll
    rw [mapM_congr (h3.mono fun x hx y hy hxy => ?_)]
    exact ruleHash_congr h (hs.2 x hx) (ht.2 y hy) hxy
      (hk x (List.mem_append_right _ hx) y (List.mem_append_right _ hy) hxy)
  have e2 : hashAll H H.hash s.rdate = hashAll H H.hash t.rdate := by
    unfold hashAll
    rw [mapM_congr (h2.mono fun x _ y _ hxy => h.hash x y hxy)]
  have e4 : hashAll H H.hash s.exdate = hashAll H H.hash t.exdate := by
    unfold hashAll
    rw [mapM_congr (h4.mono fun x _ y _ hxy => h.hash x y hxy)]
  unfold ruleSetHash
  rw [e1, e2, e3, e4]

/-- Numbers as values; the hash of a string is its length, that of a tuple a polynomial in the hashes of its elements. -/
def exHashing : Hashing Int where
  eq a b := a = b
  hash a := .ok a
  hashStr s := s.length
  hashTuple l := l.foldl (fun h x => 31 * h + x) 7

theorem exHashing_lawful : exHashing.Lawful where
  refl a := by simp [exHashing]
  symm a b h := by simp only [exHashing, decide_eq_true_eq] at *; exact h.symm
  trans a b c h h' := by simp only [exHashing, decide_eq_true_eq] at *; exact h.trans h'
  hash a b h := by simp only [exHashing, decide_eq_true_eq] at *; rw [h]

/-- A yearly rule with `bymonth` 3 and `byhour` 2. -/
def exPyRule : PyRule Int := ⟨1, 0, 19700101, 0, 0, 0, [("bymonth".toList, 3), ("byhour".toList, 2)],
  "DTSTART:19700101T000000\nRRULE:FREQ=YEARLY;BYMONTH=3;BYHOUR=2".toList⟩

/-- C71 is false for rules whose `_original_rule` has the same items in another order: they are equal, and their hashes are
made from different tuples, which in general have different hashes. -/
theorem C71_hash_fails : ∃ a b : PyRule Int, a.Dict ∧ b.Dict ∧ ruleEq exHashing a (some b) = true ∧
    ruleHash exHashing a ≠ ruleHash exHashing b :=
  ⟨exPyRule, { exPyRule with original := exPyRule.original.reverse }, by unfold PyRule.Dict; decide +kernel,
    by unfold PyRule.Dict; decide +kernel, by decide +kernel, by
      intro h
      have : (match ruleHash exHashing exPyRule, ruleHash exHashing { exPyRule with original := exPyRule.original.reverse } with
        | .ok x, .ok y => decide (x = y)
        | _, _ => true) = true := by rw [h]; split <;> simp_all
      revert this
      decide +kernel⟩

/-- C71: the text of a set of rules that excludes nothing is its rules and dates, one after the other, each with a line end. -/
theorem C71_str_partial (str : α → Str) (s : PyRuleSet α) (h : s.exrule = []) :
    ruleSetStr str s = (s.rrule.map PyRule.text ++ s.rdate.map str ++ s.exdate.map str).flatMap (· ++ ['\n']) := by
  unfold ruleSetStr
  rw [h]
  simp only [List.map_nil, List.flatten_nil, List.append_nil, List.flatMap_def, List.map_append, List.flatten_append, List.map_map]
  rfl

/-- C71: a rule that is excluded becomes an `EXRULE`, if its text is nothing but its `RRULE`. -/
theorem C71_exrule (str : α → Str) (r : PyRule α) (rest : Str) (hr : r.text = "RRULE:".toList ++ rest) :
    ruleSetStr str ⟨[], [], [r], []⟩ = "EXRULE:".toList ++ rest ++ ['\n'] := by
  simp [ruleSetStr, hr]

/-- C71 is false for the text of excluded rules that start with their `DTSTART`, as those of dateutil do: this becomes
`EXTSTART`, and the rule remains an `RRULE`. -/
theorem C71_str_fails (str : α → Str) (r : PyRule α) (start rest : Str)
    (hr : r.text = "DTSTART:".toList ++ start ++ "\nRRULE:".toList ++ rest) :
    ruleSetStr str ⟨[], [], [r], []⟩ = "EXTSTART:".toList ++ start ++ "\nRRULE:".toList ++ rest ++ ['\n'] := by
  simp [ruleSetStr, hr]

/-! ### Examples -/

example : exPyRule.Dict ∧ ruleEq exHashing exPyRule (some exPyRule) = true ∧
    ruleEq exHashing exPyRule (some { exPyRule with interval := 2 }) = false ∧
    ruleEq exHashing exPyRule (some { exPyRule with original := [("bymonth".toList, 3)] }) = false := by
  unfold PyRule.Dict
  decide +kernel

example : (⟨[exPyRule], [20260101], [], []⟩ : PyRuleSet Int).Dicts ∧
    ruleSetEq exHashing ⟨[exPyRule], [20260101], [], []⟩ (some ⟨[exPyRule], [20260101], [], []⟩) = true ∧
    ruleSetEq exHashing ⟨[exPyRule], [20260101, 20260102], [], []⟩ (some ⟨[exPyRule], [20260102, 20260101], [], []⟩) = false := by
  refine ⟨⟨?_, ?_⟩, by decide +kernel, by decide +kernel⟩
  · intro r hr
    rw [List.mem_singleton.1 hr]
    unfold PyRule.Dict
    decide +kernel
  · exact fun r hr => absurd hr List.not_mem_nil

example : ∃ start rest, exPyRule.text = "DTSTART:".toList ++ start ++ "\nRRULE:".toList ++ rest :=
  ⟨"19700101T000000".toList, "FREQ=YEARLY;BYMONTH=3;BYHOUR=2".toList, by decide +kernel⟩

end Ics
