import Verif.Spec.ZoneWrite
import Verif.Proofs.ZoneFaults
import Verif.Proofs.ReadZone
import Verif.Props.Grammar

/-
When a time zone cannot be written.
-/
namespace Ics

/-- A step that raises exactly for these reasons, or not at all. -/
def Exactly {α : Type} (P : PyErr → Prop) (r : Except PyErr α) : Prop :=
  Raises P r ∧ ∀ a, r = .ok a → ∀ e, ¬ P e

namespace Exactly

variable {α β : Type} {P Q : PyErr → Prop}

theorem ok (a : α) (h : ∀ e, ¬ P e) : Exactly P (.ok a : Except PyErr α) := ⟨.ok a, fun _ _ => h⟩

theorem error {e : PyErr} (h : P e) : Exactly P (.error e : Except PyErr α) := ⟨.error h, fun _ h => by cases h⟩

theorem bind {r : Except PyErr α} {f : α → Except PyErr β} (h : Exactly P r) (hf : ∀ a, r = .ok a → Exactly Q (f a)) :
    Exactly (fun e => P e ∨ Q e) (r >>= f) := by
  refine ⟨(h.1.mono fun e he => .inl he).bind fun a ha => (hf a ha).1.mono fun e he => .inr he, fun b hb e he => ?_⟩
  obtain ⟨a, ha, hb⟩ := bind_ok_iff.1 hb
  rcases he with he | he
  · exact h.2 a ha e he
  · exact (hf a ha).2 b hb e he

theorem iff {r : Except PyErr α} (h : Exactly P r) (hpq : ∀ e, P e ↔ Q e) : Exactly Q r :=
  ⟨h.1.mono fun e => (hpq e).1, fun a ha e he => h.2 a ha e ((hpq e).2 he)⟩

/-- A step that never fails. -/
theorem last {r : Except PyErr α} (h : Exactly P r) {f : α → β} : Exactly P (r >>= fun a => .ok (f a)) :=
  (h.bind (Q := fun _ => False) fun a _ => .ok _ fun _ h => h).iff fun e => or_iff_left id

end Exactly

theorem extraOf_exactly (d : List (Str × ExtraVal)) (key : String) :
    Exactly (fun e => e = .attributeError ∧ ListedIn d key) (extraOf d key.toList) := by
  unfold extraOf ListedIn
  cases dictGet? d key.toList with
  | none => exact .ok _ fun e ⟨_, _, _, h⟩ => by cases h
  | some x =>
    cases x with
    | one p => exact .ok _ fun e ⟨_, _, _, h⟩ => by cases h
    | many ps =>
      cases ps with
      | nil => exact .ok _ fun e ⟨_, _, _, h⟩ => by cases h
      | cons p ps => exact .error ⟨rfl, p, ps, rfl⟩

theorem dumpField_exactly (d : List (Str × ExtraVal)) (key name : String) (text : Option Str) :
    Exactly (fun e => e = .attributeError ∧ text ≠ none ∧ ListedIn d key) (dumpField d key.toList name.toList text) := by
  unfold dumpField
  cases text with
  | none => exact .ok _ fun e h => h.2.1 rfl
  | some t => exact (extraOf_exactly d key).last.iff fun e => by simp

theorem serializeDt_exactly (L : Lib) (d : DT) (p : Params) (zs : List (Str × Nat)) :
    Exactly (fun e => e = .valueError ∧ InNamelessZone L d) (serializeDt L.toWorld d p (some zs)) := by
  unfold serializeDt InNamelessZone
  by_cases hu : L.toWorld.dtIsUtc d = true
  · rw [if_pos hu]
    exact .ok _ fun e h => by rw [hu] at h; cases h.2.1
  · rw [if_neg hu]
    cases ht : d.tz with
    | none => exact .ok _ fun e ⟨_, _, t, h, _⟩ => by cases h
    | some t =>
      dsimp only
      cases hc : L.conv t with
      | unserializable => exact .error ⟨rfl, by simpa using hu, t, rfl, hc⟩
      | localTime => exact .ok _ fun e ⟨_, _, t, h, h'⟩ => by cases h; rw [hc] at h'; cases h'
      | timezone z => exact .ok _ fun e ⟨_, _, t, h, h'⟩ => by cases h; rw [hc] at h'; cases h'

theorem serializeDt_alone (L : Lib) (d : DT) (p : Params) :
    Exactly (fun e => (e = .valueError ∧ InNamelessZone L d) ∨ (e = .attributeError ∧ InNamedZone L d))
      (serializeDt L.toWorld d p none) := by
  unfold serializeDt InNamelessZone InNamedZone
  by_cases hu : L.toWorld.dtIsUtc d = true
  · rw [if_pos hu]
    exact .ok _ fun e h => by rw [hu] at h; rcases h with h | h <;> cases h.2.1
  · rw [if_neg hu]
    have hu' : L.dtIsUtc d = false := by simpa using hu
    cases ht : d.tz with
    | none => exact .ok _ fun e h => by rcases h with ⟨_, _, t, h, _⟩ | ⟨_, _, t, z, h, _⟩ <;> cases h
    | some t =>
      dsimp only
      cases hc : L.conv t with
      | unserializable => exact .error (.inl ⟨rfl, hu', t, rfl, hc⟩)
      | localTime =>
        refine .ok _ fun e h => ?_
        rcases h with ⟨_, _, t, h, h'⟩ | ⟨_, _, t, z, h, h'⟩ <;> (cases h; rw [hc] at h'; cases h')
      | timezone z => exact .error (.inr ⟨rfl, hu', t, z, rfl, hc⟩)

theorem startLine_iff (l : Str) : "DTSTART".toList.isPrefixOf l = true ↔ StartLine l := by
  rw [List.isPrefixOf_iff_prefix]
  exact ⟨fun ⟨r, h⟩ => ⟨r, h.symm⟩, fun ⟨r, h⟩ => ⟨r, h.symm⟩⟩

/-- Why the line of a rule cannot be written. -/
def RuleFault (r : RRule) (e : PyErr) : Prop :=
  (e = .indexError ∧ ∀ l ∈ pySplitlines r.text, StartLine l) ∨
  (e = .assertionError ∧ ∃ a b l l', pySplitlines r.text = a ++ l :: l' :: b ∧ (∀ x ∈ a, StartLine x) ∧ ¬ StartLine l) ∨
  (e = .parseError ∧ ∃ a l, pySplitlines r.text = a ++ [l] ∧ (∀ x ∈ a, StartLine x) ∧ ¬ StartLine l ∧
    ¬ ∃ name ps value, LineText l name ps value)

/-- What is left of a list after its first elements of a kind. -/
theorem starts_split {p : Str → Bool} (l : List Str) :
    ∃ a, l = a ++ l.dropWhile p ∧ (∀ x ∈ a, p x = true) ∧ ∀ x r, l.dropWhile p = x :: r → p x = false := by
  refine ⟨l.takeWhile p, (List.takeWhile_append_dropWhile ..).symm, fun x hx => List.mem_takeWhile_imp hx, fun x r h => ?_⟩
  have := List.head?_dropWhile_not p l
  rw [h] at this
  simpa using this

/-- Such a split is unique. -/
theorem starts_drop {p : Str → Bool} {a b : List Str} {x : Str} (ha : ∀ y ∈ a, p y = true) (hx : p x = false) :
    (a ++ x :: b).dropWhile p = x :: b := by
  induction a with
  | nil => rw [List.nil_append, List.dropWhile_cons, if_neg (by rw [hx]; exact Bool.false_ne_true)]
  | cons y a ih =>
    rw [List.cons_append, List.dropWhile_cons, if_pos (ha y List.mem_cons_self)]
    exact ih fun z hz => ha z (List.mem_cons_of_mem _ hz)

theorem rruleLine_exactly (r : RRule) : Exactly (RuleFault r) (rruleLine r) := by
  obtain ⟨a, h1, h2, h3⟩ := starts_split (p := fun l => "DTSTART".toList.isPrefixOf l) (pySplitlines r.text)
  have start : ∀ {l}, ¬ StartLine l ↔ ("DTSTART".toList.isPrefixOf l) = false := by
    intro l
    rw [← startLine_iff, Bool.not_eq_true]
  have h2' : ∀ x ∈ a, StartLine x := fun x hx => (startLine_iff x).1 (h2 x hx)
  -- the three cases exclude each other
  have e1 : (∀ l ∈ pySplitlines r.text, StartLine l) →
      (pySplitlines r.text).dropWhile (fun l => "DTSTART".toList.isPrefixOf l) = [] := by
    intro h
    rw [List.dropWhile_eq_nil_iff]
    exact fun x hx => (startLine_iff x).2 (h x hx)
  have e2 : ∀ {a l b}, pySplitlines r.text = a ++ l :: b → (∀ x ∈ a, StartLine x) → ¬ StartLine l →
      (pySplitlines r.text).dropWhile (fun l => "DTSTART".toList.isPrefixOf l) = l :: b := by
    intro a l b h ha hl
    rw [h]
    exact starts_drop (fun y hy => (startLine_iff y).2 (ha y hy)) (start.1 hl)
  unfold rruleLine
  generalize hd : (pySplitlines r.text).dropWhile (fun l => "DTSTART".toList.isPrefixOf l) = d at *
  match d with
  | [] =>
    refine .error (.inl ⟨rfl, fun l hl => h2' l ?_⟩)
    rw [h1, List.append_nil] at hl
    exact hl
  | [l] =>
    have hl := start.2 (h3 l [] rfl)
    dsimp only
    cases hp : parseLine l with
    | error e =>
      have hpe : e = .parseError := by
        by_cases hx : ∃ name ps value, LineText l name ps value
        · obtain ⟨name, ps, value, hx⟩ := hx
          rw [(C74_accepts l _).2 ⟨name, ps, value, hx, rfl⟩] at hp
          cases hp
        · rw [(C74_rejects l).2 hx] at hp
          cases hp
          rfl
      subst hpe
      exact .error (.inr (.inr ⟨rfl, a, l, h1, h2', hl, (C74_rejects l).1 hp⟩))
    | ok cl =>
      refine .ok _ ?_
      rintro e (⟨-, h⟩ | ⟨-, a, b, x, y, h, ha, hx⟩ | ⟨-, a, x, h, ha, hx, hn⟩)
      · cases e1 h
      · cases e2 h ha hx
      · cases e2 h ha hx
        obtain ⟨name, ps, value, hl, -⟩ := (C74_accepts _ cl).1 hp
        exact hn ⟨name, ps, value, hl⟩
  | l :: l' :: b =>
    exact .error (.inr (.inl ⟨rfl, a, b, l, l', h1, h2', start.2 (h3 l _ rfl)⟩))

theorem dumpRRules_exactly (rename : Option Str) (rs : List RRule) :
    Exactly (fun e => ∃ r ∈ rs, RuleFault r e) (dumpRRules rename rs) := by
  induction rs with
  | nil => exact .ok _ fun e ⟨r, h, _⟩ => by cases h
  | cons r rs ih =>
    unfold dumpRRules
    exact ((rruleLine_exactly r).bind fun cl _ => ih.last).iff fun e => by simp

/-- The starts after the first. -/
theorem dumpDtstart_rest (L : Lib) (d : DT) (rs : List RRule) :
    Exactly (fun e => e = .valueError ∧ ∃ d' ∈ rs.filterMap RRule.dtstart, L.eq d d' = false) (dumpDtstart L rs (some d)) := by
  induction rs with
  | nil => exact .ok _ fun e ⟨_, _, h, _⟩ => by cases h
  | cons r rs ih =>
    unfold dumpDtstart
    cases hr : r.dtstart with
    | none =>
      rw [List.filterMap_cons_none hr]
      exact ih
    | some x =>
      rw [List.filterMap_cons_some hr]
      dsimp only
      by_cases he : L.eq d x = true
      · rw [if_pos he]
        refine ih.iff fun e => ?_
        rw [List.exists_mem_cons_iff, he]
        simp
      · rw [if_neg he]
        exact .error ⟨rfl, x, List.mem_cons_self, by simpa using he⟩

theorem dumpDtstart_exactly (L : Lib) (rs : List RRule) :
    Exactly (fun e => e = .valueError ∧ ∃ d ds, rs.filterMap RRule.dtstart = d :: ds ∧
      (InNamelessZone L d ∨ ∃ d' ∈ ds, L.eq d d' = false)) (dumpDtstart L rs none) := by
  induction rs with
  | nil => exact .ok _ fun e ⟨_, _, _, h, _⟩ => by cases h
  | cons r rs ih =>
    unfold dumpDtstart
    cases hr : r.dtstart with
    | none =>
      rw [List.filterMap_cons_none hr]
      exact ih
    | some x =>
      rw [List.filterMap_cons_some hr]
      dsimp only
      refine ((serializeDt_exactly L x [] []).bind fun q _ => (dumpDtstart_rest L x rs).last).iff fun e => ?_
      constructor
      · rintro (⟨h1, h2⟩ | ⟨h1, h2⟩)
        · exact ⟨h1, _, _, rfl, .inl h2⟩
        · exact ⟨h1, _, _, rfl, .inr h2⟩
      · rintro ⟨h1, d, ds, h, h2⟩
        cases h
        exact h2.imp (⟨h1, ·⟩) (⟨h1, ·⟩)

theorem dumpDates_exactly (L : Lib) (name : Str) (ds : List DT) :
    Exactly (fun e => ∃ d ∈ ds, (e = .valueError ∧ InNamelessZone L d) ∨ (e = .attributeError ∧ InNamedZone L d))
      (dumpDates L name ds) := by
  induction ds with
  | nil => exact .ok _ fun e ⟨_, h, _⟩ => by cases h
  | cons d ds ih =>
    unfold dumpDates
    exact ((serializeDt_alone L d []).bind fun q _ => ih.last).iff fun e => by simp

theorem normDates_exactly (e : Env) (l : List DT) : Exactly (fun x => x = .typeError ∧ MixedZones l) (normDates e l) :=
  ⟨normDates_raises e l, fun m h _ hx => (normDates_iff e l).1 ⟨m, h⟩ hx.2⟩

/-- The dates of one kind. -/
def DatesFault (L : Lib) (l : List DT) (e : PyErr) : Prop :=
  (e = .typeError ∧ MixedZones l) ∨ ∃ d ∈ l, (e = .valueError ∧ InNamelessZone L d) ∨ (e = .attributeError ∧ InNamedZone L d)

/-- Without conditions on the dates only one direction. -/
theorem normDump_raises {β : Type} (L : Lib) (name : Str) (l : List DT) {k : List Item → Except PyErr β} {Q : PyErr → Prop}
    (hk : ∀ i, Raises Q (k i)) (hQ : ∀ e, DatesFault L l e → Q e) :
    Raises Q (normDates L.toEnv l >>= fun m => dumpDates L name m >>= k) := by
  refine ((normDates_exactly L.toEnv l).1.mono fun e he => hQ e (.inl he)).bind fun m hm => ?_
  refine ((dumpDates_exactly L name m).1.mono fun e he => hQ e ?_).bind fun i _ => hk i
  obtain ⟨d, hd, h⟩ := he
  exact .inr ⟨d, (normDates_dates hm).1 d hd, h⟩

theorem normDump_complete {L : Lib} {name : Str} {l m : List DT} {is : List Item} (ho : OnceEach L l)
    (hm : normDates L.toEnv l = .ok m) (hd : dumpDates L name m = .ok is) (e : PyErr) : ¬ DatesFault L l e := by
  rintro (⟨-, h⟩ | ⟨d, hdl, h⟩)
  · exact (normDates_iff _ _).1 ⟨m, hm⟩ h
  · obtain ⟨k1, k2⟩ := normDates_dates hm
    obtain ⟨d', h1, h2⟩ := k2 d hdl
    have : d' = d := h2.elim id fun h2 => ho d' (k1 d' h1) d hdl h2
    subst this
    exact (dumpDates_exactly L name m).2 is hd e ⟨d', h1, h⟩

/-- The reasons of a set of rules, by the steps. -/
theorem rulesFault_iff {L : Lib} {rs : RuleSet} {e : PyErr} : RulesWriteFault L rs e ↔
    (e = .valueError ∧ ∃ d ds, (rs.rrule ++ rs.exrule).filterMap RRule.dtstart = d :: ds ∧
      (InNamelessZone L d ∨ ∃ d' ∈ ds, L.eq d d' = false)) ∨
    (∃ r ∈ rs.rrule, RuleFault r e) ∨ (∃ r ∈ rs.exrule, RuleFault r e) ∨ DatesFault L rs.rdate e ∨ DatesFault L rs.exdate e := by
  have rule : ∀ r, r ∈ rs.rules → RuleFault r e → (∃ r ∈ rs.rrule, RuleFault r e) ∨ ∃ r ∈ rs.exrule, RuleFault r e :=
    fun r hr hf => (List.mem_append.1 hr).imp (⟨r, ·, hf⟩) (⟨r, ·, hf⟩)
  have date : ∀ d, d ∈ rs.rdate ++ rs.exdate → ((e = .valueError ∧ InNamelessZone L d) ∨ (e = .attributeError ∧ InNamedZone L d)) →
      DatesFault L rs.rdate e ∨ DatesFault L rs.exdate e :=
    fun d hd hf => (List.mem_append.1 hd).imp (.inr ⟨d, ·, hf⟩) (.inr ⟨d, ·, hf⟩)
  constructor
  · intro h
    cases h with
    | starts h1 h2 h3 => exact .inl ⟨rfl, _, _, h1, .inr ⟨_, h2, h3⟩⟩
    | startZone h1 h2 => exact .inl ⟨rfl, _, _, h1, .inl h2⟩
    | noLine h1 h2 =>
      rcases rule _ h1 (.inl ⟨rfl, h2⟩) with h | h
      · exact .inr (.inl h)
      · exact .inr (.inr (.inl h))
    | lines h1 h2 h3 h4 =>
      rcases rule _ h1 (.inr (.inl ⟨rfl, _, _, _, _, h2, h3, h4⟩)) with h | h
      · exact .inr (.inl h)
      · exact .inr (.inr (.inl h))
    | line h1 h2 h3 h4 h5 =>
      rcases rule _ h1 (.inr (.inr ⟨rfl, _, _, h2, h3, h4, h5⟩)) with h | h
      · exact .inr (.inl h)
      · exact .inr (.inr (.inl h))
    | mixed h => exact .inr (.inr (.inr (h.imp (.inl ⟨rfl, ·⟩) (.inl ⟨rfl, ·⟩))))
    | dateZone h1 h2 => exact .inr (.inr (.inr (date _ h1 (.inl ⟨rfl, h2⟩))))
    | dateNamed h1 h2 => exact .inr (.inr (.inr (date _ h1 (.inr ⟨rfl, h2⟩))))
  · have rule : ∀ r, r ∈ rs.rules → RuleFault r e → RulesWriteFault L rs e := by
      rintro r hr (⟨rfl, h⟩ | ⟨rfl, a, b, l, l', h1, h2, h3⟩ | ⟨rfl, a, l, h1, h2, h3, h4⟩)
      · exact .noLine hr h
      · exact .lines hr h1 h2 h3
      · exact .line hr h1 h2 h3 h4
    have date : ∀ l, (∀ d ∈ l, d ∈ rs.rdate ++ rs.exdate) → (MixedZones l → MixedZones rs.rdate ∨ MixedZones rs.exdate) →
        DatesFault L l e → RulesWriteFault L rs e := by
      rintro l hl hm (⟨rfl, h⟩ | ⟨d, hd, ⟨rfl, h⟩ | ⟨rfl, h⟩⟩)
      · exact .mixed (hm h)
      · exact .dateZone (hl d hd) h
      · exact .dateNamed (hl d hd) h
    rintro (⟨rfl, d, ds, h, h1 | ⟨d', h1, h2⟩⟩ | ⟨r, hr, hf⟩ | ⟨r, hr, hf⟩ | h | h)
    · exact .startZone h h1
    · exact .starts h h1 h2
    · exact rule r (List.mem_append_left _ hr) hf
    · exact rule r (List.mem_append_right _ hr) hf
    · exact date _ (fun d hd => List.mem_append_left _ hd) .inl h
    · exact date _ (fun d hd => List.mem_append_right _ hd) .inr h

theorem dumpRules_raises (L : Lib) (rs : RuleSet) : Raises (RulesWriteFault L rs) (dumpRules L rs) := by
  unfold dumpRules
  refine ((dumpDtstart_exactly L _).1.mono fun e he => rulesFault_iff.2 (.inl he)).bind fun _ _ => ?_
  refine ((dumpRRules_exactly none _).1.mono fun e he => rulesFault_iff.2 (.inr (.inl he))).bind fun _ _ => ?_
  refine ((dumpRRules_exactly _ _).1.mono fun e he => rulesFault_iff.2 (.inr (.inr (.inl he)))).bind fun _ _ => ?_
  refine normDump_raises L _ _ (fun _ => ?_) fun e he => rulesFault_iff.2 (.inr (.inr (.inr (.inl he))))
  exact normDump_raises L _ _ (fun _ => .ok _) fun e he => rulesFault_iff.2 (.inr (.inr (.inr (.inr he))))

theorem dumpRules_complete {L : Lib} {rs : RuleSet} (h1 : OnceEach L rs.rdate) (h2 : OnceEach L rs.exdate) {is : List Item}
    (h : dumpRules L rs = .ok is) (e : PyErr) : ¬ RulesWriteFault L rs e := by
  unfold dumpRules at h
  simp only [bind_ok_iff] at h
  obtain ⟨a, ha, b, hb, c, hc, m, hm, d, hd, m', hm', x, hx, -⟩ := h
  rw [rulesFault_iff]
  rintro (h | h | h | h | h)
  · exact (dumpDtstart_exactly L _).2 a ha e h
  · exact (dumpRRules_exactly none _).2 b hb e h
  · exact (dumpRRules_exactly _ _).2 c hc e h
  · exact normDump_complete h1 hm hd e h
  · exact normDump_complete h2 hm' hx e h

theorem obsFault_iff {L : Lib} {o : ObsObj} {e : PyErr} : ObsWriteFault L o e ↔
    (e = .attributeError ∧ ListedIn o.extraParams "TZOFFSETFROM") ∨ (e = .attributeError ∧ ListedIn o.extraParams "TZOFFSETTO") ∨
    RulesWriteFault L o.rules e ∨ (e = .attributeError ∧ o.tzname ≠ none ∧ ListedIn o.extraParams "TZNAME") ∨
    (e = .attributeError ∧ o.comment ≠ none ∧ ListedIn o.extraParams "COMMENT") := by
  constructor
  · intro h
    cases h with
    | params hk h =>
      rcases hk with rfl | rfl | ⟨rfl, hk⟩ | ⟨rfl, hk⟩
      · exact .inl ⟨rfl, h⟩
      · exact .inr (.inl ⟨rfl, h⟩)
      · exact .inr (.inr (.inr (.inl ⟨rfl, hk, h⟩)))
      · exact .inr (.inr (.inr (.inr ⟨rfl, hk, h⟩)))
    | rules h => exact .inr (.inr (.inl h))
  · rintro (⟨rfl, h⟩ | ⟨rfl, h⟩ | h | ⟨rfl, hk, h⟩ | ⟨rfl, hk, h⟩)
    · exact .params (.inl rfl) h
    · exact .params (.inr (.inl rfl)) h
    · exact .rules h
    · exact .params (.inr (.inr (.inl ⟨rfl, hk⟩))) h
    · exact .params (.inr (.inr (.inr ⟨rfl, hk⟩))) h

theorem map_ne_none {f : Str → Str} {t : Option Str} : t.map f ≠ none ↔ t ≠ none := by
  cases t <;> simp

theorem dumpObs_raises (L : Lib) (o : ObsObj) : Raises (ObsWriteFault L o) (dumpObs L o) := by
  unfold dumpObs
  refine ((dumpField_exactly _ "TZOFFSETFROM" "TZOFFSETFROM" _).1.mono fun e he => obsFault_iff.2
    (.inl ⟨he.1, he.2.2⟩)).bind fun _ _ => ?_
  refine ((dumpField_exactly _ "TZOFFSETTO" "TZOFFSETTO" _).1.mono fun e he => obsFault_iff.2
    (.inr (.inl ⟨he.1, he.2.2⟩))).bind fun _ _ => ?_
  refine ((dumpRules_raises L o.rules).mono fun e he => .rules he).bind fun _ _ => ?_
  refine ((dumpField_exactly _ "TZNAME" "TZNAME" _).1.mono fun e he => obsFault_iff.2
    (.inr (.inr (.inr (.inl ⟨he.1, map_ne_none.1 he.2.1, he.2.2⟩))))).bind fun _ _ => ?_
  exact ((dumpField_exactly _ "COMMENT" "COMMENT" _).1.mono fun e he => obsFault_iff.2
    (.inr (.inr (.inr (.inr ⟨he.1, map_ne_none.1 he.2.1, he.2.2⟩))))).bind fun _ _ => .ok _

theorem dumpObs_complete {L : Lib} {o : ObsObj} (h1 : OnceEach L o.rules.rdate) (h2 : OnceEach L o.rules.exdate) {i : Item}
    (h : dumpObs L o = .ok i) (e : PyErr) : ¬ ObsWriteFault L o e := by
  unfold dumpObs at h
  simp only [bind_ok_iff] at h
  obtain ⟨a, ha, b, hb, c, hc, d, hd, x, hx, -⟩ := h
  rw [obsFault_iff]
  rintro (⟨he, h⟩ | ⟨he, h⟩ | h | ⟨he, hk, h⟩ | ⟨he, hk, h⟩)
  · exact (dumpField_exactly _ "TZOFFSETFROM" "TZOFFSETFROM" _).2 a ha e ⟨he, nofun, h⟩
  · exact (dumpField_exactly _ "TZOFFSETTO" "TZOFFSETTO" _).2 b hb e ⟨he, nofun, h⟩
  · exact dumpRules_complete h1 h2 hc e h
  · exact (dumpField_exactly _ "TZNAME" "TZNAME" _).2 d hd e ⟨he, map_ne_none.2 hk, h⟩
  · exact (dumpField_exactly _ "COMMENT" "COMMENT" _).2 x hx e ⟨he, map_ne_none.2 hk, h⟩

theorem dumpObservances_raises (L : Lib) (os : List ObsObj) :
    Raises (fun e => ∃ o ∈ os, ObsWriteFault L o e) (dumpObservances L os) := by
  induction os with
  | nil => exact .ok _
  | cons o os ih =>
    unfold dumpObservances
    refine ((dumpObs_raises L o).mono fun e he => ⟨o, List.mem_cons_self, he⟩).bind fun _ _ => ?_
    exact (ih.mono fun e ⟨o, ho, he⟩ => ⟨o, List.mem_cons_of_mem _ ho, he⟩).bind fun _ _ => .ok _

theorem dumpObservances_each {L : Lib} {os : List ObsObj} {is : List Item} (h : dumpObservances L os = .ok is) {o : ObsObj}
    (ho : o ∈ os) : ∃ i, dumpObs L o = .ok i := by
  induction os generalizing is with
  | nil => cases ho
  | cons x os ih =>
    unfold dumpObservances at h
    simp only [bind_ok_iff] at h
    obtain ⟨i, hi, is', his, -⟩ := h
    rcases List.mem_cons.1 ho with rfl | ho
    · exact ⟨i, hi⟩
    · exact ih his ho

theorem dumpLastModified_exactly (L : Lib) (z : TzObj) :
    Exactly (fun e => (e = .attributeError ∧ z.lastModified ≠ none ∧ ListedIn z.extraParams "LAST_MODIFIED") ∨
      (e = .valueError ∧ ∃ d, z.lastModified = some d ∧ InNamelessZone L d)) (dumpLastModified L z) := by
  unfold dumpLastModified
  cases z.lastModified with
  | none => exact .ok _ fun e h => by rcases h with ⟨_, h, _⟩ | ⟨_, d, h, _⟩; exact h rfl; cases h
  | some d =>
    refine ((extraOf_exactly _ "LAST_MODIFIED").bind fun p _ => (serializeDt_exactly L d p []).last).iff fun e => ?_
    simp

theorem truthy_iff (d : List (Str × ExtraVal)) (k : String) :
    ((dictGet? d k.toList).map ExtraVal.truthy).getD false = true ↔
      (∃ p ps, dictGet? d k.toList = some (.one (p :: ps))) ∨ ListedIn d k := by
  unfold ListedIn
  cases dictGet? d k.toList with
  | none => simp
  | some x =>
    cases x with
    | one p => cases p <;> simp [ExtraVal.truthy]
    | many ps => cases ps <;> simp [ExtraVal.truthy]

theorem dumpTimezone_raises (L : Lib) (z : TzObj) : Raises (ZoneWriteFault L z) (dumpTimezone L z) := by
  unfold dumpTimezone
  refine ((dumpField_exactly _ "TZID" "TZID" _).1.mono fun e he => ?_).bind fun _ _ => ?_
  · rw [he.1]
    exact .params (.inl rfl) he.2.2
  refine Raises.bind (P := ZoneWriteFault L z) ?_ fun _ _ => ?_
  · unfold raiseIf
    split
    · rename_i h
      exact .error (.observanceParams ((truthy_iff _ _).1 h))
    · exact .ok _
  refine ((dumpObservances_raises L _).mono fun e ⟨o, ho, he⟩ => .observance ho he).bind fun _ _ => ?_
  refine ((dumpField_exactly _ "TZURL" "TZURL" _).1.mono fun e he => ?_).bind fun _ _ => ?_
  · rw [he.1]
    refine .params (.inr (.inl ⟨rfl, fun h => he.2.1 ?_⟩)) he.2.2
    rw [h]
    rfl
  refine ((dumpLastModified_exactly L z).1.mono fun e he => ?_).bind fun _ _ => .ok _
  rcases he with ⟨rfl, h1, h2⟩ | ⟨rfl, d, h1, h2⟩
  · exact .params (.inr (.inr ⟨rfl, h1⟩)) h2
  · exact .modified h1 h2

theorem dumpTimezone_complete {L : Lib} {z : TzObj}
    (ho : ∀ o ∈ z.observances, OnceEach L o.rules.rdate ∧ OnceEach L o.rules.exdate) {i : Item}
    (h : dumpTimezone L z = .ok i) (e : PyErr) : ¬ ZoneWriteFault L z e := by
  unfold dumpTimezone at h
  simp only [bind_ok_iff] at h
  obtain ⟨a, ha, u, hu, b, hb, c, hc, d, hd, -⟩ := h
  intro hf
  cases hf with
  | params hk h =>
    rcases hk with rfl | ⟨rfl, hk⟩ | ⟨rfl, hk⟩
    · exact (dumpField_exactly _ "TZID" "TZID" _).2 a ha _ ⟨rfl, nofun, h⟩
    · refine (dumpField_exactly _ "TZURL" "TZURL" _).2 c hc _ ⟨rfl, fun e => hk ?_, h⟩
      simpa using e
    · exact (dumpLastModified_exactly L z).2 d hd _ (.inl ⟨rfl, hk, h⟩)
  | observanceParams h =>
    rw [(truthy_iff _ _).2 h] at hu
    cases hu
  | modified h1 h2 => exact (dumpLastModified_exactly L z).2 d hd _ (.inr ⟨rfl, _, h1, h2⟩)
  | observance h1 h2 =>
    obtain ⟨i, hi⟩ := dumpObservances_each hb h1
    exact dumpObs_complete (ho _ h1).1 (ho _ h1).2 hi e h2

/-! ### Time zones that were read -/

/-- Parameters are kept for single values only. -/
def LoneParams (d : List (Str × ExtraVal)) : Prop :=
  ∀ k x, dictGet? d k = some x → (∃ p, x = .one p) ∧ k ≠ "OBSERVANCES".toList

theorem LoneParams.listed {d : List (Str × ExtraVal)} (h : LoneParams d) (k : String) : ¬ ListedIn d k := by
  rintro ⟨p, ps, hk⟩
  obtain ⟨⟨q, hq⟩, -⟩ := h _ _ hk
  cases hq

theorem LoneParams.set {d : List (Str × ExtraVal)} (h : LoneParams d) {k : Str} (hk : k ≠ "OBSERVANCES".toList) (p : Params) :
    LoneParams (setExtra d k p) := by
  unfold setExtra
  split
  · exact h
  · intro k' x hx
    by_cases he : k' = k
    · subst he
      rw [dictGet_set] at hx
      injection hx with hx
      exact ⟨⟨p, hx.symm⟩, hk⟩
    · rw [dictGet_set_ne _ _ he] at hx
      exact h k' x hx

theorem populateField_lone {α : Type} {name ty : Str} {parse : Str → Params → Except PyErr (α × Params)} {cl : ContentLine}
    {cur : Option α} {d : List (Str × ExtraVal)} {f : Field α} (hd : LoneParams d) (hn : name ≠ "OBSERVANCES".toList)
    (h : populateField name ty parse cl cur d = .ok f) : LoneParams f.params := by
  unfold populateField at h
  simp only [bind_ok_iff] at h
  obtain ⟨_, _, p, _, q, _, e⟩ := h
  cases e
  exact hd.set hn _

theorem populateObs_lone {items : List Item} {st st' : ObsState} (hd : LoneParams st.extraParams)
    (h : populateObs items st = .ok st') : LoneParams st'.extraParams := by
  induction items generalizing st with
  | nil => cases h; exact hd
  | cons i is ih =>
    unfold populateObs at h
    obtain ⟨s1, h1, h2⟩ := bind_ok_iff.1 h
    refine ih ?_ h2
    cases i with
    | cont n is =>
      unfold populateObsItem at h1
      dsimp only at h1
      split at h1
      · cases h1
      · injection h1 with h1; subst h1; exact hd
    | line cl =>
      replace h1 : populateObsLine cl st = .ok s1 := h1
      unfold populateObsLine at h1
      by_cases k1 : cl.name = "TZOFFSETFROM".toList
      · rw [if_pos k1] at h1
        obtain ⟨f, hf, e⟩ := bind_ok_iff.1 h1
        cases e
        exact populateField_lone hd (by rw [k1]; decide) hf
      rw [if_neg k1] at h1
      by_cases k2 : cl.name = "TZOFFSETTO".toList
      · rw [if_pos k2] at h1
        obtain ⟨f, hf, e⟩ := bind_ok_iff.1 h1
        cases e
        exact populateField_lone hd (by rw [k2]; decide) hf
      rw [if_neg k2] at h1
      by_cases k3 : cl.name ∈ recurNames
      · rw [if_pos k3] at h1
        cases h1
        exact hd
      rw [if_neg k3] at h1
      by_cases k4 : cl.name = "TZNAME".toList
      · rw [if_pos k4] at h1
        obtain ⟨f, hf, e⟩ := bind_ok_iff.1 h1
        cases e
        exact populateField_lone hd (by rw [k4]; decide) hf
      rw [if_neg k4] at h1
      by_cases k5 : cl.name = "COMMENT".toList
      · rw [if_pos k5] at h1
        obtain ⟨f, hf, e⟩ := bind_ok_iff.1 h1
        cases e
        exact populateField_lone hd (by rw [k5]; decide) hf
      rw [if_neg k5] at h1
      cases h1
      exact hd

theorem loneParams_nil : LoneParams [] := nofun

theorem loadObs_lone {w : Wrap} {R : RRuleStr} {e : Env} {avail : List (Str × Nat)} {b : Bool} {items : List Item} {o : ObsObj}
    (h : loadObs w R e avail b items = .ok o) : LoneParams o.extraParams := by
  unfold loadObs at h
  obtain ⟨st, h1, h⟩ := bind_ok_iff.1 h
  unfold finishObs at h
  simp only [bind_ok_iff] at h
  obtain ⟨_, _, _, _, _, _, e⟩ := h
  cases e
  exact populateObs_lone loneParams_nil h1

/-- What a time zone keeps while it is read. -/
def TzLone (st : TzState) : Prop := LoneParams st.extraParams ∧ ∀ o ∈ st.observances, LoneParams o.extraParams

theorem populateTz_lone {L : Lib} {w : Wrap} {R : RRuleStr} {items : List Item} {st st' : TzState} (hd : TzLone st)
    (h : populateTz L w R items st = .ok st') : TzLone st' := by
  induction items generalizing st with
  | nil => cases h; exact hd
  | cons i is ih =>
    unfold populateTz at h
    obtain ⟨s1, h1, h2⟩ := bind_ok_iff.1 h
    refine ih ?_ h2
    cases i with
    | cont n is =>
      unfold populateTzItem at h1
      dsimp only at h1
      have obs : ∀ b o, loadObs w R L.toEnv st.avail b is = .ok o →
          TzLone { st with observances := st.observances ++ [o] } := by
        intro b o ho
        refine ⟨hd.1, fun x hx => ?_⟩
        rcases List.mem_append.1 hx with hx | hx
        · exact hd.2 x hx
        · rw [List.mem_singleton.1 hx]
          exact loadObs_lone ho
      by_cases k1 : n = obsName false
      · rw [if_pos k1] at h1
        obtain ⟨o, ho, e⟩ := bind_ok_iff.1 h1
        cases e
        exact obs _ _ ho
      rw [if_neg k1] at h1
      by_cases k2 : n = obsName true
      · rw [if_pos k2] at h1
        obtain ⟨o, ho, e⟩ := bind_ok_iff.1 h1
        cases e
        exact obs _ _ ho
      rw [if_neg k2] at h1
      by_cases k3 : n ∈ tzNames
      · rw [if_pos k3] at h1
        cases h1
      rw [if_neg k3] at h1
      cases h1
      exact hd
    | line cl =>
      replace h1 : populateTzLine L cl st = .ok s1 := h1
      unfold populateTzLine at h1
      by_cases k1 : cl.name = "TZID".toList
      · rw [if_pos k1] at h1
        obtain ⟨f, hf, e⟩ := bind_ok_iff.1 h1
        cases e
        exact ⟨populateField_lone hd.1 (by rw [k1]; decide) hf, hd.2⟩
      rw [if_neg k1] at h1
      by_cases k2 : cl.name = obsName false ∨ cl.name = obsName true
      · rw [if_pos k2] at h1
        cases h1
      rw [if_neg k2] at h1
      by_cases k3 : cl.name = "TZURL".toList
      · rw [if_pos k3] at h1
        obtain ⟨f, hf, e⟩ := bind_ok_iff.1 h1
        cases e
        exact ⟨populateField_lone hd.1 (by rw [k3]; decide) hf, hd.2⟩
      rw [if_neg k3] at h1
      by_cases k4 : cl.name = "LAST-MODIFIED".toList
      · rw [if_pos k4] at h1
        simp only [bind_ok_iff] at h1
        obtain ⟨_, _, p, _, q, _, e⟩ := h1
        cases e
        exact ⟨hd.1.set (by decide) _, hd.2⟩
      rw [if_neg k4] at h1
      cases h1
      exact hd

theorem astimezone_zone {e : Env} {d d' : DT} {t : Tz} (h : e.astimezone d t = .ok d') : d'.tz = some t := by
  unfold Env.astimezone at h
  split at h
  · rename_i k
    cases h
    exact k
  · dsimp only at h
    split at h
    · cases h
    · split at h
      · cases h
        rfl
      · cases h

theorem loadTimezone_lone {L : Lib} {w : Wrap} {R : RRuleStr} {items : List Item} {z : TzObj}
    (h : loadTimezone L w R items = .ok z) :
    LoneParams z.extraParams ∧ (∀ o ∈ z.observances, LoneParams o.extraParams) ∧
      ∀ d, z.lastModified = some d → d.tz = some (.zone L.icsUtc) := by
  unfold loadTimezone at h
  simp only [bind_ok_iff] at h
  obtain ⟨st, h1, _, _, m, hm, e⟩ := h
  cases e
  obtain ⟨k1, k2⟩ := populateTz_lone ⟨loneParams_nil, fun _ h => absurd h List.not_mem_nil⟩ h1
  refine ⟨k1, k2, ?_⟩
  intro d hd
  replace hd : m = some d := hd
  subst hd
  unfold ensureUtc? at hm
  split at hm
  · cases hm
  · obtain ⟨d', hd', e⟩ := map_ok_iff.1 hm
    cases e
    exact astimezone_zone hd'

/-- Of a time zone that was read only the rules can be the reason. -/
theorem loaded_zoneFault {L : Lib} (hU : L.isUtc L.icsUtc = true) {w : Wrap} {R : RRuleStr} {items : List Item} {z : TzObj}
    (h : loadTimezone L w R items = .ok z) {e : PyErr} :
    ZoneWriteFault L z e ↔ ∃ o ∈ z.observances, RulesWriteFault L o.rules e := by
  obtain ⟨h1, h2, h3⟩ := loadTimezone_lone h
  constructor
  · intro hf
    cases hf with
    | params _ hk => exact absurd hk (h1.listed _)
    | observanceParams hk =>
      rcases hk with ⟨p, ps, hk⟩ | hk
      · exact absurd rfl (h1 _ _ hk).2
      · exact absurd hk (h1.listed _)
    | modified hm hn =>
      have := hn.1
      unfold Env.dtIsUtc at this
      rw [h3 _ hm] at this
      dsimp only at this
      rw [hU] at this
      cases this
    | observance ho hf =>
      cases hf with
      | params _ hk => exact absurd hk ((h2 _ ho).listed _)
      | rules hf => exact ⟨_, ho, hf⟩
  · rintro ⟨o, ho, hf⟩
    exact .observance ho (.rules hf)

end Ics
