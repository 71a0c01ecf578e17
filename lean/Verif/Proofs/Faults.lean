import Verif.Props.Accepts
import Verif.Props.Text
import Verif.Proofs.Calendar
import Verif.Proofs.Component
import Verif.Spec.Faults

/-
Which exceptions the functions raise that read the values of properties.
-/
namespace Ics

/-- Whatever is raised has the property. -/
def Raises {α : Type} (P : PyErr → Prop) (r : Except PyErr α) : Prop := ∀ e, r = .error e → P e

namespace Raises

variable {α β : Type} {P : PyErr → Prop}

theorem ok (a : α) : Raises P (.ok a) := fun _ h => by cases h

theorem pure (a : α) : Raises P (Pure.pure a : Except PyErr α) := fun _ h => by cases h

theorem error {e : PyErr} (h : P e) : Raises P (.error e : Except PyErr α) := fun e' h' => by
  injection h' with h'
  exact h' ▸ h

theorem map {r : Except PyErr α} {f : α → β} (h : Raises P r) : Raises P (r.map f) := by
  intro e he
  cases r with
  | ok a => cases he
  | error e' => injection he with he; exact h e (by rw [he])

theorem bind {r : Except PyErr α} {f : α → Except PyErr β} (h : Raises P r) (hf : ∀ a, r = .ok a → Raises P (f a)) :
    Raises P (r >>= f) := by
  intro e he
  cases r with
  | ok a => exact hf a rfl e he
  | error e' => injection he with he; exact h e (by rw [he])

theorem mono {Q : PyErr → Prop} {r : Except PyErr α} (h : Raises P r) (hpq : ∀ e, P e → Q e) : Raises Q r :=
  fun e he => hpq e (h e he)

theorem ite {p : Prop} [Decidable p] {a b : Except PyErr α} (ha : p → Raises P a) (hb : ¬ p → Raises P b) :
    Raises P (if p then a else b) := by
  by_cases h : p
  · rw [if_pos h]; exact ha h
  · rw [if_neg h]; exact hb h

end Raises

/-- Only `ValueError`. -/
abbrev OnlyValue {α : Type} (r : Except PyErr α) : Prop := Raises (· = .valueError) r

theorem raiseIf_value (b : Bool) : OnlyValue (raiseIf b) := by
  unfold raiseIf
  exact .ite (fun _ => .error rfl) (fun _ => .ok _)

theorem urlparse_value (k : UrlChecks) (s : Str) : OnlyValue (urlparse k s) := by
  unfold urlparse
  exact .ite (fun _ => .ok _) (fun _ => .error rfl)

theorem intOfDigits_value (s : Str) : OnlyValue (intOfDigits s) := by
  unfold intOfDigits
  exact .ite (fun _ => .error rfl) (fun _ => .ok _)

theorem intBody_value (s : Str) : OnlyValue (intBody s) := by
  unfold intBody
  split
  · exact .error rfl
  · exact .ite (fun _ => intOfDigits_value _) (fun _ => .error rfl)

theorem intParse_value (s : Str) : OnlyValue (intParse s) := by
  unfold intParse
  dsimp only
  split
  · rename_i s' _
    cases h : intBody s' with
    | ok n => exact .ok _
    | error e => exact .error (intBody_value _ e h)
  · exact intBody_value _
  · exact intBody_value _

theorem boolParse_value (s : Str) : OnlyValue (boolParse s) := by
  unfold boolParse
  exact .ite (fun _ => .ok _) fun _ => .ite (fun _ => .ok _) fun _ => .ite (fun _ => .ok _) fun _ =>
    .ite (fun _ => .ok _) fun _ => .ite (fun _ => .ok _) fun _ => .ite (fun _ => .ok _) fun _ => .error rfl

theorem b64Loop_value (q l p : Nat) (s : Str) : OnlyValue (b64Loop q l p s) := by
  induction s generalizing q l p with
  | nil =>
    unfold b64Loop
    exact .ite (fun _ => .ok _) (fun _ => .error rfl)
  | cons c s ih =>
    unfold b64Loop
    refine .ite (fun _ => .ite (fun _ => .ok _) (fun _ => ih _ _ _)) fun _ => ?_
    split
    · exact ih _ _ _
    · split
      · exact ih _ _ _
      · exact (ih _ _ _).map
      · exact (ih _ _ _).map
      · exact (ih _ _ _).map

theorem b64decode_value (s : Str) : OnlyValue (b64decode s) := by
  unfold b64decode
  exact .ite (fun _ => b64Loop_value _ _ _ _) (fun _ => .error rfl)

theorem geoParse_value {σ : Type} (L : Lib) (s : Str) : OnlyValue (geoParse (σ := σ) L s) := by
  unfold geoParse
  split
  · exact .error rfl
  · split
    · exact .ok _
    · exact .error rfl

theorem unescapeText_value (s : Str) : OnlyValue (unescapeText s) := C12_error s

theorem paramTz_value (p : Params) : OnlyValue (paramTz p) := by
  unfold paramTz
  split
  · exact .ok _
  · exact .ok _
  · exact .ok _
  · exact .error rfl

theorem wallOf_value (f : Fields) : OnlyValue (wallOf f) := by
  unfold wallOf
  exact .ite (fun _ => .ok _) (fun _ => .error rfl)

theorem selectTz_value (w : World) (d : List (Str × Nat)) (name : Str) : OnlyValue (selectTz w (some d) name) := by
  unfold selectTz
  split
  · exact .ok _
  · split
    · exact .error rfl
    · exact .ok _

/-- What a date-time raises that is read with a context. -/
theorem parseDt_raises (w : World) (formats : List Nat) (value : Str) (p : Params) (d : List (Str × Nat)) :
    Raises (fun e => e = .valueError ∨ (e = .indexError ∧ value = [])) (parseDt w formats value p (some d)) := by
  unfold parseDt
  split
  · rename_i e he
    exact .error (.inl (paramTz_value _ e he))
  · dsimp only
    split
    · rename_i hl
      exact .error (.inr ⟨rfl, List.getLast?_eq_none_iff.1 hl⟩)
    · refine .ite (fun _ => .error (.inl rfl)) fun _ => ?_
      split
      · exact .error (.inl rfl)
      · split
        · rename_i e he
          exact .error (.inl (wallOf_value _ e he))
        · refine .ite (fun _ => ?_) fun _ => ?_
          · split
            · exact .error (.inl rfl)
            · exact .ok _
          · split
            · exact .ok _
            · split
              · rename_i e he
                exact .error (.inl (selectTz_value _ _ _ e he))
              · exact .ok _

/-- What is read as a date-time of a line: the text, whether there is a zone, and there still is a context. -/
theorem parseDt_line {w : World} {formats : List Nat} {cl : ContentLine} {k : Str} {d : List (Str × Nat)} {x : DT}
    {p : Params} {ctx : Ctx} (hk : k ≠ "TZID".toList)
    (h : parseDt w formats cl.value (dictErase cl.params k) (some d) = .ok (x, p, ctx)) :
    (∃ d', ctx = some d') ∧ (stripDt cl.value).length ∈ formats ∧
      ∃ y m d h n s, DateTimeText (stripped cl.value) y m d h n s ∧ x.wall = clock y m d h n s ∧ x.fold = false ∧
        (x.tz.isSome ↔ Zoned cl) := by
  obtain ⟨tz, last, wall, h1, hl, hf, hst, hr⟩ := (parseDt_iff _ _ _ _ _ _).1 h
  obtain ⟨y, m, dd, hh, n, s, ht, rfl⟩ := (strptime_wall_iff _ _).1 hst
  rw [stripDt_eq] at ht
  have hz : tz.isSome ↔ ∃ v, dictGet? cl.params "TZID".toList = some [v] ∧ v.text ≠ [] := by
    rw [← dictGet_erase_ne cl.params (k := k) (Ne.symm hk)]
    unfold paramTz at h1
    generalize dictGet? (dictErase cl.params k) "TZID".toList = z at h1 ⊢
    split at h1
    · injection h1 with h1; subst h1; simp
    · injection h1 with h1; subst h1; simp
    · rename_i v
      injection h1 with h1
      subst h1
      by_cases hv : v.text = [] <;> simp [hv]
    · exact absurd h1 (by simp)
  unfold Zoned
  rw [← hz]
  rw [endsInZ_iff hl] at hr
  obtain ⟨h2, rfl, hr⟩ | ⟨h2, rfl, hr⟩ | ⟨h2, name, z, ctx', rfl, h3, hr⟩ := hr
  · injection hr with e1 e2
    injection e2 with e2 e3
    subst e1 e3
    exact ⟨⟨_, rfl⟩, hf, y, m, dd, hh, n, s, ht, rfl, rfl, by simp [h2]⟩
  · injection hr with e1 e2
    injection e2 with e2 e3
    subst e1 e3
    exact ⟨⟨_, rfl⟩, hf, y, m, dd, hh, n, s, ht, rfl, rfl, by simp [h2]⟩
  · injection hr with e1 e2
    injection e2 with e2 e3
    subst e1 e3
    refine ⟨?_, hf, y, m, dd, hh, n, s, ht, rfl, rfl, by simp⟩
    cases (selectTz_iff _ _ _ _ _).1 h3 <;> exact ⟨_, rfl⟩

/-- The reasons of a duration that is not accepted. -/
def BadDuration (s : Str) (e : PyErr) : Prop :=
  (e = .indexError ∧ ¬ ∃ v, LooseDuration s v) ∨
    (e = .overflowError ∧ ∃ v, LooseDuration s v ∧ (v < -(999999999 * 86400) ∨ (999999999 + 1) * 86400 ≤ v))

theorem durationParse_raises (s : Str) : Raises (fun e => e = .valueError ∨ BadDuration s e) (durationParse s) := by
  intro e h
  obtain ⟨h1 | h1, h2⟩ | ⟨h1, v, h2, h3⟩ := C76_duration_errors s e h
  · exact .inr (.inl ⟨h1, h2⟩)
  · exact .inl h1
  · exact .inr (.inr ⟨h1, v, h2, by omega⟩)

/-- What a value converter raises. -/
theorem parse_raises {σ : Type} (L : Lib) (c : ValConv) (value : Str) (p : Params) (d : List (Str × Nat)) :
    Raises (fun e => e = .valueError ∨ (c = .datetime ∧ e = .indexError ∧ value = []) ∨ (c = .duration ∧ BadDuration value e))
      (c.parse (σ := σ) L value p (some d)) := by
  cases c with
  | text => exact (unescapeText_value _).map.mono fun _ h => .inl h
  | uri => exact (urlparse_value _ _).map.mono fun _ h => .inl h
  | binary => exact (b64decode_value _).map.mono fun _ h => .inl h
  | datetime => exact (parseDt_raises _ _ _ _ _).map.mono fun e h => h.imp id fun h => .inl ⟨rfl, h⟩
  | duration => exact (durationParse_raises _).map.mono fun e h => h.imp id fun h => .inr ⟨rfl, h⟩
  | integer => exact (intParse_value _).map.mono fun _ h => .inl h
  | boolean => exact (boolParse_value _).map.mono fun _ h => .inl h
  | geo => exact (geoParse_value _ _).map.mono fun _ h => .inl h
  | organizer => exact (urlparse_value _ _).map.mono fun _ h => .inl h
  | attendee => exact (urlparse_value _ _).map.mono fun _ h => .inl h

theorem selectTz_some {w : World} {d : List (Str × Nat)} {name : Str} {z : Nat} {ctx : Ctx}
    (h : selectTz w (some d) name = .ok (z, ctx)) : ∃ d', ctx = some d' := by
  cases (selectTz_iff _ _ _ _ _).1 h <;> exact ⟨_, rfl⟩

theorem parseDt_some {w : World} {formats : List Nat} {value : Str} {p p' : Params} {d : List (Str × Nat)} {x : DT}
    {ctx : Ctx} (h : parseDt w formats value p (some d) = .ok (x, p', ctx)) : ∃ d', ctx = some d' := by
  obtain ⟨tz, last, wall, -, -, -, -, hr⟩ := (parseDt_iff _ _ _ _ _ _).1 h
  obtain ⟨-, -, hr⟩ | ⟨-, -, hr⟩ | ⟨-, name, z, ctx', -, h3, hr⟩ := hr
  · injection hr with e1 e2; injection e2 with e2 e3; exact ⟨_, e3⟩
  · injection hr with e1 e2; injection e2 with e2 e3; exact ⟨_, e3⟩
  · injection hr with e1 e2; injection e2 with e2 e3; subst e3; exact selectTz_some h3

theorem parse_some {σ : Type} {L : Lib} {c : ValConv} {value : Str} {p p' : Params} {d : List (Str × Nat)} {x : Val σ}
    {ctx : Ctx} (h : c.parse L value p (some d) = .ok (x, p', ctx)) : ∃ d', ctx = some d' := by
  cases c with
  | datetime =>
    obtain ⟨⟨y, q, c⟩, h1, h2⟩ := map_ok_iff.1 h
    injection h2 with e1 e2
    injection e2 with e2 e3
    subst e3
    exact parseDt_some h1
  | _ =>
    obtain ⟨_, -, h2⟩ := map_ok_iff.1 h
    injection h2 with e1 e2
    injection e2 with e2 e3
    exact ⟨_, e3.symm⟩

end Ics
