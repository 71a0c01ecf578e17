import Verif.Spec.Represent
import Verif.Props.Lists
import Verif.Props.Datetime
import Verif.Props.Generic
import Verif.Props.Duration
import Verif.Props.Text
import Verif.Proofs.Params

/-
Values that survive being written and read.
-/
namespace Ics

variable {σ : Type}

/-! ### Dictionaries -/

section
variable {κ ν : Type} [DecidableEq κ]

theorem dictErase_append {d e : List (κ × ν)} {k : κ} (h : k ∉ d.map Prod.fst) :
    dictErase (d ++ e) k = d ++ dictErase e k := by
  induction d with
  | nil => rfl
  | cons a d ih =>
    obtain ⟨a, w⟩ := a
    rw [List.map_cons, List.mem_cons, not_or] at h
    rw [List.cons_append, dictErase, if_neg (fun e => h.1 e.symm), ih h.2, List.cons_append]

theorem dictGet_append {d e : List (κ × ν)} {k : κ} (h : k ∉ d.map Prod.fst) :
    dictGet? (d ++ e) k = dictGet? e k := by
  induction d with
  | nil => rfl
  | cons a d ih =>
    obtain ⟨a, w⟩ := a
    rw [List.map_cons, List.mem_cons, not_or] at h
    rw [List.cons_append, dictGet?, if_neg (fun e => h.1 e.symm), ih h.2]

/-- Every entry of the first dictionary is in the second one. -/
def SubDict (a b : List (κ × ν)) : Prop := ∀ k v, dictGet? a k = some v → dictGet? b k = some v

theorem SubDict.refl (a : List (κ × ν)) : SubDict a a := fun _ _ h => h

theorem SubDict.trans {a b c : List (κ × ν)} (h : SubDict a b) (k : SubDict b c) : SubDict a c :=
  fun x v hx => k x v (h x v hx)

theorem SubDict.setDefault {a b : List (κ × ν)} (h : SubDict a b) {k : κ} {v : ν} (hb : dictGet? b k = some v) :
    SubDict a (dictSetDefault a k v) ∧ SubDict (dictSetDefault a k v) b ∧
      dictGet? (dictSetDefault a k v) k = some v := by
  have hv : (dictGet? a k).getD v = v := by
    cases hk : dictGet? a k with
    | none => rfl
    | some w =>
      have := h k w hk
      rw [hb] at this
      cases this
      rfl
  refine ⟨fun x w hx => ?_, fun x w hx => ?_, ?_⟩
  · rw [dictGet_setDefault]
    split
    · rename_i e
      rw [hv]
      rw [e] at hx
      have := h k w hx
      rw [hb] at this
      exact this
    · exact hx
  · rw [dictGet_setDefault] at hx
    split at hx
    · rename_i e
      rw [hv] at hx
      rw [e, hb]
      exact hx
    · exact h x w hx
  · rw [dictGet_setDefault, if_pos rfl, hv]

end

/-! ### Date-times -/

/-- The parameter that a date-time is written with. -/
def TzPart (tz : Params) : Prop := tz = [] ∨ ∃ n, tz = [("TZID".toList, [⟨false, n⟩])]

theorem TzPart.value {tz : Params} (h : TzPart tz) : "VALUE".toList ∉ tz.map Prod.fst := by
  rcases h with rfl | ⟨n, rfl⟩
  · exact fun h => nomatch h
  · intro h
    have h : "VALUE".toList = "TZID".toList := List.mem_singleton.1 h
    exact absurd h (by decide)

theorem rep_dt {L : Lib} (hU : UtcOk L) {zs : List (Str × Nat)} {d : DT} (h : RepTime L zs d) :
    ∃ t tz, TzPart tz ∧ ∀ q avail, "TZID".toList ∉ q.map Prod.fst → SubDict avail zs →
      ∃ avail', serializeDt L.toWorld d q (some avail) = .ok (t, q ++ tz, some avail') ∧
        SubDict avail avail' ∧ SubDict avail' zs ∧ ∀ p zones, "TZID".toList ∉ p.map Prod.fst → SubDict avail' zones →
          ∃ d' ctx', parseDt L.toWorld datetimeFormats t (p ++ tz) (some zones) = .ok (d', p, ctx') ∧
            SameTime L d d' := by
  obtain ⟨wall, fold, tz⟩ := d
  obtain ⟨h1, h2, h3, h4, h5, h6⟩ := h
  dsimp only at h1 h2 h3 h4 h5 h6
  subst h2
  have hw : wall - wall % 1000000 = wall := by omega
  cases tz with
  | none =>
    have key : ∀ q ctx, serializeDt L.toWorld ⟨wall, false, none⟩ q ctx =
        .ok (datetimeStr L.padYear (fieldsOf wall), q, ctx) := fun _ _ => rfl
    refine ⟨datetimeStr L.padYear (fieldsOf wall), [], Or.inl rfl, fun q avail hq hs => ⟨avail, ?_, .refl _, hs, fun p zones hp _ => ?_⟩⟩
    · rw [List.append_nil]
      exact key q _
    · obtain ⟨t', e1', e2'⟩ := C16_naive_partial L.toWorld wall false ⟨h3, h4⟩ h5 p (dictGet_eq_none.2 hp) (some zones)
      rw [key p _] at e1'
      have := congrArg Prod.fst (Except.ok.inj e1')
      dsimp only at this
      rw [← this, hw] at e2'
      rw [List.append_nil]
      exact ⟨_, _, e2', rfl, rfl, Or.inl rfl⟩
  | some tz =>
    cases tz with
    | loc n => exact absurd h6 (by simp [RepZone])
    | fixed o => exact absurd h6 (by simp [RepZone])
    | zone n =>
      cases hu : L.isUtc n with
      | true =>
        have key : ∀ q ctx, "TZID".toList ∉ q.map Prod.fst →
            serializeDt L.toWorld ⟨wall, false, some (.zone n)⟩ q ctx =
              .ok (datetimeStr L.padYear (fieldsOf wall) ++ ['Z'], q, ctx) := by
          intro q ctx _
          simp [serializeDt, Env.dtIsUtc, hu]
        refine ⟨datetimeStr L.padYear (fieldsOf wall) ++ ['Z'], [], Or.inl rfl, fun q avail hq hs => ⟨avail, ?_, .refl _, hs, fun p zones hp _ => ?_⟩⟩
        · rw [List.append_nil]
          exact key q _ hq
        · obtain ⟨t', e1', e2'⟩ := C16_utc_partial L.toWorld wall false n hu ⟨h3, h4⟩ h5 p (dictGet_eq_none.2 hp) (some zones)
          rw [key p _ hp] at e1'
          have := congrArg Prod.fst (Except.ok.inj e1')
          dsimp only at this
          rw [← this, hw] at e2'
          rw [List.append_nil]
          exact ⟨_, _, e2', rfl, rfl, Or.inr ⟨n, L.utc, rfl, rfl, hu, hU.utc⟩⟩
      | false =>
        rcases h6 with h6 | ⟨hc, hz, hk⟩
        · rw [hu] at h6
          cases h6
        have hut : L.toWorld.dtIsUtc ⟨wall, false, some (.zone n)⟩ = false := hu
        refine ⟨datetimeStr L.padYear (fieldsOf wall), [("TZID".toList, [⟨false, L.tzid n⟩])], Or.inr ⟨_, rfl⟩,
          fun q avail hq hs => ⟨dictSetDefault avail (L.tzid n) n, ?_, (hs.setDefault hk).1, (hs.setDefault hk).2.1,
            fun p zones hp hsub => ?_⟩⟩
        · simp only [serializeDt, hut, hc]
          rw [dictSet_new _ _ _ hq]
          rfl
        · have hkz := hsub _ _ (hs.setDefault hk).2.2
          obtain ⟨text, params', avail', e1, e2, _, _, _, e3⟩ := C17_partial L.toWorld wall false (.zone n) n hut hc hz
            ⟨h3, h4⟩ h5 p zones (Or.inr hkz)
          simp only [serializeDt, hut, hc] at e1
          rw [dictSet_new _ _ _ hp] at e1
          have e1 := Except.ok.inj e1
          have et := congrArg Prod.fst e1
          have ep := congrArg (fun x => x.2.1) e1
          have ea := congrArg (fun x => x.2.2) e1
          dsimp only at et ep ea
          have ez : dictSetDefault zones (L.tzid n) n = zones := by
            unfold dictSetDefault
            rw [hkz]
          rw [ez] at ea
          cases ea
          rw [← et, ← ep, hw, dictErase_append hp] at e3
          refine ⟨⟨wall, false, some (.zone n)⟩, some zones, ?_, rfl, rfl, Or.inl rfl⟩
          rw [e3]
          simp [dictErase]

/-! ### Values -/

theorem cutAt_append {c : Char} {a b : Str} (h : c ∉ a) : cutAt c (a ++ c :: b) = some (a, b) := by
  induction a with
  | nil => exact if_pos rfl
  | cons x a ih =>
    rw [List.mem_cons, not_or] at h
    rw [List.cons_append, cutAt, if_neg (fun e => h.1 e.symm), ih h.2]
    rfl

/-- The same value, where members are not considered. -/
inductive SameBase (L : Lib) : Val σ → Val σ → Prop
  | same (v : Val σ) : SameBase L v v
  | dt {a b : DT} : SameTime L a b → SameBase L (.dt a) (.dt b)

theorem SameBase.toVal {L : Lib} {R : σ → σ → Prop} {v w : Val σ} (h : SameBase L v w) : SameVal L R v w := by
  cases h with
  | same => exact .same _
  | dt h => exact .dt h

/-- A value that is not a person. -/
theorem rep_value {L : Lib} (hU : UtcOk L) {zs : List (Str × Nat)} {c : ValConv} (hc : c.isPerson = false)
    {v : Val σ} (h : RepVal L zs c v) :
    ∃ t tz, TzPart tz ∧ (c ≠ .datetime → tz = []) ∧
      ∀ q avail, (c = .datetime → "TZID".toList ∉ q.map Prod.fst) → SubDict avail zs →
      ∃ avail', c.serialize L v q (some avail) = .ok (t, q ++ tz, some avail') ∧
        SubDict avail avail' ∧ SubDict avail' zs ∧
        ∀ p zones, (c = .datetime → "TZID".toList ∉ p.map Prod.fst) → SubDict avail' zones →
          ∃ v' ctx', c.parse L t (p ++ tz) (some zones) = .ok (v', p, ctx') ∧ SameBase L v v' := by
  have simple : ∀ (c : ValConv) (v : Val σ) (t : Str), c ≠ .datetime →
      (∀ q ctx, c.serialize L v q ctx = .ok (t, q, ctx)) → (∀ q ctx, c.parse L t q ctx = .ok (v, q, ctx)) →
      ∃ t tz, TzPart tz ∧ (c ≠ .datetime → tz = []) ∧
        ∀ q avail, (c = .datetime → "TZID".toList ∉ q.map Prod.fst) → SubDict avail zs →
        ∃ avail', c.serialize L v q (some avail) = .ok (t, q ++ tz, some avail') ∧
          SubDict avail avail' ∧ SubDict avail' zs ∧
          ∀ p zones, (c = .datetime → "TZID".toList ∉ p.map Prod.fst) → SubDict avail' zones →
            ∃ v' ctx', c.parse L t (p ++ tz) (some zones) = .ok (v', p, ctx') ∧ SameBase L v v' := by
    intro c v t _ h1 h2
    refine ⟨t, [], Or.inl rfl, fun _ => rfl, fun q avail _ hs => ⟨avail, ?_, .refl _, hs, fun p zones _ _ => ⟨v, some zones, ?_, .same v⟩⟩⟩
    · rw [h1, List.append_nil]
    · rw [List.append_nil, h2]
  unfold RepVal at h
  split at h
  · exact simple _ _ _ (by simp) (fun q ctx => rfl) fun q ctx => by simp [ValConv.parse, C10_roundtrip, Except.map]
  · refine simple _ _ _ (by simp) (fun q ctx => rfl) fun q ctx => ?_
    rename_i u
    have h : urlparse L.urlChecks u.geturl = .ok u := h
    simp [ValConv.parse, h, Except.map]
  · exact simple _ _ _ (by simp) (fun q ctx => rfl) fun q ctx => by simp [ValConv.parse, C18_binary, Except.map]
  · rename_i d
    obtain ⟨t, tz, h1, h2⟩ := rep_dt hU h
    refine ⟨t, tz, h1, fun h => absurd rfl h, fun q avail hq hs => ?_⟩
    obtain ⟨avail', a1, a2, a3, a4⟩ := h2 q avail (hq rfl) hs
    refine ⟨avail', a1, a2, a3, fun p zones hp hz => ?_⟩
    obtain ⟨d', ctx', b1, b2⟩ := a4 p zones (hp rfl) hz
    refine ⟨.dt d', ctx', ?_, .dt b2⟩
    simp only [ValConv.parse, b1, Except.map]
  · rename_i us
    obtain ⟨h1, h2⟩ := h
    refine simple _ _ _ (by simp) (fun q ctx => rfl) fun q ctx => ?_
    have e : us = us / 1000000 * 1000000 := by omega
    have := C13_roundtrip (us / 1000000) (by rw [← e]; exact h2)
    rw [← e] at this
    simp [ValConv.parse, this, Except.map]
  · rename_i n
    obtain ⟨t, h1, h2⟩ := C18_int n h
    refine simple _ _ t (by simp) (fun q ctx => ?_) fun q ctx => ?_
    · simp [ValConv.serialize, h1, Except.map]
    · simp [ValConv.parse, h2, Except.map]
  · exact simple _ _ _ (by simp) (fun q ctx => rfl) fun q ctx => by simp [ValConv.parse, C18_bool, Except.map]
  · rename_i a b
    obtain ⟨h1, h2, h3⟩ := h
    refine simple _ _ _ (by simp) (fun q ctx => rfl) fun q ctx => ?_
    simp only [ValConv.parse, geoParse, cutAt_append h3, h1, h2, Except.map]
  · cases hc
  · cases hc
  · cases h

end Ics
