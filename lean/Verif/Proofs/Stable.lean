import Verif.Proofs.Component

/-
Loading depends on the available time zones only through the zone each TZID stands for, and does not
change what a TZID stands for.
-/
namespace Ics

variable {σ α β γ : Type}

/-- The zone that a TZID stands for. -/
def World.resolve (w : World) (ctx : Ctx) (n : Str) : Option Nat :=
  match ctx.bind fun d => dictGet? d n with
  | some z => some z
  | none => (w.fromTzid n).orElse fun _ => w.gettz n

/-- Two lists of available zones mean the same. -/
def CtxRel (w : World) (a b : Ctx) : Prop := a.isSome ∧ b.isSome ∧ w.resolve a = w.resolve b

theorem CtxRel.refl {w : World} {a : Ctx} (h : a.isSome) : CtxRel w a a := ⟨h, h, rfl⟩

theorem CtxRel.symm {w : World} {a b : Ctx} (h : CtxRel w a b) : CtxRel w b a := ⟨h.2.1, h.1, h.2.2.symm⟩

theorem CtxRel.trans {w : World} {a b c : Ctx} (h : CtxRel w a b) (k : CtxRel w b c) : CtxRel w a c :=
  ⟨h.1, k.2.1, h.2.2.trans k.2.2⟩

/-- What an action gives for the meaning `ρ` of the TZIDs. -/
def Outcome (w : World) (x : Except PyErr α) (ctx : Ctx) (y : Except PyErr (α × Ctx)) : Prop :=
  match x with
  | .error e => y = .error e
  | .ok a => ∃ ctx', y = .ok (a, ctx') ∧ CtxRel w ctx ctx'

/-- An action whose result depends on the zones only through their meaning. -/
def Stable (w : World) (f : Ctx → Except PyErr (α × Ctx)) : Prop :=
  ∃ r : (Str → Option Nat) → Except PyErr α, ∀ ctx, ctx.isSome → Outcome w (r (w.resolve ctx)) ctx (f ctx)

theorem Stable.pure (w : World) (x : Except PyErr α) : Stable w fun ctx => x.map fun a => (a, ctx) := by
  refine ⟨fun _ => x, fun ctx hc => ?_⟩
  cases x with
  | error e => rfl
  | ok a => exact ⟨ctx, rfl, .refl hc⟩

theorem Stable.bind {w : World} {f : Ctx → Except PyErr (α × Ctx)} {g : α → Ctx → Except PyErr (β × Ctx)}
    (hf : Stable w f) (hg : ∀ a, Stable w (g a)) : Stable w fun ctx => f ctx >>= fun r => g r.1 r.2 := by
  obtain ⟨rf, hf⟩ := hf
  choose rg hg using hg
  refine ⟨fun ρ => rf ρ >>= fun a => rg a ρ, fun ctx hc => ?_⟩
  have h := hf ctx hc
  unfold Outcome at h ⊢
  beta_reduce
  cases hr : rf (w.resolve ctx) with
  | error e =>
    rw [hr] at h
    rw [h]
    rfl
  | ok a =>
    rw [hr] at h
    obtain ⟨ctx', h, hrel⟩ := h
    have h2 := hg a ctx' hrel.2.1
    rw [h]
    simp only [Bind.bind, Except.bind]
    unfold Outcome at h2
    rw [← hrel.2.2] at h2
    cases hr2 : rg a (w.resolve ctx) with
    | error e =>
      rw [hr2] at h2
      exact h2
    | ok b =>
      rw [hr2] at h2
      obtain ⟨ctx'', h2, hrel2⟩ := h2
      exact ⟨ctx'', h2, hrel.trans hrel2⟩

theorem Stable.map {w : World} {f : Ctx → Except PyErr (α × Ctx)} (hf : Stable w f) (g : α → β) :
    Stable w fun ctx => (f ctx).map fun r => (g r.1, r.2) := by
  obtain ⟨rf, hf⟩ := hf
  refine ⟨fun ρ => (rf ρ).map g, fun ctx hc => ?_⟩
  have h := hf ctx hc
  unfold Outcome at h ⊢
  beta_reduce
  cases hr : rf (w.resolve ctx) with
  | error e =>
    rw [hr] at h
    rw [h]
    rfl
  | ok a =>
    rw [hr] at h
    obtain ⟨ctx', h, hrel⟩ := h
    rw [h]
    exact ⟨ctx', rfl, hrel⟩

theorem Stable.congr {w : World} {f g : Ctx → Except PyErr (α × Ctx)} (hf : Stable w f)
    (h : ∀ ctx, f ctx = g ctx) : Stable w g := by
  have : f = g := funext h
  exact this ▸ hf

theorem Stable.error (w : World) (e : PyErr) : Stable w fun _ => (.error e : Except PyErr (α × Ctx)) :=
  (Stable.pure w (.error e)).congr fun _ => rfl

theorem Stable.ok (w : World) (a : α) : Stable w fun ctx => (.ok (a, ctx) : Except PyErr (α × Ctx)) :=
  (Stable.pure w (.ok a)).congr fun _ => rfl

theorem resolve_setDefault {w : World} {d : List (Str × Nat)} {n : Str} {z : Nat}
    (h : w.resolve (some d) n = some z) : w.resolve (some (dictSetDefault d n z)) = w.resolve (some d) := by
  funext m
  unfold World.resolve at h ⊢
  simp only [Option.bind_some] at h ⊢
  rw [dictGet_setDefault]
  by_cases e : m = n
  · subst e
    rw [if_pos rfl]
    cases hd : dictGet? d m with
    | some x => rfl
    | none =>
      rw [hd] at h
      exact h.symm
  · rw [if_neg e]

theorem selectTz_stable (w : World) (n : Str) : Stable w fun ctx => selectTz w ctx n := by
  refine ⟨fun ρ => match ρ n with
    | some z => .ok z
    | none => .error .valueError, fun ctx hc => ?_⟩
  cases ctx with
  | none => cases hc
  | some d =>
    unfold Outcome selectTz
    have hr : w.resolve (some d) n = match dictGet? d n with
      | some z => some z
      | none => (w.fromTzid n).orElse fun _ => w.gettz n := by
      unfold World.resolve
      simp only [Option.bind_some]
    simp only [Option.bind_some]
    cases hd : dictGet? d n with
    | some z =>
      rw [hd] at hr
      rw [hr]
      exact ⟨_, rfl, .refl rfl⟩
    | none =>
      rw [hd] at hr
      dsimp only at hr ⊢
      rw [hr]
      cases ho : (w.fromTzid n).orElse fun _ => w.gettz n with
      | none => rfl
      | some z =>
        rw [ho] at hr
        exact ⟨_, rfl, rfl, rfl, (resolve_setDefault hr).symm⟩

/-- Regrouping of the results of parsers. -/
def regroup {α β γ : Type} (x : Except PyErr (α × β × γ)) : Except PyErr ((α × β) × γ) :=
  x.map fun r => ((r.1, r.2.1), r.2.2)

/-- `parseDt` before a zone is looked up: the wall clock, whether it is UTC, the zone name and the
remaining parameters. -/
def parseDtFields (formats : List Nat) (value : Str) (params : Params) :
    Except PyErr (Int × Bool × Option Str × Params) :=
  match paramTz params with
  | .error e => .error e
  | .ok tz =>
    let params := dictErase params "TZID".toList
    match value.getLast? with
    | none => .error .indexError
    | some last =>
      let fixedUtc : Bool := last = 'Z' ∨ last = 'z'
      let tr := stripDt value
      if tr.length ∉ formats then .error .valueError
      else
        match strptimeFields tr with
        | none => .error .valueError
        | some f =>
          match wallOf f with
          | .error e => .error e
          | .ok wall => .ok (wall, fixedUtc, tz, params)

/-- `parseDt` from there on. -/
def parseDtZone (w : World) (ctx : Ctx) (r : Int × Bool × Option Str × Params) :
    Except PyErr ((DT × Params) × Ctx) :=
  if r.2.1 then
    match r.2.2.1 with
    | some _ => .error .valueError
    | none => .ok ((⟨r.1, false, some (.zone w.utc)⟩, r.2.2.2), ctx)
  else
    match r.2.2.1 with
    | none => .ok ((⟨r.1, false, none⟩, r.2.2.2), ctx)
    | some name => selectTz w ctx name >>= fun z => .ok ((⟨r.1, false, some (.zone z.1)⟩, r.2.2.2), z.2)

theorem parseDt_split (w : World) (formats : List Nat) (value : Str) (params : Params) (ctx : Ctx) :
    regroup (parseDt w formats value params ctx) =
      (parseDtFields formats value params >>= parseDtZone w ctx) := by
  unfold parseDt parseDtFields regroup
  cases paramTz params with
  | error e => rfl
  | ok tz =>
    dsimp only
    cases value.getLast? with
    | none => rfl
    | some last =>
      dsimp only
      by_cases hl : (stripDt value).length ∉ formats
      · rw [if_pos hl, if_pos hl]
        rfl
      · rw [if_neg hl, if_neg hl]
        cases strptimeFields (stripDt value) with
        | none => rfl
        | some f =>
          dsimp only
          cases wallOf f with
          | error e => rfl
          | ok wall =>
            dsimp only [bind, Except.bind]
            unfold parseDtZone
            cases (decide (last = 'Z' ∨ last = 'z') : Bool) with
            | true =>
              simp only [if_true]
              cases tz <;> rfl
            | false =>
              simp only [Bool.false_eq_true, if_false]
              cases tz with
              | none => rfl
              | some name =>
                dsimp only
                cases selectTz w ctx name with
                | error e => rfl
                | ok z => rfl

theorem parseDt_stable (w : World) (formats : List Nat) (value : Str) (params : Params) :
    Stable w fun ctx => regroup (parseDt w formats value params ctx) := by
  refine Stable.congr ?_ fun ctx => (parseDt_split w formats value params ctx).symm
  cases parseDtFields formats value params with
  | error e => exact Stable.error w e
  | ok r =>
    simp only [bind, Except.bind]
    unfold parseDtZone
    cases r.2.1 with
    | true =>
      simp only [if_true]
      cases r.2.2.1 with
      | none => exact Stable.ok w _
      | some _ => exact Stable.error w _
    | false =>
      simp only [Bool.false_eq_true, if_false]
      cases r.2.2.1 with
      | none => exact Stable.ok w _
      | some name =>
        exact Stable.bind (selectTz_stable w name)
          (g := fun z ctx => .ok (((⟨r.1, false, some (.zone z)⟩ : DT), r.2.2.2), ctx)) fun z => Stable.ok w _

theorem parseDate_stable (w : World) (value : Str) (params : Params) :
    Stable w fun ctx => regroup (parseDate w value params ctx) := by
  refine ((parseDt_stable w baseFormats value params).map
    fun r => (r.1.wall - r.1.wall % dayUs, r.2)).congr fun ctx => ?_
  unfold parseDate regroup
  cases parseDt w baseFormats value params ctx <;> rfl

theorem parse_stable (L : Lib) (c : ValConv) (value : Str) (params : Params) :
    Stable L.toWorld fun ctx => regroup (c.parse (σ := σ) L value params ctx) := by
  cases c
  case datetime =>
    refine ((parseDt_stable L.toWorld datetimeFormats value params).map
      fun r => ((Val.dt r.1 : Val σ), r.2)).congr fun ctx => ?_
    unfold regroup ValConv.parse
    dsimp only
    cases parseDt L.toWorld datetimeFormats value params ctx <;> rfl
  case text =>
    refine (Stable.pure _ ((unescapeText value).map fun s => ((Val.text s : Val σ), params))).congr fun ctx => ?_
    unfold regroup ValConv.parse
    dsimp only
    cases unescapeText value <;> rfl
  case uri =>
    refine (Stable.pure _ ((urlparse L.urlChecks value).map fun s => ((Val.url s : Val σ), params))).congr fun ctx => ?_
    unfold regroup ValConv.parse
    dsimp only
    cases urlparse L.urlChecks value <;> rfl
  case binary =>
    refine (Stable.pure _ ((b64decode value).map fun s => ((Val.bytes s : Val σ), params))).congr fun ctx => ?_
    unfold regroup ValConv.parse
    dsimp only
    cases b64decode value <;> rfl
  case duration =>
    refine (Stable.pure _ ((durationParse value).map fun s => ((Val.dur s : Val σ), params))).congr fun ctx => ?_
    unfold regroup ValConv.parse
    dsimp only
    cases durationParse value <;> rfl
  case integer =>
    refine (Stable.pure _ ((intParse value).map fun s => ((Val.int s : Val σ), params))).congr fun ctx => ?_
    unfold regroup ValConv.parse
    dsimp only
    cases intParse value <;> rfl
  case boolean =>
    refine (Stable.pure _ ((boolParse value).map fun s => ((Val.bool s : Val σ), params))).congr fun ctx => ?_
    unfold regroup ValConv.parse
    dsimp only
    cases boolParse value <;> rfl
  case geo =>
    refine (Stable.pure _ ((geoParse L value).map fun s => ((s : Val σ), params))).congr fun ctx => ?_
    unfold regroup ValConv.parse
    dsimp only
    cases geoParse (σ := σ) L value <;> rfl
  case organizer =>
    refine (Stable.pure _ ((urlparse L.urlChecks value).map
      fun u => ((Val.person false (.url u) params : Val σ), ([] : Params)))).congr fun ctx => ?_
    unfold regroup ValConv.parse
    dsimp only
    cases urlparse L.urlChecks value <;> rfl
  case attendee =>
    refine (Stable.pure _ ((urlparse L.urlChecks value).map
      fun u => ((Val.person true (.url u) params : Val σ), ([] : Params)))).congr fun ctx => ?_
    unfold regroup ValConv.parse
    dsimp only
    cases urlparse L.urlChecks value <;> rfl

theorem parseValues_stable (L : Lib) (c : ValConv) (vs : List Str) (p : Params) :
    Stable L.toWorld fun ctx => parseValues (σ := σ) L c vs p ctx := by
  induction vs generalizing p with
  | nil => exact Stable.ok _ _
  | cons v vs ih =>
    refine (Stable.bind (parse_stable (σ := σ) L c v p)
      (g := fun r ctx => parseValues L c vs (setMerge r.2 true) ctx >>= fun x =>
        .ok ((r.1, setMerge r.2 true) :: x.1, x.2)) fun r => ?_).congr fun ctx => ?_
    · exact Stable.bind (ih _) (g := fun x ctx => .ok ((r.1, setMerge r.2 true) :: x, ctx))
        fun x => Stable.ok _ _
    · rw [parseValues]
      cases c.parse (σ := σ) L v p ctx with
      | error e => rfl
      | ok r => rfl

theorem parseSpanValue_stable (L : Lib) (cl : ContentLine) :
    Stable L.toWorld fun ctx => (parseSpanValue L cl ctx).map fun r => ((r.1, r.2.1, r.2.2.1), r.2.2.2) := by
  unfold parseSpanValue
  dsimp only
  split
  · refine ((parseDt_stable L.toWorld datetimeFormats cl.value (dictErase cl.params "VALUE".toList)).map
      fun r => (r.1, Precision.second, r.2)).congr fun ctx => ?_
    unfold regroup
    cases parseDt L.toWorld datetimeFormats cl.value (dictErase cl.params "VALUE".toList) ctx <;> rfl
  · split
    · refine ((parseDate_stable L.toWorld cl.value (dictErase cl.params "VALUE".toList)).map
        fun r => ((⟨r.1, false, none⟩ : DT), Precision.day, r.2)).congr fun ctx => ?_
      unfold regroup
      cases parseDate L.toWorld cl.value (dictErase cl.params "VALUE".toList) ctx <;> rfl
    · exact (Stable.error _ .valueError).congr fun _ => rfl

end Ics
