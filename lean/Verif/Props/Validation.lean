import Verif.Proofs.Validation

/-
C47: attribute validation holds after any assignment history.
-/
namespace Ics

/-- C47, for every class hierarchy and every history of instance creations, assignments and setter calls in
which the used base classes have no fewer fields than the used classes derived from them: every instance and
every exception is what it would be without the cache, and every field holds something its converter and
validator let through.  Missing: histories that use a base class and a derived class with more fields, see
`C47_base_class_fails`. -/
theorem C47_history_partial {κ β : Type} [DecidableEq κ] (H : Classes κ β) (ops : List (ROp κ β))
    (hu : NoHiddenFields H (created ops)) :
    (((RState.mk [] []).run H ops).1.objs, ((RState.mk [] []).run H ops).2) = runSpec H [] ops ∧
    ∀ o ∈ ((RState.mk [] []).run H ops).1.objs, Validated H o := by
  have h := run_spec H (created ops) hu ops (fun _ hc => hc) (RState.mk [] []) (fun _ h => nomatch h)
    (fun _ h => nomatch h)
  refine ⟨h, ?_⟩
  rw [show ((RState.mk [] []).run H ops).1.objs = (runSpec H [] ops).1 from congrArg Prod.fst h]
  exact runSpec_validated H ops [] fun _ h => nomatch h

/-- C47: an operation that raises changes no instance, whatever happened before. -/
theorem C47_atomic {κ β : Type} [DecidableEq κ] (H : Classes κ β) (s : RState κ β) (op : ROp κ β) (e : PyErr)
    (h : (s.step H op).2 = some e) : (s.step H op).1.objs = s.objs := by
  have set : ∀ i key v, (s.setattr H i key v).2 = some e → (s.setattr H i key v).1.objs = s.objs := by
    intro i key v h
    unfold RState.setattr at h ⊢
    cases hi : s.objs[i]? with
    | none => rfl
    | some o =>
      rw [hi] at h
      dsimp only at h ⊢
      cases hr : runField (cachedFields H s.cache o.cls).1 o.cls key v with
      | error e => rfl
      | ok v => rw [hr] at h; cases h
  cases op with
  | create c args =>
    unfold RState.step at h ⊢
    dsimp only at h ⊢
    cases hr : initAttrs c args (H.fields c) with
    | error e => rfl
    | ok attrs => rw [hr] at h; cases h
  | assign i key v => exact set i key v h
  | call i f =>
    unfold RState.step at h ⊢
    dsimp only at h ⊢
    cases hi : s.objs[i]? with
    | none => rfl
    | some o =>
      rw [hi] at h
      dsimp only at h ⊢
      cases hr : f o.attrs with
      | error e => rfl
      | ok r => rw [hr] at h; exact set _ _ _ h

/-- The calendars, events, todos and alarms are not derived from one another. -/
theorem concrete_noHidden (σ : Type) (L : Lib) (used : List PyCls) (h : ∀ c ∈ used, ∃ k, c = .concrete k) :
    NoHiddenFields (libClasses σ L) used := by
  intro c hc d hd hm
  obtain ⟨k, rfl⟩ := h c hc
  obtain ⟨l, rfl⟩ := h d hd
  have hm : PyCls.concrete l ∈ PyCls.mro (.concrete k) := hm
  have : l = k := by cases k <;> cases l <;> first | rfl | exact absurd hm (by decide)
  rw [this]

/-- C47 for the calendars, events, todos and alarms of the library: after any history of creations,
assignments and setter calls on them, in any order, the status of an entry is `None` or an upper-case known
status, the percentage of a todo is `None` or within 0..100 and its priority `None` or within 0..9 (a `bool`
counts as 0 or 1), and the exceptions are those of the class alone. -/
theorem C47_library_partial {σ : Type} (L : Lib) (ops : List (ROp PyCls (AnyVal σ)))
    (hc : ∀ c ∈ created ops, ∃ k, c = .concrete k) (o : RObj PyCls (AnyVal σ))
    (ho : o ∈ ((RState.mk [] []).run (libClasses σ L) ops).1.objs) :
    ((o.cls = .concrete .event ∨ o.cls = .concrete .todo) →
      dictGet? o.attrs "status".toList = some (.attr .none) ∨
      ∃ s ∈ ["TENTATIVE", "CONFIRMED", "CANCELLED"],
        dictGet? o.attrs "status".toList = some (.attr (.one (.text s.toList)))) ∧
    (o.cls = .concrete .todo →
      ∀ key max, (key, max) ∈ [("percent", (100 : Int)), ("priority", (9 : Int))] →
        dictGet? o.attrs key.toList = some (.attr .none) ∨
        (∃ n, 0 ≤ n ∧ n ≤ max ∧ dictGet? o.attrs key.toList = some (.attr (.one (.int n)))) ∨
        ∃ b, dictGet? o.attrs key.toList = some (.attr (.one (.bool b)))) := by
  have hv := (C47_history_partial (libClasses σ L) ops (concrete_noHidden σ L _ hc)).2 o ho
  have hstatus : ∀ u v, Check.status.runAny (σ := σ) L u = .ok v → v = .attr .none ∨
      ∃ s ∈ ["TENTATIVE", "CONFIRMED", "CANCELLED"], v = .attr (.one (.text s.toList)) := by
    intro u v h
    cases u with
    | container n is => cases h
    | dict d => cases h
    | attr u =>
      cases hr : Check.status.run L u with
      | error e => simp only [Check.runAny, hr] at h; cases h
      | ok w =>
        simp only [Check.runAny, hr] at h
        obtain rfl : AnyVal.attr w = v := Except.ok.inj h
        cases u with
        | none => cases hr; exact .inl rfl
        | many l => cases hr
        | one x =>
          cases x with
          | text s =>
            unfold Check.run at hr
            dsimp only at hr
            split at hr
            · rename_i hs
              cases hr
              obtain ⟨t, ht, e⟩ := List.mem_map.1 hs
              exact .inr ⟨t, ht, by rw [e]⟩
            · cases hr
          | _ => cases hr
  have hrange : ∀ max u v, (Check.range max).runAny (σ := σ) L u = .ok v → v = .attr .none ∨
      (∃ n, 0 ≤ n ∧ n ≤ max ∧ v = .attr (.one (.int n))) ∨ ∃ b, v = .attr (.one (.bool b)) := by
    intro max u v h
    cases u with
    | container n is => cases h
    | dict d => cases h
    | attr u =>
      cases hr : (Check.range max).run L u with
      | error e => simp only [Check.runAny, hr] at h; cases h
      | ok w =>
        simp only [Check.runAny, hr] at h
        obtain rfl : AnyVal.attr w = v := Except.ok.inj h
        cases u with
        | none => cases hr; exact .inl rfl
        | many l => cases hr
        | one x =>
          cases x with
          | int n =>
            unfold Check.run at hr
            dsimp only at hr
            split at hr
            · rename_i hn
              cases hr
              exact .inr (.inl ⟨_, hn.1, hn.2, rfl⟩)
            · cases hr
          | bool b => cases hr; exact .inr (.inr ⟨_, rfl⟩)
          | _ => cases hr
  constructor
  · intro hcls
    have hf : dictGet? ((libClasses σ L).fields o.cls) "status".toList = some fun _ => Check.status.runAny L := by
      rcases hcls with e | e <;> rw [e] <;> rfl
    obtain ⟨v, h1, u, h2⟩ := hv _ _ hf
    rcases hstatus u v h2 with rfl | ⟨s, hs, rfl⟩
    · exact .inl h1
    · exact .inr ⟨s, hs, h1⟩
  · intro hcls key max hk
    have hf : dictGet? ((libClasses σ L).fields o.cls) key.toList = some fun _ => (Check.range max).runAny L := by
      rw [hcls]
      rcases List.mem_cons.1 hk with e | hk
      · cases e; rfl
      · cases List.mem_singleton.1 hk; rfl
    obtain ⟨v, h1, u, h2⟩ := hv _ _ hf
    rcases hrange max u v h2 with rfl | ⟨n, h3, h4, rfl⟩ | ⟨b, rfl⟩
    · exact .inl h1
    · exact .inr (.inl ⟨n, h3, h4, h1⟩)
    · exact .inr (.inr ⟨b, h1⟩)

/-- The arguments of a new todo, with a `dtstamp` (used in examples). -/
def exTodoArgs (σ : Type) (L : Lib) : List (Str × AnyVal σ) :=
  [("extra".toList, .container "VTODO".toList []), ("extra_params".toList, .dict [])] ++
    (newObj (σ := σ) L .todo).attrs.map fun p =>
      (p.1, .attr (if p.1 = "dtstamp".toList then .one (.dt ⟨0, false, some (.zone L.icsUtc)⟩) else p.2))

/-- The todo of the examples can be made. -/
theorem exTodo_ok (σ : Type) (L : Lib) : ∃ attrs,
    initAttrs (.concrete .todo) (exTodoArgs σ L) ((libClasses σ L).fields (.concrete .todo)) = .ok attrs := by
  have hd : Check.utcRequired.run (σ := σ) L (.one (.dt ⟨0, false, some (.zone L.icsUtc)⟩)) =
      .ok (.one (.dt ⟨0, false, some (.zone L.icsUtc)⟩)) := by
    simp only [Check.run, Env.astimezone, if_pos, Except.map]
  refine initAttrs_ok _ _ _ ?_
  unfold libClasses
  dsimp only
  repeat' first
    | exact fun _ h => absurd h List.not_mem_nil
    | refine List.forall_mem_cons.2 ⟨⟨_, _, rfl, rfl⟩, ?_⟩
    | refine List.forall_mem_cons.2 ⟨⟨_, _, rfl, congrArg (Except.map AnyVal.attr) hd⟩, ?_⟩

/-- A history that assigns to an instance of the base class `Component` before it makes a todo (used in
examples). -/
def exBadHistory (σ : Type) (L : Lib) : List (ROp PyCls (AnyVal σ)) :=
  [.create .component [("extra".toList, .container "X".toList []), ("extra_params".toList, .dict [])],
    .assign 0 "extra".toList (.container "X".toList []),
    .create (.concrete .todo) (exTodoArgs σ L),
    .assign 1 "percent".toList (.attr (.one (.int 500)))]

/-- C47 is false of histories that use a base class: `c = Component(); c.extra = Container("X")` switches the
validation of todos off, `todo.percent = 500` is accepted. -/
theorem C47_base_class_fails (σ : Type) (L : Lib) :
    ((RState.mk [] []).run (libClasses σ L) (exBadHistory σ L)).2 = [none, none, none, none] ∧
    ∃ o, ((RState.mk [] []).run (libClasses σ L) (exBadHistory σ L)).1.objs[1]? = some o ∧
      o.cls = .concrete .todo ∧ dictGet? o.attrs "percent".toList = some (.attr (.one (.int 500))) := by
  obtain ⟨attrs, ha⟩ := exTodo_ok σ L
  let c0 : RObj PyCls (AnyVal σ) :=
    ⟨.component, [("extra".toList, .container "X".toList []), ("extra_params".toList, .dict [])]⟩
  let t0 : RObj PyCls (AnyVal σ) := ⟨.concrete .todo, attrs⟩
  let t1 : RObj PyCls (AnyVal σ) :=
    ⟨.concrete .todo, dictSet attrs "percent".toList (.attr (.one (.int 500)))⟩
  let cache : List (PyCls × List (Str × (PyCls → AnyVal σ → Except PyErr (AnyVal σ)))) :=
    [(.component, componentFields)]
  have e1 : RState.step (libClasses σ L) (RState.mk [] []) (.create .component
      [("extra".toList, .container "X".toList []), ("extra_params".toList, .dict [])]) = (⟨[], [c0]⟩, none) := rfl
  have e2 : RState.step (libClasses σ L) ⟨[], [c0]⟩ (.assign 0 "extra".toList (.container "X".toList [])) =
      (⟨cache, [c0]⟩, none) := rfl
  have e3 : RState.step (libClasses σ L) ⟨cache, [c0]⟩ (.create (.concrete .todo) (exTodoArgs σ L)) =
      (⟨cache, [c0, t0]⟩, none) := by simp only [RState.step, ha]; rfl
  have e4 : RState.step (libClasses σ L) ⟨cache, [c0, t0]⟩ (.assign 1 "percent".toList (.attr (.one (.int 500)))) =
      (⟨cache, [c0, t1]⟩, none) := rfl
  have h : (RState.mk [] []).run (libClasses σ L) (exBadHistory σ L) =
      (⟨cache, [c0, t1]⟩, [none, none, none, none]) := by
    simp only [exBadHistory, RState.run, e1, e2, e3, e4]
  rw [h]
  exact ⟨rfl, t1, rfl, rfl, dictGet_set _ _ _⟩

/-- C47: a history on todos and events alone, in which a wrong value is refused. -/
example (σ : Type) (L : Lib) : ∃ ops : List (ROp PyCls (AnyVal σ)),
    (∀ c ∈ created ops, ∃ k, c = .concrete k) ∧
    ((RState.mk [] []).run (libClasses σ L) ops).2 = [none, none, some .valueError, none] ∧
    ((RState.mk [] []).run (libClasses σ L) ops).1.objs.map (fun o => dictGet? o.attrs "percent".toList) =
      [some (.attr (.one (.int 30)))] := by
  obtain ⟨attrs, ha⟩ := exTodo_ok σ L
  refine ⟨[.create (.concrete .todo) (exTodoArgs σ L), .assign 0 "percent".toList (.attr (.one (.int 30))),
    .assign 0 "percent".toList (.attr (.one (.int 500))),
    .assign 0 "status".toList (.attr (.one (.text "confirmed".toList)))], ?_, ?_⟩
  · intro c hc
    cases List.mem_singleton.1 hc
    exact ⟨_, rfl⟩
  · let fs := (libClasses σ L).fields (.concrete .todo)
    let t : List (Str × AnyVal σ) → RObj PyCls (AnyVal σ) := fun a => ⟨.concrete .todo, a⟩
    have e1 : RState.step (libClasses σ L) (RState.mk [] []) (.create (.concrete .todo) (exTodoArgs σ L)) =
        (⟨[], [t attrs]⟩, none) := by simp only [RState.step, ha]; rfl
    let a1 := dictSet attrs "percent".toList (.attr (.one (.int 30)))
    have e2 : RState.step (libClasses σ L) ⟨[], [t attrs]⟩ (.assign 0 "percent".toList (.attr (.one (.int 30)))) =
        (⟨[(.concrete .todo, fs)], [t a1]⟩, none) := rfl
    have e3 : RState.step (libClasses σ L) ⟨[(.concrete .todo, fs)], [t a1]⟩
        (.assign 0 "percent".toList (.attr (.one (.int 500)))) =
        (⟨[(.concrete .todo, fs)], [t a1]⟩, some .valueError) := rfl
    let a2 := dictSet a1 "status".toList (.attr (.one (.text "CONFIRMED".toList)))
    have e4 : RState.step (libClasses σ L) ⟨[(.concrete .todo, fs)], [t a1]⟩
        (.assign 0 "status".toList (.attr (.one (.text "confirmed".toList)))) =
        (⟨[(.concrete .todo, fs)], [t a2]⟩, none) := rfl
    simp only [RState.run, e1, e2, e3, e4]
    refine ⟨trivial, ?_⟩
    have : dictGet? a2 "percent".toList = some (.attr (.one (.int 30))) := by
      rw [dictGet_set_ne _ _ (by decide), dictGet_set]
    exact congrArg (fun x => [x]) this

end Ics
