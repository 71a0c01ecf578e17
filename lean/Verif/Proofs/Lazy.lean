import Verif.Spec.Lazy
import Verif.Proofs.Heapq
import Mathlib.Data.List.Perm.Subperm

/-
Generators deliver what the loops compute.
-/
namespace Ics

section
variable {γ α : Type} {step : List TEvent → γ → Next α × γ}

/-- A finished generator. -/
def Dead (step : List TEvent → γ → Next α × γ) (g : γ) : Prop := ∀ evs, step evs g = (.stops, g)

/-- What comes from a generator in a state: the first call is with events in `E`, for the later ones they do not
matter. -/
inductive Comes (step : List TEvent → γ → Next α × γ) :
    (List TEvent → Prop) → γ → List α → Option PyErr → Prop
  | stop {E : List TEvent → Prop} {g d : γ} : (∀ evs, E evs → step evs g = (.stops, d)) → Dead step d → Comes step E g [] none
  | raise {E : List TEvent → Prop} {g d : γ} {x : PyErr} : (∀ evs, E evs → step evs g = (.raises x, d)) → Dead step d →
      Comes step E g [] (some x)
  | yield {E : List TEvent → Prop} {g g' : γ} {a : α} {out : List α} {err : Option PyErr} :
      (∀ evs, E evs → step evs g = (.yields a, g')) → Comes step (fun _ => True) g' out err → Comes step E g (a :: out) err

theorem Comes.congr {E : List TEvent → Prop} {g g' : γ} (h : ∀ evs, E evs → step evs g' = step evs g) {out : List α}
    {err : Option PyErr} (hc : Comes step E g out err) : Comes step E g' out err := by
  cases hc with
  | stop h1 h2 => exact .stop (fun evs he => (h evs he).trans (h1 evs he)) h2
  | raise h1 h2 => exact .raise (fun evs he => (h evs he).trans (h1 evs he)) h2
  | yield h1 h2 => exact .yield (fun evs he => (h evs he).trans (h1 evs he)) h2

theorem Comes.mono {E E' : List TEvent → Prop} {g : γ} (h : ∀ evs, E' evs → E evs) {out : List α}
    {err : Option PyErr} (hc : Comes step E g out err) : Comes step E' g out err := by
  cases hc with
  | stop h1 h2 => exact .stop (fun evs he => h1 evs (h evs he)) h2
  | raise h1 h2 => exact .raise (fun evs he => h1 evs (h evs he)) h2
  | yield h1 h2 => exact .yield (fun evs he => h1 evs (h evs he)) h2

theorem nextsIn_next (acts : List Act) : nextsIn (.next :: acts) = nextsIn acts + 1 := by
  unfold nextsIn
  rw [List.countP_cons]
  rfl

theorem nextsIn_assign (evs : List TEvent) (acts : List Act) : nextsIn (.assign evs :: acts) = nextsIn acts := by
  unfold nextsIn
  rw [List.countP_cons]
  rfl

theorem dead_run {g : γ} (hd : Dead step g) (acts : List Act) (now : List TEvent) :
    runGen step now g acts = List.replicate (nextsIn acts) .stops := by
  induction acts generalizing now with
  | nil => rfl
  | cons a acts ih =>
    cases a with
    | next => rw [runGen, hd now, nextsIn_next, List.replicate_succ, ih]
    | assign evs => rw [runGen, nextsIn_assign, ih]

theorem take_replicate' {β : Type} (x : β) (n : Nat) : (List.replicate (n + 1) x).take n = List.replicate n x := by
  rw [List.take_replicate]
  simp

theorem comes_run {E : List TEvent → Prop} {g : γ} {out : List α} {err : Option PyErr} (h : Comes step E g out err)
    (acts : List Act) (now : List TEvent) (hE : E (eventsAtStart now acts)) :
    runGen step now g acts = outcomes out err (nextsIn acts) := by
  induction acts generalizing now E g out err with
  | nil => rfl
  | cons a acts ih =>
    cases a with
    | assign evs =>
      rw [runGen, nextsIn_assign]
      exact ih h evs hE
    | next =>
      rw [runGen, nextsIn_next]
      cases h with
      | stop h1 h2 =>
        rw [h1 now hE, dead_run h2]
        simp [outcomes, take_replicate']
      | raise h1 h2 =>
        rw [h1 now hE, dead_run h2]
        simp [outcomes, take_replicate']
      | yield h1 h2 =>
        rw [h1 now hE, ih h2 now trivial]
        unfold outcomes
        dsimp only
        rw [List.map_cons, List.cons_append, List.take_succ_cons, List.replicate_succ']
        congr 1
        generalize (match err with | none => (Next.stops : Next α) | some x => .raises x) = l
        have : ∀ (xs : List (Next α)) (n : Nat), n ≤ xs.length → (xs ++ [(Next.stops : Next α)]).take n = xs.take n := fun xs n hn => by
          rw [List.take_append_of_le_length hn]
        rw [← List.cons_append, ← List.append_assoc, this]
        simp
        omega

theorem comes_delivers {evs : List TEvent} {g : γ} {out : List α} {err : Option PyErr}
    (h : Comes step (· = evs) g out err) : Delivers step g evs out err := fun _ _ hE => comes_run h _ _ hE

end

/-! ### The iterator -/

theorem iter_dead (e : Env) (k : Nat) (n : Option Normalization) : Dead (e.iterNext k n) .done := fun _ => rfl

theorem comes_heap (e : Env) (k : Nat) (n : Option Normalization) (fuel : Nat) (heap : List TItem) (hf : heap.length ≤ fuel) :
    ∃ out err, Comes (e.iterNext k n) (fun _ => True) (.running heap) out err ∧ out.Subperm heap ∧
      popAll (e.itemLt k) fuel heap = (match err with | none => .ok out | some x => .error x) := by
  induction fuel generalizing heap with
  | zero =>
    obtain rfl := List.eq_nil_of_length_eq_zero (Nat.le_zero.1 hf)
    exact ⟨[], none, .stop (fun _ _ => rfl) (iter_dead e k n), List.Subperm.refl _, rfl⟩
  | succ fuel ih =>
    cases heap with
    | nil => exact ⟨[], none, .stop (fun _ _ => rfl) (iter_dead e k n), List.Subperm.refl _, rfl⟩
    | cons y ys =>
      cases hp : heappop (e.itemLt k) (y :: ys) with
      | error x =>
        refine ⟨[], some x, .raise (d := .done) (fun evs _ => ?_) (iter_dead e k n), List.nil_subperm, ?_⟩
        · simp only [Env.iterNext, Env.popNext, hp]
        · simp only [popAll, hp]
          rfl
      | ok r =>
        obtain ⟨it, heap⟩ := r
        have hperm := heappop_perm hp
        have hl := hperm.length_eq
        obtain ⟨out, err, hc, hs, ha⟩ := ih heap (by simp at hl hf; omega)
        refine ⟨it :: out, err, .yield (fun evs _ => ?_) hc, ?_, ?_⟩
        · simp only [Env.iterNext, Env.popNext, hp]
        · exact ((List.subperm_cons it).2 hs).trans hperm.subperm
        · simp only [popAll, hp, bind, Except.bind, ha]
          cases err <;> rfl

theorem comes_iter (e : Env) (k : Nat) (n : Option Normalization) (evs : List TEvent) :
    ∃ out err, Comes (e.iterNext k n) (· = evs) .start out err ∧
      e.iterator k n evs = (match err with | none => .ok out | some x => .error x) ∧
      (out = [] ∨ ∃ its, e.items n evs = .ok its ∧ out.Subperm its) := by
  cases hi : e.items n evs with
  | error x =>
    refine ⟨[], some x, .raise (d := .done) (fun _ h => ?_) (iter_dead e k n), ?_, .inl rfl⟩
    · simp only [h, Env.iterNext, hi]
    · simp only [Env.iterator, hi]
      rfl
  | ok its =>
    cases hh : heapify (e.itemLt k) its with
    | error x =>
      refine ⟨[], some x, .raise (d := .done) (fun _ h => ?_) (iter_dead e k n), ?_, .inl rfl⟩
      · simp only [h, Env.iterNext, hi, hh]
      · simp only [Env.iterator, hi, hh, bind, Except.bind]
    | ok heap =>
      obtain ⟨out, err, hc, hs, ha⟩ := comes_heap e k n heap.length heap (Nat.le_refl _)
      refine ⟨out, err, (hc.mono fun _ _ => trivial).congr fun _ h => ?_, ?_, .inr ⟨its, rfl, ?_⟩⟩
      · simp only [h, Env.iterNext, hi, hh]
      · simp only [Env.iterator, hi, hh, bind, Except.bind]
        exact ha
      · exact hs.trans (heapify_perm hh).subperm

/-! ### The queries -/

theorem sel_dead (e : Env) (k : Nat) (n : Option Normalization) (cond : Except PyErr (TItem → Except PyErr Bool)) :
    Dead (e.selectNext k n cond) .done := fun _ => rfl

theorem popNext_rounds {e : Env} {k : Nat} {heap : List TItem} {it : TItem} {g : IterGen}
    (h : e.popNext k heap = (.yields it, g)) (evs : List TEvent) : g.rounds evs ≤ heap.length := by
  unfold Env.popNext at h
  split at h
  · cases h
  · split at h
    · cases h
    · rename_i hp
      cases h
      have := (heappop_perm hp).length_eq
      simp only [IterGen.rounds]
      simp only [List.length_cons] at this
      simp only [List.length_cons]
      omega

theorem items_length {e : Env} {n : Option Normalization} {evs : List TEvent} {its : List TItem}
    (h : e.items n evs = .ok its) : its.length ≤ evs.length := by
  induction evs generalizing its with
  | nil => cases h; exact Nat.le_refl _
  | cons x xs ih =>
    simp only [Env.items, bind_ok_iff] at h
    obtain ⟨s, _, rest, hr, h⟩ := h
    cases h
    have := ih hr
    split <;> simp <;> omega

theorem iterNext_rounds {e : Env} {k : Nat} {n : Option Normalization} {evs : List TEvent} {g g' : IterGen} {it : TItem}
    (h : e.iterNext k n evs g = (.yields it, g')) (evs' : List TEvent) : g'.rounds evs' < g.rounds evs := by
  cases g with
  | start =>
    simp only [Env.iterNext] at h
    split at h
    · cases h
    · rename_i hi
      split at h
      · cases h
      · rename_i hh
        have h1 := popNext_rounds h evs'
        have h2 := (heapify_perm hh).length_eq
        have h3 := items_length hi
        show g'.rounds evs' < evs.length + 1
        omega
  | running heap => exact Nat.lt_succ_of_le (popNext_rounds h evs')
  | done => cases h

theorem rounds_pos (g : IterGen) (evs : List TEvent) : 0 < g.rounds evs := by
  cases g <;> simp [IterGen.rounds]

theorem comes_rounds {e : Env} {k : Nat} {n : Option Normalization} {E : List TEvent → Prop} {g : IterGen}
    {its : List TItem} {err : Option PyErr} (h : Comes (e.iterNext k n) E g its err) (evs : List TEvent) (he : E evs) :
    its.length < g.rounds evs := by
  induction h generalizing evs with
  | stop _ _ => exact rounds_pos _ _
  | raise _ _ => exact rounds_pos _ _
  | yield h1 _ ih =>
    have a := ih evs trivial
    have b := iterNext_rounds (h1 evs he) evs
    rw [List.length_cons]
    omega

theorem comes_select {e : Env} {k : Nat} {n : Option Normalization} (c : Except PyErr (TItem → Except PyErr Bool))
    (cond : TItem → Except PyErr Bool) {E : List TEvent → Prop} {inner : IterGen} {its : List TItem} {err : Option PyErr}
    (h : Comes (e.iterNext k n) E inner its err) :
    ∃ out err', Picks cond its err out err' ∧
      ((out = [] ∧ ∀ evs fuel, E evs → its.length < fuel →
          e.selectLoop k n evs cond fuel inner = ((match err' with | none => .stops | some x => .raises x), .done)) ∨
        ∃ a out' inner', out = a :: out' ∧ (∀ evs fuel, E evs → its.length < fuel →
            e.selectLoop k n evs cond fuel inner = (.yields a, .running cond inner')) ∧
          Comes (e.selectNext k n c) (fun _ => True) (.running cond inner') out' err') := by
  induction h with
  | stop h1 _ =>
    refine ⟨[], none, .done, .inl ⟨rfl, fun evs fuel he hf => ?_⟩⟩
    obtain ⟨f, rfl⟩ : ∃ f, fuel = f + 1 := ⟨fuel - 1, by simp at hf; omega⟩
    rw [Env.selectLoop, h1 evs he]
  | @raise E g d x h1 _ =>
    refine ⟨[], some x, .done, .inl ⟨rfl, fun evs fuel he hf => ?_⟩⟩
    obtain ⟨f, rfl⟩ : ∃ f, fuel = f + 1 := ⟨fuel - 1, by simp at hf; omega⟩
    rw [Env.selectLoop, h1 evs he]
  | @yield E g g' it its err h1 hc ih =>
    obtain ⟨out, err', hp, hrest⟩ := ih
    cases hcond : cond it with
    | error x =>
      refine ⟨[], some x, .fail hcond, .inl ⟨rfl, fun evs fuel he hf => ?_⟩⟩
      obtain ⟨f, rfl⟩ : ∃ f, fuel = f + 1 := ⟨fuel - 1, by simp at hf; omega⟩
      simp only [Env.selectLoop, h1 evs he, hcond]
    | ok b =>
      cases b with
      | false =>
        refine ⟨out, err', .skip hcond hp, ?_⟩
        have key : ∀ evs fuel, E evs → (it :: its).length < fuel →
            ∃ f, its.length < f ∧ e.selectLoop k n evs cond fuel g = e.selectLoop k n evs cond f g' := fun evs fuel he hf => by
          obtain ⟨f, rfl⟩ : ∃ f, fuel = f + 1 := ⟨fuel - 1, by simp at hf; omega⟩
          refine ⟨f, by simpa using hf, ?_⟩
          rw [Env.selectLoop]
          simp only [h1 evs he, hcond]
        rcases hrest with ⟨rfl, hr⟩ | ⟨a, out', inner', rfl, hr, hcs⟩
        · refine .inl ⟨rfl, fun evs fuel he hf => ?_⟩
          obtain ⟨f, hf', e⟩ := key evs fuel he hf
          rw [e, hr evs f trivial hf']
        · refine .inr ⟨a, out', inner', rfl, fun evs fuel he hf => ?_, hcs⟩
          obtain ⟨f, hf', e⟩ := key evs fuel he hf
          rw [e, hr evs f trivial hf']
      | true =>
        refine ⟨it.2 :: out, err', .take hcond hp, .inr ⟨it.2, out, g', rfl, fun evs fuel he hf => ?_, ?_⟩⟩
        · obtain ⟨f, rfl⟩ : ∃ f, fuel = f + 1 := ⟨fuel - 1, by simp at hf; omega⟩
          simp only [Env.selectLoop, h1 evs he, hcond]
        · have hr' : ∀ evs, its.length < g'.rounds evs := fun evs => comes_rounds hc evs trivial
          rcases hrest with ⟨rfl, hr⟩ | ⟨a, out', inner', rfl, hr, hcs⟩
          · cases err' with
            | none => exact .stop (d := .done) (fun evs _ => hr evs _ trivial (hr' evs)) (sel_dead e k n c)
            | some x => exact Comes.raise (d := SelGen.done) (x := x) (fun evs _ => hr evs _ trivial (hr' evs)) (sel_dead e k n c)
          · exact .yield (fun evs _ => hr evs _ trivial (hr' evs)) hcs

theorem comes_query (e : Env) (k : Nat) (n : Option Normalization) (cond : TItem → Except PyErr Bool) {evs : List TEvent}
    {its : List TItem} {err : Option PyErr} (h : Comes (e.iterNext k n) (· = evs) .start its err) :
    ∃ out err', Picks cond its err out err' ∧ Comes (e.selectNext k n (.ok cond)) (· = evs) .start out err' := by
  obtain ⟨out, err', hp, hrest⟩ := comes_select (.ok cond) cond h
  refine ⟨out, err', hp, ?_⟩
  have hr' : ∀ es, es = evs → its.length < IterGen.start.rounds es := fun es he => comes_rounds h es he
  rcases hrest with ⟨rfl, hr⟩ | ⟨a, out', inner', rfl, hr, hcs⟩
  · cases err' with
    | none => exact .stop (d := .done) (fun es he => hr es _ he (hr' es he)) (sel_dead e k n _)
    | some x => exact Comes.raise (d := SelGen.done) (x := x) (fun es he => hr es _ he (hr' es he)) (sel_dead e k n _)
  · exact .yield (fun es he => hr es _ he (hr' es he)) hcs

theorem picks_eager {cond : TItem → Except PyErr Bool} {its : List TItem} {err err' : Option PyErr} {out : List TEvent}
    (h : Picks cond its err out err') (r : List TEvent) :
    (err' = none ∧ out = r) ↔ (err = none ∧ selectItems cond its = .ok r) := by
  induction h generalizing r with
  | done => simp [selectItems, eq_comm]
  | take hc _ ih =>
    cases r with
    | nil =>
      simp only [selectItems, hc, bind_ok_iff, List.cons_ne_nil, and_false, false_iff, not_and]
      rintro _ ⟨b, hb, rest, _, h⟩
      cases hb
      cases h
    | cons y r =>
      simp only [selectItems, hc, bind_ok_iff, List.cons.injEq]
      constructor
      · rintro ⟨h1, rfl, rfl⟩
        obtain ⟨h2, h3⟩ := (ih _).1 ⟨h1, rfl⟩
        exact ⟨h2, _, rfl, _, h3, rfl⟩
      · rintro ⟨h1, b, hb, rest, h2, h3⟩
        cases hb
        cases h3
        obtain ⟨h4, h5⟩ := (ih _).2 ⟨h1, h2⟩
        exact ⟨h4, rfl, h5⟩
  | skip hc _ ih =>
    rw [ih]
    simp only [selectItems, hc, bind_ok_iff]
    refine and_congr_right fun _ => ?_
    constructor
    · intro h
      exact ⟨_, rfl, _, h, rfl⟩
    · rintro ⟨b, hb, rest, h2, h3⟩
      cases hb
      cases h3
      exact h2
  | fail hc =>
    simp only [selectItems, hc, bind_ok_iff]
    constructor
    · rintro ⟨h, _⟩
      cases h
    · rintro ⟨_, b, hb, _⟩
      cases hb

end Ics
