import Verif.Spec.Validation
import Verif.Proofs.Dict

/-
Lemmas about assigning attributes (C47).
-/
namespace Ics

variable {κ β : Type}

/-- What is true of the cache: it holds the fields of used classes. -/
def FieldCacheOk (H : Classes κ β) (used : List κ) (cache : List (κ × List (Str × (κ → β → Except PyErr β)))) : Prop :=
  ∀ p ∈ cache, p.1 ∈ used ∧ p.2 = H.fields p.1

theorem findCache_mem [DecidableEq κ] (cache : List (κ × List (Str × (κ → β → Except PyErr β)))) (cs : List κ)
    (f : List (Str × (κ → β → Except PyErr β))) (h : findCache cache cs = some f) :
    ∃ d ∈ cs, (d, f) ∈ cache := by
  induction cs with
  | nil => cases h
  | cons c cs ih =>
    unfold findCache at h
    split at h
    · rename_i g hg
      cases h
      exact ⟨c, List.mem_cons_self, mem_of_dictGet hg⟩
    · obtain ⟨d, hd, hm⟩ := ih h
      exact ⟨d, List.mem_cons_of_mem _ hd, hm⟩

theorem cachedFields_ok [DecidableEq κ] (H : Classes κ β) (used : List κ) (hu : NoHiddenFields H used)
    (cache : List (κ × List (Str × (κ → β → Except PyErr β)))) (hc : FieldCacheOk H used cache) (c : κ) (h : c ∈ used) :
    (cachedFields H cache c).1 = H.fields c ∧ FieldCacheOk H used (cachedFields H cache c).2 := by
  unfold cachedFields
  split
  · rename_i f fs hf
    obtain ⟨d, hd, hm⟩ := findCache_mem _ _ _ hf
    obtain ⟨h1, h2⟩ := hc _ hm
    dsimp only at h1 h2
    exact ⟨by rw [h2]; exact hu c h d h1 hd, hc⟩
  · refine ⟨rfl, fun p hp => ?_⟩
    rcases mem_dictSet hp with rfl | hp
    · exact ⟨h, rfl⟩
    · exact hc p hp

theorem setattr_spec [DecidableEq κ] (H : Classes κ β) (used : List κ) (hu : NoHiddenFields H used)
    (s : RState κ β) (hc : FieldCacheOk H used s.cache) (ho : ∀ o ∈ s.objs, o.cls ∈ used) (i : Nat) (key : Str) (v : β) :
    (s.setattr H i key v).1.objs = (assignSpec H s.objs i key v).1 ∧
    (s.setattr H i key v).2 = (assignSpec H s.objs i key v).2 ∧
    FieldCacheOk H used (s.setattr H i key v).1.cache ∧ ∀ o ∈ (s.setattr H i key v).1.objs, o.cls ∈ used := by
  unfold RState.setattr assignSpec
  cases hi : s.objs[i]? with
  | none => exact ⟨rfl, rfl, hc, ho⟩
  | some o =>
    have hm : o ∈ s.objs := List.mem_of_getElem? hi
    obtain ⟨h1, h2⟩ := cachedFields_ok H used hu s.cache hc o.cls (ho o hm)
    dsimp only
    rw [h1]
    cases runField (H.fields o.cls) o.cls key v with
    | error e => exact ⟨rfl, rfl, h2, ho⟩
    | ok v =>
      refine ⟨rfl, rfl, h2, fun o' ho' => ?_⟩
      rcases List.mem_or_eq_of_mem_set ho' with ho' | rfl
      · exact ho o' ho'
      · exact ho o hm

theorem step_spec [DecidableEq κ] (H : Classes κ β) (used : List κ) (hu : NoHiddenFields H used)
    (s : RState κ β) (hc : FieldCacheOk H used s.cache) (ho : ∀ o ∈ s.objs, o.cls ∈ used) (op : ROp κ β)
    (hop : ∀ c args, op = .create c args → c ∈ used) :
    (s.step H op).1.objs = (stepSpec H s.objs op).1 ∧ (s.step H op).2 = (stepSpec H s.objs op).2 ∧
    FieldCacheOk H used (s.step H op).1.cache ∧ ∀ o ∈ (s.step H op).1.objs, o.cls ∈ used := by
  cases op with
  | create c args =>
    unfold RState.step stepSpec
    dsimp only
    cases initAttrs c args (H.fields c) with
    | error e => exact ⟨rfl, rfl, hc, ho⟩
    | ok attrs =>
      refine ⟨rfl, rfl, hc, fun o h => ?_⟩
      rcases List.mem_append.1 h with h | h
      · exact ho o h
      · rw [List.mem_singleton.1 h]
        exact hop c args rfl
  | assign i key v => exact setattr_spec H used hu s hc ho i key v
  | call i f =>
    unfold RState.step stepSpec
    dsimp only
    cases s.objs[i]? with
    | none => exact ⟨rfl, rfl, hc, ho⟩
    | some o =>
      dsimp only
      cases f o.attrs with
      | error e => exact ⟨rfl, rfl, hc, ho⟩
      | ok r => exact setattr_spec H used hu s hc ho i r.1 r.2

theorem run_spec [DecidableEq κ] (H : Classes κ β) (used : List κ) (hu : NoHiddenFields H used)
    (ops : List (ROp κ β)) (hop : ∀ c ∈ created ops, c ∈ used) (s : RState κ β) (hc : FieldCacheOk H used s.cache)
    (ho : ∀ o ∈ s.objs, o.cls ∈ used) :
    ((s.run H ops).1.objs, (s.run H ops).2) = runSpec H s.objs ops := by
  induction ops generalizing s with
  | nil => rfl
  | cons op ops ih =>
    have hop1 : ∀ c args, op = .create c args → c ∈ used := by
      rintro c args rfl
      exact hop c List.mem_cons_self
    have hop2 : ∀ c ∈ created ops, c ∈ used := by
      intro c hc
      refine hop c ?_
      cases op with
      | create d args => exact List.mem_cons_of_mem _ hc
      | assign i k v => exact hc
      | call i f => exact hc
    obtain ⟨h1, h2, h3, h4⟩ := step_spec H used hu s hc ho op hop1
    have := ih hop2 (s.step H op).1 h3 h4
    unfold RState.run runSpec
    dsimp only
    rw [← h1, h2, ← this]

theorem initAttrs_get (c : κ) (args : List (Str × β)) (fields : List (Str × (κ → β → Except PyErr β)))
    (attrs : List (Str × β)) (h : initAttrs c args fields = .ok attrs) (name : Str)
    (check : κ → β → Except PyErr β) (hn : dictGet? fields name = some check) :
    ∃ v, dictGet? attrs name = some v ∧ ∃ u, check c u = .ok v := by
  induction fields generalizing attrs with
  | nil => cases hn
  | cons p fields ih =>
    obtain ⟨k, f⟩ := p
    unfold initAttrs at h
    split at h
    · cases h
    · rename_i u hu
      cases hf : f c u with
      | error e => rw [hf] at h; cases h
      | ok v =>
        cases hr : initAttrs c args fields with
        | error e => rw [hf, hr] at h; cases h
        | ok rest =>
          rw [hf, hr] at h
          obtain rfl : (k, v) :: rest = attrs := Except.ok.inj h
          unfold dictGet? at hn ⊢
          split at hn
          · rename_i hk
            obtain rfl : f = check := Option.some.inj hn
            rw [if_pos hk]
            exact ⟨v, rfl, u, hf⟩
          · rename_i hk
            rw [if_neg hk]
            exact ih rest hr hn

theorem assignSpec_validated (H : Classes κ β) (objs : List (RObj κ β)) (h : ∀ o ∈ objs, Validated H o) (i : Nat)
    (key : Str) (v : β) : ∀ o ∈ (assignSpec H objs i key v).1, Validated H o := by
  unfold assignSpec
  cases hi : objs[i]? with
  | none => exact h
  | some o =>
    have hm := h o (List.mem_of_getElem? hi)
    dsimp only
    cases hr : runField (H.fields o.cls) o.cls key v with
    | error e => exact h
    | ok w =>
      intro o' ho'
      rcases List.mem_or_eq_of_mem_set ho' with ho' | rfl
      · exact h o' ho'
      · intro name check hn
        dsimp only at hn ⊢
        rw [dictGet_set_eq]
        by_cases e : name = key
        · subst e
          rw [if_pos rfl]
          unfold runField at hr
          rw [hn] at hr
          exact ⟨w, rfl, v, hr⟩
        · rw [if_neg e]
          exact hm name check hn

theorem stepSpec_validated (H : Classes κ β) (objs : List (RObj κ β)) (h : ∀ o ∈ objs, Validated H o)
    (op : ROp κ β) : ∀ o ∈ (stepSpec H objs op).1, Validated H o := by
  cases op with
  | create c args =>
    unfold stepSpec
    dsimp only
    cases hr : initAttrs c args (H.fields c) with
    | error e => exact h
    | ok attrs =>
      intro o ho
      rcases List.mem_append.1 ho with ho | ho
      · exact h o ho
      · rw [List.mem_singleton.1 ho]
        exact fun name check hn => initAttrs_get c args _ attrs hr name check hn
  | assign i key v => exact assignSpec_validated H objs h i key v
  | call i f =>
    unfold stepSpec
    dsimp only
    cases objs[i]? with
    | none => exact h
    | some o =>
      dsimp only
      cases f o.attrs with
      | error e => exact h
      | ok r => exact assignSpec_validated H objs h i r.1 r.2

theorem runSpec_validated (H : Classes κ β) (ops : List (ROp κ β)) (objs : List (RObj κ β))
    (h : ∀ o ∈ objs, Validated H o) : ∀ o ∈ (runSpec H objs ops).1, Validated H o := by
  induction ops generalizing objs with
  | nil => exact h
  | cons op ops ih => exact ih _ (stepSpec_validated H objs h op)

theorem initAttrs_ok (c : κ) (args : List (Str × β)) (fields : List (Str × (κ → β → Except PyErr β)))
    (h : ∀ p ∈ fields, ∃ u v, dictGet? args p.1 = some u ∧ p.2 c u = .ok v) :
    ∃ attrs, initAttrs c args fields = .ok attrs := by
  induction fields with
  | nil => exact ⟨[], rfl⟩
  | cons p fields ih =>
    obtain ⟨⟨u, v, h1, h2⟩, h3⟩ := List.forall_mem_cons.1 h
    obtain ⟨rest, hr⟩ := ih h3
    exact ⟨(p.1, v) :: rest, by simp only [initAttrs, h1, h2, hr]; rfl⟩

end Ics
