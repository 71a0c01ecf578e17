import Verif.Spec.Timezone

namespace Ics

/-! ### The latest onset -/

/-- The time up to which onsets of `o` count. -/
def Observance.reach (o : Observance) (wall : Int) (fold : Bool) : Int :=
  if o.diff < 0 ∧ fold = true then wall - o.diff else wall

theorem reached_iff {o : Observance} {wall : Int} {fold : Bool} {x : Int} :
    o.Reached wall fold x ↔ o.rule.occurs x ∧ x ≤ o.reach wall fold := by
  unfold Observance.Reached Observance.reach Observance.diff
  constructor
  · rintro ⟨h, h1⟩
    refine ⟨h, ?_⟩
    split
    · rename_i h2
      rcases h1 with h1 | ⟨-, h3, h1⟩ <;> omega
    · rename_i h2
      rcases h1 with h1 | ⟨h4, h3, h1⟩
      · exact h1
      · exact absurd ⟨by omega, h4⟩ h2
  · rintro ⟨h, h1⟩
    refine ⟨h, ?_⟩
    split at h1
    · rename_i h2
      exact .inr ⟨h2.2, by omega, by omega⟩
    · exact .inl h1

theorem onset_ok {o : Observance} {wall : Int} {fold : Bool} {c : Option Int}
    (h : o.onset wall fold = .ok c) : c = o.rule.before (o.reach wall fold) := by
  unfold Observance.onset at h
  unfold Observance.reach
  split at h
  · rename_i hc
    rw [if_pos hc]
    unfold mkWall at h
    split at h
    · rename_i w hw
      split at hw
      · cases hw; cases h; rfl
      · cases hw
    · cases h
  · rename_i hc
    rw [if_neg hc]
    cases h; rfl

/-- `r` is the latest onset of the observances of `obs`, the first one among equals. -/
def Latest (obs : List Observance) (wall : Int) (fold : Bool) : Option (Int × Observance) → Prop
  | none => BeforeAll obs wall fold
  | some (x, o) => ∃ i : Nat, obs[i]? = some o ∧ o.Reached wall fold x ∧
      ∀ (j : Nat) (o' : Observance) (y : Int), obs[j]? = some o' → o'.Reached wall fold y →
        y < x ∨ y = x ∧ i ≤ j

theorem latest_step {obs : List Observance} {wall : Int} {fold : Bool} {last : Option (Int × Observance)}
    {o : Observance} (h : Latest obs wall fold last) :
    Latest (obs ++ [o]) wall fold (laterOnset last o (o.rule.before (o.reach wall fold))) := by
  have hget : ∀ j o', (obs ++ [o])[j]? = some o' → (obs[j]? = some o' ∧ j < obs.length) ∨
      (j = obs.length ∧ o' = o) := by
    intro j o' hj
    rw [List.getElem?_append] at hj
    split at hj
    · exact .inl ⟨hj, by assumption⟩
    · right
      have hj' : j - obs.length = 0 := by
        apply Classical.byContradiction
        intro hne
        rw [List.getElem?_eq_none (by simp; omega)] at hj
        cases hj
      rw [hj'] at hj
      simp only [List.getElem?_cons_zero, Option.some.injEq] at hj
      exact ⟨by omega, hj.symm⟩
  cases hc : o.rule.before (o.reach wall fold) with
  | none =>
    have hno : ∀ x, ¬ o.Reached wall fold x := by
      intro x hx
      rw [reached_iff] at hx
      have := o.rule.before_none _ hc x hx.1
      omega
    simp only [laterOnset]
    cases last with
    | none =>
      intro o' ho' x hx
      rw [List.mem_append, List.mem_singleton] at ho'
      rcases ho' with ho' | rfl
      · exact h o' ho' x hx
      · exact hno x hx
    | some r =>
      obtain ⟨x, o1⟩ := r
      obtain ⟨i, hi, hx, hl⟩ := h
      have hil : i < obs.length := by
        apply Classical.byContradiction
        intro hn
        rw [List.getElem?_eq_none (by omega)] at hi
        cases hi
      refine ⟨i, by rw [List.getElem?_append_left hil]; exact hi, hx, ?_⟩
      intro j o' y hj hy
      rcases hget j o' hj with ⟨hj, -⟩ | ⟨-, rfl⟩
      · exact hl j o' y hj hy
      · exact absurd hy (hno y)
  | some x =>
    obtain ⟨ho, hx, hmax⟩ := o.rule.before_some _ _ hc
    have hrx : o.Reached wall fold x := reached_iff.2 ⟨ho, hx⟩
    have hm : ∀ y, o.Reached wall fold y → y ≤ x := by
      intro y hy
      rw [reached_iff] at hy
      exact hmax y hy.1 hy.2
    have hnew : (obs ++ [o])[obs.length]? = some o := by simp
    simp only [laterOnset]
    cases last with
    | none =>
      refine ⟨obs.length, hnew, hrx, ?_⟩
      intro j o' y hj hy
      rcases hget j o' hj with ⟨hj, -⟩ | ⟨rfl, rfl⟩
      · exact absurd hy (h o' (List.mem_of_getElem? hj) y)
      · have := hm y hy; omega
    | some r =>
      obtain ⟨z, o1⟩ := r
      obtain ⟨i, hi, hz, hl⟩ := h
      have hil : i < obs.length := by
        apply Classical.byContradiction
        intro hn
        rw [List.getElem?_eq_none (by omega)] at hi
        cases hi
      dsimp only
      split
      · rename_i hzx
        refine ⟨obs.length, hnew, hrx, ?_⟩
        intro j o' y hj hy
        rcases hget j o' hj with ⟨hj, -⟩ | ⟨rfl, rfl⟩
        · have := hl j o' y hj hy; omega
        · have := hm y hy; omega
      · rename_i hzx
        refine ⟨i, by rw [List.getElem?_append_left hil]; exact hi, hz, ?_⟩
        intro j o' y hj hy
        rcases hget j o' hj with ⟨hj, -⟩ | ⟨rfl, rfl⟩
        · exact hl j o' y hj hy
        · have := hm y hy; omega

theorem lastOnset_latest {wall : Int} {fold : Bool} (os : List Observance) :
    ∀ (obs : List Observance) (last r : Option (Int × Observance)), Latest obs wall fold last →
      lastOnset wall fold last os = .ok r → Latest (obs ++ os) wall fold r := by
  induction os with
  | nil =>
    intro obs last r h hr
    cases hr
    simpa using h
  | cons o os ih =>
    intro obs last r h hr
    rw [lastOnset] at hr
    split at hr
    · cases hr
    · rename_i c hc
      rw [onset_ok hc] at hr
      have := ih (obs ++ [o]) _ r (latest_step h) hr
      simpa using this

theorem firstObservance_default {obs : List Observance} {o : Observance}
    (h : firstObservance obs = .ok o) : IsDefault obs o := by
  unfold firstObservance at h
  split at h
  · rename_i o' hf
    cases h
    left
    rw [List.find?_eq_some_iff_getElem] at hf
    obtain ⟨hd, i, hi, rfl, hj⟩ := hf
    refine ⟨i, by simp [hi], by simpa using hd, ?_⟩
    intro j hji o' ho'
    have := hj j hji
    rw [List.getElem?_eq_getElem (by omega)] at ho'
    cases ho'
    simpa using this
  · rename_i hf
    right
    rw [List.find?_eq_none] at hf
    refine ⟨fun o' ho' => by simpa using hf o' ho', ?_⟩
    split at h
    · cases h; rfl
    · cases h

theorem firstObservance_ok {obs : List Observance} (h : obs ≠ []) : ∃ o, firstObservance obs = .ok o := by
  unfold firstObservance
  split
  · exact ⟨_, rfl⟩
  · split
    · exact ⟨_, rfl⟩
    · exact absurd rfl h

theorem lastOnset_ok {wall : Int} {fold : Bool} (os : List Observance)
    (h : ∀ o ∈ os, ∃ c, o.onset wall fold = .ok c) (last : Option (Int × Observance)) :
    ∃ r, lastOnset wall fold last os = .ok r := by
  induction os generalizing last with
  | nil => exact ⟨_, rfl⟩
  | cons o os ih =>
    obtain ⟨c, hc⟩ := h o (by simp)
    rw [lastOnset, hc]
    exact ih (fun o' ho' => h o' (by simp [ho'])) _

theorem findObservance_ok {obs : List Observance} {wall : Int} {fold : Bool} (h0 : obs ≠ [])
    (h : ∀ o ∈ obs, ∃ c, o.onset wall fold = .ok c) : ∃ o, findObservance obs wall fold = .ok o := by
  unfold findObservance
  obtain ⟨r, hr⟩ := lastOnset_ok obs h none
  rw [hr]
  cases r with
  | none => exact firstObservance_ok h0
  | some r => exact ⟨_, rfl⟩

theorem findObservance_spec {obs : List Observance} {wall : Int} {fold : Bool} {o : Observance}
    (h : findObservance obs wall fold = .ok o) :
    InForce obs wall fold o ∨ BeforeAll obs wall fold ∧ IsDefault obs o := by
  unfold findObservance at h
  split at h
  · cases h
  · rename_i r hr
    cases h
    left
    have := lastOnset_latest obs [] none _ (by intro o ho; cases ho) hr
    obtain ⟨x, o⟩ := r
    obtain ⟨i, h1, h2, h3⟩ := this
    exact ⟨i, x, h1, h2, h3⟩
  · rename_i hr
    right
    have := lastOnset_latest obs [] none _ (by intro o ho; cases ho) hr
    exact ⟨this, firstObservance_default h⟩

/-! ### The cache -/

theorem mem_of_dictGet {κ ν : Type} [DecidableEq κ] {d : List (κ × ν)} {k : κ} {v : ν}
    (h : dictGet? d k = some v) : (k, v) ∈ d := by
  induction d with
  | nil => cases h
  | cons kv d ih =>
    obtain ⟨k', v'⟩ := kv
    rw [dictGet?] at h
    split at h
    · rename_i hk; cases h; subst hk; simp
    · exact List.mem_cons_of_mem _ (ih h)

theorem mem_of_dictErase {κ ν : Type} [DecidableEq κ] {d : List (κ × ν)} {k : κ} {x : κ × ν}
    (h : x ∈ dictErase d k) : x ∈ d := by
  induction d with
  | nil => cases h
  | cons kv d ih =>
    obtain ⟨k', v'⟩ := kv
    rw [dictErase] at h
    split at h
    · exact List.mem_cons_of_mem _ h
    · rw [List.mem_cons] at h ⊢
      exact h.imp_right ih

theorem dictErase_length {κ ν : Type} [DecidableEq κ] {d : List (κ × ν)} {k : κ} {v : ν}
    (h : dictGet? d k = some v) : (dictErase d k).length + 1 = d.length := by
  induction d with
  | nil => cases h
  | cons kv d ih =>
    obtain ⟨k', v'⟩ := kv
    rw [dictGet?] at h
    rw [dictErase]
    split at h
    · rename_i hk; rw [if_pos hk]; rfl
    · rename_i hk; rw [if_neg hk]; simp [ih h]

/-- Everything in the cache was computed for a query of the history. -/
def CacheOk (obs : List Observance) (asked : Int → Bool → Prop) (cache : TzCache) : Prop :=
  ∀ k v, (k, v) ∈ cache → ∃ fold, asked k fold ∧ findObservance obs k fold = .ok v

theorem askObservance_cache {obs : List Observance} {asked : Int → Bool → Prop} {cache : TzCache}
    {wall : Int} {fold : Bool} (h : CacheOk obs asked cache) (ha : asked wall fold) :
    CacheOk obs asked (askObservance obs wall fold cache).2 := by
  unfold askObservance
  split
  · exact h
  · exact h
  · unfold lruCall
    split
    · rename_i v hv
      intro k v' hk
      rw [List.mem_cons] at hk
      rcases hk with hk | hk
      · cases hk; exact h _ _ (mem_of_dictGet hv)
      · exact h _ _ (mem_of_dictErase hk)
    · split
      · exact h
      · rename_i v hv
        intro k v' hk
        have := List.mem_of_mem_take hk
        rw [List.mem_cons] at this
        rcases this with hk | hk
        · cases hk; exact ⟨fold, ha, hv⟩
        · exact h _ _ hk

theorem askTz_cache (obs : List Observance) (q : TzQuery) (wall : Int) (fold : Bool) (cache : TzCache) :
    (askTz obs q wall fold cache).2 = (askObservance obs wall fold cache).2 := by
  unfold askTz
  split <;> simp_all

theorem tzHistory_cache {obs : List Observance} {asked : Int → Bool → Prop}
    (h : List (TzQuery × Int × Bool)) :
    ∀ cache, CacheOk obs asked cache → (∀ q wall fold, (q, wall, fold) ∈ h → asked wall fold) →
      CacheOk obs asked (tzHistory obs h cache) := by
  induction h with
  | nil => intro cache hc _; exact hc
  | cons a h ih =>
    obtain ⟨q, wall, fold⟩ := a
    intro cache hc ha
    rw [tzHistory, askTz_cache]
    exact ih _ (askObservance_cache hc (ha q wall fold (by simp)))
      (fun q' w f hm => ha q' w f (by simp [hm]))

/-- The answer of a fresh object. -/
theorem askTz_fresh {obs : List Observance} (h : 2 ≤ obs.length) (q : TzQuery) (wall : Int)
    (fold : Bool) : (askTz obs q wall fold []).1 =
      (match findObservance obs wall fold with
      | .ok o => .ok (o.answer q)
      | .error e => .error e) := by
  match obs, h with
  | a :: b :: l, _ =>
    unfold askTz askObservance lruCall
    simp only [dictGet?]
    cases findObservance (a :: b :: l) wall fold <;> rfl

theorem askTz_either {obs : List Observance} {asked : Int → Bool → Prop} {cache : TzCache}
    (hc : CacheOk obs asked cache) (q : TzQuery) (wall : Int) (fold : Bool) :
    ∃ fold', (fold' = fold ∨ asked wall fold') ∧
      (askTz obs q wall fold cache).1 = (askTz obs q wall fold' []).1 := by
  match obs with
  | [] => exact ⟨fold, .inl rfl, rfl⟩
  | [o] => exact ⟨fold, .inl rfl, rfl⟩
  | a :: b :: l =>
    cases hg : dictGet? cache wall with
    | none =>
      refine ⟨fold, .inl rfl, ?_⟩
      rw [askTz_fresh (by simp)]
      unfold askTz askObservance lruCall
      simp only [hg]
      cases findObservance (a :: b :: l) wall fold <;> rfl
    | some v =>
      obtain ⟨fold', h1, h2⟩ := hc _ _ (mem_of_dictGet hg)
      refine ⟨fold', .inr h1, ?_⟩
      rw [askTz_fresh (by simp), h2]
      unfold askTz askObservance lruCall
      simp only [hg]

theorem askTz_length {obs : List Observance} {q : TzQuery} {wall : Int} {fold : Bool} {cache : TzCache}
    (h : cache.length ≤ 10) : (askTz obs q wall fold cache).2.length ≤ 10 := by
  rw [askTz_cache]
  unfold askObservance
  split
  · exact h
  · exact h
  · unfold lruCall
    split
    · rename_i v hv
      have := dictErase_length hv
      simp only [List.length_cons]; omega
    · split
      · exact h
      · simp only [List.length_take]; omega

theorem tzHistory_length {obs : List Observance} (h : List (TzQuery × Int × Bool)) :
    ∀ cache : TzCache, cache.length ≤ 10 → (tzHistory obs h cache).length ≤ 10 := by
  induction h with
  | nil => intro c hc; exact hc
  | cons a h ih =>
    obtain ⟨q, wall, fold⟩ := a
    intro c hc
    exact ih _ (askTz_length hc)

end Ics
